/-
What the standard tools do to the object that a path denotes.
-/
import Verif.Remote.Core
import Verif.Remote.FsLemmas
import Verif.Py.NumLemmas

namespace Verif.Remote

/-! ### Paths -/

theorem resolve_abs {fs : Loc → Option Node} {path : Str} (h : isAbs path = true) (a b : Loc) (fo : Bool) :
    resolve fs a path fo = resolve fs b path fo := by
  simp only [resolve, h, if_true]

theorem lookup_abs {fs : Loc → Option Node} {path : Str} (h : isAbs path = true) (a b : Loc) (fo : Bool) :
    lookup fs a path fo = lookup fs b path fo := by
  simp only [lookup, resolve_abs h a b]

theorem walkAux_error_follow {fs : Loc → Option Node} {e : Int}
    {onLink onLink' : Loc → List Str → Except Int Loc} (hl : ∀ l c, onLink l c = .error e → onLink' l c = .error e) (cs : List Str) :
    ∀ loc, walkAux fs false onLink cs loc = .error e → walkAux fs true onLink' cs loc = .error e := by
  induction cs with
  | nil => intro loc h; cases h
  | cons c r ih =>
    intro loc h
    rw [walkAux_cons] at h ⊢
    cases h1 : shape (fs loc) with
    | none => rw [h1] at h; exact h
    | link t => rw [h1] at h; exact h
    | leaf => rw [h1] at h; exact h
    | dir =>
      rw [h1] at h
      simp only at h ⊢
      by_cases hc : c = p!".."
      · rw [if_pos hc] at h ⊢; exact ih _ h
      · rw [if_neg hc] at h ⊢
        cases h2 : shape (fs (loc ++ [c])) with
        | none => rw [h2] at h; exact h
        | dir => rw [h2] at h; exact ih _ h
        | leaf => rw [h2] at h; exact ih _ h
        | link t =>
          rw [h2] at h
          simp only at h ⊢
          rw [if_neg (by simp)]
          split at h
          · cases h
          · exact hl _ _ h

/-- What cannot be resolved without following the last link cannot be resolved with following it. -/
theorem resolve_error_follow {fs : Loc → Option Node} {cwd : Loc} {path : Str} {e : Int} (h : resolve fs cwd path false = .error e) :
    resolve fs cwd path true = .error e := by
  have key : ∀ k cs loc, walk fs false k cs loc = .error e → walk fs true k cs loc = .error e := by
    intro k
    induction k with
    | zero => exact walkAux_error_follow fun _ _ h => h
    | succ k ih => exact walkAux_error_follow fun l c h => ih c l h
  unfold resolve at h ⊢
  split
  · rename_i hp; rw [if_pos hp] at h; exact h
  · rename_i hp; rw [if_neg hp] at h; exact key _ _ _ h

/-! ### The object at a place -/

/-- `path` denotes the place `l`; in comparison to `w0`, only that place has changed: `o` is there now. -/
structure Now (path : Str) (l : Loc) (w0 : World) (o : Option Node) (w : World) : Prop where
  eq : w = { w0.set l o with started := w.started }
  res : ∀ cwd, resolve w.fs cwd path false = .ok l

section
variable {path : Str} {l : Loc} {w0 w : World} {o : Option Node}

theorem Now.init (ha : isAbs path = true) {cwd : Loc} (h : resolve w.fs cwd path false = .ok l) : Now path l w (w.fs l) w := by
  refine ⟨?_, fun c => (resolve_abs ha c cwd false).trans h⟩
  have : setNode w.fs l (w.fs l) = w.fs := by
    funext q; unfold setNode; split
    · next h => rw [h]
    · rfl
  simp only [World.set, this]

theorem Now.fs (h : Now path l w0 o w) : w.fs = setNode w0.fs l o := by rw [h.eq]; rfl

theorem Now.at (h : Now path l w0 o w) : w.fs l = o := by rw [h.fs, setNode_same]

theorem Now.started (h : Now path l w0 o w) (s : List Proc) : Now path l w0 o { w with started := s } := by
  refine ⟨?_, h.res⟩
  rw [h.eq]

theorem Now.users (h : Now path l w0 o w) : w.users = w0.users := by rw [h.eq]; rfl
theorem Now.groups (h : Now path l w0 o w) : w.groups = w0.groups := by rw [h.eq]; rfl
theorem Now.uid (h : Now path l w0 o w) : w.uid = w0.uid := by rw [h.eq]; rfl
theorem Now.gid (h : Now path l w0 o w) : w.gid = w0.gid := by rw [h.eq]; rfl
theorem Now.clock (h : Now path l w0 o w) : w.clock = w0.clock := by rw [h.eq]; rfl

theorem set_set (w : World) (l : Loc) (a b : Option Node) : (w.set l a).set l b = w.set l b := by
  simp only [World.set]
  congr 1
  funext q
  unfold setNode
  split <;> rfl

theorem Now.set_eq (h : Now path l w0 o w) (b : Option Node) :
    w.set l b = { w0.set l b with started := (w.set l b).started } := by
  have hfs := h.fs
  have : setNode w.fs l b = setNode w0.fs l b := by
    rw [hfs]; funext q; unfold setNode; split <;> rfl
  have he : w.set l b = { w with fs := setNode w.fs l b } := rfl
  rw [he, this]
  have := h.eq
  rw [this]
  rfl

theorem Now.change {n n' : Node} (h : Now path l w0 (some n) w) (hs : shape (some n') = shape (some n)) :
    Now path l w0 (some n') (w.set l (some n')) := by
  refine ⟨h.set_eq _, fun c => ?_⟩
  show resolve (setNode w.fs l (some n')) c path false = .ok l
  rw [resolve_set_shape (by rw [h.at, hs]), h.res c]

theorem Now.create {n : Node} (h : Now path l w0 none w) : Now path l w0 (some n) (w.set l (some n)) := by
  refine ⟨h.set_eq _, fun c => ?_⟩
  exact resolve_create h.at (fun h => by cases h) (h.res c)

theorem Now.followed (h : Now path l w0 o w) (hk : ∀ n t, o = some n → n.kind ≠ .link t) (cwd : Loc) :
    resolve w.fs cwd path true = .ok l := by
  refine resolve_follow ?_ (h.res cwd)
  intro t ht
  rw [h.at] at ht
  cases o with
  | none => simp [shape] at ht
  | some n => exact hk n t rfl (shape_link.mp ht)

theorem Now.lookup {n : Node} (h : Now path l w0 (some n) w) (cwd : Loc) : lookup w.fs cwd path false = .ok (l, n) :=
  lookup_of (h.res cwd) h.at

theorem Now.lookup_followed {n : Node} (h : Now path l w0 (some n) w) (hk : ∀ t, n.kind ≠ .link t) (cwd : Loc) :
    Remote.lookup w.fs cwd path true = .ok (l, n) :=
  lookup_of (h.followed (fun m t hm => by cases hm; exact hk t) cwd) h.at

end

theorem shape_kind {n n' : Node} (h : n'.kind = n.kind) : shape (some n') = shape (some n) := by
  simp only [shape, h]

/-- How running a tool may end. -/
def Outcome (okP errP : World → Prop) : ExecRes × World → Prop
  | (.done _ _ code, w') => (code = 0 → okP w') ∧ (code ≠ 0 → errP w')
  | (.failed _, _) => True

theorem Outcome.mono {okP errP okP' errP' : World → Prop} {x : ExecRes × World} (h : Outcome okP errP x) (h1 : ∀ w, okP w → okP' w)
    (h2 : ∀ w, errP w → errP' w) : Outcome okP' errP' x := by
  obtain ⟨⟨a, b, c⟩ | ⟨_⟩, w'⟩ := x
  · exact ⟨fun hc => h1 _ (h.1 hc), fun hc => h2 _ (h.2 hc)⟩
  · trivial

theorem Outcome.fine {okP errP : World → Prop} {w : World} (h : okP w) : Outcome okP errP (fine w) :=
  ⟨fun _ => h, fun h => absurd rfl h⟩

theorem Outcome.broken {okP errP : World → Prop} {w : World} {m : Bytes} (h : errP w) : Outcome okP errP (broken m w) :=
  ⟨fun h0 => absurd h0 (by decide), fun _ => h⟩

section
variable {path : Str} {l : Loc} {w0 w : World} {o : Option Node} {tools : Tools} {p : Proc}

theorem mkdir_outcome (h : Now path l w0 o w) :
    Outcome (fun w' => o = none ∧ Now path l w0 (some (newDir p w l)) w') (fun w' => w' = w) (runMkdir tools p w path) := by
  unfold runMkdir
  rw [h.res p.cwd]
  simp only [h.at]
  cases o with
  | some n => exact .broken rfl
  | none =>
    simp only
    split
    · exact .broken rfl
    · exact .fine ⟨by trivial, h.create⟩

theorem mkdir_unresolved {e : Int} (h : resolve w.fs p.cwd path false = .error e) :
    Outcome (fun _ => False) (fun w' => w' = w) (runMkdir tools p w path) := by
  unfold runMkdir
  rw [h]
  exact .broken rfl

theorem chmod_outcome {mode : Str} {n : Node} (h : Now path l w0 (some n) w) (hk : ∀ t, n.kind ≠ .link t) :
    Outcome (fun w' => ∃ b, chmodBits tools p mode n = some b ∧ Now path l w0 (some { n with perm := b, ctime := w.clock }) w')
      (fun w' => w' = w) (runChmod tools p w mode path) := by
  unfold runChmod
  rw [h.lookup_followed hk p.cwd]
  simp only
  split
  · exact .broken rfl
  · next b hb =>
    split
    · exact .broken rfl
    · exact .fine ⟨b, hb, h.change (shape_kind rfl)⟩

theorem chown_outcome {spec : Str} {n : Node} (h : Now path l w0 (some n) w) (hk : ∀ t, n.kind ≠ .link t) :
    Outcome (fun w' => ∃ u g, chownIds tools w spec = some (u, g)
        ∧ Now path l w0 (some { n with perm := chownPerm n, uid := u.getD n.uid, gid := g.getD n.gid, ctime := w.clock }) w')
      (fun w' => w' = w) (runChown tools p w spec path true) := by
  unfold runChown
  rw [h.lookup_followed hk p.cwd]
  simp only
  split
  · exact .broken rfl
  · next u g hb =>
    split
    · exact .broken rfl
    · exact .fine ⟨u, g, hb, h.change (shape_kind rfl)⟩

theorem chownLink_outcome {spec : Str} {n : Node} (h : Now path l w0 (some n) w) :
    Outcome (fun w' => ∃ u g, chownIds tools w spec = some (u, g)
        ∧ Now path l w0 (some { n with perm := chownPerm n, uid := u.getD n.uid, gid := g.getD n.gid, ctime := w.clock }) w')
      (fun w' => w' = w) (runChown tools p w spec path false) := by
  unfold runChown
  rw [h.lookup p.cwd]
  simp only
  split
  · exact .broken rfl
  · next u g hb =>
    split
    · exact .broken rfl
    · exact .fine ⟨u, g, hb, h.change (shape_kind rfl)⟩

theorem touch_outcome {n : Node} (h : Now path l w0 (some n) w) (hk : ∀ t, n.kind ≠ .link t) :
    Outcome (fun w' => Now path l w0 (some { n with mtime := w.clock, ctime := w.clock }) w')
      (fun w' => w' = w) (runTouch tools p w path) := by
  unfold runTouch
  rw [h.followed (fun m t hm => by cases hm; exact hk t) p.cwd]
  simp only [h.at]
  split
  · exact .broken rfl
  · exact .fine (h.change (shape_kind rfl))

theorem touch_create_outcome (h : Now path l w0 none w) :
    Outcome (fun w' => Now path l w0 (some (newFile p w l)) w')
      (fun w' => w' = w ∨ Now path l w0 (some (newFile p w l)) w') (runTouch tools p w path) := by
  unfold runTouch
  rw [h.followed (fun m t hm => by cases hm) p.cwd]
  simp only [h.at]
  split
  · exact .broken (.inl rfl)
  · split
    · exact .broken (.inr h.create)
    · exact .fine h.create

theorem touch_unresolved {e : Int} (h : resolve w.fs p.cwd path false = .error e) :
    Outcome (fun _ => False) (fun w' => w' = w) (runTouch tools p w path) := by
  unfold runTouch
  rw [resolve_error_follow h]
  exact .broken rfl

theorem touchLink_outcome {n : Node} (h : Now path l w0 (some n) w) :
    Outcome (fun w' => Now path l w0 (some { n with mtime := w.clock, ctime := w.clock }) w')
      (fun w' => w' = w) (runTouchLink tools p w path) := by
  unfold runTouchLink
  rw [h.lookup p.cwd]
  simp only
  split
  · exact .broken rfl
  · exact .fine (h.change (shape_kind rfl))

theorem rm_outcome {n : Node} (h : Now path l w0 (some n) w) :
    Outcome (fun w' => n.kind ≠ .dir ∧ w' = w.set l none) (fun w' => w' = w) (runRm tools p w path) := by
  unfold runRm
  rw [h.lookup p.cwd]
  simp only
  split
  · exact .broken rfl
  · next hd =>
    unfold unlinkAt
    split
    · exact .broken rfl
    · exact .fine ⟨hd, rfl⟩

/-- The places at and below a place. -/
theorem wayKept_none (l q : Loc) : (under l q && !wayKept l (fun _ => false) q) = l.isPrefixOf q := by
  cases h : under l q with
  | false => rw [Bool.false_and]; exact h.symm
  | true =>
    have : wayKept l (fun _ => false) q = false := by
      rw [Bool.eq_false_iff]
      intro hc
      have := List.all_eq_true.mp hc q.length (List.mem_range.mpr (Nat.lt_succ_self _))
      rw [List.take_length, h] at this
      cases this
    rw [this]; exact h.symm

theorem rmTree_outcome {n : Node} (h : Now path l w0 (some n) w) (hd : n.kind = .dir) :
    Outcome (fun w' => l ≠ [] ∧ w' = { w with fs := removeMost w.fs l fun _ => false })
      (fun w' => w' = w ∨ l ≠ [] ∧ ∃ k, w' = { w with fs := removeMost w.fs l k }) (runRmTree tools p w path) := by
  unfold runRmTree
  rw [h.lookup p.cwd]
  simp only [hd, if_true]
  split
  · exact .broken (.inl rfl)
  · split
    · exact .broken (.inl rfl)
    · next hl =>
      split
      · exact .broken (.inr ⟨hl, _, rfl⟩)
      · exact .fine ⟨hl, rfl⟩

end

/-! ### Modes -/

theorem octalText_iff {s : Str} : octalText s = true ↔ s ≠ [] ∧ ∀ c ∈ s, 48 ≤ c ∧ c ≤ 55 := by
  simp [octalText]

theorem parseDigits_octal {s : Str} (h : ∀ c ∈ s, 48 ≤ c ∧ c ≤ 55) : ∀ (acc : Nat) (prev : Bool), (s ≠ [] ∨ prev = true) →
    Py.parseDigits 8 s acc prev = some (s.foldl (fun a c => a * 8 + (c - 48)) acc) := by
  induction s with
  | nil =>
    intro acc prev hp
    rcases hp with hp | hp
    · exact absurd rfl hp
    · simp [Py.parseDigits, hp]
  | cons c s ih =>
    intro acc prev hp
    have hc := h c (by simp)
    have hd : Py.digitVal c = some (c - 48) := by
      have := Py.digitVal_ascii (d := c - 48) (by omega)
      rwa [show c - 48 + 48 = c by omega] at this
    unfold Py.parseDigits
    rw [if_neg (by omega), hd]
    simp only
    rw [if_pos (by omega), ih (fun x hx => h x (by simp [hx])) _ _ (.inr rfl)]
    rfl

theorem parseInt_octal {s : Str} (h : octalText s = true) : Py.parseInt 8 s = some (octalValue s : Int) := by
  obtain ⟨hne, hc⟩ := octalText_iff.mp h
  unfold Py.parseInt
  rw [Py.strip_eq_self (fun c hcm => Py.isSpace_digit (by have := hc c hcm; omega))]
  have hp : Py.parseNat 8 s = some (octalValue s) := by
    unfold Py.parseNat
    rw [if_pos rfl]
    have h2 : ∀ r, s ≠ 48 :: 111 :: r := by
      intro r hr; have := hc 111 (by rw [hr]; simp); omega
    have h3 : ∀ r, s ≠ 48 :: 79 :: r := by
      intro r hr; have := hc 79 (by rw [hr]; simp); omega
    split
    · next r => exact absurd rfl (h2 r)
    · next r => exact absurd rfl (h3 r)
    · exact parseDigits_octal hc 0 false (.inl hne)
  split
  · next r hr => have := hc 45 (by simp); omega
  · next r hr => have := hc 43 (by simp); omega
  · rw [hp]; rfl

theorem octalText_natStr (n : Nat) : octalText (Py.natStr 8 n) = true := by
  refine octalText_iff.mpr ⟨Py.natStr_ne_nil 8 n, ?_⟩
  intro c hc
  rw [Py.natStr_eq] at hc
  simp only [List.mem_map, List.mem_reverse] at hc
  obtain ⟨d, hd, rfl⟩ := hc
  have := Py.digitsAux_lt (b := 8) (by omega) _ _ d hd
  omega

theorem octalValue_natStr (n : Nat) : octalValue (Py.natStr 8 n) = n := by
  have h1 := parseInt_octal (octalText_natStr n)
  rw [Py.parseInt_natStr (.inl rfl)] at h1
  have := Option.some.inj h1
  omega

/-- A negative mode in the form that fora hands to `chmod` is not valid. -/
theorem chmodBits_negative (o : Tools) (p : Proc) (n : Node) (k : Nat) : chmodBits o p (111 :: Py.natStr 8 k) n = none := by
  have hc := octalText_iff.mp (octalText_natStr k)
  unfold chmodBits
  rw [if_neg, if_neg]
  · intro h
    simp only [List.any_cons, Nat.reduceBEq, Bool.or_self, Bool.false_or, List.any_eq_true] at h
    obtain ⟨c, hcm, h⟩ := h
    have := hc.2 c hcm
    simp at h
    omega
  · intro h
    have := (octalText_iff.mp h).2 111 (by simp)
    omega

end Verif.Remote
