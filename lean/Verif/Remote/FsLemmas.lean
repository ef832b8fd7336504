/-
How path resolution behaves when one place in the file system changes.
-/
import Verif.Remote.World

namespace Verif.Remote

/-- What path resolution looks at: whether there is something, a directory, a link (where to), or something else. -/
inductive Shape where
  | none | dir | link (t : Str) | leaf
  deriving DecidableEq

def shape : Option Node → Shape
  | .none => .none
  | some n => match n.kind with
    | .dir => .dir
    | .link t => .link t
    | _ => .leaf

theorem shape_none {o : Option Node} : shape o = .none ↔ o = Option.none := by
  cases o with
  | none => simp [shape]
  | some n => cases h : n.kind <;> simp [shape, h]

theorem shape_dir {n : Node} : shape (some n) = .dir ↔ n.kind = .dir := by
  cases h : n.kind <;> simp [shape, h]

theorem shape_link {n : Node} {t : Str} : shape (some n) = .link t ↔ n.kind = .link t := by
  cases h : n.kind <;> simp [shape, h]

/-- `walkAux` written with shapes. -/
theorem walkAux_cons (fs : Loc → Option Node) (fo : Bool) (onLink : Loc → List Str → Except Int Loc) (c : Str) (r : List Str) (loc : Loc) :
    walkAux fs fo onLink (c :: r) loc =
      (match shape (fs loc) with
      | .none => .error ENOENT
      | .dir =>
        if c = p!".." then walkAux fs fo onLink r loc.dropLast
        else match shape (fs (loc ++ [c])) with
          | .none => if r = [] then .ok (loc ++ [c]) else .error ENOENT
          | .link t => if r = [] ∧ fo = false then .ok (loc ++ [c]) else onLink (if isAbs t then [] else loc) (components t ++ r)
          | _ => walkAux fs fo onLink r (loc ++ [c])
      | _ => .error ENOTDIR) := by
  rw [walkAux]
  cases h : fs loc with
  | none => simp [shape]
  | some n =>
    cases hk : n.kind <;> simp only [shape, hk]
    split
    · rfl
    · cases h2 : fs (loc ++ [c]) with
      | none => simp [shape]
      | some m => cases hm : m.kind <;> simp [shape, hm]

theorem walkAux_congr {fs fs' : Loc → Option Node} (h : ∀ l, shape (fs' l) = shape (fs l)) (fo : Bool)
    {onLink onLink' : Loc → List Str → Except Int Loc} (hl : ∀ l c, onLink' l c = onLink l c) (cs : List Str) :
    ∀ loc, walkAux fs' fo onLink' cs loc = walkAux fs fo onLink cs loc := by
  induction cs with
  | nil => intro loc; rfl
  | cons c r ih => intro loc; simp only [walkAux_cons, h, ih, hl]

/-- Changing nothing but contents and attributes does not change what paths denote. -/
theorem walk_congr {fs fs' : Loc → Option Node} (h : ∀ l, shape (fs' l) = shape (fs l)) (fo : Bool) (n : Nat) :
    ∀ cs loc, walk fs' fo n cs loc = walk fs fo n cs loc := by
  induction n with
  | zero => exact walkAux_congr h fo fun _ _ => rfl
  | succ n ih => exact walkAux_congr h fo fun l c => ih c l

theorem resolve_congr {fs fs' : Loc → Option Node} (h : ∀ l, shape (fs' l) = shape (fs l)) (cwd : Loc) (path : Str) (fo : Bool) :
    resolve fs' cwd path fo = resolve fs cwd path fo := by
  unfold resolve
  split
  · rfl
  · exact walk_congr h fo _ _ _

theorem setNode_same (fs : Loc → Option Node) (l : Loc) (n : Option Node) : setNode fs l n l = n := by simp [setNode]

theorem setNode_ne (fs : Loc → Option Node) {l q : Loc} (n : Option Node) (h : q ≠ l) : setNode fs l n q = fs q := by
  simp [setNode, h]

theorem setNode_shape {fs : Loc → Option Node} {l : Loc} {o : Option Node} (h : shape o = shape (fs l)) (q : Loc) :
    shape (setNode fs l o q) = shape (fs q) := by
  by_cases hq : q = l
  · subst hq; rw [setNode_same, h]
  · rw [setNode_ne _ _ hq]

/-- Resolution after replacing an object by one of the same shape. -/
theorem resolve_set_shape {fs : Loc → Option Node} {l : Loc} {o : Option Node} (h : shape o = shape (fs l)) (cwd : Loc)
    (path : Str) (fo : Bool) : resolve (setNode fs l o) cwd path fo = resolve fs cwd path fo :=
  resolve_congr (setNode_shape h) cwd path fo

theorem walkAux_create {fs : Loc → Option Node} {b L : Loc} {n : Node} (fo : Bool) (hL : fs b = none)
    (hn : fo = true → ∀ t, n.kind ≠ .link t)
    {onLink onLink' : Loc → List Str → Except Int Loc} (hl : ∀ l c, onLink l c = .ok L → onLink' l c = .ok L) (cs : List Str) :
    ∀ loc, walkAux fs fo onLink cs loc = .ok L → walkAux (setNode fs b (some n)) fo onLink' cs loc = .ok L := by
  induction cs with
  | nil => intro loc h; exact h
  | cons c r ih =>
    intro loc h
    rw [walkAux_cons] at h ⊢
    have hs : shape (fs b) = .none := shape_none.mpr hL
    have hsame : ∀ q, shape (fs q) ≠ .none → shape (setNode fs b (some n) q) = shape (fs q) := by
      intro q hq
      have : q ≠ b := fun h => hq (h ▸ hs)
      rw [setNode_ne _ _ this]
    cases h1 : shape (fs loc) with
    | none => rw [h1] at h; cases h
    | link t => rw [h1] at h; cases h
    | leaf => rw [h1] at h; cases h
    | dir =>
      rw [hsame loc (by simp [h1]), h1]
      rw [h1] at h
      simp only at h ⊢
      by_cases hc : c = p!".."
      · rw [if_pos hc] at h ⊢; exact ih _ h
      · rw [if_neg hc] at h ⊢
        cases h2 : shape (fs (loc ++ [c])) with
        | none =>
          rw [h2] at h
          simp only at h
          by_cases hr : r = []
          · rw [if_pos hr] at h
            have hloc : loc ++ [c] = L := Except.ok.inj h
            subst hr
            by_cases hb : loc ++ [c] = b
            case neg => rw [setNode_ne _ _ hb, h2]; simp only [if_true, hloc]
            rw [← hloc, hb, setNode_same]
            cases hk : n.kind with
            | link t =>
              have : fo = false := by
                cases fo with
                | false => rfl
                | true => exact absurd hk (hn rfl t)
              simp [shape, hk, this]
            | _ => simp [shape, hk, walkAux]
          · rw [if_neg hr] at h; cases h
        | dir =>
          rw [hsame _ (by simp [h2]), h2]
          rw [h2] at h
          exact ih _ h
        | leaf =>
          rw [hsame _ (by simp [h2]), h2]
          rw [h2] at h
          exact ih _ h
        | link t =>
          rw [hsame _ (by simp [h2]), h2]
          rw [h2] at h
          simp only at h ⊢
          split
          · rename_i hh; rw [if_pos hh] at h; exact h
          · rename_i hh; rw [if_neg hh] at h; exact hl _ _ h

theorem walk_create {fs : Loc → Option Node} {b L : Loc} {n : Node} (fo : Bool) (hL : fs b = none)
    (hn : fo = true → ∀ t, n.kind ≠ .link t) (k : Nat) :
    ∀ cs loc, walk fs fo k cs loc = .ok L → walk (setNode fs b (some n)) fo k cs loc = .ok L := by
  induction k with
  | zero => exact walkAux_create fo hL hn fun _ _ h => by cases h
  | succ k ih => exact walkAux_create fo hL hn fun l c h => ih c l h

/-- A path denotes the same place after an object is created somewhere. -/
theorem resolve_create_any {fs : Loc → Option Node} {b L : Loc} {n : Node} {cwd : Loc} {path : Str} {fo : Bool} (hL : fs b = none)
    (hn : fo = true → ∀ t, n.kind ≠ .link t) (h : resolve fs cwd path fo = .ok L) :
    resolve (setNode fs b (some n)) cwd path fo = .ok L := by
  unfold resolve at h ⊢
  split
  · rename_i hp; rw [if_pos hp] at h; exact h
  · rename_i hp; rw [if_neg hp] at h; exact walk_create fo hL hn _ _ _ h

/-- A path that denotes a free place denotes the new object after it is created there. -/
theorem resolve_create {fs : Loc → Option Node} {L : Loc} {n : Node} {cwd : Loc} {path : Str} {fo : Bool} (hL : fs L = none)
    (hn : fo = true → ∀ t, n.kind ≠ .link t) (h : resolve fs cwd path fo = .ok L) :
    resolve (setNode fs L (some n)) cwd path fo = .ok L := resolve_create_any hL hn h

/-- The file system without some places. -/
def removeSet (fs : Loc → Option Node) (S : Loc → Bool) : Loc → Option Node :=
  fun q => if S q then none else fs q

/-- The file system without everything at and below a place. -/
def removeTree (fs : Loc → Option Node) (l : Loc) : Loc → Option Node :=
  fun q => if l.isPrefixOf q then none else fs q

theorem walkAux_remove {fs : Loc → Option Node} {L : Loc} {S : Loc → Bool} (hS : ∀ loc c, S (loc ++ [c]) = true → S loc = true ∨ loc ++ [c] = L)
    (fo : Bool) {onLink onLink' : Loc → List Str → Except Int Loc}
    (hl : ∀ l c, onLink l c = .ok L → onLink' l c = .ok L ∨ onLink' l c = .error ENOENT) (cs : List Str) :
    ∀ loc, walkAux fs fo onLink cs loc = .ok L →
      walkAux (removeSet fs S) fo onLink' cs loc = .ok L ∨ walkAux (removeSet fs S) fo onLink' cs loc = .error ENOENT := by
  induction cs with
  | nil => intro loc h; exact .inl h
  | cons c r ih =>
    intro loc h
    rw [walkAux_cons] at h ⊢
    have hcase : ∀ q, (S q = true ∧ shape (removeSet fs S q) = .none) ∨
        (S q = false ∧ shape (removeSet fs S q) = shape (fs q)) := by
      intro q
      unfold removeSet
      cases hp : S q with
      | true => exact .inl ⟨rfl, rfl⟩
      | false => exact .inr ⟨rfl, rfl⟩
    rcases hcase loc with ⟨_, hloc⟩ | ⟨hnp, hloc⟩
    · rw [hloc]; exact .inr rfl
    · rw [hloc]
      cases h1 : shape (fs loc) with
      | none => rw [h1] at h; cases h
      | link t => rw [h1] at h; cases h
      | leaf => rw [h1] at h; cases h
      | dir =>
        rw [h1] at h
        simp only at h ⊢
        by_cases hc : c = p!".."
        · rw [if_pos hc] at h ⊢; exact ih _ h
        · rw [if_neg hc] at h ⊢
          rcases hcase (loc ++ [c]) with ⟨hp, hlc⟩ | ⟨hp, hlc⟩
          · rw [hlc]
            simp only
            have hEq : loc ++ [c] = L := by
              rcases hS loc c hp with h4 | h4
              · rw [h4] at hnp; cases hnp
              · exact h4
            by_cases hr : r = []
            · rw [if_pos hr, hEq]; exact .inl rfl
            · rw [if_neg hr]; exact .inr rfl
          · rw [hlc]
            cases h2 : shape (fs (loc ++ [c])) with
            | none =>
              rw [h2] at h
              exact .inl h
            | dir => rw [h2] at h; exact ih _ h
            | leaf => rw [h2] at h; exact ih _ h
            | link t =>
              rw [h2] at h
              simp only at h ⊢
              split
              · rename_i hh; rw [if_pos hh] at h; exact .inl h
              · rename_i hh; rw [if_neg hh] at h; exact hl _ _ h

theorem walk_remove {fs : Loc → Option Node} {L : Loc} {S : Loc → Bool} (hS : ∀ loc c, S (loc ++ [c]) = true → S loc = true ∨ loc ++ [c] = L)
    (fo : Bool) (k : Nat) : ∀ cs loc, walk fs fo k cs loc = .ok L →
      walk (removeSet fs S) fo k cs loc = .ok L ∨ walk (removeSet fs S) fo k cs loc = .error ENOENT := by
  induction k with
  | zero => exact walkAux_remove hS fo fun _ _ h => by cases h
  | succ k ih => exact walkAux_remove hS fo fun l c h => ih c l h

theorem lookup_removeSet {fs : Loc → Option Node} {L : Loc} {S : Loc → Bool} (hS : ∀ loc c, S (loc ++ [c]) = true → S loc = true ∨ loc ++ [c] = L)
    (hL : S L = true) {cwd : Loc} {path : Str} {fo : Bool}
    (h : resolve fs cwd path fo = .ok L) : lookup (removeSet fs S) cwd path fo = .error ENOENT := by
  have : resolve (removeSet fs S) cwd path fo = .ok L ∨ resolve (removeSet fs S) cwd path fo = .error ENOENT := by
    unfold resolve at h ⊢
    split
    · exact .inr rfl
    · rename_i hp; rw [if_neg hp] at h; exact walk_remove hS fo _ _ _ h
  unfold lookup
  rcases this with h | h
  · rw [h]
    have : removeSet fs S L = none := by
      unfold removeSet
      rw [if_pos hL]
    simp only [this]
  · rw [h]

/-- After an object is removed (with everything below it), its path denotes nothing. -/
theorem lookup_remove {fs : Loc → Option Node} {L : Loc} {cwd : Loc} {path : Str} {fo : Bool}
    (h : resolve fs cwd path fo = .ok L) : lookup (removeTree fs L) cwd path fo = .error ENOENT := by
  refine lookup_removeSet (S := L.isPrefixOf) ?_ (List.isPrefixOf_iff_prefix.mpr (List.prefix_refl _)) h
  intro loc c hp
  rcases List.prefix_concat_iff.mp (List.isPrefixOf_iff_prefix.mp hp) with h4 | h4
  · exact .inr h4.symm
  · exact .inl (List.isPrefixOf_iff_prefix.mpr h4)

/-- After the object at a place is removed, its path denotes nothing. -/
theorem lookup_unlink {fs : Loc → Option Node} {L : Loc} {cwd : Loc} {path : Str} {fo : Bool}
    (h : resolve fs cwd path fo = .ok L) : lookup (setNode fs L none) cwd path fo = .error ENOENT := by
  have : setNode fs L none = removeSet fs fun q => decide (q = L) := by
    funext q
    simp [setNode, removeSet]
  rw [this]
  exact lookup_removeSet (fun loc c hp => .inr (by simpa using hp)) (by simp) h

theorem lookup_ok {fs : Loc → Option Node} {cwd l : Loc} {path : Str} {fo : Bool} {n : Node}
    (h : lookup fs cwd path fo = .ok (l, n)) : resolve fs cwd path fo = .ok l ∧ fs l = some n := by
  unfold lookup at h
  split at h
  · cases h
  · rename_i l' hl
    split at h
    · cases h
    · rename_i n' hn
      cases h
      exact ⟨hl, hn⟩

theorem lookup_of {fs : Loc → Option Node} {cwd l : Loc} {path : Str} {fo : Bool} {n : Node}
    (h1 : resolve fs cwd path fo = .ok l) (h2 : fs l = some n) : lookup fs cwd path fo = .ok (l, n) := by
  simp only [lookup, h1, h2]

/-- After replacing an object by one of the same shape, its path denotes the new object. -/
theorem lookup_set {fs : Loc → Option Node} {cwd l : Loc} {path : Str} {fo : Bool} {n n' : Node}
    (h : lookup fs cwd path fo = .ok (l, n)) (hs : shape (some n') = shape (some n)) :
    lookup (setNode fs l (some n')) cwd path fo = .ok (l, n') := by
  obtain ⟨h1, h2⟩ := lookup_ok h
  refine lookup_of ?_ (setNode_same _ _ _)
  rw [resolve_set_shape (by rw [h2, hs]), h1]

/-- An object that is not a link is denoted with and without following links. -/
theorem walkAux_follow {fs : Loc → Option Node} {L : Loc} (hL : ∀ t, shape (fs L) ≠ .link t)
    {onLink onLink' : Loc → List Str → Except Int Loc} (hl : ∀ l c, onLink l c = .ok L → onLink' l c = .ok L) (cs : List Str) :
    ∀ loc, walkAux fs false onLink cs loc = .ok L → walkAux fs true onLink' cs loc = .ok L := by
  induction cs with
  | nil => intro loc h; exact h
  | cons c r ih =>
    intro loc h
    rw [walkAux_cons] at h ⊢
    cases h1 : shape (fs loc) with
    | none => rw [h1] at h; cases h
    | link t => rw [h1] at h; cases h
    | leaf => rw [h1] at h; cases h
    | dir =>
      rw [h1] at h
      simp only at h ⊢
      by_cases hc : c = p!".."
      · rw [if_pos hc] at h ⊢; exact ih _ h
      · rw [if_neg hc] at h ⊢
        cases h2 : shape (fs (loc ++ [c])) with
        | none => rw [h2] at h; exact h
        | dir => rw [h2] at h; exact ih _ h
        | leaf => rw [h2] at h; exact ih _ h
        | link t =>
          rw [h2] at h
          simp only at h ⊢
          rw [if_neg (by simp)]
          split at h
          · have : loc ++ [c] = L := Except.ok.inj h
            rw [this] at h2
            exact absurd h2 (hL t)
          · exact hl _ _ h

theorem resolve_follow {fs : Loc → Option Node} {cwd L : Loc} {path : Str} (hL : ∀ t, shape (fs L) ≠ .link t)
    (h : resolve fs cwd path false = .ok L) : resolve fs cwd path true = .ok L := by
  have key : ∀ k cs loc, walk fs false k cs loc = .ok L → walk fs true k cs loc = .ok L := by
    intro k
    induction k with
    | zero => exact walkAux_follow hL fun _ _ h => by cases h
    | succ k ih => exact walkAux_follow hL fun l c h => ih c l h
  unfold resolve at h ⊢
  split
  · rename_i hp; rw [if_pos hp] at h; exact h
  · rename_i hp; rw [if_neg hp] at h; exact key _ _ _ h

theorem lookup_follow {fs : Loc → Option Node} {cwd L : Loc} {path : Str} {n : Node} (hn : ∀ t, n.kind ≠ .link t)
    (h : lookup fs cwd path false = .ok (L, n)) : lookup fs cwd path true = .ok (L, n) := by
  obtain ⟨h1, h2⟩ := lookup_ok h
  refine lookup_of (resolve_follow ?_ h1) h2
  intro t ht
  rw [h2] at ht
  exact hn t (shape_link.mp ht)

end Verif.Remote
