/-
Paths without symbolic links, and what they denote when something on the way is missing.
-/
import Verif.Ops.DeploySpec
import Verif.Ops.MirrorRepeatProps
import Verif.Ops.MirrorDryLemmas

namespace Verif.Ops

open Script Remote
open Client (Prog direct lostConnection)

section
variable {sys : Sys} {lost : Nat → Option Bool} {env : Env} {st : St} {w0 w w' : World}
variable {tools : Tools} {mode owner group : Option Str} {n : Node} {l : Loc}

/-! ### Paths without links -/

theorem kind_of_link {t : Str} (h : shape (some n) = .link t) : n.kind = .link t := by
  simp only [shape] at h
  split at h <;> first | cases h; assumption | cases h

theorem kind_of_dir (h : shape (some n) = .dir) : n.kind = .dir := by
  simp only [shape] at h
  split at h <;> first | assumption | cases h

theorem walkAux_plain {fs : Loc → Option Node} {L : Loc} {onLink : Loc → List Str → Except Int Loc} (cs : List Str) :
    ∀ loc, (∀ c ∈ cs, FileName c) → (∀ p s, cs = p ++ s → s ≠ [] → ∀ n t, fs (loc ++ p) = some n → n.kind ≠ .link t) →
      walkAux fs false onLink cs loc = .ok L → L = loc ++ cs ∧ ∀ p s, cs = p ++ s → s ≠ [] → shape (fs (loc ++ p)) = .dir := by
  induction cs with
  | nil =>
    intro loc _ _ h
    cases h
    exact ⟨by simp, fun p s he hs => absurd (List.append_eq_nil_iff.mp he.symm).2 hs⟩
  | cons c r ih =>
    intro loc hn hp hw
    rw [walkAux_cons] at hw
    cases h1 : shape (fs loc) with
    | none => rw [h1] at hw; cases hw
    | link t => rw [h1] at hw; cases hw
    | leaf => rw [h1] at hw; cases hw
    | dir =>
      rw [h1] at hw
      simp only at hw
      rw [if_neg (hn c (by simp)).dotdot] at hw
      have hstep : walkAux fs false onLink r (loc ++ [c]) = .ok L → L = loc ++ (c :: r) ∧ ∀ p s, c :: r = p ++ s → s ≠ [] → shape (fs (loc ++ p)) = .dir := by
        intro hw
        obtain ⟨e1, e2⟩ := ih (loc ++ [c]) (fun x hx => hn x (by simp [hx])) (fun p s he hs n t hf => hp (c :: p) s (by rw [he]; rfl) hs n t (by simpa using hf)) hw
        refine ⟨by rw [e1]; simp, fun p s he hs => ?_⟩
        cases p with
        | nil => simpa using h1
        | cons d p =>
          rw [List.cons_append] at he
          cases he
          have := e2 p s rfl hs
          simpa using this
      have hlast : r = [] → loc ++ [c] = L → L = loc ++ (c :: r) ∧ ∀ p s, c :: r = p ++ s → s ≠ [] → shape (fs (loc ++ p)) = .dir := by
        rintro rfl rfl
        refine ⟨rfl, fun p s he hs => ?_⟩
        cases p with
        | nil => simpa using h1
        | cons d p =>
          rw [List.cons_append] at he
          exact absurd (List.append_eq_nil_iff.mp (List.cons.inj he).2.symm).2 hs
      cases h2 : shape (fs (loc ++ [c])) with
      | none =>
        rw [h2] at hw
        simp only at hw
        by_cases hr : r = []
        · rw [if_pos hr] at hw
          exact hlast hr (Except.ok.inj hw)
        · rw [if_neg hr] at hw; cases hw
      | dir => rw [h2] at hw; exact hstep hw
      | leaf => rw [h2] at hw; exact hstep hw
      | link t =>
        rw [h2] at hw
        simp only at hw
        by_cases hr : r = []
        · rw [if_pos ⟨hr, trivial⟩] at hw
          exact hlast hr (Except.ok.inj hw)
        · exfalso
          cases hf : fs (loc ++ [c]) with
          | none => rw [hf] at h2; cases h2
          | some m =>
            rw [hf] at h2
            exact hp [c] r rfl hr m t hf (kind_of_link h2)

theorem denotes_plain {names : List Str} (hn : ∀ n ∈ names, FileName n)
    (hp : ∀ p s, names = p ++ s → s ≠ [] → ∀ n t, w.fs p = some n → n.kind ≠ .link t) (h : Denotes w (pathOf names) l) :
    l = names ∧ ∀ p s, names = p ++ s → s ≠ [] → shape (w.fs p) = .dir := by
  unfold Denotes resolve at h
  rw [if_neg (by simp [pathOf]), components_pathOf hn, if_pos (by simp [pathOf, isAbs])] at h
  unfold walk at h
  have := walkAux_plain names [] hn (by simpa using hp) h
  simpa using this

/-- If everything on the way is a directory, the path denotes its place. -/
theorem walkAux_dirs {fs : Loc → Option Node} {onLink : Loc → List Str → Except Int Loc} (cs : List Str) :
    ∀ loc, (∀ c ∈ cs, FileName c) → (∀ p s, cs = p ++ s → s ≠ [] → shape (fs (loc ++ p)) = .dir) → walkAux fs false onLink cs loc = .ok (loc ++ cs) := by
  induction cs with
  | nil => intro loc _ _; rw [List.append_nil]; rfl
  | cons c r ih =>
    intro loc hn hd
    have h0 : shape (fs loc) = .dir := by simpa using hd [] (c :: r) rfl (by simp)
    rw [walkAux_cons, h0]
    simp only
    rw [if_neg (hn c (by simp)).dotdot]
    have hrest := ih (loc ++ [c]) (fun x hx => hn x (by simp [hx])) (fun p s he hs => by
      have := hd (c :: p) s (by rw [he]; rfl) hs
      simpa using this)
    rw [List.append_assoc, List.singleton_append] at hrest
    by_cases hr : r = []
    · subst hr
      cases shape (fs (loc ++ [c])) with
      | none => simp
      | dir => exact hrest
      | leaf => exact hrest
      | link t => simp
    · have h1 : shape (fs (loc ++ [c])) = .dir := hd [c] r rfl hr
      rw [h1]
      exact hrest

theorem denotes_dirs {names : List Str} (hn : ∀ n ∈ names, FileName n)
    (hd : ∀ p s, names = p ++ s → s ≠ [] → shape (w.fs p) = .dir) : Denotes w (pathOf names) names := by
  unfold Denotes resolve
  rw [if_neg (by simp [pathOf]), components_pathOf hn, if_pos (by simp [pathOf, isAbs])]
  unfold walk
  have := walkAux_dirs (onLink := match 40 with | 0 => fun _ _ => .error ELOOP | k + 1 => fun l c => walk w.fs false k c l) names [] hn (by simpa using hd)
  simpa using this

/-- If everything on the way is a directory or missing, the path denotes its place or is missing. -/
theorem walkAux_free {fs : Loc → Option Node} {onLink : Loc → List Str → Except Int Loc} (cs : List Str) :
    ∀ loc, (∀ c ∈ cs, FileName c) → (∀ p s, cs = p ++ s → s ≠ [] → shape (fs (loc ++ p)) = .dir ∨ fs (loc ++ p) = none) →
      walkAux fs false onLink cs loc = .ok (loc ++ cs) ∨ walkAux fs false onLink cs loc = .error ENOENT := by
  induction cs with
  | nil => intro loc _ _; rw [List.append_nil]; exact .inl rfl
  | cons c r ih =>
    intro loc hn hd
    rcases (by simpa using hd [] (c :: r) rfl (by simp) : shape (fs loc) = .dir ∨ fs loc = none) with h0 | h0
    · rw [walkAux_cons, h0]
      simp only
      rw [if_neg (hn c (by simp)).dotdot]
      have hrest := ih (loc ++ [c]) (fun x hx => hn x (by simp [hx])) (fun p s he hs => by
        have := hd (c :: p) s (by rw [he]; rfl) hs
        simpa using this)
      rw [List.append_assoc, List.singleton_append] at hrest
      by_cases hr : r = []
      · subst hr
        cases shape (fs (loc ++ [c])) with
        | none => simp
        | dir => exact hrest
        | leaf => exact hrest
        | link t => simp
      · rcases hd [c] r rfl hr with h1 | h1
        · rw [h1]; exact hrest
        · rw [h1, if_neg hr]; exact .inr rfl
    · rw [walkAux_cons, h0]
      exact .inr rfl

theorem lookup_free {names : List Str} (hn : ∀ n ∈ names, FileName n)
    (hd : ∀ p s, names = p ++ s → s ≠ [] → shape (w.fs p) = .dir ∨ w.fs p = none) (h0 : w.fs names = none) :
    lookup w.fs w.cwd (pathOf names) false = .error ENOENT := by
  have key : resolve w.fs w.cwd (pathOf names) false = .ok names ∨ resolve w.fs w.cwd (pathOf names) false = .error ENOENT := by
    unfold resolve
    rw [if_neg (by simp [pathOf]), components_pathOf hn, if_pos (by simp [pathOf, isAbs])]
    unfold walk
    have := walkAux_free (onLink := match 40 with | 0 => fun _ _ => .error ELOOP | k + 1 => fun l c => walk w.fs false k c l) names [] hn (by simpa using hd)
    simpa using this
  unfold lookup
  rcases key with h | h
  · rw [h]; simp only [h0]
  · rw [h]

/-- Nothing is below what is not there. -/
theorem Rooted.below (hr : Rooted w) (h : w.fs l = none) : ∀ s, w.fs (l ++ s) = none := by
  intro s
  induction hk : s.length generalizing s with
  | zero => cases List.length_eq_zero_iff.mp hk; simpa using h
  | succ k ih =>
    have hne : s ≠ [] := by rintro rfl; cases hk
    have h1 := ih s.dropLast (by rw [List.length_dropLast, hk]; rfl)
    cases h2 : w.fs (l ++ s) with
    | none => rfl
    | some n =>
      rw [← List.dropLast_concat_getLast hne, ← List.append_assoc] at h2
      obtain ⟨p, hp, _⟩ := hr _ _ _ h2
      rw [h1] at hp; cases hp

/-- The converse, where the file system is a tree. -/
theorem walkAux_away {fs : Loc → Option Node} (hb : ∀ l s, fs l = none → fs (l ++ s) = none) {onLink : Loc → List Str → Except Int Loc} (cs : List Str) :
    ∀ loc, (∀ c ∈ cs, FileName c) → (∀ p s, cs = p ++ s → s ≠ [] → ∀ n t, fs (loc ++ p) = some n → n.kind ≠ .link t) →
      walkAux fs false onLink cs loc = .error ENOENT →
      fs (loc ++ cs) = none ∧ ∀ p s, cs = p ++ s → s ≠ [] → shape (fs (loc ++ p)) = .dir ∨ fs (loc ++ p) = none := by
  induction cs with
  | nil => intro loc _ _ h; cases h
  | cons c r ih =>
    intro loc hn hp hw
    rw [walkAux_cons] at hw
    cases h1 : shape (fs loc) with
    | none =>
      have h0 := shape_none.mp h1
      exact ⟨hb _ _ h0, fun p s _ _ => .inr (hb _ _ h0)⟩
    | link t => rw [h1] at hw; cases hw
    | leaf => rw [h1] at hw; cases hw
    | dir =>
      rw [h1] at hw
      simp only at hw
      rw [if_neg (hn c (by simp)).dotdot] at hw
      have hstep : walkAux fs false onLink r (loc ++ [c]) = .error ENOENT → fs (loc ++ (c :: r)) = none ∧ ∀ p s, c :: r = p ++ s → s ≠ [] → shape (fs (loc ++ p)) = .dir ∨ fs (loc ++ p) = none := by
        intro hw
        obtain ⟨e1, e2⟩ := ih (loc ++ [c]) (fun x hx => hn x (by simp [hx])) (fun p s he hs n t hf => hp (c :: p) s (by rw [he]; rfl) hs n t (by simpa using hf)) hw
        refine ⟨by simpa using e1, fun p s he hs => ?_⟩
        cases p with
        | nil => exact .inl (by simpa using h1)
        | cons d p =>
          rw [List.cons_append] at he
          cases he
          have := e2 p s rfl hs
          simpa using this
      cases h2 : shape (fs (loc ++ [c])) with
      | none =>
        have h0 := shape_none.mp h2
        refine ⟨by simpa using hb _ r h0, fun p s he hs => ?_⟩
        cases p with
        | nil => exact .inl (by simpa using h1)
        | cons d p =>
          rw [List.cons_append] at he
          cases he
          exact .inr (by simpa using hb _ p h0)
      | dir => rw [h2] at hw; exact hstep hw
      | leaf => rw [h2] at hw; exact hstep hw
      | link t =>
        rw [h2] at hw
        simp only at hw
        by_cases hr : r = []
        · rw [if_pos ⟨hr, trivial⟩] at hw; cases hw
        · exfalso
          cases hf : fs (loc ++ [c]) with
          | none => rw [hf] at h2; cases h2
          | some m =>
            rw [hf] at h2
            exact hp [c] r rfl hr m t hf (kind_of_link h2)

theorem missing_way {names : List Str} (hr : Rooted w) (hn : ∀ n ∈ names, FileName n)
    (hp : ∀ p s, names = p ++ s → s ≠ [] → ∀ n t, w.fs p = some n → n.kind ≠ .link t) (h : lookup w.fs w.cwd (pathOf names) false = .error ENOENT) :
    w.fs names = none ∧ ∀ p s, names = p ++ s → s ≠ [] → shape (w.fs p) = .dir ∨ w.fs p = none := by
  unfold lookup at h
  cases hres : resolve w.fs w.cwd (pathOf names) false with
  | ok l =>
    obtain ⟨rfl, hd⟩ := denotes_plain hn hp hres
    rw [hres] at h
    simp only at h
    cases hl : w.fs l with
    | none => exact ⟨rfl, fun p s he hs => .inl (hd p s he hs)⟩
    | some n => rw [hl] at h; cases h
  | error e =>
    rw [hres] at h
    cases h
    unfold resolve at hres
    rw [if_neg (by simp [pathOf]), components_pathOf hn, if_pos (by simp [pathOf, isAbs])] at hres
    unfold walk at hres
    have := walkAux_away (fun l s h => hr.below h s) names [] hn (by simpa using hp) hres
    simpa using this

/-- The way to a place does not lead through it. -/
theorem direct_plain {names : List Str} (hn : ∀ n ∈ names, FileName n)
    (hp : ∀ p s, names = p ++ s → s ≠ [] → ∀ n t, w.fs p = some n → n.kind ≠ .link t) : Direct w (pathOf names) := by
  intro l fs hl hfs
  obtain ⟨rfl, hd⟩ := denotes_plain hn hp hl
  refine denotes_dirs (w := { w with fs := fs }) hn fun p s he hs => ?_
  show shape (fs p) = .dir
  rw [hfs p ?_]
  · exact hd p s he hs
  · cases hu : under l p with
    | false => rfl
    | true =>
      exfalso
      have hpre := List.isPrefixOf_iff_prefix.mp hu
      have h1 := hpre.length_le
      have h2 : l.length = p.length + s.length := by rw [he, List.length_append]
      have h3 : 0 < s.length := List.length_pos_iff.mpr hs
      omega

/-! ### Trees of files -/

theorem Rooted.same (hr : Rooted w) (h : Same w w') : Rooted w' := by
  unfold Rooted; rw [same_fs h]; exact hr

/-- Something is put into a directory, and directories stay there. -/
theorem Rooted.put (hr : Rooted w) (hu : Untouched (· = l) w w') (hd : ∀ p s, l = p ++ s → s ≠ [] → shape (w.fs p) = .dir)
    (hdir : shape (w.fs l) = .dir → shape (w'.fs l) = .dir) : Rooted w' := by
  intro q name n h
  by_cases hq : q ++ [name] = l
  · have hne : q ≠ l := by
      intro e
      have := congrArg List.length (e.trans hq.symm)
      simp at this
    rw [hu.fs q hne]
    have := hd q [name] hq.symm (by simp)
    cases hw : w.fs q with
    | none => rw [hw] at this; cases this
    | some p => rw [hw] at this; exact ⟨p, rfl, kind_of_dir this⟩
  · rw [hu.fs _ hq] at h
    obtain ⟨p, hp, hk⟩ := hr q name n h
    by_cases hl : q = l
    · subst hl
      have : shape (w'.fs q) = .dir := hdir (by rw [hp]; simp only [shape, hk])
      cases hw : w'.fs q with
      | none => rw [hw] at this; cases this
      | some p' => rw [hw] at this; exact ⟨p', rfl, kind_of_dir this⟩
    · rw [hu.fs q hl]; exact ⟨p, hp, hk⟩

theorem under_append {l q : Loc} (s : Loc) (h : under l q = true) : under l (q ++ s) = true := by
  have := List.isPrefixOf_iff_prefix.mp h
  exact List.isPrefixOf_iff_prefix.mpr (this.trans (List.prefix_append _ _))

theorem Rooted.removeMost {k : Loc → Bool} {s : List Proc} (hr : Rooted w) : Rooted { w with fs := Remote.removeMost w.fs l k, started := s } := by
  intro q name n h
  change Remote.removeMost w.fs l k (q ++ [name]) = some n at h
  show ∃ p, Remote.removeMost w.fs l k q = some p ∧ _
  unfold Remote.removeMost at h ⊢
  split at h
  · cases h
  · next hc =>
    obtain ⟨p, hp, hk⟩ := hr q name n h
    refine ⟨p, ?_, hk⟩
    rw [if_neg, hp]
    intro hcond
    rw [Bool.and_eq_true, Bool.not_eq_true'] at hcond
    apply hc
    rw [under_append [name] hcond.1, Bool.true_and, Bool.not_eq_true']
    cases hw : wayKept l k (q ++ [name]) with
    | false => rfl
    | true =>
      exfalso
      have : wayKept l k q = true := by
        unfold wayKept at hw ⊢
        rw [List.all_eq_true] at hw ⊢
        intro i hi
        have hi' := List.mem_range.mp hi
        have := hw i (List.mem_range.mpr (by rw [List.length_append]; simp; omega))
        rwa [List.take_append_of_le_length (by omega)] at this
      rw [this] at hcond
      cases hcond.2

theorem Rooted.removeTree {s : List Proc} (hr : Rooted w) : Rooted { w with fs := Remote.removeTree w.fs l, started := s } := by
  intro q name n h
  change Remote.removeTree w.fs l (q ++ [name]) = some n at h
  show ∃ p, Remote.removeTree w.fs l q = some p ∧ _
  unfold Remote.removeTree at h ⊢
  split at h
  · cases h
  · next hc =>
    obtain ⟨p, hp, hk⟩ := hr q name n h
    refine ⟨p, ?_, hk⟩
    rw [if_neg, hp]
    intro hu
    exact hc (under_append [name] hu)

end
end Verif.Ops
