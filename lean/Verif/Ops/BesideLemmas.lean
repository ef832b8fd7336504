/-
Requests about different files can be exchanged.
-/
import Verif.Ops.BesideSpec
import Verif.Ops.TogetherLemmas
import Verif.Ops.DeployPathLemmas
import Verif.Ops.OptionProps

namespace Verif.Ops

open Script Remote
open Client (Prog direct)
open Wire (Packet)

section
variable {sys : Sys} {tools : Tools} {Z C : Loc → Prop} {w w' : World} {names : List Str}

/-! #### Paths without links -/

theorem walkAux_here {fs fs' : Loc → Option Node} {fo : Bool} {onLink onLink' : Loc → List Str → Except Int Loc} (cs : List Str) :
    ∀ loc, (∀ c ∈ cs, FileName c) → (∀ p s, cs = p ++ s → fs' (loc ++ p) = fs (loc ++ p)) →
      (∀ p s, cs = p ++ s → ∀ n t, fs (loc ++ p) = some n → n.kind ≠ .link t) →
      walkAux fs' fo onLink' cs loc = walkAux fs fo onLink cs loc ∧ ∀ L, walkAux fs fo onLink cs loc = .ok L → L = loc ++ cs := by
  induction cs with
  | nil =>
    intro loc _ _ _
    exact ⟨rfl, fun L h => by cases h; simp⟩
  | cons c r ih =>
    intro loc hn he hp
    have e0 : fs' loc = fs loc := by simpa using he [] (c :: r) rfl
    have e1 : fs' (loc ++ [c]) = fs (loc ++ [c]) := he [c] r rfl
    obtain ⟨i1, i2⟩ := ih (loc ++ [c]) (fun x hx => hn x (by simp [hx])) (fun p s h => by simpa using he (c :: p) s (by rw [h]; rfl))
      (fun p s h n t hf => hp (c :: p) s (by rw [h]; rfl) n t (by simpa using hf))
    rw [walkAux_cons, walkAux_cons, e0, e1]
    cases h1 : shape (fs loc) with
    | none => exact ⟨rfl, fun L h => by cases h⟩
    | link t => exact ⟨rfl, fun L h => by cases h⟩
    | leaf => exact ⟨rfl, fun L h => by cases h⟩
    | dir =>
      simp only
      rw [if_neg (hn c (by simp)).dotdot, if_neg (hn c (by simp)).dotdot]
      cases h2 : shape (fs (loc ++ [c])) with
      | none =>
        refine ⟨rfl, fun L h => ?_⟩
        simp only at h
        split at h
        · next hr => cases h; rw [hr]
        · cases h
      | dir => exact ⟨i1, fun L h => by rw [i2 L h]; simp⟩
      | leaf => exact ⟨i1, fun L h => by rw [i2 L h]; simp⟩
      | link t =>
        exfalso
        cases hf : fs (loc ++ [c]) with
        | none => rw [hf] at h2; cases h2
        | some m =>
          rw [hf] at h2
          exact hp [c] r rfl m t hf (kind_of_link h2)

theorem walk_here {fs fs' : Loc → Option Node} {fo : Bool} {k : Nat} (hn : ∀ n ∈ names, FileName n) (he : ∀ p s, names = p ++ s → fs' p = fs p)
    (hp : ∀ p s, names = p ++ s → ∀ n t, fs p = some n → n.kind ≠ .link t) :
    walk fs' fo k names [] = walk fs fo k names [] ∧ ∀ L, walk fs fo k names [] = .ok L → L = names := by
  have := fun onLink onLink' => walkAux_here (fs := fs) (fs' := fs') (fo := fo) (onLink := onLink) (onLink' := onLink') names [] hn
    (by simpa using he) (by simpa using hp)
  cases k <;> (unfold walk; exact this _ _)

/-- An absolute path of file names, without links. -/
structure Clear (w : World) (Z : Loc → Prop) (names : List Str) : Prop where
  proper : ∀ n ∈ names, FileName n
  plain : NoLinks w names
  way : ∀ p s, names = p ++ s → ¬ Z p

theorem resolve_here (hu : Untouched Z w w') (h : Clear w Z names) (cwd cwd' : Loc) (fo : Bool) :
    resolve w'.fs cwd' (pathOf names) fo = resolve w.fs cwd (pathOf names) fo ∧ ∀ L, resolve w.fs cwd (pathOf names) fo = .ok L → L = names := by
  have h1 : pathOf names ≠ [] := by simp [pathOf]
  have h2 : isAbs (pathOf names) = true := by simp [pathOf, isAbs]
  have e : ∀ (fs : Loc → Option Node) c, resolve fs c (pathOf names) fo = walk fs fo 40 names [] := by
    intro fs c
    unfold resolve
    rw [if_neg h1, if_pos h2, components_pathOf h.proper]
  rw [e, e]
  exact walk_here h.proper (fun p s he => hu.fs p (h.way p s he)) h.plain

theorem lookup_here (hu : Untouched Z w w') (h : Clear w Z names) (cwd cwd' : Loc) (fo : Bool) :
    lookup w'.fs cwd' (pathOf names) fo = lookup w.fs cwd (pathOf names) fo ∧ ∀ x, lookup w.fs cwd (pathOf names) fo = .ok x → x.1 = names ∧ w.fs names = some x.2 := by
  obtain ⟨h1, h2⟩ := resolve_here hu h cwd cwd' fo
  unfold lookup
  rw [h1]
  cases hr : resolve w.fs cwd (pathOf names) fo with
  | error e => exact ⟨rfl, fun x hx => by cases hx⟩
  | ok l =>
    cases h2 l hr
    simp only
    rw [hu.fs names (h.way names [] (by simp))]
    refine ⟨rfl, fun x hx => ?_⟩
    cases hf : w.fs names with
    | none => rw [hf] at hx; cases hx
    | some n => rw [hf] at hx; cases hx; exact ⟨rfl, rfl⟩

/-! #### Effects -/

/-- Only these places were changed, and no link was made. -/
structure Within (C : Loc → Prop) (w w' : World) : Prop where
  untouched : Untouched C w w'
  links : ∀ q n t, w'.fs q = some n → n.kind = .link t → w.fs q = some n

theorem Within.refl : Within C w w := ⟨⟨fun _ _ => rfl, rfl⟩, fun _ _ _ h _ => h⟩

theorem Within.trans {w'' : World} (h1 : Within C w w') (h2 : Within C w' w'') : Within C w w'' :=
  ⟨⟨fun q hq => (h2.untouched.fs q hq).trans (h1.untouched.fs q hq), by rw [h2.untouched.rest, h1.untouched.rest]⟩,
    fun q n t h hk => h1.links q n t (h2.links q n t h hk) hk⟩

theorem Within.history {l : List Proc} : Within C w { w with started := l } := ⟨⟨fun _ _ => rfl, rfl⟩, fun _ _ _ h _ => h⟩

theorem Within.set {l : Loc} (hc : C l) {x : Option Node} (hx : ∀ n t, x = some n → n.kind ≠ .link t) : Within C w (w.set l x) := by
  refine ⟨⟨fun q hq => ?_, rfl⟩, fun q n t h hk => ?_⟩
  · show setNode w.fs l x q = w.fs q
    unfold setNode
    rw [if_neg]
    rintro rfl
    exact hq hc
  · have h : setNode w.fs l x q = some n := h
    unfold setNode at h
    split at h
    · exact absurd hk (hx n t h)
    · exact h

/-- The same answer, and the same effect outside those places. -/
structure Both {α : Type} (Z : Loc → Prop) (x y : α × World) : Prop where
  answer : y.1 = x.1
  world : Untouched Z x.2 y.2

theorem untouched_both {l : Loc} {x : Option Node} (hu : Untouched Z w w') : Untouched Z (w.set l x) (w'.set l x) := by
  refine ⟨fun q hq => ?_, ?_⟩
  · show setNode w'.fs l x q = setNode w.fs l x q
    unfold setNode
    split
    · rfl
    · exact hu.fs q hq
  · rw [hu.rest]; rfl

theorem Untouched.clock (hu : Untouched Z w w') : w'.clock = w.clock := by rw [hu.rest]
theorem Untouched.users (hu : Untouched Z w w') : w'.users = w.users := by rw [hu.rest]
theorem Untouched.groups (hu : Untouched Z w w') : w'.groups = w.groups := by rw [hu.rest]
theorem Untouched.uid (hu : Untouched Z w w') : w'.uid = w.uid := by rw [hu.rest]
theorem Untouched.gid (hu : Untouched Z w w') : w'.gid = w.gid := by rw [hu.rest]
theorem Untouched.supp (hu : Untouched Z w w') : w'.supp = w.supp := by rw [hu.rest]
theorem Untouched.cwd (hu : Untouched Z w w') : w'.cwd = w.cwd := by rw [hu.rest]

theorem dropLast_way (names : List Str) : ∃ s, names = names.dropLast ++ s := by
  by_cases h : names = []
  · exact ⟨[], by simp [h]⟩
  · exact ⟨_, (List.dropLast_concat_getLast h).symm⟩

theorem Clear.last (h : Clear w Z names) (hu : Untouched Z w w') : w'.fs names = w.fs names := hu.fs _ (h.way names [] (by simp))

theorem Clear.parent (h : Clear w Z names) (hu : Untouched Z w w') : w'.fs names.dropLast = w.fs names.dropLast := by
  obtain ⟨s, hs⟩ := dropLast_way names
  exact hu.fs _ (h.way _ s hs)

theorem Clear.gid (h : Clear w Z names) (hu : Untouched Z w w') (g : Nat) : inheritGid w'.fs names g = inheritGid w.fs names g := by
  unfold inheritGid; rw [h.parent hu]

theorem Clear.setgid (h : Clear w Z names) (hu : Untouched Z w w') : inheritSetgid w'.fs names = inheritSetgid w.fs names := by
  unfold inheritSetgid; rw [h.parent hu]

/-- Both: the same answer from two hosts that differ in the places of the other script only, and an effect on the own places only. -/
structure Alone {α : Type} (Z C : Loc → Prop) (w : World) (x y : α × World) : Prop where
  both : Both Z x y
  within : Within C w x.2

theorem Alone.same {α : Type} (hu : Untouched Z w w') (a : α) : Alone Z C w (a, w) (a, w') := ⟨⟨rfl, hu⟩, .refl⟩

theorem Alone.set {α : Type} (hu : Untouched Z w w') (a : α) {l : Loc} (hc : C l) {x : Option Node} (hx : ∀ n t, x = some n → n.kind ≠ .link t) :
    Alone Z C w (a, w.set l x) (a, w'.set l x) := ⟨⟨rfl, untouched_both hu⟩, .set hc hx⟩

theorem NoLinks.at (h : NoLinks w names) {n : Node} (hf : w.fs names = some n) (t : Str) : n.kind ≠ .link t := h names [] (by simp) n t hf

/-- What the environment decides about this process is the same on both hosts. -/
structure SameMind (o : Tools) (p : Proc) (w w' : World) : Prop where
  fault : o.fault p w' = o.fault p w
  says : o.says p w' = o.says p w
  kept : o.kept p w' = o.kept p w
  ownerSpec : ∀ s, o.ownerSpec s w' = o.ownerSpec s w

theorem alone_mkdir {o : Tools} {p : Proc} (hm : SameMind o p w w') (hu : Untouched Z w w') (h : Clear w Z names) (hc : C names) :
    Alone Z C w (runMkdir o p w (pathOf names)) (runMkdir o p w' (pathOf names)) := by
  obtain ⟨h1, h2⟩ := resolve_here hu h p.cwd p.cwd false
  unfold runMkdir
  rw [h1, hm.fault, hm.says]
  cases hr : resolve w.fs p.cwd (pathOf names) false with
  | error e => exact .same hu _
  | ok l =>
    cases h2 l hr
    simp only
    rw [h.last hu]
    cases w.fs names with
    | some n => exact .same hu _
    | none =>
      simp only
      cases o.fault p w 0 with
      | some m => exact .same hu _
      | none =>
        simp only
        have : newDir p w' names = newDir p w names := by unfold newDir; rw [h.gid hu, h.setgid hu, hu.clock]
        rw [this]
        exact .set hu _ hc (fun n t hn => by cases hn; exact nofun)

theorem alone_touch {o : Tools} {p : Proc} (hm : SameMind o p w w') (hu : Untouched Z w w') (h : Clear w Z names) (hc : C names) :
    Alone Z C w (runTouch o p w (pathOf names)) (runTouch o p w' (pathOf names)) := by
  obtain ⟨h1, h2⟩ := resolve_here hu h p.cwd p.cwd true
  unfold runTouch
  rw [h1, hm.fault, hm.says, hu.clock]
  cases hr : resolve w.fs p.cwd (pathOf names) true with
  | error e => exact .same hu _
  | ok l =>
    cases h2 l hr
    simp only
    rw [h.last hu]
    cases hf : w.fs names with
    | some n =>
      simp only
      cases o.fault p w 0 with
      | some m => exact .same hu _
      | none => exact .set hu _ hc (fun m t hm => by cases hm; exact h.plain.at hf t)
    | none =>
      simp only
      have : newFile p w' names = newFile p w names := by unfold newFile; rw [h.gid hu, hu.clock]
      rw [this]
      cases o.fault p w 0 with
      | some m => exact .same hu _
      | none =>
        simp only
        cases o.fault p w 1 <;> exact .set hu _ hc (fun n t hn => by cases hn; exact nofun)

theorem alone_chmod {o : Tools} {p : Proc} {mode : Str} (hm : SameMind o p w w') (hu : Untouched Z w w') (h : Clear w Z names) (hc : C names) :
    Alone Z C w (runChmod o p w mode (pathOf names)) (runChmod o p w' mode (pathOf names)) := by
  obtain ⟨h1, h2⟩ := lookup_here hu h p.cwd p.cwd true
  unfold runChmod
  rw [h1, hm.fault, hm.says, hu.clock]
  cases hr : lookup w.fs p.cwd (pathOf names) true with
  | error e => exact .same hu _
  | ok x =>
    obtain ⟨l, n⟩ := x
    obtain ⟨rfl, hf⟩ := h2 _ hr
    simp only
    cases chmodBits o p mode n with
    | none => exact .same hu _
    | some b =>
      simp only
      cases o.fault p w 0 with
      | some m => exact .same hu _
      | none => exact .set hu _ hc (fun m t hm => by cases hm; exact h.plain.at hf t)

theorem chownIds_here {o : Tools} {p : Proc} (hm : SameMind o p w w') (hu : Untouched Z w w') (spec : Str) : chownIds o w' spec = chownIds o w spec := by
  unfold chownIds chownUser chownGroup
  rw [hm.ownerSpec, hu.users, hu.groups]

theorem alone_chown {o : Tools} {p : Proc} {spec : Str} {fo : Bool} (hm : SameMind o p w w') (hu : Untouched Z w w') (h : Clear w Z names) (hc : C names) :
    Alone Z C w (runChown o p w spec (pathOf names) fo) (runChown o p w' spec (pathOf names) fo) := by
  obtain ⟨h1, h2⟩ := lookup_here hu h p.cwd p.cwd fo
  unfold runChown
  rw [h1, hm.fault, hm.says, hu.clock, chownIds_here hm hu]
  cases hr : lookup w.fs p.cwd (pathOf names) fo with
  | error e => exact .same hu _
  | ok x =>
    obtain ⟨l, n⟩ := x
    obtain ⟨rfl, hf⟩ := h2 _ hr
    simp only
    cases chownIds o w spec with
    | none => exact .same hu _
    | some b =>
      simp only
      cases o.fault p w 0 with
      | some m => exact .same hu _
      | none => exact .set hu _ hc (fun m t hm => by cases hm; exact h.plain.at hf t)

theorem alone_unlink {o : Tools} {p : Proc} {l : Loc} (hm : SameMind o p w w') (hu : Untouched Z w w') (hc : C l) :
    Alone Z C w (unlinkAt o p w l) (unlinkAt o p w' l) := by
  unfold unlinkAt
  rw [hm.fault]
  cases o.fault p w 0 with
  | some m => exact .same hu _
  | none => exact .set hu _ hc (fun n t hn => by cases hn)

theorem alone_rm {o : Tools} {p : Proc} (hm : SameMind o p w w') (hu : Untouched Z w w') (h : Clear w Z names) (hc : C names) :
    Alone Z C w (runRm o p w (pathOf names)) (runRm o p w' (pathOf names)) := by
  obtain ⟨h1, h2⟩ := lookup_here hu h p.cwd p.cwd false
  unfold runRm
  rw [h1, hm.says]
  cases hr : lookup w.fs p.cwd (pathOf names) false with
  | error e => exact .same hu _
  | ok x =>
    obtain ⟨l, n⟩ := x
    obtain ⟨rfl, hf⟩ := h2 _ hr
    simp only
    by_cases hk : n.kind = .dir
    · rw [if_pos hk, if_pos hk]; exact .same hu _
    · rw [if_neg hk, if_neg hk]; exact alone_unlink hm hu hc

theorem alone_removeMost {k : Loc → Bool} {ans : ExecRes} (hu : Untouched Z w w') (hc : ∀ s, C (names ++ s)) :
    Alone Z C w (ans, { w with fs := removeMost w.fs names k }) (ans, { w' with fs := removeMost w'.fs names k }) := by
  refine ⟨⟨rfl, ⟨fun q hq => ?_, ?_⟩⟩, ⟨⟨fun q hq => ?_, rfl⟩, fun q n t h _ => ?_⟩⟩
  · show removeMost w'.fs names k q = removeMost w.fs names k q
    unfold removeMost
    rw [hu.fs q hq]
  · show { w' with fs := removeMost w'.fs names k } = { w with fs := removeMost w'.fs names k, started := w'.started }
    conv => lhs; rw [hu.rest]
  · show removeMost w.fs names k q = w.fs q
    unfold removeMost
    rw [if_neg]
    intro h
    rw [Bool.and_eq_true] at h
    have h := h.1
    unfold under at h
    obtain ⟨s, rfl⟩ := List.isPrefixOf_iff_prefix.mp h
    exact hq (hc s)
  · have h : removeMost w.fs names k q = some n := h
    unfold removeMost at h
    split at h
    · cases h
    · exact h

theorem alone_rmTree {o : Tools} {p : Proc} (hm : SameMind o p w w') (hu : Untouched Z w w') (h : Clear w Z names) (hc : ∀ s, C (names ++ s)) :
    Alone Z C w (runRmTree o p w (pathOf names)) (runRmTree o p w' (pathOf names)) := by
  obtain ⟨h1, h2⟩ := lookup_here hu h p.cwd p.cwd false
  unfold runRmTree
  rw [h1, hm.says, hm.kept]
  by_cases hl : lastComponent (pathOf names) = p!"." ∨ lastComponent (pathOf names) = p!".."
  · rw [if_pos hl, if_pos hl]; exact .same hu _
  · rw [if_neg hl, if_neg hl]
    cases hr : lookup w.fs p.cwd (pathOf names) false with
    | error e =>
      simp only
      by_cases he : e = ENOENT ∨ e = ENOTDIR
      · rw [if_pos he, if_pos he]; exact .same hu _
      · rw [if_neg he, if_neg he]; exact .same hu _
    | ok x =>
      obtain ⟨l, n⟩ := x
      obtain ⟨hl, hf⟩ := h2 _ hr
      have hl : l = names := hl
      subst hl
      simp only
      by_cases hx : l = []
      · rw [if_pos hx, if_pos hx]; exact .same hu _
      · rw [if_neg hx, if_neg hx]
        by_cases hk : n.kind = .dir
        · rw [if_pos hk, if_pos hk]
          cases o.kept p w with
          | none => exact alone_removeMost hu hc
          | some k => exact alone_removeMost hu hc
        · rw [if_neg hk, if_neg hk]; exact alone_unlink hm hu (by simpa using hc [])

end
end Verif.Ops
