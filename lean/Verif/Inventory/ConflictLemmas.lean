/-
Lemmas about the detection of conflicts between groups.
-/
import Verif.Inventory.LoadProps

namespace Verif.Inventory

/-- What one change does to the history of each variable. -/
theorem Record.change_history {order : GroupOrder} {heap : Heap} {actor : Actor} {init : Option Wrapper} {check : Bool} {r : Record} {a x : Str} {v : Obj} (h : x ≠ a) :
    (r.change order heap actor init check a v).history x = r.history x := by
  unfold Record.change
  simp only
  split
  · simp only [if_neg h]
  · rfl

theorem Record.change_conflicts {order : GroupOrder} {heap : Heap} {actor : Actor} {init : Option Wrapper} {check : Bool} {r : Record} {a : Str} {v : Obj} :
    ∃ l, (r.change order heap actor init check a v).conflicts = r.conflicts ++ l := by
  unfold Record.change
  simp only
  split
  · exact ⟨_, rfl⟩
  · exact ⟨[], by simp⟩

def changesList (order : GroupOrder) (heap : Heap) (actor : Actor) (init : Option Wrapper) (check : Bool) (l : List (Str × Obj)) (r : Record) : Record :=
  l.foldl (fun r kv => r.change order heap actor init check kv.1 kv.2) r

theorem changesList_conflicts {order : GroupOrder} {heap : Heap} {actor : Actor} {init : Option Wrapper} {check : Bool} :
    ∀ {l : List (Str × Obj)} {r : Record}, ∃ k, (changesList order heap actor init check l r).conflicts = r.conflicts ++ k
  | [], r => ⟨[], by simp [changesList]⟩
  | kv :: l, r => by
    obtain ⟨k, hk⟩ := changesList_conflicts (order := order) (heap := heap) (actor := actor) (init := init) (check := check) (l := l)
      (r := r.change order heap actor init check kv.1 kv.2)
    obtain ⟨k', hk'⟩ := Record.change_conflicts (order := order) (heap := heap) (actor := actor) (init := init) (check := check) (r := r) (a := kv.1) (v := kv.2)
    refine ⟨k' ++ k, ?_⟩
    rw [changesList, List.foldl_cons]
    rw [changesList] at hk
    rw [hk, hk', List.append_assoc]

theorem changesList_absent {order : GroupOrder} {heap : Heap} {actor : Actor} {init : Option Wrapper} {check : Bool} {x : Str} :
    ∀ {l : List (Str × Obj)} {r : Record}, x ∉ l.map (·.1) → (changesList order heap actor init check l r).history x = r.history x
  | [], r, _ => rfl
  | kv :: l, r, h => by
    simp only [List.map_cons, List.mem_cons, not_or] at h
    rw [changesList, List.foldl_cons]
    have := changesList_absent (order := order) (heap := heap) (actor := actor) (init := init) (check := check) (r := r.change order heap actor init check kv.1 kv.2) h.2
    rw [changesList] at this
    rw [this, Record.change_history h.1]

/-- The change to the variable `x` itself, as it is recorded if there are no conflicts. -/
structure Recorded (order : GroupOrder) (heap : Heap) (actor : Actor) (init : Option Wrapper) (x : Str) (v : Obj) (before after : List Snapshot) (r : Record) : Prop where
  /-- nothing is recorded -/
  no : ¬ (init.isNone || wasOverwritten init x v || r.wasModified heap x v) → after = before
  yes : (init.isNone || wasOverwritten init x v || r.wasModified heap x v) →
    after = before ++ [⟨actionOf (r.wasModified heap x v) (wasOverwritten init x v), actor, heap v.id⟩]

theorem changesList_present {order : GroupOrder} {heap : Heap} {actor : Actor} {init : Option Wrapper} {check : Bool} {x : Str} {v : Obj} :
    ∀ {l : List (Str × Obj)} {r : Record}, (l.map (·.1)).Nodup → (x, v) ∈ l →
      Recorded order heap actor init x v (r.history x) ((changesList order heap actor init check l r).history x) r
      ∧ ((changesList order heap actor init check l r).conflicts = [] → check = true → init.isSome →
        (wasOverwritten init x v || r.wasModified heap x v) →
        conflictsWith order (r.history x) ⟨actionOf (r.wasModified heap x v) (wasOverwritten init x v), actor, heap v.id⟩ = [])
  | [], r, _, h => by simp at h
  | (a, u) :: l, r, hn, h => by
    simp only [List.map_cons, List.nodup_cons] at hn
    rcases List.mem_cons.mp h with h | h0
    · cases h
      have hab := changesList_absent (order := order) (heap := heap) (actor := actor) (init := init) (check := check)
        (r := r.change order heap actor init check x v) hn.1
      have hcf := changesList_conflicts (order := order) (heap := heap) (actor := actor) (init := init) (check := check) (l := l)
        (r := r.change order heap actor init check x v)
      rw [changesList] at hab hcf ⊢
      simp only [List.foldl_cons]
      refine ⟨⟨fun hno => ?_, fun hyes => ?_⟩, fun hc hch hi hor => ?_⟩
      · rw [hab]
        unfold Record.change
        simp only
        rw [if_neg hno]
      · rw [hab]
        unfold Record.change
        simp only
        rw [if_pos hyes]
        simp
      · obtain ⟨k, hk⟩ := hcf
        rw [hk] at hc
        have hc := (List.append_eq_nil_iff.mp hc).1
        unfold Record.change at hc
        simp only at hc
        rw [if_pos (by cases init with | none => rfl | some w => simpa using hor)] at hc
        simp only [hch, hi, Bool.and_self, if_true] at hc
        have hc := (List.append_eq_nil_iff.mp hc).2
        exact List.map_eq_nil_iff.mp hc
    · have hx : x ≠ a := by
        rintro rfl
        exact hn.1 (List.mem_map.mpr ⟨(_, v), h0, rfl⟩)
      have ih := changesList_present (order := order) (heap := heap) (actor := actor) (init := init) (check := check)
        (r := r.change order heap actor init check a u) hn.2 h0
      have hh := Record.change_history (order := order) (heap := heap) (actor := actor) (init := init) (check := check) (r := r) (a := a) (v := u) hx
      have hw : (r.change order heap actor init check a u).wasModified heap x v = r.wasModified heap x v := by
        unfold Record.wasModified Record.previous
        rw [hh]
      rw [hh, hw] at ih
      rw [changesList] at ih ⊢
      simp only [List.foldl_cons]
      refine ⟨⟨fun hno => ih.1.no (by rw [hw]; exact hno), fun hyes => ?_⟩, ih.2⟩
      have := ih.1.yes (by rw [hw]; exact hyes)
      rw [hw] at this
      exact this

theorem declVars_mem {decl : HostDecl} {x : Str} {u : Obj} (h : (declVars decl).get x = some u) : (x, u) ∈ decl.vars := by
  have : ∀ (l : List (Str × Obj)) (d : Vars), (l.foldl (fun d kv => d.set kv.1 kv.2) d).get x = some u → (x, u) ∈ l ∨ d.get x = some u := by
    intro l
    induction l with
    | nil => intro d h; exact .inr h
    | cons kv l ih =>
      intro d h
      rcases ih _ h with h | h
      · exact .inl (by simp [h])
      · rw [Vars.get_set] at h
        split at h
        · next he => cases h; subst he; exact .inl (by simp)
        · exact .inr h
  rcases this _ _ h with h | h
  · exact h
  · cases h

/-- The invariant of the loop over groups. `done` are the groups that were loaded. -/
structure LoopInv (src : Sources) (d : Declared) (decl : HostDecl) (x : Str) (own : Str → Option Obj) (done : List Str) (l : Loading) : Prop where
  /-- Where the value comes from. -/
  value : ∀ u, l.initializer.exported.get x = some u → (∃ g ∈ done, own g = some u) ∨ (x, u) ∈ decl.vars ∨ src.inventory.exported.get x = some u
  /-- The groups that set it are recorded. -/
  recorded : ∀ g ∈ done, (own g).isSome → ∃ s ∈ l.record.history x, s.actor = .group g
  /-- If something is recorded, it is defined. -/
  defined : l.initializer.exported.get x = none → l.record.history x = []

theorem exported_get {w : Wrapper} {x : Str} {u : Obj} (hx : Variable x) (h : w.exported.get x = some u) : w.get x = some u := by
  unfold Wrapper.exported at h
  rw [Vars.get_filter] at h
  obtain ⟨h1, _⟩ := Option.filter_eq_some_iff.mp h
  rw [Wrapper.get_public hx.isPublic, h1]
  rfl

theorem loopInv_early {src : Sources} {c : Consts} {d : Declared} {decl : HostDecl} {x : Str} {own : Str → Option Obj} (ho : OwnDefinitions src d decl x own) (heap : Heap) :
    LoopInv src d decl x own [] ⟨heap, earlyExplicits c (declVars decl), earlyRecord d.order heap c (declVars decl)⟩ := by
  have hx := ho.isVariable
  refine ⟨fun u h => ?_, fun g hg => by simp at hg, fun h => ?_⟩
  · simp only [early_exported hx, if_neg ho.notHost, Option.or_none] at h
    obtain ⟨h1, _⟩ := Option.filter_eq_some_iff.mp h
    exact .inr (.inl (declVars_mem h1))
  · simp only [early_exported hx, if_neg ho.notHost, Option.or_none] at h
    have hnone : (declVars decl).get x = none := by
      cases hd : (declVars decl).get x with
      | none => rfl
      | some u =>
        rw [hd] at h
        have := (ho.declared u (declVars_mem hd)).1
        simp [Option.filter, this] at h
    simp only [earlyRecord]
    have := changesList_absent (order := d.order) (heap := heap) (actor := .group p!"early-explicits") (init := none) (check := true) (x := x) (l := (declVars decl).items)
      (r := ({} : Record).change d.order heap (.group p!"early-explicits") none true p!"host" c.declaration) (by
        intro hm
        obtain ⟨⟨a, u⟩, h1, rfl⟩ := List.mem_map.mp hm
        rw [Vars.mem_iff_get.mp h1] at hnone
        cases hnone)
    rw [Record.changes]
    rw [changesList] at this
    rw [this, Record.change_history ho.notHost]

theorem loopInv_next {src : Sources} {c : Consts} {d : Declared} {decl : HostDecl} {x : Str} {own : Str → Option Obj} (ho : OwnDefinitions src d decl x own)
    (hd : ∀ g gd, (g, gd) ∈ d.groups → gd.name = g) {done : List Str} {l l' : Loading} {g : Str} (hg : g ∈ decl.groups) (hdone : g ∉ done)
    (h : loadNext src c d l g = .ok l') (hi : LoopInv src d decl x own done l) :
    LoopInv src d decl x own (done ++ [g]) l'
    ∧ (l'.record.conflicts = [] → (own g).isSome → ∀ g1 ∈ done, (own g1).isSome → d.order.ranksMax g1 < d.order.ranksMin g) := by
  have hx := ho.isVariable
  obtain ⟨gd, h1, h2, h3⟩ := loadNext_ok h
  obtain ⟨vs, vs', h4, h5, h6⟩ := loadNext_get hd h hx
  change Ran (groupModule src d g) l.heap vs l'.heap vs' at h4
  have hinit : ∀ v, l'.initializer.exported.get x = some v → (x, v) ∈ l'.initializer.exported.items := fun v hv => Vars.mem_iff_get.mpr hv
  rw [Record.changes] at h3
  -- the value that is exported
  cases hown : own g with
  | none =>
    have hk := h4.keeps (ho.keeps g hg hown)
    rw [hk, h5] at h6
    have hall : ∀ u, (allVars src c g).get x = some u → src.inventory.exported.get x = some u := by
      intro u hu
      rw [allVars_get, if_neg ho.notManaged, Option.or_none] at hu
      split at hu
      · exact hu
      · cases hu
    refine ⟨⟨fun u hu => ?_, fun g' hg' hs => ?_, fun hn => ?_⟩, fun _ hs => by simp at hs⟩
    · rw [h6] at hu
      obtain ⟨hu, _⟩ := Option.filter_eq_some_iff.mp hu
      cases he : l.initializer.exported.get x with
      | some w =>
        rw [he] at hu
        cases hu
        rcases hi.value u he with ⟨g', hg', h'⟩ | h' | h'
        · exact .inl ⟨g', by simp [hg'], h'⟩
        · exact .inr (.inl h')
        · exact .inr (.inr h')
      | none =>
        rw [he] at hu
        exact .inr (.inr (hall u hu))
    · rcases List.mem_append.mp hg' with hg' | hg'
      · obtain ⟨s, hs1, hs2⟩ := hi.recorded g' hg' hs
        refine ⟨s, ?_, hs2⟩
        rw [h3]
        cases he : l'.initializer.exported.get x with
        | none =>
          have := changesList_absent (order := d.order) (heap := l'.heap) (actor := .group g) (init := some l.initializer) (check := true) (x := x)
            (l := l'.initializer.exported.items) (r := l.record) (by
              intro hm
              obtain ⟨⟨a, u⟩, h1, rfl⟩ := List.mem_map.mp hm
              rw [Vars.mem_iff_get.mp h1] at he
              cases he)
          rw [changesList] at this
          rw [this]
          exact hs1
        | some v =>
          have hp := changesList_present (order := d.order) (heap := l'.heap) (actor := .group g) (init := some l.initializer) (check := true) (r := l.record)
            l'.initializer.exported.nodup (hinit v he)
          rw [changesList] at hp
          by_cases hc : ((some l.initializer).isNone || wasOverwritten (some l.initializer) x v || l.record.wasModified l'.heap x v) = true
          · rw [hp.1.yes hc]
            simp [hs1]
          · rw [hp.1.no hc]
            exact hs1
      · simp only [List.mem_singleton] at hg'
        subst hg'
        rw [hown] at hs
        simp at hs
    · have hex : l.initializer.exported.get x = none := by
        cases he : l.initializer.exported.get x with
        | none => rfl
        | some u =>
          rw [he] at h6
          rw [h6] at hn
          simp [Option.filter, exported_not_module he] at hn
      rw [h3]
      have := changesList_absent (order := d.order) (heap := l'.heap) (actor := .group g) (init := some l.initializer) (check := true) (x := x)
        (l := l'.initializer.exported.items) (r := l.record) (by
          intro hm
          obtain ⟨⟨a, u⟩, h1, rfl⟩ := List.mem_map.mp hm
          rw [Vars.mem_iff_get.mp h1] at hn
          cases hn)
      rw [changesList] at this
      rw [this]
      exact hi.defined hex
  | some v =>
    have hs := h4.sets (ho.sets g hg v hown)
    rw [hs] at h6
    have hval : l'.initializer.exported.get x = some v := by
      rw [h6]
      simp [Option.filter, ho.notModule g hg v hown]
    have hnn : l'.heap v.id ≠ 0 := by
      obtain ⟨code, hc, _⟩ := ho.sets g hg v hown
      rw [hc] at h4
      exact ho.notNone g hg v hown code hc _ _ _ _ h4
    have hp := changesList_present (order := d.order) (heap := l'.heap) (actor := .group g) (init := some l.initializer) (check := true) (r := l.record)
      l'.initializer.exported.nodup (hinit v hval)
    rw [changesList, ← h3] at hp
    have hover : ∀ u, l.initializer.exported.get x = some u → wasOverwritten (some l.initializer) x v = true := by
      intro u hu
      unfold wasOverwritten
      simp only [exported_get hx hu]
      have : u.id ≠ v.id := by
        rcases hi.value u hu with ⟨g', hg', h'⟩ | h' | h'
        · refine ho.apart g' g u v h' hown ?_
          rintro rfl
          exact hdone hg'
        · exact (ho.declared u h').2 g v hown
        · exact ho.inventory u h' g v hown
      simpa using this
    have hrec : ((some l.initializer).isNone || wasOverwritten (some l.initializer) x v || l.record.wasModified l'.heap x v) = true := by
      cases he : l.initializer.exported.get x with
      | some u => simp [hover u he]
      | none =>
        have : l.record.wasModified l'.heap x v = true := by
          unfold Record.wasModified Record.previous
          rw [hi.defined he]
          simpa using fun h => hnn h.symm
        simp [this]
    refine ⟨⟨fun u hu => ?_, fun g' hg' hs' => ?_, fun hn => by rw [hval] at hn; cases hn⟩, fun hc _ g1 hg1 hs1 => ?_⟩
    · rw [hval] at hu
      cases hu
      exact .inl ⟨g, by simp, hown⟩
    · rw [hp.1.yes hrec]
      rcases List.mem_append.mp hg' with hg' | hg'
      · obtain ⟨s, hs1, hs2⟩ := hi.recorded g' hg' hs'
        exact ⟨s, by simp [hs1], hs2⟩
      · simp only [List.mem_singleton] at hg'
        exact ⟨_, List.mem_append.mpr (.inr (List.mem_singleton.mpr rfl)), by rw [hg']⟩
    · obtain ⟨s, hs2, hs3⟩ := hi.recorded g1 hg1 hs1
      have hdef : ∃ u, l.initializer.exported.get x = some u := by
        cases he : l.initializer.exported.get x with
        | some u => exact ⟨u, rfl⟩
        | none =>
          rw [hi.defined he] at hs2
          simp at hs2
      obtain ⟨u, hu⟩ := hdef
      have ho' := hover u hu
      have hcf := hp.2 hc rfl rfl (by simp [ho'])
      unfold conflictsWith at hcf
      rw [List.filter_eq_nil_iff] at hcf
      have := hcf s hs2
      rw [ho', hs3] at this
      simp only [actionOf, Bool.not_true, Bool.and_false, Bool.false_eq_true, if_false] at this
      have hne : ((Action.definition : Action) == .modification) = false := rfl
      rw [hne] at this
      simp only [Bool.and_false, Bool.not_false, Bool.and_true, decide_eq_true_eq] at this
      have : ¬ d.order.ranksMin g ≤ d.order.ranksMax g1 := this
      omega

theorem loadGroups_conflicts {src : Sources} {c : Consts} {d : Declared} : ∀ {gs : List Str} {l l' : Loading}, loadGroups src c d l gs = .ok l' →
    l'.record.conflicts = [] → l.record.conflicts = []
  | [], l, l', h, hc => by cases h; exact hc
  | g :: gs, l, l', h, hc => by
    obtain ⟨m, h1, h2⟩ := loadGroups_cons h
    have hm := loadGroups_conflicts h2 hc
    obtain ⟨_, _, _, h3⟩ := loadNext_ok h1
    rw [h3, Record.changes] at hm
    obtain ⟨k, hk⟩ := changesList_conflicts (order := d.order) (heap := m.heap) (actor := .group g) (init := some l.initializer) (check := true) (l := m.initializer.exported.items) (r := l.record)
    rw [changesList] at hk
    rw [hk] at hm
    exact (List.append_eq_nil_iff.mp hm).1

theorem loadGroups_inv {src : Sources} {c : Consts} {d : Declared} {decl : HostDecl} {x : Str} {own : Str → Option Obj} (ho : OwnDefinitions src d decl x own)
    (hd : ∀ g gd, (g, gd) ∈ d.groups → gd.name = g) : ∀ {gs done : List Str} {l l' : Loading}, (∀ g ∈ gs, g ∈ decl.groups) → (done ++ gs).Nodup →
    loadGroups src c d l gs = .ok l' → l'.record.conflicts = [] → LoopInv src d decl x own done l →
    ∀ g1 g2, (own g1).isSome → (own g2).isSome → g2 ∈ gs → InOrder (done ++ gs) g1 g2 → d.order.ranksMax g1 < d.order.ranksMin g2
  | [], done, l, l', _, _, _, _, _, g1, g2, _, _, hg, _ => by simp at hg
  | g :: gs, done, l, l', hgs, hnd, h, hc, hi, g1, g2, hs1, hs2, hg2, hord => by
    obtain ⟨m, h1, h2⟩ := loadGroups_cons h
    have hgd : g ∉ done := fun h => (List.nodup_append.mp hnd).2.2 _ h _ (by simp) rfl
    obtain ⟨h3, h4⟩ := loopInv_next ho hd (hgs g (by simp)) hgd h1 hi
    by_cases he : g2 = g
    · subst he
      refine h4 (loadGroups_conflicts h2 hc) hs2 g1 ?_ hs1
      obtain ⟨xs, ys, zs, hl⟩ := hord
      have hdone : done = xs ++ g1 :: ys := by
        have : done ++ g2 :: gs = (xs ++ g1 :: ys) ++ g2 :: zs := hl
        have hn' : g2 ∉ xs ++ g1 :: ys := by
          rw [this] at hnd
          exact fun h => (List.nodup_append.mp hnd).2.2 _ h _ (by simp) rfl
        rcases List.append_eq_append_iff.mp this with ⟨a, h5, h6⟩ | ⟨a, h5, h6⟩
        · cases a with
          | nil => simpa using h5.symm
          | cons b a =>
            simp only [List.cons_append, List.cons.injEq] at h6
            exact absurd (h5 ▸ (by simp [h6.1])) hn'
        · cases a with
          | nil => simpa using h5
          | cons b a =>
            simp only [List.cons_append, List.cons.injEq] at h6
            exact absurd (h5 ▸ (by simp [h6.1])) hgd
      rw [hdone]
      simp
    · refine loadGroups_inv ho hd (fun g' h' => hgs g' (by simp [h'])) (by simpa using hnd) h2 hc h3 g1 g2 hs1 hs2 ?_ (by simpa using hord)
      rcases List.mem_cons.mp hg2 with h | h
      · exact absurd h he
      · exact h

end Verif.Inventory
