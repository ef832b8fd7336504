/-
Lemmas about the instantiation of hosts.
-/
import Verif.Inventory.LoadSpec
import Verif.Inventory.WrapperLemmas
import Verif.Inventory.DeclareLemmas

namespace Verif.Inventory

theorem Ran.keeps {b : Option Body} {heap heap' : Heap} {g g' : Vars} {x : Str} (h : Ran b heap g heap' g') (hk : Keeps b x) : g'.get x = g.get x := by
  cases b with
  | none => rw [h.2]
  | some code => exact hk code rfl _ _ _ _ h

theorem Ran.sets {b : Option Body} {heap heap' : Heap} {g g' : Vars} {x : Str} {v : Obj} (h : Ran b heap g heap' g') (hs : Sets b x v) : g'.get x = some v := by
  obtain ⟨code, rfl, hs⟩ := hs
  exact hs _ _ _ _ h

theorem moduleFile_ok {src : Sources} {default b : Option Body} {file : Option Str} (h : moduleFile src default file = .ok b) : b = bodyOf src default file := by
  unfold moduleFile at h
  unfold bodyOf
  cases file with
  | none => cases h; rfl
  | some f =>
    simp only at h ⊢
    cases hf : src.file f with
    | none => rw [hf] at h; cases h
    | some b' => rw [hf] at h; cases h; rfl

theorem execModule_ok {w w' : Wrapper} {m : Mod} {b : Option Body} {heap heap' : Heap} (hm : w.module = some m) (h : w.execModule b heap = .ok (heap', w')) :
    ∃ g', Ran b heap m.attrs heap' g' ∧ w' = { w with module := some { m with attrs := g' } } := by
  unfold Wrapper.execModule at h
  rw [hm] at h
  cases b with
  | none =>
    cases h
    refine ⟨m.attrs, ⟨rfl, rfl⟩, ?_⟩
    cases w
    cases hm
    rfl
  | some code =>
    simp only [bind, Except.bind] at h
    cases hc : code heap m.attrs with
    | error e => rw [hc] at h; cases h
    | ok r =>
      obtain ⟨h1, g'⟩ := r
      rw [hc] at h
      cases h
      exact ⟨g', hc, rfl⟩

theorem groupWrap (n v : Obj) (f : Str → Obj) : Wrapper.wrapCopying { cls := groupCls, attrs := ({} : Vars).set p!"name" n, classAttr := f } { obj := v }
    = { cls := groupCls, attrs := ({} : Vars).set p!"name" n, classAttr := f, module := some { obj := v, attrs := ({} : Vars).set p!"name" n } } := rfl

/-- A wrapper of a group after it was loaded. -/
structure GroupWrapped (w : Wrapper) (g : Vars) : Prop where
  cls : w.cls = groupCls
  module : ∃ m, w.module = some m ∧ m.attrs = g
  attrs : ∀ x, Variable x → w.attrs.get x = none

theorem GroupWrapped.vars {w : Wrapper} {g : Vars} (h : GroupWrapped w g) {x : Str} (hx : Variable x) : w.vars.get x = g.get x := by
  obtain ⟨m, h1, rfl⟩ := h.module
  rw [Wrapper.get_vars h1, Wrapper.get_dict hx.notModule, h.attrs x hx, Option.or_none]

theorem groupCls_exported {x : Str} (hx : Variable x) (v : Obj) : groupCls.isExported x v = !v.isModule := by
  unfold Cls.isExported groupCls
  rw [hx.isPublic]
  have : (x == p!"name") = false := by simpa using hx.notName
  simp [this, hx.notName]

theorem GroupWrapped.exported {w : Wrapper} {g : Vars} (h : GroupWrapped w g) {x : Str} (hx : Variable x) : w.exported.get x = (g.get x).filter (fun v => !v.isModule) := by
  unfold Wrapper.exported
  rw [Vars.get_filter, h.vars hx, h.cls]
  congr 1
  funext v
  exact groupCls_exported hx v

/-- What `load_group` does. -/
theorem loadGroup_ok {src : Sources} {c : Consts} {gd : GroupDecl} {init w : Wrapper} {heap heap' : Heap} (h : loadGroup src c gd init heap = .ok (heap', w)) :
    ∃ g g', Ran (bodyOf src (src.groupFile gd.name) gd.file) heap g heap' g' ∧ GroupWrapped w g'
      ∧ ∀ x, Variable x → g.get x = (init.exported.get x).or ((allVars src c gd.name).get x) := by
  unfold loadGroup at h
  simp only [bind, Except.bind] at h
  cases hb : moduleFile src (src.groupFile gd.name) gd.file with
  | error e => rw [hb] at h; cases h
  | ok b =>
    rw [hb] at h
    simp only at h
    rw [groupWrap] at h
    simp only [Wrapper.initModule] at h
    obtain ⟨g', h1, rfl⟩ := execModule_ok rfl h
    rw [← moduleFile_ok hb]
    refine ⟨_, g', h1, ⟨rfl, ⟨_, rfl, rfl⟩, fun x hx => ?_⟩, fun x hx => ?_⟩
    · simp only [Vars.get_set, Vars.get_empty, if_neg hx.notName]
    · simp only [Vars.get_update, Vars.get_set, Vars.get_empty, if_neg hx.notName, Option.or_none]

theorem loadNext_ok {src : Sources} {c : Consts} {d : Declared} {l l' : Loading} {g : Str} (h : loadNext src c d l g = .ok l') :
    ∃ gd, d.groups.lookup g = some gd ∧ loadGroup src c gd l.initializer l.heap = .ok (l'.heap, l'.initializer)
      ∧ l'.record = l.record.changes d.order l'.heap (.group g) (some l.initializer) true l'.initializer.exported := by
  unfold loadNext at h
  cases hg : d.groups.lookup g with
  | none => rw [hg] at h; cases h
  | some gd =>
    rw [hg] at h
    simp only [bind, Except.bind] at h
    cases hl : loadGroup src c gd l.initializer l.heap with
    | error e => rw [hl] at h; cases h
    | ok r =>
      obtain ⟨h1, w⟩ := r
      rw [hl] at h
      cases h
      exact ⟨gd, rfl, hl, rfl⟩

/-- The variables given to the group, and those it leaves. -/
theorem loadNext_get {src : Sources} {c : Consts} {d : Declared} (hd : ∀ g gd, (g, gd) ∈ d.groups → gd.name = g) {l l' : Loading} {g : Str}
    (h : loadNext src c d l g = .ok l') {x : Str} (hx : Variable x) :
    ∃ vs vs', Ran ((d.groups.lookup g).bind fun gd => bodyOf src (src.groupFile g) gd.file) l.heap vs l'.heap vs'
      ∧ vs.get x = (l.initializer.exported.get x).or ((allVars src c g).get x) ∧ l'.initializer.exported.get x = (vs'.get x).filter fun v => !v.isModule := by
  obtain ⟨gd, h1, h2, h3⟩ := loadNext_ok h
  obtain ⟨vs, vs', h4, h5, h6⟩ := loadGroup_ok h2
  have hn := hd g gd (lookup_mem h1)
  rw [hn] at h4 h6
  refine ⟨vs, vs', ?_, h6 x hx, h5.exported hx⟩
  rw [h1]
  exact h4

theorem loadGroups_append {src : Sources} {c : Consts} {d : Declared} : ∀ {gs gs' : List Str} {l l' : Loading},
    loadGroups src c d l (gs ++ gs') = .ok l' → ∃ m, loadGroups src c d l gs = .ok m ∧ loadGroups src c d m gs' = .ok l'
  | [], gs', l, l', h => ⟨l, rfl, h⟩
  | g :: gs, gs', l, l', h => by
    rw [List.cons_append, loadGroups] at h
    simp only [bind, Except.bind] at h
    cases hn : loadNext src c d l g with
    | error e => rw [hn] at h; cases h
    | ok m =>
      rw [hn] at h
      obtain ⟨k, h1, h2⟩ := loadGroups_append h
      refine ⟨k, ?_, h2⟩
      rw [loadGroups]
      simp only [bind, Except.bind, hn]
      exact h1

theorem loadGroups_cons {src : Sources} {c : Consts} {d : Declared} {g : Str} {gs : List Str} {l l' : Loading} (h : loadGroups src c d l (g :: gs) = .ok l') :
    ∃ m, loadNext src c d l g = .ok m ∧ loadGroups src c d m gs = .ok l' := by
  rw [loadGroups] at h
  simp only [bind, Except.bind] at h
  cases hn : loadNext src c d l g with
  | error e => rw [hn] at h; cases h
  | ok m => rw [hn] at h; exact ⟨m, rfl, h⟩

theorem exported_not_module {w : Wrapper} {x : Str} {v : Obj} (h : w.exported.get x = some v) : v.isModule = false := by
  unfold Wrapper.exported at h
  rw [Vars.get_filter] at h
  obtain ⟨_, h2⟩ := Option.filter_eq_some_iff.mp h
  unfold Cls.isExported at h2
  simp only [Bool.not_eq_true', Bool.or_eq_false_iff] at h2
  exact h2.2

/-- A variable that is defined and not touched later stays the same. -/
theorem loadGroups_keep {src : Sources} {c : Consts} {d : Declared} (hd : ∀ g gd, (g, gd) ∈ d.groups → gd.name = g) {x : Str} (hx : Variable x) {v : Obj} :
    ∀ {gs : List Str} {l l' : Loading}, loadGroups src c d l gs = .ok l' →
      (∀ g ∈ gs, Keeps ((d.groups.lookup g).bind fun gd => bodyOf src (src.groupFile g) gd.file) x) →
      l.initializer.exported.get x = some v → l'.initializer.exported.get x = some v
  | [], l, l', h, _, hv => by cases h; exact hv
  | g :: gs, l, l', h, hk, hv => by
    obtain ⟨m, h1, h2⟩ := loadGroups_cons h
    obtain ⟨vs, vs', h3, h4, h5⟩ := loadNext_get hd h1 hx
    refine loadGroups_keep hd hx h2 (fun g' hg' => hk g' (by simp [hg'])) ?_
    rw [h5, h3.keeps (hk g (by simp)), h4, hv]
    simp [exported_not_module hv, Option.filter]

/-- A variable that is not defined anywhere is not defined. -/
theorem loadGroups_undefined {src : Sources} {c : Consts} {d : Declared} (hd : ∀ g gd, (g, gd) ∈ d.groups → gd.name = g) {x : Str} (hx : Variable x) :
    ∀ {gs : List Str} {l l' : Loading}, loadGroups src c d l gs = .ok l' →
      (∀ g ∈ gs, Keeps ((d.groups.lookup g).bind fun gd => bodyOf src (src.groupFile g) gd.file) x) →
      (∀ g ∈ gs, (allVars src c g).get x = none) →
      l.initializer.exported.get x = none → l'.initializer.exported.get x = none
  | [], l, l', h, _, _, hv => by cases h; exact hv
  | g :: gs, l, l', h, hk, ha, hv => by
    obtain ⟨m, h1, h2⟩ := loadGroups_cons h
    obtain ⟨vs, vs', h3, h4, h5⟩ := loadNext_get hd h1 hx
    refine loadGroups_undefined hd hx h2 (fun g' hg' => hk g' (by simp [hg'])) (fun g' hg' => ha g' (by simp [hg'])) ?_
    rw [h5, h3.keeps (hk g (by simp)), h4, hv, ha g (by simp)]
    rfl

theorem foldl_copyAttr (l : List Str) : ∀ {w : Wrapper} {m : Mod}, w.module = some m → ∃ g, (l.foldl Wrapper.copyAttr w) = { w with module := some { m with attrs := g } }
    ∧ ∀ x, x ∉ l → g.get x = m.attrs.get x := by
  induction l with
  | nil =>
    intro w m hm
    refine ⟨m.attrs, ?_, fun x _ => rfl⟩
    cases w
    cases hm
    rfl
  | cons a l ih =>
    intro w m hm
    rw [List.foldl_cons]
    have : ∃ g, w.copyAttr a = { w with module := some { m with attrs := g } } ∧ ∀ x, x ≠ a → g.get x = m.attrs.get x := by
      unfold Wrapper.copyAttr
      rw [hm]
      cases w.get a with
      | none =>
        refine ⟨m.attrs, ?_, fun x _ => rfl⟩
        cases w
        cases hm
        rfl
      | some v => exact ⟨_, rfl, fun x hx => by rw [Vars.get_set, if_neg hx]⟩
    obtain ⟨g, h1, h2⟩ := this
    rw [h1]
    obtain ⟨g', h3, h4⟩ := ih (w := { w with module := some { m with attrs := g } }) rfl
    refine ⟨g', h3, fun x hx => ?_⟩
    simp only [List.mem_cons, not_or] at hx
    rw [h4 x hx.2]
    exact h2 x hx.1

/-- What `load_host` does. -/
theorem loadHost_ok {src : Sources} {c : Consts} {name : Str} {decl : HostDecl} {init w : Wrapper} {heap heap' : Heap}
    (h : loadHost src c name decl init heap = .ok (heap', w)) :
    ∃ g g' m, Ran (bodyOf src (src.hostFile name) decl.file) heap g heap' g' ∧ w.cls = hostCls ∧ w.module = some m ∧ m.attrs = g' ∧ w.attrs = hostFields c name
      ∧ (∀ x v, init.exported.get x = some v → g.get x = some v)
      ∧ ∀ x, x ∉ hostCls.annotations → x ∉ hostCls.functions → g.get x = init.exported.get x := by
  unfold loadHost at h
  simp only [bind, Except.bind] at h
  cases hb : moduleFile src (src.hostFile name) decl.file with
  | error e => rw [hb] at h; cases h
  | ok b =>
    rw [hb] at h
    simp only at h
    unfold Wrapper.wrapCopying at h
    obtain ⟨g0, h1, h2⟩ := foldl_copyAttr ((hostCls.annotations.filter fun a => !Py.startsWith a p!"_") ++ hostCls.functions)
      (w := { cls := hostCls, attrs := hostFields c name, classAttr := c.field name, module := some { obj := { id := c.hostModule, isModule := b.isSome } } }) rfl
    simp only at h
    rw [h1] at h
    simp only [Wrapper.initModule] at h
    obtain ⟨g', h3, rfl⟩ := execModule_ok rfl h
    rw [← moduleFile_ok hb]
    refine ⟨_, g', _, h3, rfl, rfl, rfl, rfl, fun x v hv => ?_, fun x hx hf => ?_⟩
    · rw [Vars.get_update, hv]; rfl
    · simp only [Vars.get_update]
      rw [h2 x (by
        rw [List.mem_append, List.mem_filter]
        rintro (h | h)
        · exact hx h.1
        · exact hf h)]
      simp

theorem instanciateHost_ok {src : Sources} {c : Consts} {d : Declared} {heap heap' : Heap} {name : Str} {decl : HostDecl} {h : Host}
    (hi : instanciateHost src c d heap name decl = .ok (heap', h)) :
    ∃ l, loadGroups src c d ⟨heap, earlyExplicits c (declVars decl), earlyRecord d.order heap c (declVars decl)⟩ (groupsInOrder d decl) = .ok l
      ∧ l.record.conflicts = [] ∧ loadHost src c name decl l.initializer l.heap = .ok (heap', h.wrapper) := by
  unfold instanciateHost at hi
  simp only [bind, Except.bind] at hi
  split at hi
  · cases hi
  · next l hl =>
    refine ⟨l, hl, ?_⟩
    split at hi
    · cases hi
    · next hc =>
      have : l.record.conflicts = [] := by
        cases hcs : l.record.conflicts with
        | nil => rfl
        | cons x y => rw [hcs] at hc; simp at hc
      refine ⟨this, ?_⟩
      split at hi
      · cases hi
      · next r hr =>
        obtain ⟨h1, w⟩ := r
        cases hi
        exact hr

end Verif.Inventory
