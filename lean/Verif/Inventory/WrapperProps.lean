/-
C47, C67 and C68: attributes of wrappers, the variables of a host, and the variables of a template.
-/
import Verif.Inventory.WrapperLemmas
import Verif.Inventory.NamesLemmas

namespace Verif.Inventory

/-! ### C67 -/

/-- C67: an attribute that is set on a wrapper is read back, for all names that do not start with a single underscore. -/
theorem C67_read_back_partial (w : Wrapper) (a : Str) (v : Obj) (ha : Py.startsWith a p!"_" = true → Py.startsWith a p!"__" = true)
    (hm : a ≠ p!"module") : (w.set a v).get a = some v := by
  unfold Wrapper.set Wrapper.get
  cases hw : w.module with
  | none => simp [Wrapper.getRaw, Wrapper.get_dict hm, Vars.get_set]
  | some m =>
    simp only
    by_cases h1 : Py.startsWith a p!"__" = true
    · simp only [h1, Bool.true_or, if_true]
      have : Py.startsWith a p!"_" = true := by
        unfold Py.startsWith at h1 ⊢
        match a, h1 with
        | [x], h1 => simp [List.isPrefixOf] at h1
        | x :: y :: l, h1 => simp only [List.isPrefixOf, Bool.and_eq_true] at h1 ⊢; exact ⟨h1.1, trivial⟩
      simp [hw, this, Wrapper.getRaw, Wrapper.get_dict hm, Vars.get_set]
    · have h2 : Py.startsWith a p!"_" = false := by
        cases h : Py.startsWith a p!"_" with
        | false => rfl
        | true => exact absurd (ha h) h1
      simp only [h1, Bool.false_or]
      cases hg : m.attrs.get a with
      | none => simp [hw, hg, Wrapper.getRaw, Wrapper.get_dict hm, Vars.get_set]
      | some u => simp [h2, Vars.get_set]

/-- C67: the other attributes are not affected. -/
theorem C67_others (w : Wrapper) (a b : Str) (v : Obj) (hab : b ≠ a) (hm : a ≠ p!"module") : (w.set a v).get b = w.get b := by
  have hdict : ∀ w' : Wrapper, w'.module.map (·.obj) = w.module.map (·.obj) → w'.attrs.get b = w.attrs.get b → w'.dict.get b = w.dict.get b := by
    intro w' h1 h2
    unfold Wrapper.dict
    cases hw : w.module with
    | none => rw [hw] at h1; cases hw' : w'.module with
      | none => exact h2
      | some m => rw [hw'] at h1; simp at h1
    | some m => rw [hw] at h1; cases hw' : w'.module with
      | none => rw [hw'] at h1; simp at h1
      | some m' =>
        rw [hw'] at h1
        simp only [Option.map_some, Option.some.injEq] at h1
        simp only [Vars.get_set, h1, h2]
  unfold Wrapper.set Wrapper.get
  cases hw : w.module with
  | none =>
    simp only
    rw [Wrapper.getRaw, Wrapper.getRaw, hdict _ (by simp [hw]) (by simp [Vars.get_set, hab])]
    rfl
  | some m =>
    simp only
    by_cases hc : (Py.startsWith a p!"__" || (m.attrs.get a).isNone) = true
    · rw [if_pos hc]
      simp only [hw]
      rw [Wrapper.getRaw, Wrapper.getRaw, hdict _ (by simp [hw]) (by simp [Vars.get_set, hab])]
      rfl
    · rw [if_neg hc]
      have : (m.attrs.set a v).get b = m.attrs.get b := by rw [Vars.get_set, if_neg hab]
      simp only [this]
      rw [Wrapper.getRaw, Wrapper.getRaw, hdict { w with module := some { m with attrs := m.attrs.set a v } } (by simp [hw]) rfl]
      rfl

/-- C67: what the module defines shadows what is set on the wrapper. -/
theorem C67_module_shadows (w : Wrapper) (m : Mod) (a : Str) (v : Obj) (hm : w.module = some m) (ha : Py.startsWith a p!"_" = false)
    (hv : m.attrs.get a = some v) : w.get a = some v := by
  rw [Wrapper.get_public ha, Wrapper.get_vars hm, hv]
  rfl

/-- C67 does not hold for a name with a single leading underscore: if the module defines it, it is set there, but read from the
wrapper. -/
theorem C67_read_back_refuted : ∃ (w : Wrapper) (v : Obj), (w.set p!"_x" v).get p!"_x" = none :=
  ⟨{ cls := groupCls, classAttr := fun _ => ⟨0, false⟩, module := some { obj := ⟨1, true⟩, attrs := ({} : Vars).set p!"_x" ⟨2, false⟩ } },
    ⟨3, false⟩, by decide⟩

/-! ### C68 -/

/-- C68: nothing private and no module is among the variables of a host. -/
theorem C68_no_private (host : Wrapper) (script : Option Wrapper) (a : Str) (v : Obj) (h : (varsHierarchical host script).get a = some v) :
    Py.startsWith a p!"_" = false ∧ v.isModule = false := by
  unfold varsHierarchical at h
  simp only [Vars.get_update, Vars.get_filter] at h
  cases hh : (host.vars.get a).filter (fun v => !Py.startsWith a p!"_" && !v.isModule) with
  | some u =>
    rw [hh] at h
    cases h
    obtain ⟨_, h2⟩ := Option.filter_eq_some_iff.mp hh
    simpa using h2
  | none =>
    rw [hh, Option.none_or] at h
    cases script with
    | none => simp at h
    | some s =>
      simp only [Wrapper.exported, Vars.get_filter] at h
      obtain ⟨_, h2⟩ := Option.filter_eq_some_iff.mp h
      unfold Cls.isExported at h2
      simp only [Bool.not_eq_true', Bool.or_eq_false_iff] at h2
      exact ⟨h2.1.1.1, h2.2⟩

theorem host_ofClass {host : Wrapper} {a : Str} (hc : host.cls = hostCls) (ha : Py.startsWith a p!"_" = false)
    (hset : a ∈ hostNames → host.vars.get a ≠ none) (hwm : a ∉ moduleNames) (hv : host.vars.get a = none) : host.ofClass a = none := by
  unfold Wrapper.ofClass
  rw [hc, if_neg]
  rintro (h | h | h)
  · exact hset ((mem_hostCls ha).mp (.inr (.inl h))) hv
  · exact hset ((mem_hostCls ha).mp (.inr (.inr h))) hv
  · exact hwm (mem_wrapperMethods.mp h)

/-- C68: the variables of a host are those found by attribute access on the host, except for methods, as long as the value on the
host is not a module. -/
theorem C68_agree_partial (host script : Wrapper) (a : Str) (hc : script.cls = scriptCls) (ha : Py.startsWith a p!"_" = false)
    (hh : host.cls = hostCls) (hset : a ∈ hostNames → host.vars.get a ≠ none) (hwm : a ∉ moduleNames) (hmod : ∀ v, host.vars.get a = some v → v.isModule = false) :
    (varsHierarchical host (some script)).get a = hostGet host (some script) a := by
  have hmeth := host_ofClass hh ha hset hwm
  replace hwm := mt mem_wrapperMethods.mp hwm
  unfold varsHierarchical hostGet
  simp only [Vars.get_update, Vars.get_filter, Wrapper.exported]
  rw [Wrapper.get_public ha]
  cases hh : host.vars.get a with
  | some v =>
    have := hmod v hh
    simp [ha, this, Option.filter]
  | none =>
    simp only [Option.filter_none, Option.none_or, hmeth hh]
    rw [if_neg (by simp [ha])]
    by_cases hs : a ∈ scriptCls.annotations ∨ a ∈ scriptCls.functions ∨ a ∈ scriptCls.defaults
    · rw [if_pos hs]
      rw [Option.filter_eq_none_iff]
      intro v _
      rw [hc]
      unfold Cls.isExported
      have : scriptCls.annotations.contains a = true ∨ scriptCls.functions.contains a = true ∨ scriptCls.defaults.contains a = true := by
        simpa using hs
      rcases this with h | h | h <;> rw [h] <;> simp only [Bool.or_true, Bool.true_or, Bool.not_true, Bool.false_eq_true, not_false_eq_true]
    · rw [if_neg hs]
      simp only [not_or] at hs
      rw [Wrapper.get_public ha]
      have hcl : script.ofClass a = none := by
        unfold Wrapper.ofClass
        rw [hc, if_neg (by simp [hs.2.1, hs.2.2, hwm])]
      rw [hcl, Option.or_none]
      cases hv : script.vars.get a with
      | none => rfl
      | some v =>
        simp only [Option.filter]
        have : script.cls.isExported a v = !v.isModule := by
          rw [hc]
          unfold Cls.isExported
          have h1 : scriptCls.annotations.contains a = false := by simpa using hs.1
          have h2 : scriptCls.functions.contains a = false := by simpa using hs.2.1
          have h3 : scriptCls.defaults.contains a = false := by simpa using hs.2.2
          rw [ha, h1, h2, h3]
          simp
        rw [this]
        cases v.isModule <;> rfl

/-- C68: without a script, likewise. -/
theorem C68_agree_no_script (host : Wrapper) (a : Str) (ha : Py.startsWith a p!"_" = false) (hc : host.cls = hostCls)
    (hset : a ∈ hostNames → host.vars.get a ≠ none) (hwm : a ∉ moduleNames)
    (hmod : ∀ v, host.vars.get a = some v → v.isModule = false) : (varsHierarchical host none).get a = hostGet host none a := by
  have hmeth := host_ofClass hc ha hset hwm
  unfold varsHierarchical hostGet
  simp only [Vars.get_update, Vars.get_filter]
  rw [Wrapper.get_public ha]
  cases hh : host.vars.get a with
  | some v => simp [ha, hmod v hh, Option.filter]
  | none => simp [hmeth hh]

/-- C68: the host's variables shadow those of the script. -/
theorem C68_host_shadows (host : Wrapper) (script : Option Wrapper) (a : Str) (v : Obj) (ha : Py.startsWith a p!"_" = false) (hv : host.vars.get a = some v) :
    hostGet host script a = some v := by
  unfold hostGet
  rw [Wrapper.get_public ha, hv]
  rfl

namespace Example

/-- A host module that imports `os`, and a script that defines a variable of that name and another one. -/
def hostWrapper : Wrapper :=
  { cls := hostCls, classAttr := fun _ => ⟨0, false⟩, module := some { obj := ⟨1, true⟩, attrs := (({} : Vars).set p!"os" ⟨2, true⟩).set p!"x" ⟨3, false⟩ } }

def scriptWrapper : Wrapper :=
  { cls := scriptCls, classAttr := fun _ => ⟨0, false⟩
    module := some { obj := ⟨4, true⟩, attrs := ((({} : Vars).set p!"os" ⟨5, false⟩).set p!"x" ⟨6, false⟩).set p!"y" ⟨7, false⟩ } }

example : [p!"x", p!"y", p!"z"].map (varsHierarchical hostWrapper (some scriptWrapper)).get = [some ⟨3, false⟩, some ⟨7, false⟩, none]
    ∧ [p!"x", p!"y", p!"z"].map (hostGet hostWrapper (some scriptWrapper)) = [some ⟨3, false⟩, some ⟨7, false⟩, none] := by decide

end Example

/-- C68 does not hold if the host has a module of that name: then the two disagree. -/
theorem C68_agree_refuted : ∃ (host script : Wrapper) (a : Str), script.cls = scriptCls ∧ Py.startsWith a p!"_" = false
    ∧ (varsHierarchical host (some script)).get a = some ⟨5, false⟩ ∧ hostGet host (some script) a = some ⟨2, true⟩ :=
  ⟨Example.hostWrapper, Example.scriptWrapper, p!"os", rfl, by decide⟩

/-! ### C47 -/

/-- C47: a template sees the context before the variables of the host, and these before those of the script. `host` is always the
host. (`inventory` is, too, see `C47_inventory_refuted`.) -/
theorem C47_precedence_partial (host : Wrapper) (script : Option Wrapper) (context : Option Vars) (hostObj : Obj) :
    (templateVars host script context hostObj).get p!"host" = some hostObj
    ∧ ∀ a, a ≠ p!"host" → a ≠ p!"inventory" → (templateVars host script context hostObj).get a =
      ((context.bind fun c => c.get a).or ((host.vars.filter fun a v => !Py.startsWith a p!"_" && !v.isModule).get a)).or
        (script.bind fun s => s.exported.get a) := by
  unfold templateVars varsHierarchical
  constructor
  · rw [Vars.get_set, if_neg (by decide), Vars.get_set, if_pos rfl]
  · intro a h1 h2
    rw [Vars.get_set, if_neg h2, Vars.get_set, if_neg h1]
    cases context with
    | none => cases script with
      | none => simp [Vars.get_update]
      | some s => simp [Vars.get_update]
    | some c => cases script with
      | none => simp [Vars.get_update]
      | some s => simp [Vars.get_update, Option.or_assoc]

/-- C47 does not hold for `inventory`: whatever the inventory is, the name refers to the host. -/
theorem C47_inventory_refuted (host : Wrapper) (script : Option Wrapper) (context : Option Vars) (hostObj : Obj) :
    (templateVars host script context hostObj).get p!"inventory" = some hostObj := by
  unfold templateVars
  rw [Vars.get_set, if_pos rfl]

example : ([p!"x", p!"y", p!"host"].map (templateVars Example.hostWrapper (some Example.scriptWrapper) (some (({} : Vars).set p!"x" ⟨8, false⟩)) ⟨9, false⟩).get)
    = [some ⟨8, false⟩, some ⟨7, false⟩, some ⟨9, false⟩] := by decide

end Verif.Inventory
