/-
Wrappers around modules: src/fora/types.py:55-172, and the lookup of variables on hosts, 286-353.
-/
import Verif.Inventory.Decl
import Verif.Py.Exn

namespace Verif.Inventory

/-- A dict of variables, or the attributes of an object. -/
structure Vars where
  items : List (Str × Obj) := []
  nodup : (items.map (·.1)).Nodup := by first | exact List.nodup_nil | decide

/-- `d.get(k)` -/
def Vars.get (d : Vars) (k : Str) : Option Obj := d.items.lookup k

theorem setItem_keys_nodup {δ : Type} {k : Str} {v : δ} : ∀ {l : Decls δ}, (l.map (·.1)).Nodup → ((setItem k v l).map (·.1)).Nodup
  | [], _ => by simp [setItem]
  | (a, b) :: l, h => by
    simp only [List.map_cons, List.nodup_cons] at h
    rw [setItem]
    split
    · next e => subst e; simpa using h
    · next e =>
      simp only [List.map_cons, List.nodup_cons]
      refine ⟨fun hm => ?_, setItem_keys_nodup h.2⟩
      have : ∀ {l : Decls δ}, a ∈ (setItem k v l).map (·.1) → a = k ∨ a ∈ l.map (·.1) := by
        intro l
        induction l with
        | nil => intro hm; simp [setItem] at hm; exact .inl hm
        | cons x l ih =>
          intro hm
          obtain ⟨c, d⟩ := x
          rw [setItem] at hm
          split at hm
          · next e' =>
            subst e'
            simp only [List.map_cons, List.mem_cons] at hm ⊢
            rcases hm with hm | hm
            · exact .inl hm
            · exact .inr (.inr hm)
          · simp only [List.map_cons, List.mem_cons] at hm ⊢
            rcases hm with hm | hm
            · exact .inr (.inl hm)
            · rcases ih hm with hm | hm
              · exact .inl hm
              · exact .inr (.inr hm)
      rcases this hm with rfl | hm
      · exact e rfl
      · exact h.1 hm

/-- `d[k] = v` -/
def Vars.set (d : Vars) (k : Str) (v : Obj) : Vars := ⟨setItem k v d.items, setItem_keys_nodup d.nodup⟩

/-- `d.update(e)` -/
def Vars.update (d e : Vars) : Vars := e.items.foldl (fun d kv => d.set kv.1 kv.2) d

/-- `{k: v for k, v in d.items() if keep(k, v)}` -/
def Vars.filter (keep : Str → Obj → Bool) (d : Vars) : Vars :=
  ⟨d.items.filter fun kv => keep kv.1 kv.2, d.nodup.sublist (List.filter_sublist.map _)⟩

/-- What is needed of the class of a wrapper. -/
structure Cls where
  /-- `type(self).__annotations__` (without inherited ones) -/
  annotations : List Str
  /-- the keys of `type(self).__dict__` that do not start with an underscore and are callable -/
  functions : List Str
  /-- the other keys of `type(self).__dict__` that do not start with an underscore: fields with a default value -/
  defaults : List Str

/-- `GroupWrapper`, types.py:174-196 -/
def groupCls : Cls := ⟨[p!"name"], [], []⟩

/-- `HostWrapper`, types.py:198-353 -/
def hostCls : Cls where
  annotations := [p!"inventory", p!"name", p!"url", p!"groups", p!"connector", p!"connection", p!"_variable_action_history"]
  functions := [p!"create_connector", p!"vars_hierarchical"]
  defaults := [p!"connector", p!"connection"]

/-- `ScriptWrapper`, types.py:355-478 -/
def scriptCls : Cls := ⟨[p!"name", p!"_defaults_stack"], [p!"defaults", p!"current_defaults", p!"Params"], []⟩

/-- `InventoryWrapper`, inventory_wrapper.py:106-823 -/
def inventoryCls : Cls where
  annotations := [p!"groups_dir", p!"hosts_dir", p!"hosts", p!"groups", p!"_is_initialized", p!"_host_decls", p!"_group_decls",
    p!"_group_ranks_min", p!"_group_ranks_max", p!"_topological_order", p!"loaded_hosts"]
  functions := [p!"is_initialized", p!"available_groups", p!"base_dir", p!"base_remote_settings", p!"group_module_file", p!"host_module_file",
    p!"qualify_url", p!"extract_hostname", p!"load", p!"load_group", p!"load_host", p!"instanciate_host"]
  defaults := [p!"groups_dir", p!"hosts_dir", p!"groups"]

/-- The attributes of the class `ModuleWrapper` that do not start with an underscore, types.py:55-172 -/
def wrapperMethods : List Str :=
  [p!"module", p!"is_exported_variable", p!"exported_variables", p!"is_overloaded", p!"is_overridden", p!"wrap", p!"definition_file"]

/-- The object that is wrapped: a module, or any other object with attributes. Names that both start and end with two underscores
are not modelled. -/
structure Mod where
  obj : Obj
  attrs : Vars := {}

/-- An instance of a subclass of `ModuleWrapper`. -/
structure Wrapper where
  cls : Cls
  /-- The attributes of the object itself, without `module`. -/
  attrs : Vars := {}
  /-- The attribute `module`. -/
  module : Option Mod := none
  /-- The attributes found on the class: methods, and default values. -/
  classAttr : Str → Obj

/-- `object.__getattribute__(self, "__dict__")` -/
def Wrapper.dict (w : Wrapper) : Vars :=
  match w.module with
  | none => w.attrs
  | some m => w.attrs.set p!"module" m.obj

/-- The attribute of the class, if there is one. -/
def Wrapper.ofClass (w : Wrapper) (a : Str) : Option Obj :=
  if a ∈ w.cls.functions ∨ a ∈ w.cls.defaults ∨ a ∈ wrapperMethods then some (w.classAttr a) else none

/-- `object.__getattribute__(self, attr)`; `none` is an `AttributeError`. -/
def Wrapper.getRaw (w : Wrapper) (a : Str) : Option Obj := (w.dict.get a).or (w.ofClass a)

/-- `__getattribute__`, types.py:67-80, except for `__dict__` -/
def Wrapper.get (w : Wrapper) (a : Str) : Option Obj :=
  match w.module with
  | none => w.getRaw a
  | some m => if Py.startsWith a p!"_" || (m.attrs.get a).isNone then w.getRaw a else m.attrs.get a

/-- `__setattr__`, types.py:82-88, for names other than `module` -/
def Wrapper.set (w : Wrapper) (a : Str) (v : Obj) : Wrapper :=
  match w.module with
  | none => { w with attrs := w.attrs.set a v }
  | some m =>
    if Py.startsWith a p!"__" || (m.attrs.get a).isNone then { w with attrs := w.attrs.set a v }
    else { w with module := some { m with attrs := m.attrs.set a v } }

/-- `vars(self)`, types.py:70-76 -/
def Wrapper.vars (w : Wrapper) : Vars :=
  match w.module with
  | none => w.dict
  | some m => w.dict.update m.attrs

/-- `is_exported_variable`, types.py:90-95 -/
def Cls.isExported (c : Cls) (a : Str) (v : Obj) : Bool :=
  !(Py.startsWith a p!"_" || c.annotations.contains a || (c.functions.contains a || c.defaults.contains a) || v.isModule)

/-- `exported_variables`, types.py:97-106 -/
def Wrapper.exported (w : Wrapper) : Vars := w.vars.filter w.cls.isExported

/-- One iteration of types.py:148-152 or 154-158: `setattr(self.module, attr, getattr(self, attr))`. (The attribute exists: it is
a field of the dataclass or a method.) -/
def Wrapper.copyAttr (w : Wrapper) (a : Str) : Wrapper :=
  match w.module, w.get a with
  | some m, some v => { w with module := some { m with attrs := m.attrs.set a v } }
  | _, _ => w

/-- `wrap` with the optional arguments set, types.py:129-158 -/
def Wrapper.wrapCopying (w : Wrapper) (m : Mod) : Wrapper :=
  ((w.cls.annotations.filter fun a => !Py.startsWith a p!"_") ++ w.cls.functions).foldl Wrapper.copyAttr { w with module := some m }

/-- `setattr(module, attr, value)` for all given values, where `module` is the wrapped module -/
def Wrapper.initModule (w : Wrapper) (vs : Vars) : Wrapper :=
  match w.module with
  | none => w
  | some m => { w with module := some { m with attrs := m.attrs.update vs } }

/-- `HostWrapper.vars_hierarchical`, types.py:286-310 -/
def varsHierarchical (host : Wrapper) (script : Option Wrapper) : Vars :=
  let dvars : Vars :=
    match script with
    | none => {}
    | some s => s.exported
  dvars.update (host.vars.filter fun a v => !Py.startsWith a p!"_" && !v.isModule)

/-- `getattr(host, attr)`, with `HostWrapper.__getattr__`, types.py:312-353. `none` is an `AttributeError`. -/
def hostGet (host : Wrapper) (script : Option Wrapper) (a : Str) : Option Obj :=
  match host.get a with
  | some v => some v
  | none =>
    if Py.startsWith a p!"_" then none
    else if a ∈ scriptCls.annotations ∨ a ∈ scriptCls.functions ∨ a ∈ scriptCls.defaults then none
    else
      match script with
      | none => none
      | some s =>
        match s.get a with
        | none => none
        | some v => if v.isModule then none else some v

/-- The variables given to a template, files.py:48-52 -/
def templateVars (host : Wrapper) (script : Option Wrapper) (context : Option Vars) (hostObj : Obj) : Vars :=
  let dvars := varsHierarchical host script
  let dvars :=
    match context with
    | none => dvars
    | some c => dvars.update c
  (dvars.set p!"host" hostObj).set p!"inventory" hostObj

end Verif.Inventory
