/-
C59: where the variables of a host come from.
-/
import Verif.Inventory.NamesLemmas
import Verif.Inventory.LoadLemmas
import Verif.Inventory.GroupProps

namespace Verif.Inventory

theorem LoadedHost.keyed {so : SetOrder} {src : Sources} {c : Consts} {es : List (Entry HostDecl)} {groups : Option (List (Entry GroupDecl))} {d : Declared}
    {name : Str} {decl : HostDecl} {h : Host} (hl : LoadedHost so src c es groups d name decl h) :
    (∀ g gd, (g, gd) ∈ d.groups → gd.name = g) ∧ d.order.order.Nodup ∧ p!"all" ∈ groupsInOrder d decl := by
  obtain ⟨res, hres, hspec⟩ := declare_spec so es groups
  have : res = .ok d := by
    obtain ⟨n, h1⟩ := hres
    obtain ⟨m, h2⟩ := hl.declared
    have h3 := h1 (max n m) (Nat.le_max_left _ _)
    have h4 := h2 (max n m) (Nat.le_max_right _ _)
    exact Option.some.inj (h3.symm.trans h4)
  subst this
  obtain ⟨ds, _, _, hda⟩ := hspec
  refine ⟨fun g gd hg => (hda.item g gd hg).1, hda.order.perm.nodup_iff.mpr hda.nodup, ?_⟩
  unfold groupsInOrder
  rw [List.mem_filter, hda.order.perm.mem_iff, hda.names]
  refine ⟨.inr (.inl rfl), ?_⟩
  obtain ⟨e, _, ho⟩ := hda.hosts.mem_right _ hl.host
  obtain ⟨gs, _, h3⟩ := ho.name
  exact decide_eq_true ((h3 _).mpr (.inr rfl))

theorem split_last {α β : Type} {f : α → β} {l : List α} {z b : β} {pre post : List β} (h : l.map f ++ [z] = pre ++ b :: post) :
    (post = [] ∧ z = b) ∨ ∃ l1 a l2, l = l1 ++ a :: l2 ∧ f a = b ∧ post = l2.map f ++ [z] := by
  rcases List.eq_nil_or_concat post with rfl | ⟨post', y, rfl⟩
  · have := List.append_inj' h rfl
    simp only [List.cons.injEq, and_true] at this
    exact .inl ⟨rfl, this.2⟩
  · right
    have h' : l.map f ++ [z] = (pre ++ b :: post') ++ [y] := by simpa using h
    obtain ⟨h1, h2⟩ := List.append_inj' h' rfl
    simp only [List.cons.injEq, and_true] at h2
    subst h2
    obtain ⟨l1, l3, rfl, h3, h4⟩ := List.map_eq_append_iff.mp h1
    obtain ⟨a, l2, rfl, h5, h6⟩ := List.map_eq_cons_iff.mp h4
    exact ⟨l1, a, l2, rfl, h5, by simp [h6]⟩

theorem hostGet_module {w : Wrapper} {m : Mod} {script : Option Wrapper} {x : Str} {v : Obj} (hx : Variable x) (hm : w.module = some m) (hv : m.attrs.get x = some v) :
    hostGet w script x = some v := by
  unfold hostGet
  rw [Wrapper.get_public hx.isPublic, Wrapper.get_vars hm, hv]
  rfl

theorem hostGet_kept {src : Sources} {c : Consts} {name : Str} {decl : HostDecl} {init w : Wrapper} {heap heap' : Heap} {x : Str} {v : Obj} (hx : Variable x)
    (hl : loadHost src c name decl init heap = .ok (heap', w)) (hk : Keeps (bodyOf src (src.hostFile name) decl.file) x) (hv : init.exported.get x = some v)
    (script : Option Wrapper) : hostGet w script x = some v := by
  obtain ⟨g, g', m, h1, _, h3, h4, _, h6, _⟩ := loadHost_ok hl
  exact hostGet_module hx h3 (by rw [h4, h1.keeps hk, h6 x v hv])

/-- C59: a variable of a host has the value given to it by the last module that sets it: the module of the host, or of the last
of its groups in the order of dependencies. -/
theorem C59_last_definition {so : SetOrder} {src : Sources} {c : Consts} {es : List (Entry HostDecl)} {groups : Option (List (Entry GroupDecl))} {d : Declared}
    {name : Str} {decl : HostDecl} {h : Host} (hl : LoadedHost so src c es groups d name decl h) (x : Str) (hx : Variable x) (v : Obj) (hv : v.isModule = false)
    (pre post : List (Option Body)) (b : Option Body) (hmods : modulesOf src d name decl = pre ++ b :: post) (hs : Sets b x v) (hk : ∀ p ∈ post, Keeps p x)
    (script : Option Wrapper) : hostGet h.wrapper script x = some v := by
  obtain ⟨hd, _, _⟩ := hl.keyed
  obtain ⟨heap, heap', hi⟩ := hl.loaded
  obtain ⟨l, h1, _, h2⟩ := instanciateHost_ok hi
  rcases split_last hmods with ⟨rfl, rfl⟩ | ⟨g1, g, g2, he, rfl, rfl⟩
  · obtain ⟨_, g', m, h3, _, h4, rfl, _⟩ := loadHost_ok h2
    exact hostGet_module hx h4 (h3.sets hs)
  · unfold groupsInOrder at h1
    rw [he] at h1
    obtain ⟨l1, h3, h4⟩ := loadGroups_append h1
    obtain ⟨l2, h5, h6⟩ := loadGroups_cons h4
    obtain ⟨vs, vs', h7, _, h8⟩ := loadNext_get hd h5 hx
    have h9 : l2.initializer.exported.get x = some v := by
      rw [h8, h7.sets hs]
      simp [hv, Option.filter]
    have h10 := loadGroups_keep hd hx h6 (fun g' hg' => hk _ (by
      rw [List.mem_append]
      exact .inl (List.mem_map.mpr ⟨g', hg', rfl⟩))) h9
    exact hostGet_kept hx h2 (hk _ (by simp)) h10 script

theorem keeps_groups {src : Sources} {d : Declared} {name : Str} {decl : HostDecl} {x : Str} (hk : ∀ p ∈ modulesOf src d name decl, Keeps p x) :
    (∀ g ∈ groupsInOrder d decl, Keeps ((d.groups.lookup g).bind fun gd => bodyOf src (src.groupFile g) gd.file) x)
    ∧ Keeps (bodyOf src (src.hostFile name) decl.file) x :=
  ⟨fun g hg => hk _ (by
    unfold modulesOf
    rw [List.mem_append]
    exact .inl (List.mem_map.mpr ⟨g, hg, rfl⟩)), hk _ (by unfold modulesOf; simp)⟩

theorem early_exported {c : Consts} {vars : Vars} {x : Str} (hx : Variable x) :
    (earlyExplicits c vars).exported.get x = ((vars.get x).or (if x = p!"host" then some c.declaration else none)).filter fun v => !v.isModule := by
  unfold Wrapper.exported
  rw [Vars.get_filter]
  have h1 : (earlyExplicits c vars).vars.get x = (vars.get x).or (if x = p!"host" then some c.declaration else none) := by
    rw [Wrapper.get_vars (m := { obj := { id := c.explicits }, attrs := vars }) rfl, Wrapper.get_dict hx.notModule]
    unfold earlyExplicits
    simp only [Vars.get_set, if_neg hx.notName, Vars.get_empty]
  rw [h1]
  congr 1
  funext v
  exact groupCls_exported hx v

/-- C59: if no module sets the variable, it comes from the declaration of the host. -/
theorem C59_declaration {so : SetOrder} {src : Sources} {c : Consts} {es : List (Entry HostDecl)} {groups : Option (List (Entry GroupDecl))} {d : Declared}
    {name : Str} {decl : HostDecl} {h : Host} (hl : LoadedHost so src c es groups d name decl h) (x : Str) (hx : Variable x) (v : Obj) (hv : v.isModule = false)
    (hk : ∀ p ∈ modulesOf src d name decl, Keeps p x) (hdecl : (declVars decl).get x = some v) (script : Option Wrapper) :
    hostGet h.wrapper script x = some v := by
  obtain ⟨hd, _, _⟩ := hl.keyed
  obtain ⟨heap, heap', hi⟩ := hl.loaded
  obtain ⟨l, h1, _, h2⟩ := instanciateHost_ok hi
  obtain ⟨hk1, hk2⟩ := keeps_groups hk
  refine hostGet_kept hx h2 hk2 (loadGroups_keep hd hx h1 hk1 ?_) script
  simp only [early_exported hx, hdecl, Option.some_or, Option.filter, hv, Bool.not_false, if_true]

theorem allVars_get {src : Sources} {c : Consts} {x g : Str} : (allVars src c g).get x =
    if g = p!"all" then (src.inventory.exported.get x).or (if x = p!"fora_managed" then some c.managed else none) else none := by
  unfold allVars
  split
  · simp only [Vars.get_update, Vars.get_set, Vars.get_empty]
  · rfl

/-- C59: if neither a module nor the declaration sets the variable, it comes from the inventory. -/
theorem C59_inventory {so : SetOrder} {src : Sources} {c : Consts} {es : List (Entry HostDecl)} {groups : Option (List (Entry GroupDecl))} {d : Declared}
    {name : Str} {decl : HostDecl} {h : Host} (hl : LoadedHost so src c es groups d name decl h) (x : Str) (hx : Variable x) (v : Obj)
    (hk : ∀ p ∈ modulesOf src d name decl, Keeps p x) (hdecl : (declVars decl).get x = none) (hhost : x ≠ p!"host")
    (hinv : src.inventory.exported.get x = some v) (script : Option Wrapper) : hostGet h.wrapper script x = some v := by
  obtain ⟨hd, hnd, hall⟩ := hl.keyed
  obtain ⟨heap, heap', hi⟩ := hl.loaded
  obtain ⟨l, h1, _, h2⟩ := instanciateHost_ok hi
  obtain ⟨hk1, hk2⟩ := keeps_groups hk
  obtain ⟨g1, g2, he⟩ := List.append_of_mem hall
  have hnd' : (groupsInOrder d decl).Nodup := hnd.sublist List.filter_sublist
  rw [he] at h1 hk1 hnd'
  obtain ⟨l1, h3, h4⟩ := loadGroups_append h1
  obtain ⟨l2, h5, h6⟩ := loadGroups_cons h4
  have hu := loadGroups_undefined hd hx h3 (fun g hg => hk1 g (by simp [hg])) (fun g hg => by
    rw [allVars_get, if_neg]
    rintro rfl
    exact (List.nodup_append.mp hnd').2.2 _ hg _ (by simp) rfl) (by
      simp only [early_exported hx, hdecl, if_neg hhost]
      rfl)
  obtain ⟨vs, vs', h7, h8, h9⟩ := loadNext_get hd h5 hx
  refine hostGet_kept hx h2 hk2 (loadGroups_keep hd hx h6 (fun g hg => hk1 g (by simp [hg])) ?_) script
  rw [h9, h7.keeps (hk1 _ (by simp)), h8, hu, allVars_get, if_pos rfl, hinv]
  simp [exported_not_module hinv, Option.filter]

/-- C59: the variables of the inventory that hosts inherit are those that its module defines, except for private ones, imported
modules, and what belongs to the inventory itself, like `hosts`. -/
theorem C59_inventory_variables (w : Wrapper) (m : Mod) (hc : w.cls = inventoryCls) (hm : w.module = some m) (x : Str) (hx : Variable x)
    (hundef : w.attrs.get x = none) (v : Obj) :
    w.exported.get x = some v ↔ m.attrs.get x = some v ∧ x ∉ inventoryNames ∧ v.isModule = false := by
  unfold Wrapper.exported
  rw [Vars.get_filter, Wrapper.get_vars hm, Wrapper.get_dict hx.notModule, hundef, Option.or_none, Option.filter_eq_some_iff, hc]
  have := mem_inventoryCls hx.isPublic
  unfold Cls.isExported
  rw [← this, hx.isPublic]
  simp [and_assoc]

/-- C59: if nothing defines the variable, it comes from the script that is running, unless it is private there or a module or part
of the script's own attributes. Otherwise there is no such attribute. -/
theorem C59_script {so : SetOrder} {src : Sources} {c : Consts} {es : List (Entry HostDecl)} {groups : Option (List (Entry GroupDecl))} {d : Declared}
    {name : Str} {decl : HostDecl} {h : Host} (hl : LoadedHost so src c es groups d name decl h) (x : Str) (hx : Variable x)
    (hk : ∀ p ∈ modulesOf src d name decl, Keeps p x) (hdecl : (declVars decl).get x = none) (hhost : x ≠ p!"host") (hman : x ≠ p!"fora_managed")
    (hinv : src.inventory.exported.get x = none) (hattr : x ∉ hostNames ∧ x ∉ moduleNames)
    (script : Option Wrapper) :
    hostGet h.wrapper script x = if x ∈ scriptNames then none else (script.bind fun s => s.get x).filter fun v => !v.isModule := by
  have hattr : x ∉ hostCls.annotations ∧ x ∉ hostCls.functions ∧ x ∉ wrapperMethods := by
    have := mt (mem_hostCls hx.isPublic).mp hattr.1
    simp only [not_or] at this
    exact ⟨this.1, this.2.1, mt mem_wrapperMethods.mp hattr.2⟩
  simp only [← mem_scriptCls hx.isPublic]
  obtain ⟨hd, hnd, hall⟩ := hl.keyed
  obtain ⟨heap, heap', hi⟩ := hl.loaded
  obtain ⟨l, h1, _, h2⟩ := instanciateHost_ok hi
  obtain ⟨hk1, hk2⟩ := keeps_groups hk
  have hu := loadGroups_undefined hd hx h1 hk1 (fun g hg => by
    rw [allVars_get, hinv, if_neg hman]
    split <;> rfl) (by
      simp only [early_exported hx, hdecl, if_neg hhost]
      rfl)
  obtain ⟨g, g', m, h3, h4, h5, h6, h7, _, h8⟩ := loadHost_ok h2
  have hnone : h.wrapper.get x = none := by
    rw [Wrapper.get_public hx.isPublic, Wrapper.get_vars h5, Wrapper.get_dict hx.notModule, h6, h3.keeps hk2, h8 x hattr.1 hattr.2.1, hu, h7]
    have hf : (hostFields c name).get x = none := by
      unfold hostFields
      have : ∀ (as : List Str) (d : Vars), x ∉ as → (as.foldl (fun d a => d.set a (c.field name a)) d).get x = d.get x := by
        intro as
        induction as with
        | nil => intro d _; rfl
        | cons a as ih =>
          intro d hx
          simp only [List.mem_cons, not_or] at hx
          rw [List.foldl_cons, ih _ hx.2, Vars.get_set, if_neg hx.1]
      rw [this _ _ hattr.1]
      rfl
    rw [hf, Wrapper.ofClass, if_neg]
    · rfl
    · rw [h4]
      rintro (h | h | h)
      · exact hattr.2.1 h
      · refine hattr.1 ?_
        have hsub : ∀ a ∈ hostCls.defaults, a ∈ hostCls.annotations := by decide
        exact hsub x h
      · exact hattr.2.2 h
  unfold hostGet
  rw [hnone]
  simp only
  rw [if_neg (by simp [hx.isPublic])]
  have hnd : scriptCls.defaults = [] := rfl
  simp only [hnd, List.not_mem_nil, or_false]
  split
  · rfl
  · cases script with
    | none => rfl
    | some s =>
      simp only [Option.bind_some]
      cases hs : s.get x with
      | none => rfl
      | some v =>
        simp only [Option.filter]
        by_cases hm : v.isModule = true
        · rw [if_pos hm, if_neg (by simp [hm])]
        · rw [if_neg hm, if_pos (by simp [hm])]

theorem instanciateHosts_mem {src : Sources} {c : Str → Consts} {d : Declared} : ∀ {hs : Decls HostDecl} {heap heap' : Heap} {r : List (Str × Host)},
    instanciateHosts src c d heap hs = .ok (heap', r) →
      Each (fun nd nh => nd.1 = nh.1 ∧ ∃ heap heap', instanciateHost src (c nd.1) d heap nd.1 nd.2 = .ok (heap', nh.2)) hs r
  | [], heap, heap', r, h => by cases h; exact .nil
  | (n, dl) :: hs, heap, heap', r, h => by
    rw [instanciateHosts] at h
    simp only [bind, Except.bind] at h
    cases h1 : instanciateHost src (c n) d heap n dl with
    | error e => rw [h1] at h; cases h
    | ok x =>
      obtain ⟨heap1, h0⟩ := x
      rw [h1] at h
      simp only at h
      cases h2 : instanciateHosts src c d heap1 hs with
      | error e => rw [h2] at h; cases h
      | ok y =>
        obtain ⟨heap2, r'⟩ := y
        rw [h2] at h
        cases h
        exact .cons ⟨rfl, heap, heap1, h1⟩ (instanciateHosts_mem h2)

/-- C59: the hosts of a loaded inventory are loaded for their declarations, one for each, so that the above applies to them. -/
theorem C59_load {so : SetOrder} {src : Sources} {c : Str → Consts} {heap heap' : Heap} {es : List (Entry HostDecl)} {groups : Option (List (Entry GroupDecl))}
    {hosts : List (Str × Host)} (hy : Yields (fun fuel => load fuel so src c heap es groups) (.ok (heap', hosts))) :
    ∃ d, Yields (fun fuel => declare fuel so es groups) (.ok d)
      ∧ Each (fun nd nh => nd.1 = nh.1 ∧ LoadedHost so src (c nd.1) es groups d nd.1 nd.2 nh.2) d.hosts hosts := by
  obtain ⟨res, hres, hspec⟩ := declare_spec so es groups
  obtain ⟨n, h1⟩ := hres
  obtain ⟨m, h2⟩ := hy
  have h3 := h1 (max n m) (Nat.le_max_left _ _)
  have h4 := h2 (max n m) (Nat.le_max_right _ _)
  simp only [load] at h4
  simp only at h3
  rw [h3] at h4
  cases res with
  | error e => cases h4
  | ok d =>
    simp only [Option.map, bind, Except.bind, Option.some.injEq] at h4
    refine ⟨d, ⟨n, h1⟩, ?_⟩
    have h5 := instanciateHosts_mem h4
    have : ∀ {hs : Decls HostDecl} {r : List (Str × Host)}, (∀ x ∈ hs, x ∈ d.hosts) →
        Each (fun nd nh => nd.1 = nh.1 ∧ ∃ heap heap', instanciateHost src (c nd.1) d heap nd.1 nd.2 = .ok (heap', nh.2)) hs r →
        Each (fun nd nh => nd.1 = nh.1 ∧ LoadedHost so src (c nd.1) es groups d nd.1 nd.2 nh.2) hs r := by
      intro hs r hsub he
      induction he with
      | nil => exact .nil
      | @cons a b as bs h6 h7 ih => exact .cons ⟨h6.1, ⟨n, h1⟩, hsub a (by simp), h6.2⟩ (ih fun x hx => hsub x (by simp [hx]))
    exact this (fun _ h => h) h5

/-! ### An example -/

namespace Example

/-- A module that assigns one variable. -/
def assignment (x : Str) (v : Nat) : Body := fun heap g => .ok (heap, g.set x ⟨v, false⟩)

theorem assignment_sets (x : Str) (v : Nat) : Sets (some (assignment x v)) x ⟨v, false⟩ :=
  ⟨_, rfl, fun heap g heap' g' h => by cases h; rw [Vars.get_set, if_pos rfl]⟩

theorem assignment_keeps {x y : Str} (h : y ≠ x) (v : Nat) : Keeps (some (assignment x v)) y := by
  rintro code hc heap g heap' g' hr
  cases hc
  cases hr
  rw [Vars.get_set, if_neg h]

def inventoryWrapper : Wrapper :=
  { cls := inventoryCls, classAttr := fun _ => ⟨0, false⟩
    module := some { obj := ⟨1, true⟩, attrs := (({} : Vars).set p!"hosts" ⟨2, false⟩).set p!"domain" ⟨3, false⟩ } }

/-- Every group and the host `web` have a module that sets `x`, except `desktops`. -/
def sources : Sources where
  groupFile g := if g = p!"all" then some (assignment p!"x" 10) else if g = p!"linux" then some (assignment p!"x" 11) else if g = p!"servers" then some (assignment p!"y" 12) else none
  hostFile h := if h = p!"web" then some (assignment p!"x" 13) else none
  file _ := none
  inventory := inventoryWrapper

def consts (n : Str) : Consts where
  groupModule _ := 100 + n.length
  hostModule := 101
  declaration := ⟨102, false⟩
  explicits := 103
  managed := ⟨104, false⟩
  field _ _ := ⟨105, false⟩

def loadHosts : List (Entry HostDecl) :=
  [.str p!"root@web", .dict (some { name := some p!"db", groups := [p!"servers", p!"linux"], vars := [(p!"z", ⟨20, false⟩), (p!"x", ⟨21, false⟩)] })]

/-- What all hosts have as values of these variables. -/
def values (xs : List Str) : Option (Except Exn (Heap × List (Str × Host))) → Option (List (List (Option Nat)))
  | some (.ok r) => some (r.2.map fun h => xs.map fun x => (hostGet h.2.wrapper none x).map (·.id))
  | _ => none

example : values [p!"x", p!"y", p!"z", p!"domain", p!"w"] (load 6 setOrder sources consts (fun n => n) loadHosts (some Example.groups))
    = some [[some 13, none, none, some 3, none], [some 11, some 12, some 20, some 3, none]] := by
  decide +kernel

end Example

end Verif.Inventory
