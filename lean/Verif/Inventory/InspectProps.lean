/-
C85: what `--inspect-inventory` shows about the variables of hosts.
-/
import Verif.Inventory.InspectLemmas
import Verif.Inventory.ConflictProps

namespace Verif.Inventory

theorem LoadedHost.early {so : SetOrder} {src : Sources} {c : Consts} {es : List (Entry HostDecl)} {groups : Option (List (Entry GroupDecl))} {d : Declared}
    {name : Str} {decl : HostDecl} {h : Host} (hl : LoadedHost so src c es groups d name decl h) : p!"early-explicits" ∈ d.order.order := by
  obtain ⟨res, hres, hspec⟩ := declare_spec so es groups
  have : res = .ok d := by
    obtain ⟨n, h1⟩ := hres
    obtain ⟨m, h2⟩ := hl.declared
    have h3 := h1 (max n m) (Nat.le_max_left _ _)
    have h4 := h2 (max n m) (Nat.le_max_right _ _)
    exact Option.some.inj (h3.symm.trans h4)
  subst this
  obtain ⟨ds, _, _, hda⟩ := hspec
  rw [hda.order.perm.mem_iff, hda.names]
  exact .inr (.inr rfl)

theorem shown_actors {so : SetOrder} {src : Sources} {c : Consts} {es : List (Entry HostDecl)} {groups : Option (List (Entry GroupDecl))} {d : Declared}
    {name : Str} {decl : HostDecl} {h : Host} (hl : LoadedHost so src c es groups d name decl h) (a : Str) :
    ∀ s ∈ shownHistory name h a, ∀ g, s.actor = .group g → g ∈ d.order.order := by
  intro s hs g hg
  have hs' : s ∈ h.history a ∨ s.actor = .host name := by
    unfold shownHistory at hs
    split at hs
    · rw [List.mem_singleton.mp hs]
      exact .inr rfl
    · exact .inl hs
  obtain ⟨heap, heap', hi⟩ := hl.loaded
  rcases hs' with hs' | hs'
  · rcases history_actors hi hs' with h1 | h1 | ⟨g', h1, h2⟩
    · rw [hg] at h1
      cases h1
    · rw [hg] at h1
      cases h1
      exact hl.early
    · rw [hg] at h2
      cases h2
      exact h1
  · rw [hg] at hs'
    cases hs'

theorem inspectHost_ok {so : SetOrder} {src : Sources} {c : Consts} {es : List (Entry HostDecl)} {groups : Option (List (Entry GroupDecl))} {d : Declared}
    {name : Str} {decl : HostDecl} {h : Host} (hl : LoadedHost so src c es groups d name decl h) :
    ∃ rows, inspectHost d.order.order name h = .ok rows ∧ (rows.map fun r => (r.attr, r.value)).Perm (shownVars h)
      ∧ (rows.Pairwise fun r s => rowLe r s = true) ∧ ∀ r ∈ rows, RowFor d.order.order name h r.attr r.value r := by
  obtain ⟨rs, h1, h2, h3⟩ := rowsOf_ok hl.keyed.2.1 (shown_actors hl) (shownVars h)
  unfold inspectHost
  simp only [h1, bind, Except.bind]
  refine ⟨_, rfl, ?_, sortRows_sorted rs, fun r hr => h3 r ((sortRows_perm rs).mem_iff.mp hr)⟩
  rw [← h2]
  exact (sortRows_perm rs).map _

theorem mem_shownVars {h : Host} {a : Str} {v : Obj} : (a, v) ∈ shownVars h ↔ Py.startsWith a p!"_" = false ∧ v.isModule = false ∧ h.wrapper.vars.get a = some v := by
  unfold shownVars varsHierarchical
  rw [List.mem_filter, Vars.mem_iff_get]
  simp only [Vars.get_update, Vars.get_filter, Vars.get_empty, Option.or_none, Option.filter_eq_some_iff]
  simp only [Bool.and_eq_true, Bool.not_eq_true', Bool.or_eq_false_iff]
  constructor
  · rintro ⟨⟨h1, _⟩, h2, h3⟩
    exact ⟨h2, h3, h1⟩
  · rintro ⟨h1, h2, h3⟩
    exact ⟨⟨h3, h1, h2⟩, h1, h2⟩

theorem hostGet_none {w : Wrapper} {a : Str} (ha : Py.startsWith a p!"_" = false) : hostGet w none a = (w.vars.get a).or (w.ofClass a) := by
  unfold hostGet
  rw [← Wrapper.get_public ha]
  cases w.get a with
  | some v => rfl
  | none => simp

/-- C85, the rows: every inventory that can be loaded can be inspected. The table of a host has one row for each of its public
variables, with the value that a script finds for it. -/
theorem C85_rows {so : SetOrder} {src : Sources} {c : Consts} {es : List (Entry HostDecl)} {groups : Option (List (Entry GroupDecl))} {d : Declared}
    {name : Str} {decl : HostDecl} {h : Host} (hl : LoadedHost so src c es groups d name decl h) :
    ∃ rows, inspectHost d.order.order name h = .ok rows ∧ (rows.map (·.attr)).Nodup
      ∧ (∀ r ∈ rows, hostGet h.wrapper none r.attr = some r.value ∧ Py.startsWith r.attr p!"_" = false ∧ r.value.isModule = false)
      ∧ ∀ a v, hostGet h.wrapper none a = some v → Py.startsWith a p!"_" = false → v.isModule = false → a ∉ moduleNames → a ∉ hostFunctions →
        ∃ r ∈ rows, r.attr = a ∧ r.value = v := by
  obtain ⟨rows, h1, h2, _, _⟩ := inspectHost_ok hl
  refine ⟨rows, h1, ?_, fun r hr => ?_, fun a v hv ha hm hw hf => ?_⟩
  · have hn : ((shownVars h).map (·.1)).Nodup := by
      unfold shownVars
      exact (varsHierarchical h.wrapper none).nodup.sublist (List.filter_sublist.map _)
    have := h2.map (·.1)
    rw [List.map_map] at this
    exact this.nodup_iff.mpr hn
  · have hmem : (r.attr, r.value) ∈ shownVars h := h2.mem_iff.mp (List.mem_map.mpr ⟨r, hr, rfl⟩)
    obtain ⟨h3, h4, h5⟩ := mem_shownVars.mp hmem
    exact ⟨by rw [hostGet_none h3, h5]; rfl, h3, h4⟩
  · replace hw := mt mem_wrapperMethods.mp hw
    replace hf := mt mem_hostFunctions.mp hf
    have hv' : h.wrapper.vars.get a = some v := by
      rw [hostGet_none ha] at hv
      cases hg : h.wrapper.vars.get a with
      | some u => rw [hg] at hv; exact hv
      | none =>
        exfalso
        obtain ⟨heap, heap', hi⟩ := hl.loaded
        obtain ⟨l, _, _, h4⟩ := instanciateHost_ok hi
        obtain ⟨_, _, m, _, k2, k3, _, k5, _⟩ := loadHost_ok h4
        have hnd : a ∉ hostCls.defaults := by
          intro hd
          have hd' : (hostFields c name).get a ≠ none := by
            have : a = p!"connector" ∨ a = p!"connection" := by simpa [hostCls] using hd
            rcases this with rfl | rfl
            · simp [hostFields, hostCls, Vars.get_set]
            · simp [hostFields, hostCls, Vars.get_set]
          rw [Wrapper.get_vars k3, Wrapper.get_dict (fun e => hw (by rw [e]; decide)), k5] at hg
          cases hm' : m.attrs.get a with
          | some u => rw [hm'] at hg; cases hg
          | none => rw [hm'] at hg; exact hd' hg
        rw [hg] at hv
        unfold Wrapper.ofClass at hv
        rw [k2, if_neg (by simp [hf, hnd, hw])] at hv
        cases hv
    have hmem := h2.mem_iff.mpr (mem_shownVars.mpr ⟨ha, hm, hv'⟩)
    obtain ⟨r, hr, he⟩ := List.mem_map.mp hmem
    cases he
    exact ⟨r, hr, rfl, rfl⟩

/-- C85, the order of the rows: those for what fora itself defines for a host come first. Apart from that, the later a variable was
last changed, the further down it is, and variables that were last changed by the same module are in alphabetical order. -/
theorem C85_order {so : SetOrder} {src : Sources} {c : Consts} {es : List (Entry HostDecl)} {groups : Option (List (Entry GroupDecl))} {d : Declared}
    {name : Str} {decl : HostDecl} {h : Host} (hl : LoadedHost so src c es groups d name decl h) (rows : List Row) (hr : inspectHost d.order.order name h = .ok rows) :
    (∀ r ∈ rows, (r.declared = true ↔ r.attr ∈ hostNames)
        ∧ (r.definedBy.getLast?).map (·.1) = some r.last)
      ∧ rows.Pairwise fun r s => (r.declared = true ∧ s.declared = false) ∨ (r.declared = s.declared ∧ (r.last < s.last ∨ (r.last = s.last ∧ r.attr < s.attr))) := by
  obtain ⟨rows', h1, h2, h3, h4⟩ := inspectHost_ok hl
  rw [hr] at h1
  cases h1
  obtain ⟨rows', h5, h6, _⟩ := C85_rows hl
  rw [hr] at h5
  cases h5
  obtain ⟨rows', h7, _, h8, _⟩ := C85_rows hl
  rw [hr] at h7
  cases h7
  refine ⟨fun r hr => ⟨?_, (h4 r hr).last⟩, ?_⟩
  · rw [(h4 r hr).declared, ← mem_hostCls (h8 r hr).2.1]
    unfold declaredByWrapper
    simp [or_assoc, or_comm]
  · have h6' := List.pairwise_map.mp h6
    refine (h3.and h6').imp fun {r s} hrs => ?_
    obtain ⟨hle, hne⟩ := hrs
    unfold rowLe at hle
    by_cases e1 : r.declared = s.declared
    · rw [if_pos e1] at hle
      refine .inr ⟨e1, ?_⟩
      by_cases e2 : r.last = s.last
      · rw [if_pos e2] at hle
        rcases strLe_iff.mp hle with h | h
        · exact .inr ⟨e2, h⟩
        · exact absurd h hne
      · rw [if_neg e2, decide_eq_true_eq] at hle
        exact .inl hle
    · rw [if_neg e1] at hle
      refine .inl ⟨hle, ?_⟩
      cases hs : s.declared with
      | false => rfl
      | true => exact absurd (hle.trans hs.symm) e1

/-- C85, the column `defined by`: it names the one who assigned the variable last, followed by those who changed the object after
that, each with its position in the order of groups. `stages` is what happened to the variables. What is missing: it may be
wrong for variables that are `None` all of the time, that are deleted, or that are names of imported modules; see
`C85_none_refuted` and `C85_deleted_refuted`. -/
theorem C85_defined_by_partial {so : SetOrder} {src : Sources} {c : Consts} {es : List (Entry HostDecl)} {groups : Option (List (Entry GroupDecl))} {d : Declared}
    {name : Str} {decl : HostDecl} {h : Host} {heap heap' : Heap} (hd : Yields (fun fuel => declare fuel so es groups) (.ok d)) (hh : (name, decl) ∈ d.hosts)
    (hi : instanciateHost src c d heap name decl = .ok (heap', h)) :
    ∃ stages, Origins src c d heap name decl stages
      ∧ (∃ last, stages.getLast? = some last ∧ last.heap = heap' ∧ ∀ x, Plain x → hostGet h.wrapper none x = last.vars.get x)
      ∧ ∀ x, Plain x → Traceable x stages → ∀ rows, inspectHost d.order.order name h = .ok rows → ∀ r ∈ rows, r.attr = x →
        r.definedBy.map (·.2) = contributors x stages ∧ ∀ p ∈ r.definedBy, Position d.order.order p := by
  have hl : LoadedHost so src c es groups d name decl h := ⟨hd, hh, heap, heap', hi⟩
  obtain ⟨hkeys, _, _⟩ := hl.keyed
  obtain ⟨rest, last, h1, h2, h3, h4, h5⟩ := history_course hkeys hi
  refine ⟨_, ⟨rest, rfl, h4⟩, ⟨last, ?_, h2, fun x hx => ?_⟩, fun x hx ht rows hr r hrm hra => ?_⟩
  · have : ∀ (l : List Stage) (s : Stage), (s :: l).getLast? = some (lastStage s l) := by
      intro l
      induction l with
      | nil => intro s; rfl
      | cons t l ih => intro s; rw [List.getLast?_cons_cons]; exact ih t
    rw [this, h1]
  · rw [hostGet_none hx.isPublic, h3 x hx]
    obtain ⟨l, _, _, k⟩ := instanciateHost_ok hi
    obtain ⟨_, _, m, _, k2, _⟩ := loadHost_ok k
    unfold Wrapper.ofClass
    rw [k2, if_neg (by simp [hx.notOwn.2.1, hx.notOwn.2.2, hx.notMethod]), Option.or_none]
  · have hinv := TraceInv.all (h5 x hx ht.notModule) (by simp) (traceInv_early (order := d.order) (c := c) hx) ht.notModule ht.lasting ht.noneIsNone
    rw [List.singleton_append] at hinv
    have hne : h.history x ≠ [] := by
      intro he
      obtain ⟨k1, k2⟩ := hinv.empty he
      rcases ht.notNone with ⟨s, hs, v, hv, h0⟩ | hd
      · exact h0 (k1 s hs v hv)
      · rw [k2] at hd
        cases hd
    obtain ⟨rows', j1, _, _, j4⟩ := inspectHost_ok hl
    rw [hr] at j1
    cases j1
    have hrow := j4 r hrm
    refine ⟨?_, hrow.position⟩
    rw [hrow.who, hra]
    have : shownHistory name h x = h.history x := by
      unfold shownHistory
      split
      · next he => exact absurd he hne
      · rfl
    rw [this, hinv.who hne]
    rfl

/-! ### Examples and counterexamples -/

namespace Example

/-- What is shown for the variable `x` of each host. -/
def shown (x : Str) (order : List Str) (hosts : List (Str × Host)) : List (Option (List (List (Nat × Actor)))) :=
  hosts.map fun nh => match inspectHost order nh.1 nh.2 with
    | .ok rows => some ((rows.filter fun r => r.attr = x).map (·.definedBy))
    | .error _ => none

/-- `shown` after the inventory was loaded. -/
def inspected (x : Str) (n : Nat) (so : SetOrder) (src : Sources) (es : List (Entry HostDecl)) (groups : Option (List (Entry GroupDecl))) :
    Option (List (Option (List (List (Nat × Actor))))) :=
  match declare n so es groups, load n so src consts (fun n => n) es groups with
  | some (.ok d), some (.ok r) => some (shown x d.order.order r.2)
  | _, _ => none

theorem inspected_loaded {x : Str} {n : Nat} {so : SetOrder} {src : Sources} {es : List (Entry HostDecl)} {groups : Option (List (Entry GroupDecl))}
    {r : List (Option (List (List (Nat × Actor))))} (h : inspected x n so src es groups = some r) :
    ∃ d hosts, Each (fun nd nh => nd.1 = nh.1 ∧ LoadedHost so src (consts nd.1) es groups d nd.1 nd.2 nh.2) d.hosts hosts ∧ shown x d.order.order hosts = r := by
  unfold inspected at h
  split at h
  · next d r' h1 h2 =>
    obtain ⟨d', h3, h4⟩ := C59_load (load_mono h2)
    have : d' = d := by
      obtain ⟨m, h3⟩ := h3
      have h5 := h3 (max n m) (Nat.le_max_right _ _)
      have h6 := declare_mono h1 (Nat.le_max_left n m)
      have h7 := Option.some.inj (h5.symm.trans h6)
      cases h7
      rfl
    subst this
    exact ⟨d', r'.2, h4, Option.some.inj h⟩
  · cases h

/-- `all` defines a list `x`, which the groups `a` and `b` change in place. -/
example : inspected p!"x" 6 setOrder changing (memberOf [p!"a", p!"b"]) none = some [some [[(0, .group p!"all"), (2, .group p!"a"), (3, .group p!"b")]]] := by decide +kernel

/-- The host defines `x` anew. -/
example : inspected p!"x" 6 setOrder { changing with hostFile := fun _ => some (assignment p!"x" 7) } (memberOf [p!"a", p!"b"]) none
    = some [some [[(4, .host p!"web")]]] := by decide +kernel

/-- The modules of a host in two groups, where `all` sets `x` and `a` changes the object. -/
def twoModules : Sources where
  groupFile g := if g = p!"all" then some (assignment p!"x" 1) else if g = p!"a" then some (fun heap vs => .ok (fun n => if n = 1 then heap 1 + 1 else heap n, vs)) else none
  hostFile _ := none
  file _ := none
  inventory := inventoryWrapper

def twoDecl : HostDecl := { name := some p!"web", groups := [p!"a", p!"all"] }

/-- The hypotheses of `C85_defined_by_partial` about the variable `x` are met whenever such a host is loaded. -/
theorem twoModules_traceable {d : Declared} (h1 : loads twoModules d p!"web" twoDecl
      = [(.group p!"all", twoModules.groupFile p!"all"), (.group p!"a", twoModules.groupFile p!"a"), (.host p!"web", none)])
    {stages : List Stage} (h : Origins twoModules (consts p!"web") d (fun n => n) p!"web" twoDecl stages) :
    Plain p!"x" ∧ Traceable p!"x" stages ∧ contributors p!"x" stages = [.group p!"all", .group p!"a"] := by
  have hx : Plain p!"x" := ⟨⟨by decide, by decide, by decide⟩, by decide, by decide, by decide⟩
  obtain ⟨rest, rfl, hc⟩ := h
  rw [h1] at hc
  cases hc with
  | cons i1 r1 hc =>
  cases hc with
  | cons i2 r2 hc =>
  cases hc with
  | cons i3 r3 hc =>
  cases hc
  have e1 := i1 _ hx
  have e2 := i2 _ hx
  have e3 := i3 _ hx
  have r1 : assignment p!"x" 1 _ _ = .ok (_, _) := r1
  cases r1
  cases r2
  obtain ⟨rfl, rfl⟩ := r3
  have v1 : ∀ vs : Vars, (vs.set p!"x" ⟨1, false⟩).get p!"x" = some ⟨1, false⟩ := fun vs => by rw [Vars.get_set, if_pos rfl]
  unfold inherited at e2 e3
  rw [v1] at e2
  have e2' := e2.trans (show _ = some (⟨1, false⟩ : Obj) from rfl)
  rw [e2'] at e3
  have e3' := e3.trans (show _ = some (⟨1, false⟩ : Obj) from rfl)
  have e0 : (declVars twoDecl).get p!"x" = none := rfl
  refine ⟨hx, ⟨fun s hs v hv => ?_, ?_, ?_, .inl ⟨_, List.mem_cons_of_mem _ (List.mem_cons_self ..), ⟨1, false⟩, v1 _, Nat.one_ne_zero⟩⟩, ?_⟩
  · simp only [List.mem_cons, List.not_mem_nil, or_false] at hs
    rcases hs with rfl | rfl | rfl | rfl
    · rw [e0] at hv; cases hv
    · rw [v1] at hv; cases hv; rfl
    · rw [e2'] at hv; cases hv; rfl
    · rw [e3'] at hv; cases hv; rfl
  · simp [List.pairwise_cons, e0, v1, e2', e3']
  · simp [List.pairwise_cons, e0, v1, e2', e3']
  · simp [contributors, dueTo, e0, v1, e2', e3', sameObject, sameContent]

/-- There is such a host. -/
example : ∃ d h heap', Yields (fun fuel => declare fuel setOrder [.dict (some twoDecl)] none) (.ok d) ∧ (p!"web", twoDecl) ∈ d.hosts
    ∧ instanciateHost twoModules (consts p!"web") d (fun n => n) p!"web" twoDecl = .ok (heap', h)
    ∧ (loads twoModules d p!"web" twoDecl).map (·.1) = [.group p!"all", .group p!"a", .host p!"web"] := by
  have hc : (match declare 6 setOrder [.dict (some twoDecl)] none with
      | some (.ok d) => decide (d.hosts = [(p!"web", twoDecl)] ∧ (loads twoModules d p!"web" twoDecl).map (·.1) = [.group p!"all", .group p!"a", .host p!"web"])
        && (instanciateHost twoModules (consts p!"web") d (fun n => n) p!"web" twoDecl).toOption.isSome
      | _ => false) = true := by decide +kernel
  cases hd : declare 6 setOrder [.dict (some twoDecl)] none with
  | none => rw [hd] at hc; cases hc
  | some r => cases r with
    | error e => rw [hd] at hc; cases hc
    | ok d =>
      rw [hd] at hc
      simp only [Bool.and_eq_true, decide_eq_true_eq] at hc
      obtain ⟨⟨h1, h2⟩, h3⟩ := hc
      cases hi : instanciateHost twoModules (consts p!"web") d (fun n => n) p!"web" twoDecl with
      | error e => rw [hi] at h3; cases h3
      | ok r => exact ⟨d, r.2, r.1, ⟨6, fun m hm => declare_mono hd hm⟩, by rw [h1]; exact List.mem_singleton.mpr rfl, hi, h2⟩

/-- The module of the group `all` sets `x` to `None`, and no other does. -/
def noneInAll : Sources := setting [(p!"all", 0)]

/-- `all` defines `x`, `a` deletes it and `b`, which is loaded after `a`, defines it. -/
def deleting : Sources where
  groupFile g := if g = p!"all" then some (assignment p!"x" 1) else if g = p!"a" then some (fun heap vs => .ok (heap, vs.filter fun k _ => k != p!"x"))
    else if g = p!"b" then some (assignment p!"x" 2) else none
  hostFile _ := none
  file _ := none
  inventory := inventoryWrapper

end Example

open Example in
/-- C85 does not hold for variables that are `None` all of the time: these are always said to be defined by the host, even if it has
no module. -/
theorem C85_none_refuted :
    ∃ src es d hosts, Each (fun nd nh => nd.1 = nh.1 ∧ LoadedHost setOrder src (consts nd.1) es none d nd.1 nd.2 nh.2) d.hosts hosts
      ∧ src.groupFile p!"all" = some (assignment p!"x" 0) ∧ (∀ n, src.hostFile n = none)
      ∧ shown p!"x" d.order.order hosts = [some [[(3, .host p!"web")]]] := by
  obtain ⟨d, hosts, h1, h2⟩ := inspected_loaded (show inspected p!"x" 6 setOrder noneInAll (memberOf [p!"a"]) none = some [some [[(3, .host p!"web")]]] by decide +kernel)
  exact ⟨noneInAll, _, d, hosts, h1, rfl, fun _ => rfl, h2⟩

open Example in
/-- C85 does not hold for variables that are deleted: the group `all` is said to have defined a variable that was deleted and
defined anew by another group. -/
theorem C85_deleted_refuted :
    ∃ src es groups d hosts, Each (fun nd nh => nd.1 = nh.1 ∧ LoadedHost setOrder src (consts nd.1) es groups d nd.1 nd.2 nh.2) d.hosts hosts
      ∧ (∃ code, src.groupFile p!"a" = some code ∧ ∀ heap g heap' g', code heap g = .ok (heap', g') → g'.get p!"x" = none)
      ∧ src.groupFile p!"b" = some (assignment p!"x" 2)
      ∧ shown p!"x" d.order.order hosts = [some [[(1, .group p!"all"), (3, .group p!"b")]]] := by
  obtain ⟨d, hosts, h1, h2⟩ := inspected_loaded (show inspected p!"x" 6 setOrder deleting (memberOf [p!"a", p!"b"])
    (some [.decl { name := p!"a" }, .decl { name := p!"b", after := [p!"a"] }]) = some [some [[(1, .group p!"all"), (3, .group p!"b")]]] by decide +kernel)
  refine ⟨deleting, _, _, d, hosts, h1, ⟨_, rfl, fun heap g heap' g' h => ?_⟩, rfl, h2⟩
  cases h
  rw [Vars.get_filter]
  cases g.get p!"x" <;> simp

end Verif.Inventory
