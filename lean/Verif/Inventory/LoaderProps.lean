/-
Which inventory an argument of the command line stands for (C77).
-/
import Verif.Inventory.Loader
import Verif.Inventory.LoadProps
import Verif.Inventory.ConflictProps
import Verif.Inventory.UrlProps
namespace Verif.Inventory

theorem SetOrder.one (so : SetOrder) (a : Str) : so.order [a] = [a] := by
  have h1 := so.nodup [a]
  have h2 := so.mem [a]
  cases h : so.order [a] with
  | nil => have := (h2 a).mpr (by simp); rw [h] at this; cases this
  | cons x l =>
    rw [h] at h1 h2
    have hx : x = a := by simpa using (h2 x).mp (by simp)
    subst hx
    cases l with
    | nil => rfl
    | cons y l =>
      have hy : y = x := by simpa using (h2 y).mp (by simp)
      subst hy
      simp at h1

theorem SetOrder.none (so : SetOrder) : so.order [] = [] := by
  cases h : so.order [] with
  | nil => rfl
  | cons x l => have := (so.mem [] x).mp (by rw [h]; simp); cases this

def singleGroups : Decls GroupDecl := [(p!"all", { name := p!"all" }), (p!"early-explicits", { name := p!"early-explicits" })]

theorem single_declare (so : SetOrder) (url name : Str) (h : extractHostname (qualifyUrl url) = .ok name) (fuel : Nat) :
    declare fuel so [.str url] none
      = (topologicalOrder fuel singleGroups).map fun r => r.map fun order =>
          { hosts := [(name, { url := some (qualifyUrl url), name := some name, groups := [p!"all"] })], groups := singleGroups, order } := by
  have h1 : preprocessHosts so [.str url] [] = .ok [(name, { url := some (qualifyUrl url), name := some name, groups := [p!"all"] })] := by
    simp [preprocessHosts, addHost, Entry.host, nameHost, h, bind, Except.bind, so.one]
  have h2 : preprocessGroups so none [(name, { url := some (qualifyUrl url), name := some name, groups := [p!"all"] })] = .ok singleGroups := by
    simp [preprocessGroups, declaredGroups, so.one, addGroups, addGroup, Entry.group, so.none, bind, Except.bind, addBuiltin, setItem, singleGroups]
  have h3 : mergeDependencies so singleGroups = singleGroups := by
    simp [mergeDependencies, mergeAfter, clearBefore, mergeBefore, dedupBefore, singleGroups, so.none]
  unfold declare
  simp only [h1, h2, bind, Except.bind, h3]
  rfl

theorem single_order : ∃ order, topologicalOrder 9 singleGroups = some (.ok order) ∧ order.order = [p!"all", p!"early-explicits"] := by
  have h1 : ((topologicalOrder 9 singleGroups).map fun r => r.toOption.map (·.order)) = some (some [p!"all", p!"early-explicits"]) := by decide +kernel
  cases h : topologicalOrder 9 singleGroups with
  | none => rw [h] at h1; cases h1
  | some r =>
    cases r with
    | error e => rw [h] at h1; cases h1
    | ok o => rw [h] at h1; exact ⟨o, rfl, by simpa [Except.toOption] using h1⟩

/-- Variables of which nothing is recorded cannot be in conflict. -/
theorem changes_no_conflict {order : GroupOrder} {heap : Heap} {actor : Actor} {init : Wrapper} {check : Bool} :
    ∀ {l : List (Str × Obj)} {r : Record}, (l.map (·.1)).Nodup →
      (∀ a v, (a, v) ∈ l → r.history a = [] ∨ (wasOverwritten (some init) a v = false ∧ r.wasModified heap a v = false)) →
      (changesList order heap actor (some init) check l r).conflicts = r.conflicts
  | [], r, _, _ => rfl
  | (a, v) :: l, r, hn, h => by
    simp only [List.map_cons, List.nodup_cons] at hn
    rw [changesList, List.foldl_cons]
    have hstep : (r.change order heap actor (some init) check a v).conflicts = r.conflicts := by
      unfold Record.change
      rcases h a v (by simp) with h | ⟨h1, h2⟩
      · simp only [h, conflictsWith, List.filter_nil, List.map_nil, ite_self, List.append_nil]
        split <;> rfl
      · simp only [h1, h2, Option.isNone_some, Bool.or_self, Bool.false_eq_true, if_false]
    have := changes_no_conflict (order := order) (heap := heap) (actor := actor) (init := init) (check := check) (l := l)
      (r := r.change order heap actor (some init) check a v) hn.2 (fun b u hb => by
        have hne : b ≠ a := fun he => hn.1 (he ▸ List.mem_map.mpr ⟨(b, u), hb, rfl⟩)
        rcases h b u (by simp [hb]) with h | ⟨h1, h2⟩
        · exact .inl (by rw [Record.change_history hne]; exact h)
        · refine .inr ⟨h1, ?_⟩
          unfold Record.wasModified Record.previous at h2 ⊢
          rw [Record.change_history hne]
          exact h2)
    rw [changesList] at this
    rw [this, hstep]

theorem variable_host : Variable p!"host" := ⟨by decide, by decide, by decide⟩

theorem immediate_all (obj hosts : Obj) (classAttr : Str → Obj) (c : Consts) {x : Str} (h1 : x ≠ p!"module") (h2 : x ≠ p!"fora_managed") :
    (allVars (immediateSources obj hosts classAttr) c p!"all").get x = none := by
  unfold allVars
  rw [if_pos rfl, Vars.get_update, Vars.get_set, if_neg h2, Vars.get_empty, Option.or_none]
  unfold Wrapper.exported
  rw [Vars.get_filter]
  have : (immediateSources obj hosts classAttr).inventory.vars.get x = if x = p!"hosts" then some hosts else none := by
    unfold immediateSources Wrapper.vars Wrapper.dict
    simp only [Vars.get_update, Vars.get_set, Vars.get_empty, if_neg h1, Option.or_none]
  rw [this]
  split
  · next h =>
    subst h
    unfold Option.filter
    simp only
    rw [if_neg]
    simp [immediateSources, Cls.isExported, inventoryCls]
  · rfl

theorem single_instance (order : GroupOrder) (ho : order.order = [p!"all", p!"early-explicits"]) (obj hosts : Obj) (classAttr : Str → Obj) (c : Consts) (heap : Heap)
    (url name : Str) (d : HostDecl) (hd : d = { url := some url, name := some name, groups := [p!"all"] }) (hs : Decls HostDecl) :
    ∃ h, instanciateHost (immediateSources obj hosts classAttr) c ⟨hs, singleGroups, order⟩ heap name d = .ok (heap, h) := by
  have hg : groupsInOrder ⟨hs, singleGroups, order⟩ d = [p!"all"] := by
    unfold groupsInOrder
    rw [ho, hd]
    rfl
  let l0 : Loading := ⟨heap, earlyExplicits c (declVars d), earlyRecord order heap c (declVars d)⟩
  obtain ⟨l, hl⟩ : ∃ l, loadNext (immediateSources obj hosts classAttr) c ⟨hs, singleGroups, order⟩ l0 p!"all" = .ok l := ⟨_, rfl⟩
  obtain ⟨gd, h1, h2, h3⟩ := loadNext_ok hl
  have hv : (declVars d) = {} := by rw [hd]; rfl
  have hh : ∀ x, x ≠ p!"host" → l0.record.history x = [] := by
    intro x hx
    show (earlyRecord order heap c (declVars d)).history x = []
    rw [hv]
    show (Record.changes order heap (.group p!"early-explicits") none true {} (Record.change order heap (.group p!"early-explicits") none true {} p!"host" c.declaration)).history x = []
    rw [show Record.changes order heap (.group p!"early-explicits") none true {} (Record.change order heap (.group p!"early-explicits") none true {} p!"host" c.declaration)
      = Record.change order heap (.group p!"early-explicits") none true {} p!"host" c.declaration from rfl, Record.change_history hx]
  have hheap : l.heap = heap := by
    have : l = _ := (Except.ok.inj hl).symm
    rw [this]
  have hc : l.record.conflicts = [] := by
    rw [h3]
    refine (changes_no_conflict (l := l.initializer.exported.items) l.initializer.exported.nodup ?_).trans ?_
    · intro a v ha
      by_cases hne : a = p!"host"
      · subst hne
        obtain ⟨vs, vs', h4, h5, h6⟩ := loadNext_get (x := p!"host") (by
          intro g gd hm
          simp only [singleGroups, List.mem_cons, Prod.mk.injEq, List.not_mem_nil, or_false] at hm
          rcases hm with ⟨rfl, rfl⟩ | ⟨rfl, rfl⟩ <;> rfl) hl variable_host
        have h7 : l.initializer.exported.get p!"host" = some v := lookup_of_mem l.initializer.exported.nodup ha
        have h8 : vs' = vs := h4.2
        rw [h8, h5, immediate_all _ _ _ _ (by decide) (by decide), Option.or_none] at h6
        rw [h7] at h6
        have h9 := (Option.filter_eq_some_iff.mp h6.symm).1
        rw [early_exported variable_host, hv] at h9
        have h10 := (Option.filter_eq_some_iff.mp h9).1
        have h11 : v = c.declaration := (Option.some.inj h10).symm
        subst h11
        refine .inr ⟨?_, ?_⟩
        · show wasOverwritten (some (earlyExplicits c (declVars d))) p!"host" c.declaration = false
          rw [hv]
          have : (earlyExplicits c {}).get p!"host" = some c.declaration := rfl
          show (match (earlyExplicits c {}).get p!"host" with | none => false | some u => u.id != c.declaration.id) = false
          rw [this]
          simp
        · rw [hheap]
          show (earlyRecord order heap c (declVars d)).wasModified heap p!"host" c.declaration = false
          rw [hv]
          unfold Record.wasModified
          have : (earlyRecord order heap c {}).previous p!"host" = heap c.declaration.id := rfl
          rw [this]
          simp
      · exact .inl (hh a hne)
    · show (earlyRecord order heap c (declVars d)).conflicts = []
      rw [hv]
      rfl
  obtain ⟨w, hw⟩ : ∃ w, loadHost (immediateSources obj hosts classAttr) c name d l.initializer l.heap = .ok (heap, w) := by
    rw [hheap, hd]
    exact ⟨_, rfl⟩
  suffices h : ∃ x, instanciateHost (immediateSources obj hosts classAttr) c ⟨hs, singleGroups, order⟩ heap name d = .ok (heap, ⟨w, x⟩) from
    ⟨_, h.choose_spec⟩
  unfold instanciateHost
  have h0 : loadGroups (immediateSources obj hosts classAttr) c ⟨hs, singleGroups, order⟩ l0 [p!"all"] = .ok l := by
    rw [loadGroups, hl]
    rfl
  simp only [hg]
  rw [show loadGroups (immediateSources obj hosts classAttr) c ⟨hs, singleGroups, order⟩ ⟨heap, earlyExplicits c (declVars d), earlyRecord order heap c (declVars d)⟩ [p!"all"] = .ok l from h0]
  simp only [bind, Except.bind, hc, List.length_nil, Nat.lt_irrefl, gt_iff_lt, if_false, hw]
  exact ⟨_, rfl⟩

/-- C77. An argument that is not a Python file stands for one host: the inventory consists of this host only, under the name that
its url gives. No file is read and nothing is executed, so its variables are the one that fora defines and those of the script.
If the url is invalid, this is reported as a `FatalError`. -/
theorem C77_single_host (so : SetOrder) (execute : Str → Heap → Except Exn (Heap × Defined)) (obj hosts : Obj) (classAttr : Str → Obj) (c : Str → Consts)
    (heap : Heap) (argument : Str) (hpy : Py.endsWith argument p!".py" = false) :
    (∀ name, extractHostname (qualifyUrl argument) = .ok name →
      ∃ h, Yields (fun fuel => loadInventory fuel so execute obj hosts classAttr c heap argument) (.ok (heap, [(name, h)]))
        ∧ ∀ script x, Variable x → x ≠ p!"host" → x ≠ p!"fora_managed" → x ∉ hostNames → x ∉ moduleNames → x ∉ scriptNames →
            hostGet h.wrapper script x = (script.bind fun s => s.get x).filter fun v => !v.isModule)
    ∧ ∀ e, extractHostname (qualifyUrl argument) = .error e →
        Yields (fun fuel => loadInventory fuel so execute obj hosts classAttr c heap argument) (.error .fatal) := by
  constructor
  · intro name hname
    obtain ⟨order, h1, h2⟩ := single_order
    have hdecl : declare 9 so [.str argument] none = _ := single_declare so argument name hname 9
    rw [h1] at hdecl
    have hdecl : declare 9 so [.str argument] none
        = some (.ok ⟨[(name, { url := some (qualifyUrl argument), name := some name, groups := [p!"all"] })], singleGroups, order⟩) := hdecl
    obtain ⟨h, hh⟩ := single_instance order h2 obj hosts classAttr (c name) heap (qualifyUrl argument) name _ rfl
      [(name, { url := some (qualifyUrl argument), name := some name, groups := [p!"all"] })]
    refine ⟨h, ⟨9, fun m hm => ?_⟩, ?_⟩
    · have := declare_mono hdecl hm
      simp only [loadInventory, hpy, Bool.false_eq_true, if_false, load, this, Option.map_some]
      simp only [bind, Except.bind, instanciateHosts, hh, valueErrorToFatal]
    · intro script x hx hhost hman hn hw hs
      have hl : LoadedHost so (immediateSources obj hosts classAttr) (c name) [.str argument] none _ name _ h :=
        ⟨⟨9, fun m hm => declare_mono hdecl hm⟩, List.mem_singleton.mpr rfl, heap, heap, hh⟩
      have := C59_script hl x hx ?_ rfl hhost hman ?_ ⟨hn, hw⟩ script
      · rw [this, if_neg hs]
      · intro p hp
        have hbody : p = none := by
          unfold modulesOf at hp
          rw [List.mem_append, List.mem_map, List.mem_singleton] at hp
          rcases hp with ⟨g, hg, rfl⟩ | rfl
          · cases hg : (List.lookup g singleGroups) with
            | none => rfl
            | some gd =>
              have := lookup_mem hg
              simp only [singleGroups, List.mem_cons, Prod.mk.injEq, List.not_mem_nil, or_false] at this
              rcases this with ⟨rfl, rfl⟩ | ⟨rfl, rfl⟩ <;> rfl
          · rfl
        rw [hbody]
        intro code hc
        cases hc
      · have := immediate_all obj hosts classAttr (c name) hx.notModule hman
        rw [allVars_get, if_pos rfl, if_neg hman, Option.or_none] at this
        exact this
  · intro e he
    have hdecl : ∀ m, declare m so [.str argument] none = some (.error e) := by
      intro m
      have h1 : preprocessHosts so [.str argument] [] = .error e := by
        simp [preprocessHosts, addHost, Entry.host, nameHost, he, bind, Except.bind]
      unfold declare
      simp only [h1, bind, Except.bind]
    have hval : e.isValueError = true := by
      unfold extractHostname sshHostname localHostname at he
      repeat' split at he
      all_goals (cases he; try rfl)
    refine ⟨0, fun m _ => ?_⟩
    simp only [loadInventory, hpy, Bool.false_eq_true, if_false, load, hdecl m, Option.map_some]
    simp only [bind, Except.bind, valueErrorToFatal, hval, if_true]

/-- C77: a host name alone, or with a user, is enough. The host is then known by this name, without the user. -/
theorem C77_host_name (so : SetOrder) (execute : Str → Heap → Except Exn (Heap × Defined)) (obj hosts : Obj) (classAttr : Str → Obj) (c : Str → Consts)
    (heap : Heap) (user : Option Str) (host : Str) (hu : ∀ u, user = some u → 64 ∉ u ∧ 58 ∉ u) (ha : 64 ∉ host) (hc : 58 ∉ host)
    (hpy : Py.endsWith (Destination.text ⟨user, host, none⟩) p!".py" = false) :
    ∃ h, Yields (fun fuel => loadInventory fuel so execute obj hosts classAttr c heap (Destination.text ⟨user, host, none⟩)) (.ok (heap, [(host, h)])) := by
  obtain ⟨h, h1, _⟩ := (C77_single_host so execute obj hosts classAttr c heap _ hpy).1 host (C65_round_trip user host hu ha hc).2
  exact ⟨h, h1⟩

/-- `fora alice@web deploy.py` -/
example (so : SetOrder) (execute : Str → Heap → Except Exn (Heap × Defined)) (obj hosts : Obj) (classAttr : Str → Obj) (c : Str → Consts) (heap : Heap) :
    ∃ h, Yields (fun fuel => loadInventory fuel so execute obj hosts classAttr c heap p!"alice@web") (.ok (heap, [(p!"web", h)])) :=
  C77_host_name so execute obj hosts classAttr c heap (some p!"alice") p!"web" (by rintro u h; cases h; decide) (by decide) (by decide) (by decide)

/-- C77. An argument that ends with `.py` is a module. If it raises an exception, that is passed on. If it has no list of hosts, that is
reported as a `FatalError`. Otherwise the hosts it declares are loaded with the groups it declares, or the reason why that is
impossible is reported as a `FatalError`: a `ValueError` is never passed on. -/
theorem C77_module (so : SetOrder) (execute : Str → Heap → Except Exn (Heap × Defined)) (obj hosts : Obj) (classAttr : Str → Obj) (c : Str → Consts)
    (heap : Heap) (argument : Str) (hpy : Py.endsWith argument p!".py" = true) :
    (∀ e, execute argument heap = .error e →
      Yields (fun fuel => loadInventory fuel so execute obj hosts classAttr c heap argument) (.error (.raised e)))
    ∧ (∀ heap' inv, execute argument heap = .ok (heap', inv) → (∀ l, inv.hosts ≠ some (some l)) →
      Yields (fun fuel => loadInventory fuel so execute obj hosts classAttr c heap argument) (.error .fatal))
    ∧ ∀ heap' inv l, execute argument heap = .ok (heap', inv) → inv.hosts = some (some l) →
      ∃ r, Yields (fun fuel => loadInventory fuel so execute obj hosts classAttr c heap argument) r
        ∧ (∀ x, r = .ok x ↔ Yields (fun fuel => load fuel so inv.sources c heap' l inv.groups) (.ok x))
        ∧ (∀ e, r = .error (.raised e) → e.isValueError = false) := by
  refine ⟨fun e he => ⟨0, fun m _ => ?_⟩, fun heap' inv he hl => ⟨0, fun m _ => ?_⟩, fun heap' inv l he hl => ?_⟩
  · simp only [loadInventory, hpy, if_true, he]
  · simp only [loadInventory, hpy, if_true, he]
    split
    · rfl
    · rfl
    · next l h => exact absurd h (hl l)
  · obtain ⟨r, n, hr⟩ := load_yields so inv.sources c heap' l inv.groups
    refine ⟨valueErrorToFatal r, ⟨n, fun m hm => ?_⟩, fun x => ?_, fun e hx => ?_⟩
    · have := hr m hm
      simp only at this
      simp only [loadInventory, hpy, if_true, he, hl, this, Option.map_some]
    · constructor
      · intro hx
        cases r with
        | error e => simp [valueErrorToFatal] at hx
        | ok y => cases hx; exact ⟨n, hr⟩
      · rintro ⟨k, hk⟩
        have h1 := hr (max n k) (Nat.le_max_left _ _)
        have h2 := hk (max n k) (Nat.le_max_right _ _)
        cases Option.some.inj (h1.symm.trans h2)
        rfl
    · cases r with
      | ok y => cases hx
      | error e' =>
        simp only [valueErrorToFatal, Except.error.injEq] at hx
        split at hx
        · cases hx
        · next h => cases hx; simpa using h

/-- An inventory with the two hosts `a` and `b`. -/
def Example.twoHosts (v : Obj) : Str → Heap → Except Exn (Heap × Defined) := fun _ heap =>
  .ok (heap, { hosts := some (some [.str p!"a", .str p!"b"]), groups := none, sources := immediateSources v v fun _ => v })

example (v : Obj) (hv : v = ⟨1, false⟩) :
    ((loadInventory 20 Example.setOrder (Example.twoHosts v) v v (fun _ => v) Example.consts (fun _ => 0) p!"inventory.py").map
      fun r => r.toOption.map fun x => x.2.map (·.1)) = some (some [p!"a", p!"b"]) := by
  subst hv
  decide +kernel

/-- The documentation says that an invalid inventory leads to a `FatalError`. That is false for a host that is declared by a dict
with an unknown key: the `TypeError` is passed on. -/
theorem C77_fatal_refuted (so : SetOrder) (obj : Obj) (c : Str → Consts) (heap : Heap) :
    Yields (fun fuel => loadInventory fuel so (fun _ heap => .ok (heap, { hosts := some (some [.dict none]), groups := none, sources := immediateSources obj obj fun _ => obj }))
      obj obj (fun _ => obj) c heap p!"inventory.py") (.error (.raised .typeError)) :=
  ⟨0, fun _ _ => rfl⟩

end Verif.Inventory
