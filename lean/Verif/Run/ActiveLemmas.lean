/-
Lemmas for C91.
-/
import Verif.Run.ActiveSpec
import Verif.Run.MainProps

namespace Verif.Active

/-! ### Code at a place -/

/-- The variables are as they should be at this place while the inventory is being loaded, or when there is none. -/
structure Loading (site : Site) (g : Globals) : Prop where
  inventory : g.inventory ≠ some true
  host : g.host = site.hostVar
  group : g.group = site.groupVar
  connected : g.connected = []

theorem use_nothing {g : Globals} (hg : g.connected = []) (h : Option Str) (o : Option Raised) : (use g h o).1 = .nothing := by
  cases h with
  | none => rfl
  | some h => simp [use, hg]

theorem checkHostActive_loading {g : Globals} (h : g.inventory ≠ some true) : checkHostActive g = some notLoaded := by
  unfold checkHostActive
  rcases hg : g.inventory with _ | _ | _
  · rfl
  · rfl
  · exact absurd hg h

theorem exec_idle {site : Site} {g : Globals} (hs : site.active = none) (hg : Loading site g) (c : Code) : ∀ s ∈ (exec site g c).2, Idle s ∧ s.site = site := by
  have hc := checkHostActive_loading hg.inventory
  induction c with
  | done => simp [exec]
  | raise r => simp [exec]
  | operate o k ih =>
    intro s hm
    simp only [exec, List.mem_cons] at hm
    rcases hm with rfl | hm
    · exact ⟨⟨hs, (fun _ => by simp [operation, hc]; rfl), (by nofun), by nofun⟩, rfl⟩
    · exact ih _ s hm
  | direct h o k ih =>
    intro s hm
    simp only [exec, List.mem_cons] at hm
    rcases hm with rfl | hm
    · exact ⟨⟨hs, (by simp), (fun _ _ => use_nothing hg.connected _ _), by nofun⟩, rfl⟩
    · exact ih _ s hm
  | look k ih =>
    intro s hm
    simp only [exec, List.mem_cons] at hm
    rcases hm with rfl | hm
    · exact ⟨⟨hs, (by simp), (by nofun), fun _ => by simp [hg.host, hg.group]⟩, rfl⟩
    · exact ih _ _ s hm
  | script body k ihb ih =>
    intro s hm
    simp only [exec, hc, List.mem_cons] at hm
    rcases hm with rfl | hm
    · exact ⟨⟨hs, (fun _ => rfl), (by nofun), by nofun⟩, rfl⟩
    · exact ih _ s hm

theorem execOption_idle {site : Site} {g : Globals} (hs : site.active = none) (hg : Loading site g) (c : Option Code) :
    ∀ s ∈ (execOption site g c).2, Idle s ∧ s.site = site := by
  cases c with
  | none => simp [execOption]
  | some c => exact exec_idle hs hg c

theorem exec_insists {site : Site} {g : Globals} (hg : g.inventory ≠ some true) {c : Code} (h : Insists notLoaded c) :
    (exec site g c).1 = some (.fatal notLoaded) := by
  have hc := checkHostActive_loading hg
  induction h with
  | operate h => simp [exec, operation, hc, h]
  | script h => simp [exec, hc, h]
  | handled _ ih => simpa [exec, operation, hc] using ih
  | look _ ih => simpa [exec] using ih _ _

theorem exec_busy {h : Str} {loaded : List Str} (hl : h ∈ loaded) (c : Code) :
    ∀ s ∈ (exec (.script h) { inventory := some true, loaded, host := some h, connected := [h] } c).2, Busy h s := by
  have hc : checkHostActive { inventory := some true, loaded, host := some h, connected := [h] } = none := rfl
  induction c with
  | done => simp [exec]
  | raise r => simp [exec]
  | operate o k ih =>
    intro s hm
    simp only [exec, List.mem_cons] at hm
    rcases hm with rfl | hm
    · exact ⟨rfl, (fun _ => by simp [operation, hc, use]), (by nofun), (by nofun), by nofun⟩
    · exact ih _ s hm
  | direct h' o k ih =>
    intro s hm
    simp only [exec, List.mem_cons] at hm
    rcases hm with rfl | hm
    · refine ⟨rfl, (by nofun), (by nofun), (fun x hx => ?_), by nofun⟩
      cases hx
      cases h' with
      | none => simp [target, use]
      | some h' =>
        by_cases he : h' = h
        · subst he; simp [target, use, hl]
        · by_cases hl' : h' ∈ loaded <;> simp [target, use, hl', he]
    · exact ih _ s hm
  | look k ih =>
    intro s hm
    simp only [exec, List.mem_cons] at hm
    rcases hm with rfl | hm
    · exact ⟨rfl, (by nofun), (by nofun), (by nofun), fun _ => rfl⟩
    · exact ih _ _ s hm
  | script body k ihb ih =>
    intro s hm
    simp only [exec, hc, List.mem_append] at hm
    rcases hm with hm | hm
    · exact ihb s hm
    · exact ih _ s hm

/-! ### Loading an inventory -/

/-- The state while an inventory is being loaded, outside of the modules. -/
structure Between (g : Globals) : Prop where
  inventory : g.inventory = some false
  host : g.host = none
  group : g.group = none
  connected : g.connected = []

theorem loadGroups_idle {host : Str} : (gs : List (Str × Option Code)) → {g : Globals} → Between g →
    ∀ s ∈ (loadGroups host g gs).2, Idle s ∧ s.site.owner = some host
  | [], _, _ => by simp [loadGroups]
  | (group, code) :: rest, g, hg => by
    have h1 : ∀ s ∈ (loadGroup host g group code).2, Idle s ∧ s.site.owner = some host := fun s hm => by
      have := execOption_idle (site := .group host group) (g := { g with group := some group }) rfl ⟨(by simp [hg.inventory]), hg.host, rfl, hg.connected⟩ code s hm
      exact ⟨this.1, by rw [this.2]; rfl⟩
    have h2 := loadGroups_idle (host := host) rest (g := { g with group := none }) ⟨hg.inventory, hg.host, rfl, hg.connected⟩
    intro s hm
    rw [loadGroups] at hm
    split at hm
    · rename_i r t ht
      rw [ht] at h1; exact h1 s hm
    · rename_i t ht
      rw [ht] at h1
      rcases List.mem_append.1 hm with hm | hm
      · exact h1 s hm
      · exact h2 s hm

theorem instanciateHost_idle {g : Globals} (hg : Between g) (p : HostPlan) :
    ∀ s ∈ (instanciateHost g p).2, Idle s ∧ s.site.owner = some p.name := by
  intro s hm
  have h1 := loadGroups_idle (host := p.name) p.groups hg
  rw [instanciateHost] at hm
  split at hm
  · rename_i r t ht
    rw [ht] at h1; exact h1 s hm
  · rename_i t ht
    rw [ht] at h1
    rcases List.mem_append.1 hm with hm | hm
    · exact h1 s hm
    · have := execOption_idle (site := .host p.name) (g := { g with group := none, host := some p.name }) rfl ⟨(by simp [hg.inventory]), rfl, rfl, hg.connected⟩ p.module s hm
      exact ⟨this.1, by rw [this.2]; rfl⟩

theorem instanciateHosts_idle : (ps : List HostPlan) → {g : Globals} → Between g → ∀ s ∈ (instanciateHosts g ps).2, Idle s
  | [], _, _ => by simp [instanciateHosts]
  | p :: ps, g, hg => by
    have h1 := instanciateHost_idle hg p
    have h2 := instanciateHosts_idle ps (g := { g with group := none, host := none }) ⟨hg.inventory, rfl, rfl, hg.connected⟩
    intro s hm
    rw [instanciateHosts] at hm
    split at hm
    · rename_i r t ht
      rw [ht] at h1; exact (h1 s hm).1
    · rename_i t ht
      rw [ht] at h1
      rcases List.mem_append.1 hm with hm | hm
      · exact (h1 s hm).1
      · exact h2 s hm

theorem loadInventory_idle (p : Plan) : ∀ s ∈ (loadInventory p).2, Idle s := by
  have h1 : ∀ s ∈ (execOption .inventory { inventory := some false } p.inventory).2, Idle s := fun s hs =>
    (execOption_idle (site := .inventory) rfl ⟨by decide, rfl, rfl, rfl⟩ p.inventory s hs).1
  intro s hm
  rw [loadInventory] at hm
  split at hm
  · rename_i r t ht
    rw [ht] at h1; exact h1 s hm
  · rename_i t ht
    rw [ht] at h1
    split at hm
    · exact h1 s hm
    · rename_i hosts _
      have h2 := instanciateHosts_idle hosts (g := { inventory := some false }) ⟨rfl, rfl, rfl, rfl⟩
      split at hm
      all_goals
        rename_i t' ht'
        rw [ht'] at h2
        rcases List.mem_append.1 hm with hm | hm
        · exact h1 s hm
        · exact h2 s hm

/-! ### Running scripts -/

/-- The steps of the script of a host, when the hosts of the list have been loaded. -/
def scriptSteps (script : Str → Code) (wire : Str → Wire) (loaded : List Str) (h : Str) : Trace :=
  if (wire h).opens then (exec (.script h) { inventory := some true, loaded, host := some h, connected := [h] } (script h)).2 else []

theorem scriptSteps_busy {script : Str → Code} {wire : Str → Wire} {loaded : List Str} {h : Str} (hl : h ∈ loaded) :
    ∀ s ∈ scriptSteps script wire loaded h, Busy h s := by
  intro s hm
  unfold scriptSteps at hm
  split at hm
  · exact exec_busy hl _ s hm
  · simp at hm

theorem runHosts_steps (script : Str → Code) (wire : Str → Wire) {loaded : List Str} : (hs : List Str) →
    ∃ n, (runHosts script wire { inventory := some true, loaded } hs).2 = (hs.take n).flatMap (scriptSteps script wire loaded)
      ∧ ((runHosts script wire { inventory := some true, loaded } hs).1 = .finished → n = hs.length)
  | [] => ⟨0, rfl, fun _ => rfl⟩
  | h :: hs => by
    obtain ⟨n, ih, ihf⟩ := runHosts_steps script wire (loaded := loaded) hs
    rw [runHosts]
    by_cases ho : (wire h).opens
    · rw [if_pos ho]
      have hp : scriptSteps script wire loaded h = (exec (.script h) { inventory := some true, loaded, host := some h, connected := [h] } (script h)).2 := by
        simp [scriptSteps, ho]
      split
      · rename_i r t ht
        exact ⟨1, by simp [hp, ht], by nofun⟩
      · rename_i t ht
        split
        · refine ⟨n + 1, ?_, fun hf => by simpa using ihf hf⟩
          simp only [List.take_succ_cons, List.flatMap_cons, hp, ht]
          rw [← ih]
        · exact ⟨1, by simp [hp, ht], by nofun⟩
    · rw [if_neg ho]
      exact ⟨0, rfl, by nofun⟩

/-- What a run of the program consists of. -/
theorem mainRun_parts (p : Plan) (hosts : Option Str) (wire : Str → Wire) :
    ((∃ r, (loadInventory p).1 = .error r ∧ mainRun p hosts wire = (reportFatal r, (loadInventory p).2))
    ∨ (∃ loaded m, (loadInventory p).1 = .ok loaded ∧ mainRun p hosts wire = (.died m, (loadInventory p).2)))
    ∨ ∃ loaded wanted selected n, (loadInventory p).1 = .ok loaded ∧ Run.Wanted loaded hosts wanted ∧ Run.FirstOccurrences wanted selected
      ∧ (∀ h ∈ selected, h ∈ loaded)
      ∧ (mainRun p hosts wire).2 = (loadInventory p).2 ++ (selected.take n).flatMap (scriptSteps p.script wire loaded)
      ∧ ((mainRun p hosts wire).1 = .finished → n = selected.length) := by
  cases hl : loadInventory p with
  | mk r t =>
    cases r with
    | error r => exact Or.inl (Or.inl ⟨r, rfl, by simp [mainRun, hl]⟩)
    | ok loaded =>
      obtain ⟨wanted, hw, _⟩ := Run.C64_wanted loaded hosts
      have hw' := Run.wanted_iff.mp hw
      cases hs : Run.select loaded (Run.requested loaded hosts) [] with
      | error m => exact Or.inl (Or.inr ⟨loaded, m, rfl, by simp [mainRun, hl, hs]⟩)
      | ok selected =>
        obtain ⟨n, hn, hf⟩ := runHosts_steps p.script wire (loaded := loaded) selected
        rw [← hw'] at hs
        obtain ⟨h1, _⟩ := Run.select_spec (loaded := loaded) (hs := wanted) Run.firstOccurrences_nil
        obtain ⟨h2, h3⟩ := h1 hs
        have h2 : Run.FirstOccurrences wanted selected := by simpa using h2
        have hs' := hs
        rw [hw'] at hs'
        refine Or.inr ⟨loaded, wanted, selected, n, rfl, hw, h2, fun h hh => ?_, by simp [mainRun, hl, hs', hn], fun hx => hf ?_⟩
        · simpa using h3 h ((h2.same h).mp hh)
        · simpa [mainRun, hl, hs'] using hx

theorem exec_fails {r : Raised} {c : Code} (h : Fails r c) (site : Site) (g : Globals) : (exec site g c).1 = some r := by
  induction h with
  | raise => rfl
  | operate _ ih => exact ih _
  | direct _ ih => exact ih _
  | look _ ih => exact ih _ _
  | script _ ih =>
    simp only [exec]
    split
    · exact ih _
    · exact ih _

theorem exec_ends {c : Code} (h : Ends c) (site : Site) (g : Globals) : (exec site g c).1 = none := by
  induction h with
  | done => rfl
  | operate _ ih => exact ih _
  | direct _ ih => exact ih _
  | look _ ih => exact ih _ _
  | script _ ih =>
    simp only [exec]
    split
    · exact ih _
    · exact ih _

theorem execOption_ends {c : Option Code} (h : ∀ x, c = some x → Ends x) (site : Site) (g : Globals) : (execOption site g c).1 = none := by
  cases c with
  | none => rfl
  | some c => exact exec_ends (h c rfl) site g

theorem loadGroups_ends (host : Str) : ∀ (gs : List (Str × Option Code)) (g : Globals), (∀ x ∈ gs, ∀ c, x.2 = some c → Ends c) →
    (loadGroups host g gs).1 = none
  | [], _, _ => rfl
  | (n, c) :: gs, g, h => by
    have h1 : (loadGroup host g n c).1 = none := execOption_ends (h (n, c) (by simp)) _ _
    simp only [loadGroups]
    split
    · rename_i e; rw [e] at h1; cases h1
    · exact loadGroups_ends host gs _ fun x hx => h x (by simp [hx])

theorem loadGroups_fails (host : Str) (name : Str) {r : Raised} {c : Code} (hc : Fails r c) (after : List (Str × Option Code)) :
    ∀ (gs : List (Str × Option Code)) (g : Globals), (∀ x ∈ gs, ∀ c, x.2 = some c → Ends c) →
      (loadGroups host g (gs ++ (name, some c) :: after)).1 = some r
  | [], g, _ => by
    have h1 : (loadGroup host g name (some c)).1 = some r := exec_fails hc _ _
    simp only [List.nil_append, loadGroups]
    split
    · rename_i e; rw [e] at h1; exact h1
    · rename_i e; rw [e] at h1; cases h1
  | (n, d) :: gs, g, h => by
    have h1 : (loadGroup host g n d).1 = none := execOption_ends (h (n, d) (by simp)) _ _
    simp only [List.cons_append, loadGroups]
    split
    · rename_i e; rw [e] at h1; cases h1
    · exact loadGroups_fails host name hc after gs _ fun x hx => h x (by simp [hx])

theorem instanciateHost_loads {p : HostPlan} (h : Loads p) (g : Globals) : (instanciateHost g p).1 = none := by
  have h1 := loadGroups_ends p.name p.groups g h.groups
  simp only [instanciateHost]
  split
  · rename_i e; rw [e] at h1; cases h1
  · exact execOption_ends h.module _ _

theorem instanciateHost_breaks {p : HostPlan} {r : Raised} (h : Breaks r p) (g : Globals) : (instanciateHost g p).1 = some r := by
  cases h with
  | group before after name c hg hb hc =>
    have h1 := loadGroups_fails p.name name hc after before g hb
    rw [← hg] at h1
    simp only [instanciateHost]
    split
    · rename_i e; rw [e] at h1; exact h1
    · rename_i e; rw [e] at h1; cases h1
  | module c hg hm hc =>
    have h1 := loadGroups_ends p.name p.groups g hg
    simp only [instanciateHost]
    split
    · rename_i e; rw [e] at h1; cases h1
    · rw [hm]; exact exec_fails hc _ _

theorem instanciateHosts_breaks {p : HostPlan} {r : Raised} (h : Breaks r p) (after : List HostPlan) :
    ∀ (ps : List HostPlan) (g : Globals), (∀ x ∈ ps, Loads x) → (instanciateHosts g (ps ++ p :: after)).1 = some r
  | [], g, _ => by
    have h1 := instanciateHost_breaks h g
    simp only [List.nil_append, instanciateHosts]
    split
    · rename_i e; rw [e] at h1; exact h1
    · rename_i e; rw [e] at h1; cases h1
  | q :: ps, g, hl => by
    have h1 := instanciateHost_loads (hl q (by simp)) g
    simp only [List.cons_append, instanciateHosts]
    split
    · rename_i e; rw [e] at h1; cases h1
    · exact instanciateHosts_breaks h after ps _ fun x hx => hl x (by simp [hx])

theorem reported_wrapValue (r : Raised) : Reported r (reportFatal (wrapValue r)) := by
  cases r with
  | fatal m => exact .fatal m
  | value m => exact .value m
  | other => exact .other

end Verif.Active
