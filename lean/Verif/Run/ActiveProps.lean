/-
C91: operations act on the host whose script is running, and nowhere else.
-/
import Verif.Run.ActiveLemmas

namespace Verif.Active

/-- C91: while an inventory is loaded, nothing is done on any host, whatever the inventory, the group modules and the host modules
contain. An operation or a script that they call is refused with a message that mentions what is probably wrong. `fora.host` and
`fora.group` are the host and the group whose module is executed. -/
theorem C91_modules (p : Plan) (hosts : Option Str) (wire : Str → Wire) :
    ∀ s ∈ (mainRun p hosts wire).2, s.site.active = none → Idle s := by
  intro s hm ha
  rcases mainRun_parts p hosts wire with (⟨r, _, h⟩ | ⟨_, m, _, h⟩) | ⟨loaded, wanted, selected, n, _, _, _, hs, h, _⟩
  · rw [h] at hm; exact loadInventory_idle p s hm
  · rw [h] at hm; exact loadInventory_idle p s hm
  · rw [h] at hm
    rcases List.mem_append.1 hm with hm | hm
    · exact loadInventory_idle p s hm
    · obtain ⟨x, hx, hm⟩ := List.mem_flatMap.1 hm
      have := (scriptSteps_busy (hs x (List.mem_of_mem_take hx)) s hm).site
      rw [this] at ha
      cases ha

/-- C91: in a script for a host, and in all scripts that it calls, every operation acts on this host. No other host can be reached,
neither by an operation nor through the connection of a host. -/
theorem C91_scripts (p : Plan) (hosts : Option Str) (wire : Str → Wire) (h : Str) :
    ∀ s ∈ (mainRun p hosts wire).2, s.site = .script h → Busy h s := by
  intro s hm ha
  have idle : ∀ t : Trace, (∀ s ∈ t, Idle s) → s ∈ t → False := fun t ht hs => by
    have := (ht s hs).site
    rw [ha] at this
    cases this
  rcases mainRun_parts p hosts wire with (⟨r, _, h⟩ | ⟨_, m, _, h⟩) | ⟨loaded, wanted, selected, n, _, _, _, hs, h, _⟩
  · rw [h] at hm; exact (idle _ (loadInventory_idle p) hm).elim
  · rw [h] at hm; exact (idle _ (loadInventory_idle p) hm).elim
  · rw [h] at hm
    rcases List.mem_append.1 hm with hm | hm
    · exact (idle _ (loadInventory_idle p) hm).elim
    · obtain ⟨x, hx, hm⟩ := List.mem_flatMap.1 hm
      have hb := scriptSteps_busy (hs x (List.mem_of_mem_take hx)) s hm
      have := hb.site
      rw [ha] at this
      cases this
      exact hb

/-- C91: nothing is done on a host before the modules of all hosts have been loaded, nor if one of them fails, nor for a host that
was not asked for. The hosts follow one another: all that is done on one of them is done before anything is done on the next. -/
theorem C91_order (p : Plan) (hosts : Option Str) (wire : Str → Wire) :
    ∃ loading running, (mainRun p hosts wire).2 = loading ++ running ∧ (∀ s ∈ loading, s.site.active = none)
      ∧ (running ≠ [] → ∃ loaded wanted selected n, ∃ part : Str → Trace, (loadInventory p).1 = .ok loaded ∧ Run.Wanted loaded hosts wanted
        ∧ Run.FirstOccurrences wanted selected ∧ (∀ h ∈ selected, h ∈ loaded)
        ∧ ((mainRun p hosts wire).1 = .finished → n = selected.length)
        ∧ running = (selected.take n).flatMap part ∧ ∀ h ∈ selected, ∀ s ∈ part h, s.site = .script h) := by
  rcases mainRun_parts p hosts wire with (⟨r, _, h⟩ | ⟨_, m, _, h⟩) | ⟨loaded, wanted, selected, n, hl, hw, hf, hs, h, hn⟩
  · exact ⟨_, [], by rw [h]; simp, fun s hs => (loadInventory_idle p s hs).site, by simp⟩
  · exact ⟨_, [], by rw [h]; simp, fun s hs => (loadInventory_idle p s hs).site, by simp⟩
  · exact ⟨_, _, h, fun s hs => (loadInventory_idle p s hs).site, fun _ => ⟨loaded, wanted, selected, n, _, hl, hw, hf, hs, hn, rfl,
      fun x hx s hm => (scriptSteps_busy (hs x hx) s hm).site⟩⟩

/-- C91: when a script is given in the place of the inventory, the program ends with a message that says so, and nothing has been done on any
host. -/
theorem C91_swapped (p : Plan) (hosts : Option Str) (wire : Str → Wire) (c : Code) (hp : p.inventory = some c) (hc : Insists swapMessage c) :
    (mainRun p hosts wire).1 = .died swapMessage ∧ ∀ s ∈ (mainRun p hosts wire).2, s.site = .inventory ∧ ∀ h, s.effect ≠ .acted h := by
  have h1 := exec_insists (site := .inventory) (g := { inventory := some false }) (by decide) hc
  have hl : loadInventory p = (.error (.fatal notLoaded), (exec .inventory { inventory := some false } c).2) := by
    cases he : exec .inventory { inventory := some false } c with
    | mk r t =>
      rw [he] at h1
      simp only at h1
      subst h1
      simp [loadInventory, hp, execOption, he]
  have hm : mainRun p hosts wire = (.died notLoaded, (exec .inventory { inventory := some false } c).2) := by simp [mainRun, hl, reportFatal]
  rw [hm]
  refine ⟨rfl, fun s hs => ?_⟩
  obtain ⟨a, b⟩ := exec_idle (site := .inventory) (g := { inventory := some false }) rfl ⟨by decide, rfl, rfl, rfl⟩ c s hs
  refine ⟨b, fun h he => ?_⟩
  cases hcall : s.call with
  | operation => rw [a.operation (Or.inl hcall)] at he; cases he
  | script => rw [a.operation (Or.inr hcall)] at he; cases he
  | direct x => rw [a.direct x hcall] at he; cases he
  | look => rw [a.look hcall] at he; cases he

/-- C91: without an inventory, as when a script is executed by something else than fora, nothing is done on any host either, and calls of
operations are refused. -/
theorem C91_without_inventory (c : Code) : ∀ s ∈ (exec .inventory {} c).2, Idle s :=
  fun s hs => (exec_idle rfl ⟨by decide, rfl, rfl, rfl⟩ c s hs).1

/-- C91: if the module of a group or of a host raises an exception, the program ends: with the message alone if it is a `ValueError` or a
`FatalError`, and with the exception otherwise. Nothing has been done on any host, not even on the hosts that were loaded before. -/
theorem C91_module_error (p : Plan) (hosts : Option Str) (wire : Str → Wire) (declared : Trace → List HostPlan) (r : Raised)
    (hi : ∀ c, p.inventory = some c → Ends c) (hd : ∀ t, p.hosts t = .ok (declared t))
    (hb : ∀ t, ∃ before h after, declared t = before ++ h :: after ∧ (∀ x ∈ before, Loads x) ∧ Breaks r h) :
    Reported r (mainRun p hosts wire).1 ∧ ∀ s ∈ (mainRun p hosts wire).2, ∀ h, s.effect ≠ .acted h := by
  have h1 := execOption_ends hi .inventory { inventory := some false }
  have h2 : ∃ t, loadInventory p = (.error (wrapValue r), t) := by
    cases he : execOption .inventory { inventory := some false } p.inventory with
    | mk o t =>
      rw [he] at h1
      simp only at h1
      subst h1
      obtain ⟨before, h, after, hs, hl, hr⟩ := hb t
      have h3 := instanciateHosts_breaks hr after before { inventory := some false } hl
      rw [← hs] at h3
      cases hj : instanciateHosts { inventory := some false } (declared t) with
      | mk o t' =>
        rw [hj] at h3
        simp only at h3
        subst h3
        exact ⟨t ++ t', by simp [loadInventory, he, hd, hj]⟩
  obtain ⟨t, h2⟩ := h2
  have h3 : mainRun p hosts wire = (reportFatal (wrapValue r), t) := by simp [mainRun, h2]
  have h4 : ∀ s ∈ t, Idle s := by
    have := loadInventory_idle p
    rw [h2] at this
    exact this
  rw [h3]
  refine ⟨reported_wrapValue r, fun s hs h he => ?_⟩
  have a := h4 s hs
  cases hcall : s.call with
  | operation => rw [a.operation (Or.inl hcall)] at he; cases he
  | script => rw [a.operation (Or.inr hcall)] at he; cases he
  | direct x => rw [a.direct x hcall] at he; cases he
  | look => rw [a.look hcall] at he; cases he

/-! ### Examples -/

/-- An operation; exceptions are not handled. -/
def op (k : Code) : Code := .operate none fun | none => k | some r => .raise r

/-- An operation that is tried; exceptions are ignored. -/
def tried (k : Code) : Code := .operate none fun _ => k

/-- Two hosts with a group. All modules look at the variables and try to call an operation. The script looks at the variables, calls an
operation, then a script with another operation, and tries to use the connection of the first host. -/
def examplePlan : Plan where
  inventory := some (tried .done)
  hosts _ := .ok [⟨p!"a", [(p!"all", some (.look fun _ _ => tried .done))], some (.look fun _ _ => tried .done)⟩,
    ⟨p!"b", [(p!"all", none)], some (.direct none none fun _ => .done)⟩]
  script _ := .look fun _ _ => op (.script (op .done) fun _ => .direct (some p!"a") none fun _ => .done)

example : mainRun examplePlan none (fun _ => {}) = (.finished,
    [⟨.inventory, .operation, .refused swapMessage⟩,
      ⟨.group p!"a" p!"all", .look, .saw none (some p!"all")⟩, ⟨.group p!"a" p!"all", .operation, .refused swapMessage⟩,
      ⟨.host p!"a", .look, .saw (some p!"a") none⟩, ⟨.host p!"a", .operation, .refused swapMessage⟩,
      ⟨.host p!"b", .direct none, .nothing⟩,
      ⟨.script p!"a", .look, .saw (some p!"a") none⟩, ⟨.script p!"a", .operation, .acted p!"a"⟩, ⟨.script p!"a", .operation, .acted p!"a"⟩,
      ⟨.script p!"a", .direct (some p!"a"), .acted p!"a"⟩,
      ⟨.script p!"b", .look, .saw (some p!"b") none⟩, ⟨.script p!"b", .operation, .acted p!"b"⟩, ⟨.script p!"b", .operation, .acted p!"b"⟩,
      ⟨.script p!"b", .direct (some p!"a"), .nothing⟩]) := by decide +kernel

/-- Without an inventory. -/
example : exec .inventory {} (tried (.direct none none fun _ => .done)) = (none, [⟨.inventory, .operation, .refused swapMessage⟩, ⟨.inventory, .direct none, .nothing⟩]) := by
  decide +kernel

/-- The script for one host that was asked for; then a host that cannot be reached. -/
example : (mainRun examplePlan (some p!"b") (fun _ => {})).2.drop 6 =
    [⟨.script p!"b", .look, .saw (some p!"b") none⟩, ⟨.script p!"b", .operation, .acted p!"b"⟩, ⟨.script p!"b", .operation, .acted p!"b"⟩,
      ⟨.script p!"b", .direct (some p!"a"), .nothing⟩] := by decide +kernel
example : (mainRun examplePlan none (fun h => { opens := h = p!"a" })).1 = .raised := by decide +kernel

/-- A script in the place of the inventory, as in `fora script.py inventory.py`. -/
example : Insists swapMessage (.look fun _ _ => op (op .done)) := .look fun _ _ => .operate rfl
example : mainRun { examplePlan with inventory := some (.look fun _ _ => op (op .done)) } none (fun _ => {}) =
    (.died swapMessage, [⟨.inventory, .look, .saw none none⟩, ⟨.inventory, .operation, .refused swapMessage⟩]) := by decide +kernel

/-- The module of the second host raises a `ValueError`. -/
def misspelt : Plan := { examplePlan with hosts := fun _ => .ok [⟨p!"a", [(p!"all", some (tried .done))], none⟩, ⟨p!"b", [], some (tried (.raise (.value p!"port")))⟩] }
example : ∀ t, misspelt.hosts t = .ok ([⟨p!"a", [(p!"all", some (tried .done))], none⟩] ++ ⟨p!"b", [], some (tried (.raise (.value p!"port")))⟩ :: []) := fun _ => rfl
example : Loads ⟨p!"a", [(p!"all", some (tried .done))], none⟩ := ⟨by simp [tried, Ends.operate fun _ => Ends.done], by simp⟩
example : Breaks (.value p!"port") ⟨p!"b", [], some (tried (.raise (.value p!"port")))⟩ := .module _ (by simp) rfl (.operate fun _ => .raise)
example : mainRun misspelt none (fun _ => {}) = (.died p!"port", [⟨.inventory, .operation, .refused swapMessage⟩,
    ⟨.group p!"a" p!"all", .operation, .refused swapMessage⟩, ⟨.host p!"b", .operation, .refused swapMessage⟩]) := by decide +kernel

end Verif.Active
