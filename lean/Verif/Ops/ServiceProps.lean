/-
C53: services.
-/
import Verif.Ops.ServiceLemmas
import Verif.Ops.RepeatProps
import Verif.Ops.FrameProps
import Verif.Ops.Example

namespace Verif.Ops

open Script Remote

/-- The states that can be requested. -/
def KnownState (state : Option Str) : Prop :=
  ∀ s, state = some s → s = p!"started" ∨ s = p!"restarted" ∨ s = p!"reloaded" ∨ s = p!"stopped"

theorem knownState {state : Option Str} (h : KnownState state) : state.any (fun s => (stateAction s).isNone) = false := by
  cases state with
  | none => rfl
  | some s => rcases h s rfl with rfl | rfl | rfl | rfl <;> decide

/-- C53: what `systemd.service` achieves for units of the system. If it ends normally, the unit runs and is enabled as requested. Excluded
are the units of the user (see `C53_user_mode_refuted`) and stopping a unit that is just reloading (see `C53_reloading_refuted`). -/
theorem C53_reaches_partial (sys : Sys) (U : UnitStates) (unit : Str) (T : Systemd sys U unit) (state : Option Str) (hs : KnownState state)
    (enabled : Option Bool) (check : Bool) (env : Env) (hdry : env.dry = false) (st : St) (w : World) (hrel : U.active false w unit ≠ .reloading)
    (lost : Nat → Option Bool) (r : OpResult) (hr : (perform sys lost (systemdService unit state enabled false check) env st w).1 = .ok r) :
    r.success = true
    ∧ RunsAs state (U.active false w unit) (U.active false (perform sys lost (systemdService unit state enabled false check) env st w).2 unit)
    ∧ EnabledAs enabled (U.file false w unit) (U.file false (perform sys lost (systemdService unit state enabled false check) env st w).2 unit) := by
  have h := post_ok (service_post T (knownState hs)) hr
  generalize (perform sys lost (systemdService unit state enabled false check) env st w).2 = w' at h
  obtain ⟨⟨h1, _⟩, _, _, h2⟩ := h
  obtain ⟨h3, h4⟩ := h2 hdry
  refine ⟨h1, ?_, ?_⟩
  · split at h3
    · exact h3
    · rename_i hd
      rw [h3]
      cases state with
      | none => exact ⟨fun _ => rfl, (by intro h; cases h), (by intro h; cases h), (by intro h; cases h), (by intro h; cases h)⟩
      | some s =>
        have hd : s = seenState (U.active false w unit) := by simpa [stateDiffers] using hd
        revert hd hrel
        generalize U.active false w unit = a
        intro hrel hd
        subst hd
        refine ⟨(by intro h; cases h), fun h => ?_, fun h => ?_, fun h => ?_, fun h => ?_⟩ <;> revert h hrel <;> cases a <;> decide
  · split at h4
    · exact h4
    · rename_i hd
      rw [h4]
      cases enabled with
      | none => exact ⟨fun _ => rfl, (by intro h; cases h), (by intro h; cases h)⟩
      | some e =>
        have hd : e = decide (U.file false w unit = .enabled) := by simpa [enabledDiffers] using hd
        refine ⟨(by intro h; cases h), fun h => ?_, fun h => ?_⟩
        · cases h; simpa using hd.symm
        · cases h; simpa using hd.symm

/-- C53: a state that is not known is refused before anything is sent to the host. -/
theorem C53_unknown_state (sys : Sys) (unit s : Str) (hs : ¬ KnownState (some s)) (enabled : Option Bool) (userMode check : Bool) (env : Env) (st : St)
    (w : World) (lost : Nat → Option Bool) :
    (∃ msg, (perform sys lost (systemdService unit (some s) enabled userMode check) env st w).1 = .error (.valueError msg))
    ∧ (perform sys lost (systemdService unit (some s) enabled userMode check) env st w).2 = w := by
  have h : (some s).any (fun s => (stateAction s).isNone) = true := by
    cases hx : (some s).any (fun s => (stateAction s).isNone) with
    | true => rfl
    | false =>
      exfalso
      apply hs
      intro s' h'
      cases h'
      rcases stateAction_cases (s := s) hx with h | h | h | h
      · exact .inl h.1
      · exact .inr (.inl h.1)
      · exact .inr (.inr (.inl h.1))
      · exact .inr (.inr (.inr h.1))
  unfold systemdService
  rw [h]
  exact ⟨⟨_, rfl⟩, rfl⟩

/-- C53: a dry run changes nothing. -/
theorem C53_dry_run (sys : Sys) (U : UnitStates) (unit : Str) (T : Systemd sys U unit) (state : Option Str) (hs : KnownState state) (enabled : Option Bool)
    (userMode check : Bool) (env : Env) (hdry : env.dry = true) (st : St) (w : World) (lost : Nat → Option Bool) :
    Untouched (fun _ => False) w (perform sys lost (systemdService unit state enabled userMode check) env st w).2 :=
  untouched_same (post_world ((service_post T (knownState hs)).mono (fun _ _ _ h => h.2.1 hdry) fun _ h => h.1 hdry) fun _ _ _ h => h)

/-- C53: nothing is done if the unit is as requested, as far as something is requested. If both a state and whether to enable the unit
are given, no change is reported. -/
theorem C53_nothing_to_do_partial (sys : Sys) (U : UnitStates) (unit : Str) (T : Systemd sys U unit) (state : Option Str) (enabled : Option Bool)
    (check : Bool) (env : Env) (st : St) (w : World)
    (hs : state = none ∨ (state = some p!"started" ∧ (U.active false w unit = .active ∨ U.active false w unit = .activating))
      ∨ (state = some p!"stopped" ∧ ¬ (U.active false w unit).Up))
    (he : enabled = none ∨ (enabled = some true ∧ U.file false w unit = .enabled) ∨ (enabled = some false ∧ U.file false w unit ≠ .enabled))
    (lost : Nat → Option Bool) :
    Untouched (fun _ => False) w (perform sys lost (systemdService unit state enabled false check) env st w).2
    ∧ ∀ r, (perform sys lost (systemdService unit state enabled false check) env st w).1 = .ok r →
      r.success = true ∧ (state ≠ none → enabled ≠ none → r.changed = false) := by
  have hk : KnownState state := by
    intro s h
    rcases hs with h' | ⟨h', _⟩ | ⟨h', _⟩
    · rw [h'] at h; cases h
    · rw [h'] at h; cases h; exact .inl rfl
    · rw [h'] at h; cases h; exact .inr (.inr (.inr rfl))
  have hseen : state = none ∨ state = some (seenState (U.active false w unit)) := by
    rcases hs with h | ⟨h, ha⟩ | ⟨h, ha⟩
    · exact .inl h
    · right; rw [h]; rcases ha with ha | ha <;> rw [ha] <;> rfl
    · right; rw [h]; revert ha; generalize U.active false w unit = a; cases a <;> decide
  have hon : enabled = none ∨ enabled = some (decide (U.file false w unit = .enabled)) := by
    rcases he with h | ⟨h, ha⟩ | ⟨h, ha⟩
    · exact .inl h
    · right; simp [h, ha]
    · right; simp [h, ha]
  have hp := service_post (lost := lost) (env := env) (st := st) (w := w) T (enabled := enabled) (user := false) (check := check) (knownState hk)
  have h1 : stateDiffers state (seenState (U.active false w unit)) = false := by
    rcases hseen with h | h <;> rw [h] <;> simp [stateDiffers]
  have h2 : enabledDiffers enabled (decide (U.file false w unit = .enabled)) = false := by
    rcases hon with h | h <;> rw [h] <;> simp [enabledDiffers]
  refine ⟨untouched_same (post_world (hp.mono (fun _ _ _ h => h.2.2.1 h1 h2) fun _ h => h.2 h1 h2) fun _ _ _ h => h), ?_⟩
  intro r hr
  obtain ⟨⟨k1, k2⟩, _⟩ := post_ok hp hr
  refine ⟨k1, fun n1 n2 => ?_⟩
  rw [k2]
  rcases hseen with h | h
  · exact absurd h n1
  · rcases hon with h' | h'
    · exact absurd h' n2
    · simp [← h, ← h']

/-- C53: once it has succeeded, doing it again has no effect; and it reports no change, if both a state and whether to enable the unit
are given. (`restarted` and `reloaded` are meant to have an effect every time.) -/
theorem C53_idempotent_partial (sys : Sys) (U : UnitStates) (unit : Str) (T : Systemd sys U unit) (state : Option Str)
    (hs : state = none ∨ state = some p!"started" ∨ state = some p!"stopped")
    (enabled : Option Bool) (check : Bool) (env : Env) (hdry : env.dry = false) (st : St) (w : World) (hrel : U.active false w unit ≠ .reloading)
    (lost : Nat → Option Bool) (r : OpResult) (hr : (perform sys lost (systemdService unit state enabled false check) env st w).1 = .ok r)
    (w' : World) (hw : w' = (perform sys lost (systemdService unit state enabled false check) env st w).2)
    (hrel' : U.active false w' unit ≠ .reloading) (lost' : Nat → Option Bool) :
    Untouched (fun _ => False) w' (perform sys lost' (systemdService unit state enabled false check) env st w').2
    ∧ ∀ r, (perform sys lost' (systemdService unit state enabled false check) env st w').1 = .ok r →
      r.success = true ∧ (state ≠ none → enabled ≠ none → r.changed = false) := by
  have hk : KnownState state := by
    intro s h
    rcases hs with h' | h' | h' <;> rw [h'] at h <;> cases h
    · exact .inl rfl
    · exact .inr (.inr (.inr rfl))
  obtain ⟨_, h1, h2⟩ := C53_reaches_partial sys U unit T state hk enabled check env hdry st w hrel lost r hr
  rw [← hw] at h1 h2
  refine C53_nothing_to_do_partial sys U unit T state enabled check env st w' ?_ ?_ lost'
  · rcases hs with h | h | h
    · exact .inl h
    · refine .inr (.inl ⟨h, ?_⟩)
      have := h1.2.1 h
      revert this hrel'
      generalize U.active false w' unit = a
      cases a <;> decide
    · exact .inr (.inr ⟨h, h1.2.2.2.2 h⟩)
  · cases enabled with
    | none => exact .inl rfl
    | some e => cases e with
      | true => exact .inr (.inl ⟨rfl, h2.2.1 rfl⟩)
      | false => exact .inr (.inr ⟨rfl, h2.2.2 rfl⟩)

/-! ### A host with systemd -/

namespace Example

/-- The units of the user have a name of their own in the model. -/
def unitKey (user : Bool) (unit : Str) : Str := if user then p!"user " ++ unit else p!"system " ++ unit

def unitOf (user : Bool) (w : World) (unit : Str) : Option SvcUnit := w.units.find? (·.name == unitKey user unit)

def units : UnitStates where
  active user w unit := match unitOf user w unit with
    | some u => if u.active then .active else .inactive
    | none => .inactive
  file user w unit := match unitOf user w unit with
    | some u => if u.enabled then .enabled else .disabled
    | none => .missing

def setUnit (user : Bool) (unit : Str) (f : SvcUnit → SvcUnit) (w : World) : World :=
  { w with units := w.units.map fun u => if u.name = unitKey user unit then f u else u }

theorem unitOf_set {user : Bool} {unit : Str} {f : SvcUnit → SvcUnit} {w : World} (hf : ∀ u, (f u).name = u.name) :
    unitOf user (setUnit user unit f w) unit = (unitOf user w unit).map f := by
  unfold unitOf setUnit
  simp only
  rw [List.find?_map]
  have : ((fun x : SvcUnit => x.name == unitKey user unit) ∘ fun u => if u.name = unitKey user unit then f u else u) = fun x => x.name == unitKey user unit := by
    funext x
    simp only [Function.comp]
    split
    · rw [hf]
    · rfl
  rw [this]
  cases h : w.units.find? (·.name == unitKey user unit) with
  | none => rfl
  | some u =>
    have : u.name = unitKey user unit := by simpa using List.find?_some h
    simp [this]

def unitAction (user : Bool) (action unit : Str) (w : World) : ExecRes × World :=
  match unitOf user w unit with
  | none => (.done [] [] 5, w)
  | some u =>
    if action = p!"start" ∨ action = p!"restart" then (.done [] [] 0, setUnit user unit (fun u => { u with active := true }) w)
    else if action = p!"stop" then (.done [] [] 0, setUnit user unit (fun u => { u with active := false }) w)
    else if action = p!"reload" then if u.active then (.done [] [] 0, w) else (.done [] [] 1, w)
    else if action = p!"enable" then (.done [] [] 0, setUnit user unit (fun u => { u with enabled := true }) w)
    else if action = p!"disable" then (.done [] [] 0, setUnit user unit (fun u => { u with enabled := false }) w)
    else (.done [] [] 1, w)

def unitExec (p : Proc) (w : World) : ExecRes × World :=
  match p.argv with
  | [_, _, _, _, property, _, unit] =>
    if property = p!"ActiveState" then (.done ((units.active false w unit).text ++ b!"\n") [] 0, w)
    else if property = p!"UnitFileState" then (.done ((units.file false w unit).text ++ b!"\n") [] 0, w)
    else (.done [] [] 1, w)
  | [_, _, action, _, unit] => unitAction true action unit w
  | [_, action, _, unit] => unitAction false action unit w
  | _ => (.done [] [] 1, w)

def unitSys : Sys := { sys with exec := unitExec }

theorem unitExec_action {user : Bool} {p : Proc} {w : World} {action unit : Str} (hp : p.argv = systemctl user [action, p!"--", unit]) :
    unitSys.exec p w = unitAction user action unit w := by
  show unitExec p w = _
  unfold unitExec
  rw [hp]
  cases user <;> rfl

theorem unitAction_done {user : Bool} {action unit : Str} {w w' : World} {out err : Bytes} (h : unitAction user action unit w = (.done out err 0, w')) :
    ∃ u u', unitOf user w unit = some u ∧ unitOf user w' unit = some u'
      ∧ ((action = p!"start" ∨ action = p!"restart") → u'.active = true ∧ u'.enabled = u.enabled)
      ∧ (action = p!"stop" → u'.active = false ∧ u'.enabled = u.enabled)
      ∧ (action = p!"reload" → u.active = true ∧ u' = u)
      ∧ (action = p!"enable" → u'.active = u.active ∧ u'.enabled = true)
      ∧ (action = p!"disable" → u'.active = u.active ∧ u'.enabled = false) := by
  unfold unitAction at h
  cases hu : unitOf user w unit with
  | none => rw [hu] at h; cases h
  | some u =>
    rw [hu] at h
    simp only at h
    split at h
    · rename_i ha
      cases h
      refine ⟨u, { u with active := true }, rfl, (by rw [unitOf_set, hu] <;> first | rfl | exact fun _ => rfl), fun _ => ⟨rfl, rfl⟩, ?_, ?_, ?_, ?_⟩ <;>
        rcases ha with rfl | rfl <;> exact fun h => absurd h (by decide)
    · split at h
      · rename_i ha
        subst ha
        cases h
        refine ⟨u, { u with active := false }, rfl, (by rw [unitOf_set, hu] <;> first | rfl | exact fun _ => rfl), ?_, fun _ => ⟨rfl, rfl⟩, ?_, ?_, ?_⟩ <;>
          exact fun h => absurd h (by decide)
      · split at h
        · rename_i ha
          subst ha
          split at h
          · rename_i hact
            cases h
            refine ⟨u, u, rfl, hu, ?_, ?_, fun _ => ⟨hact, rfl⟩, ?_, ?_⟩ <;> exact fun h => absurd h (by decide)
          · cases h
        · split at h
          · rename_i ha
            subst ha
            cases h
            refine ⟨u, { u with enabled := true }, rfl, (by rw [unitOf_set, hu] <;> first | rfl | exact fun _ => rfl), ?_, ?_, ?_, fun _ => ⟨rfl, rfl⟩, ?_⟩ <;>
              exact fun h => absurd h (by decide)
          · split at h
            · rename_i ha
              subst ha
              cases h
              refine ⟨u, { u with enabled := false }, rfl, (by rw [unitOf_set, hu] <;> first | rfl | exact fun _ => rfl), ?_, ?_, ?_, ?_, fun _ => ⟨rfl, rfl⟩⟩ <;>
                exact fun h => absurd h (by decide)
            · cases h

theorem systemd (unit : Str) : Systemd unitSys units unit where
  history := fun _ _ _ => ⟨rfl, rfl⟩
  showActive := by
    intro p w out err code w' hp h
    have h : unitExec p w = _ := h
    unfold unitExec at h
    rw [hp] at h
    cases h
    exact ⟨rfl, fun _ => rfl⟩
  showFile := by
    intro p w out err code w' hp h
    have h : unitExec p w = _ := h
    unfold unitExec at h
    rw [hp] at h
    cases h
    exact ⟨rfl, fun _ => rfl⟩
  start := by
    intro user p w out err w' hp h
    rw [unitExec_action hp] at h
    obtain ⟨u, u', h1, h2, h3, _⟩ := unitAction_done h
    obtain ⟨h3, h4⟩ := h3 (.inl rfl)
    simp [units, h1, h2, h3, h4]
  restart := by
    intro user p w out err w' hp h
    rw [unitExec_action hp] at h
    obtain ⟨u, u', h1, h2, h3, _⟩ := unitAction_done h
    obtain ⟨h3, h4⟩ := h3 (.inr rfl)
    simp [units, h1, h2, h3, h4]
  stop := by
    intro user p w out err w' hp h
    rw [unitExec_action hp] at h
    obtain ⟨u, u', h1, h2, _, h3, _⟩ := unitAction_done h
    obtain ⟨h3, h4⟩ := h3 rfl
    simp [units, h1, h2, h3, h4, ActiveState.Up]
  reload := by
    intro user p w out err w' hp h
    rw [unitExec_action hp] at h
    obtain ⟨u, u', h1, h2, _, _, h3, _⟩ := unitAction_done h
    obtain ⟨h3, h4⟩ := h3 rfl
    simp [units, h1, h2, h3, h4, ActiveState.Up]
  enable := by
    intro user p w out err w' hp h
    rw [unitExec_action hp] at h
    obtain ⟨u, u', h1, h2, _, _, _, h3, _⟩ := unitAction_done h
    obtain ⟨h3, h4⟩ := h3 rfl
    simp [units, h1, h2, h3, h4]
  disable := by
    intro user p w out err w' hp h
    rw [unitExec_action hp] at h
    obtain ⟨u, u', h1, h2, _, _, _, _, h3⟩ := unitAction_done h
    obtain ⟨h3, h4⟩ := h3 rfl
    simp [units, h1, h2, h3, h4]

def unitHost : World := { host with units := [⟨p!"system sshd", false, true⟩, ⟨p!"system cups", true, true⟩, ⟨p!"user sync", false, false⟩] }

/-- What an operation reports, whether a unit is up, and whether it is enabled. -/
def unitAfter (user : Bool) (unit : Str) (op : Op OpResult) (w : World) : Option (Bool × Bool) × Bool × Bool :=
  (match (perform unitSys always op env st w).1 with
    | .ok r => some (r.success, r.changed)
    | .error _ => none,
   decide (units.active user (perform unitSys always op env st w).2 unit).Up,
   decide (units.file user (perform unitSys always op env st w).2 unit = .enabled))

/-- Cases that meet the hypotheses: a unit is enabled, a unit is stopped and disabled, nothing is to be done. -/
example : unitAfter false p!"sshd" (systemdService p!"sshd" (some p!"started") (some true) false true) unitHost = (some (true, true), true, true) := by decide +kernel
example : unitAfter false p!"cups" (systemdService p!"cups" (some p!"stopped") (some false) false true) unitHost = (some (true, true), false, false) := by decide +kernel
example : unitAfter false p!"cups" (systemdService p!"cups" (some p!"started") (some true) false true) unitHost = (some (true, false), true, true) := by decide +kernel
example : unitAfter false p!"no" (systemdService p!"no" (some p!"started") none false true) unitHost = (none, false, false) := by decide +kernel
example : units.active false unitHost p!"cups" ≠ .reloading ∧ units.active false unitHost p!"sshd" ≠ .reloading := by decide

end Example

/-- C53, the part that is false: if only one of the two is given, every run reports a change. -/
theorem C53_changed_flag_refuted (sys : Sys) (U : UnitStates) (unit : Str) (T : Systemd sys U unit) (state : Option Str) (hs : KnownState state)
    (enabled : Option Bool) (hone : state = none ∨ enabled = none) (userMode check : Bool) (env : Env) (st : St) (w : World)
    (lost : Nat → Option Bool) (r : OpResult) (hr : (perform sys lost (systemdService unit state enabled userMode check) env st w).1 = .ok r) :
    r.changed = true := by
  obtain ⟨⟨_, h⟩, _⟩ := post_ok (service_post T (knownState hs)) hr
  rw [h]
  rcases hone with h | h <;> simp [h]

example : Example.unitAfter false p!"cups" (systemdService p!"cups" (some p!"started") none false true) Example.unitHost = (some (true, true), true, true)
    ∧ Example.unitAfter false p!"cups" (systemdService p!"cups" none none false true) Example.unitHost = (some (true, true), true, true) := by decide +kernel

/-- C53, the part that is false: for units of the user, the state of the unit of the system with that name is looked at. If that is as
requested, nothing is done, and success is reported. -/
theorem C53_user_mode_refuted :
    let w := { Example.unitHost with units := ⟨p!"system sync", true, true⟩ :: Example.unitHost.units }
    Example.unitAfter true p!"sync" (systemdService p!"sync" (some p!"started") (some true) true true) w = (some (true, false), false, false) := by decide +kernel

/-- C53, the part that is false: a unit that is reloading is taken for stopped; a request to stop it does nothing, and success is reported. -/
theorem C53_reloading_refuted (sys : Sys) (U : UnitStates) (unit : Str) (T : Systemd sys U unit) (check : Bool) (env : Env) (st : St) (w : World)
    (h : U.active false w unit = .reloading) (lost : Nat → Option Bool) :
    Untouched (fun _ => False) w (perform sys lost (systemdService unit (some p!"stopped") none false check) env st w).2
    ∧ ∀ r, (perform sys lost (systemdService unit (some p!"stopped") none false check) env st w).1 = .ok r → r.success = true := by
  have hp := service_post (lost := lost) (env := env) (st := st) (w := w) T (state := some p!"stopped") (enabled := none) (user := false) (check := check) (by decide)
  rw [h] at hp
  refine ⟨untouched_same (post_world (hp.mono (fun _ _ _ h => h.2.2.1 (by decide) rfl) fun _ h => h.2 (by decide) rfl) fun _ _ _ h => h), ?_⟩
  intro r hr
  exact (post_ok hp hr).1.1

end Verif.Ops
