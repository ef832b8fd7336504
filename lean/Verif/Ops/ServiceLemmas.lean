/-
Lemmas about `systemd.service`.
-/
import Verif.Ops.ServiceSpec
import Verif.Ops.GroupLemmas

namespace Verif.Ops

open Script Remote
open Client (Prog)

section
variable {sys : Sys} {lost : Nat → Option Bool} {env : Env} {st st' : St} {w w' : World} {U : UnitStates} {unit : Str}

/-- What the operation takes the state of the unit for. -/
def seenState (a : ActiveState) : Str := if a = .active ∨ a = .activating then p!"started" else p!"stopped"

theorem seenState_text (a : ActiveState) :
    (let t := Py.strip (Py.decodeIgnore (a.text ++ b!"\n"))
     if t = p!"active" || t = p!"activating" then p!"started" else p!"stopped") = seenState a := by
  cases a <;> decide

theorem seenFile_text (f : FileState) : (Py.strip (Py.decodeIgnore (f.text ++ b!"\n")) == p!"enabled") = decide (f = .enabled) := by
  cases f <;> decide

theorem showProperty_post {property : Str} {text : Bytes}
    (hshow : ∀ p w' out err code w'', p.argv = [p!"systemctl", p!"show", p!"--value", p!"--property", property, p!"--", unit] → Same w w' →
      sys.exec p w' = (.done out err code, w'') → w'' = w' ∧ (code = 0 → out = text)) :
    Post sys lost (showProperty property unit) env st w (fun s st' w' => st' = st ∧ Same w w' ∧ s = Py.strip (Py.decodeIgnore text)) (Same w) := by
  unfold showProperty
  refine Post.bind (Post.run (fun p out err code w' hp hx => ?_) (same_refl w))
  obtain ⟨rfl, ho⟩ := hshow p _ out err code w' hp (same_started _ _) hx
  exact ⟨same_started _ _, fun hc => Post.ret ⟨rfl, same_started _ _, by rw [ho (hc rfl)]; rfl⟩⟩

theorem same_states (T : Systemd sys U unit) (h : Same w w') (user : Bool) : U.active user w' unit = U.active user w unit ∧ U.file user w' unit = U.file user w unit := by
  rw [h]; exact T.history user w w'.started

/-- `unchanged(ignore_none=True)` of the two states. -/
theorem Post.unchangedNone {a : Str} {b : Bool} {state : Option Str} {enabled : Option Bool}
    (hs : States st (serviceState (some a) (some b)) (serviceState state enabled)) {Q : Bool → St → World → Prop} {E : World → Prop}
    (h : Q (decide (state = some a ∧ enabled = some b)) st w) : Post sys lost (unchanged (ignoreNone := true)) env st w Q E := by
  intro k
  simp only [exec, unchanged, hs.initial, hs.final, Prog.run, Bool.not_true, Bool.false_eq_true, if_false]
  have : unchangedLoop (serviceState (some a) (some b)) (serviceState state enabled) (List.map (·.1) (serviceState state enabled))
      = .ok (decide (state = some a ∧ enabled = some b)) := by
    have h1 : unchangedLoop (serviceState (some a) (some b)) (serviceState state enabled) (List.map (·.1) (serviceState state enabled))
      = if (Val.optStr (some a)).eq (.optStr state) then (if (Val.optBool (some b)).eq (.optBool enabled) then .ok true else .ok false) else .ok false := rfl
    rw [h1]
    have h2 : (Val.optStr (some a)).eq (.optStr state) = decide (state = some a) := by
      rw [Bool.eq_iff_iff, optStr_eq]
      simp [eq_comm]
    have h3 : (Val.optBool (some b)).eq (.optBool enabled) = decide (enabled = some b) := by
      cases enabled with
      | none => simp [Val.optBool, Val.eq]
      | some c => cases b <;> cases c <;> rfl
    rw [h2, h3]
    by_cases k1 : state = some a <;> by_cases k2 : enabled = some b <;> simp [k1, k2]
  rw [this]
  exact h

theorem stateAction_cases {s : Str} (h : (stateAction s).isNone = false) :
    (s = p!"started" ∧ stateAction s = some p!"start") ∨ (s = p!"restarted" ∧ stateAction s = some p!"restart")
    ∨ (s = p!"reloaded" ∧ stateAction s = some p!"reload") ∨ (s = p!"stopped" ∧ stateAction s = some p!"stop") := by
  unfold stateAction at h ⊢
  split
  · exact .inl ⟨by assumption, rfl⟩
  · split
    · exact .inr (.inl ⟨by assumption, rfl⟩)
    · split
      · exact .inr (.inr (.inl ⟨by assumption, rfl⟩))
      · split
        · exact .inr (.inr (.inr ⟨by assumption, rfl⟩))
        · simp_all

/-- Finding out about the unit. -/
theorem look_post {α : Type} (T : Systemd sys U unit) {f : Str → Str → Op α} {Q : α → St → World → Prop} {E : World → Prop} (hE : ∀ w', Same w w' → E w')
    (h : ∀ w', Same w w' → ∀ a b, (if a = p!"active" || a = p!"activating" then p!"started" else p!"stopped") = seenState (U.active false w unit) →
      (b == p!"enabled") = decide (U.file false w unit = .enabled) → Post sys lost (f a b) env st w' Q E) :
    Post sys lost (showProperty p!"ActiveState" unit >>= fun a => showProperty p!"UnitFileState" unit >>= fun b => f a b) env st w Q E := by
  refine Post.bind ((showProperty_post (text := (U.active false w unit).text ++ b!"\n") ?_).mono ?_ hE)
  · intro p w1 out err code w2 hp hs hx
    obtain ⟨h1, h2⟩ := T.showActive p w1 out err code w2 hp hx
    refine ⟨h1, fun hc => ?_⟩
    rw [h2 hc, (same_states T hs false).1]
  · rintro a _ w1 ⟨rfl, hs, rfl⟩
    refine Post.bind ((showProperty_post (text := (U.file false w unit).text ++ b!"\n") ?_).mono ?_ fun w2 h2 => hE w2 (same_trans hs h2))
    · intro p w2 out err code w3 hp hs2 hx
      obtain ⟨h1, h2⟩ := T.showFile p w2 out err code w3 hp hx
      refine ⟨h1, fun hc => ?_⟩
      rw [h2 hc, (same_states T (same_trans hs hs2) false).2]
    · rintro b _ w2 ⟨rfl, hs2, rfl⟩
      exact h w2 (same_trans hs hs2) _ _ (seenState_text _) (seenFile_text _)

/-- The part of the operation after the state of the unit is known. -/
def serviceRest (unit : Str) (state : Option Str) (enabled : Option Bool) (userMode : Bool) (cur : Str) (on : Bool) : Op (Option OpResult) := do
  initialState (serviceState (some cur) (some on))
  finalState (serviceState state enabled)
  let u ← unchanged (ignoreNone := true)
  returned (if u then success else do
    unlessDry (serviceActions unit state enabled userMode)
    success)

theorem systemdService_eq (unit : Str) (state : Option Str) (enabled : Option Bool) (userMode check : Bool)
    (hs : state.any (fun s => (stateAction s).isNone) = false) :
    systemdService unit state enabled userMode check = operation check (showProperty p!"ActiveState" unit >>= fun a =>
      showProperty p!"UnitFileState" unit >>= fun b =>
        serviceRest unit state enabled userMode (if a = p!"active" || a = p!"activating" then p!"started" else p!"stopped") (b == p!"enabled")) := by
  unfold systemdService
  rw [hs]
  rfl

theorem Post.unlessDry {action : Op Unit} {Q : Unit → St → World → Prop} {E : World → Prop} (h1 : env.dry = true → Q () st w)
    (h2 : env.dry = false → Post sys lost action env st w Q E) : Post sys lost (Ops.unlessDry action) env st w Q E := by
  unfold Ops.unlessDry
  refine Post.bind (m := dry) ?_
  intro k
  simp only [exec, dry, Prog.run]
  cases hd : env.dry with
  | true => exact Post.pure (h1 hd)
  | false => exact h2 hd

/-- Whether there is something to do about the state, and about being enabled. -/
def stateDiffers (state : Option Str) (cur : Str) : Bool := state.any (· ≠ cur)
def enabledDiffers (enabled : Option Bool) (on : Bool) : Bool := enabled.any (· ≠ on)

theorem serviceActions_post (T : Systemd sys U unit) {state : Option Str} {enabled : Option Bool} {user : Bool} {cur : Str} {on : Bool}
    (hs : state.any (fun s => (stateAction s).isNone) = false) (hst : States st (serviceState (some cur) (some on)) (serviceState state enabled)) :
    Post sys lost (serviceActions unit state enabled user) env st w
      (fun _ st' w' => st' = st
        ∧ (if stateDiffers state cur then RunsAs state (U.active user w unit) (U.active user w' unit) else U.active user w' unit = U.active user w unit)
        ∧ (if enabledDiffers enabled on then EnabledAs enabled (U.file user w unit) (U.file user w' unit) else U.file user w' unit = U.file user w unit)
        ∧ (stateDiffers state cur = false → enabledDiffers enabled on = false → Same w w'))
      (fun w' => stateDiffers state cur = false → enabledDiffers enabled on = false → Same w w') := by
  unfold serviceActions
  dsimp only
  have hsd : (Val.optStr (some cur)).eq (.optStr state) = decide (state = some cur) := by
    rw [Bool.eq_iff_iff, optStr_eq]; simp [eq_comm]
  have hed : (Val.optBool (some on)).eq (.optBool enabled) = decide (enabled = some on) := by
    cases enabled with
    | none => simp [Val.optBool, Val.eq]
    | some c => cases on <;> cases c <;> rfl
  refine Post.bind (Post.mono (Q := fun _ st' w' => st' = st
        ∧ (if stateDiffers state cur then RunsAs state (U.active user w unit) (U.active user w' unit) else U.active user w' unit = U.active user w unit)
        ∧ U.file user w' unit = U.file user w unit ∧ (stateDiffers state cur = false → Same w w')) (E := fun w' => stateDiffers state cur = false → Same w w') ?_ ?_
      fun w' h h1 _ => h h1)
  · refine Post.whenChanged hst rfl rfl (fun hne => ?_) fun heq => ?_
    · rw [hsd] at hne
      cases state with
      | none => exact Post.pure ⟨rfl, by simp [stateDiffers], rfl, fun _ => same_refl w⟩
      | some s =>
        have hdiff : stateDiffers (some s) cur = true := by simpa [stateDiffers] using hne
        simp only [hdiff, if_true]
        simp only [Option.any_some] at hs
        have hactive := (T.history user w)
        rcases stateAction_cases hs with ⟨rfl, ha⟩ | ⟨rfl, ha⟩ | ⟨rfl, ha⟩ | ⟨rfl, ha⟩ <;> rw [ha] <;>
          refine Post.runAny (fun p out err code w' hp hx => ⟨fun h => (by cases h), fun hc => ?_⟩) (fun h => by cases h) <;> subst hc
        · obtain ⟨k1, k2⟩ := T.start user p _ out err w' hp hx
          refine ⟨rfl, ⟨(by intro h; cases h), fun _ => ?_, (by intro h; cases h), (by intro h; cases h), (by intro h; cases h)⟩, ?_, (by intro h; cases h)⟩
          · rcases k1 with k1 | k1 <;> rw [k1] <;> trivial
          · rw [k2]; exact (hactive _).2
        · obtain ⟨k1, k2⟩ := T.restart user p _ out err w' hp hx
          refine ⟨rfl, ⟨(by intro h; cases h), (by intro h; cases h), fun _ => ?_, (by intro h; cases h), (by intro h; cases h)⟩, ?_, (by intro h; cases h)⟩
          · rcases k1 with k1 | k1 <;> rw [k1] <;> trivial
          · rw [k2]; exact (hactive _).2
        · obtain ⟨k1, k2⟩ := T.reload user p _ out err w' hp hx
          refine ⟨rfl, ⟨(by intro h; cases h), (by intro h; cases h), (by intro h; cases h), fun _ => k1, (by intro h; cases h)⟩, ?_, (by intro h; cases h)⟩
          rw [k2]; exact (hactive _).2
        · obtain ⟨k1, k2⟩ := T.stop user p _ out err w' hp hx
          refine ⟨rfl, ⟨(by intro h; cases h), (by intro h; cases h), (by intro h; cases h), (by intro h; cases h), fun _ => k1⟩, ?_, (by intro h; cases h)⟩
          rw [k2]; exact (hactive _).2
    · rw [hsd] at heq
      have heq : state = some cur := by simpa using heq
      exact ⟨rfl, by simp [stateDiffers, heq], rfl, fun _ => same_refl w⟩
  · rintro _ _ w1 ⟨rfl, h1, h2, h3⟩
    refine Post.whenChanged hst rfl rfl (fun hne => ?_) fun heq => ?_
    · rw [hed] at hne
      cases enabled with
      | none => exact Post.pure ⟨rfl, h1, by simp [enabledDiffers, h2], fun h _ => h3 h⟩
      | some e =>
        have hdiff : enabledDiffers (some e) on = true := by simpa [enabledDiffers] using hne
        simp only [hdiff, if_true]
        have hactive := (T.history user w1)
        cases e with
        | true =>
          refine Post.runAny (fun p out err code w' hp hx => ⟨fun _ h => (by cases h), fun hc => ?_⟩) (fun _ h => by cases h)
          subst hc
          obtain ⟨k1, k2⟩ := T.enable user p _ out err w' hp hx
          refine ⟨rfl, ?_, ⟨(by intro h; cases h), fun _ => k1, (by intro h; cases h)⟩, fun _ h => by cases h⟩
          rw [k2, (hactive _).1]; exact h1
        | false =>
          refine Post.runAny (fun p out err code w' hp hx => ⟨fun _ h => (by cases h), fun hc => ?_⟩) (fun _ h => by cases h)
          subst hc
          obtain ⟨k1, k2⟩ := T.disable user p _ out err w' hp hx
          refine ⟨rfl, ?_, ⟨(by intro h; cases h), (by intro h; cases h), fun _ => k1⟩, fun _ h => by cases h⟩
          rw [k2, (hactive _).1]; exact h1
    · rw [hed] at heq
      have heq : enabled = some on := by simpa using heq
      exact ⟨rfl, h1, by simp [enabledDiffers, heq, h2], fun h _ => h3 h⟩

/-- What the operation does, and what it reports. -/
theorem service_post (T : Systemd sys U unit) {state : Option Str} {enabled : Option Bool} {user check : Bool}
    (hs : state.any (fun s => (stateAction s).isNone) = false) :
    Post sys lost (systemdService unit state enabled user check) env st w
      (fun r _ w' => (r.success = true ∧ r.changed = !decide (state = some (seenState (U.active false w unit)) ∧ enabled = some (decide (U.file false w unit = .enabled))))
        ∧ (env.dry = true → Same w w')
        ∧ (stateDiffers state (seenState (U.active false w unit)) = false → enabledDiffers enabled (decide (U.file false w unit = .enabled)) = false → Same w w')
        ∧ (env.dry = false →
          (if stateDiffers state (seenState (U.active false w unit)) then RunsAs state (U.active user w unit) (U.active user w' unit) else U.active user w' unit = U.active user w unit)
          ∧ (if enabledDiffers enabled (decide (U.file false w unit = .enabled)) then EnabledAs enabled (U.file user w unit) (U.file user w' unit) else U.file user w' unit = U.file user w unit)))
      (fun w' => (env.dry = true → Same w w')
        ∧ (stateDiffers state (seenState (U.active false w unit)) = false → enabledDiffers enabled (decide (U.file false w unit = .enabled)) = false → Same w w')) := by
  rw [systemdService_eq _ _ _ _ _ hs]
  refine Post.operation (look_post T (fun w' h => ⟨fun _ => h, fun _ _ => h⟩) ?_)
  intro w1 hsame a b ha hb
  rw [ha, hb]
  generalize seenState (U.active false w unit) = cur
  generalize decide (U.file false w unit = .enabled) = on
  unfold serviceRest
  refine Post.bind (Post.initialState rfl rfl ?_)
  refine Post.bind (Post.finalState rfl rfl ?_)
  have hst : ∀ s : St, States { s with op := { initial := some (serviceState (some cur) (some on)), final := some (serviceState state enabled) } }
      (serviceState (some cur) (some on)) (serviceState state enabled) := fun _ => ⟨rfl, rfl, rfl, rfl⟩
  have heq : (serviceState (some cur) (some on)).eq (serviceState state enabled) = decide (state = some cur ∧ enabled = some on) := by
    have h1 : (serviceState (some cur) (some on)).eq (serviceState state enabled)
      = ((Val.optStr (some cur)).eq (.optStr state) && ((Val.optBool (some on)).eq (.optBool enabled) && true)) := rfl
    rw [h1, Bool.eq_iff_iff]
    have h3 : (Val.optBool (some on)).eq (.optBool enabled) = decide (enabled = some on) := by
      cases enabled with
      | none => simp [Val.optBool, Val.eq]
      | some c => cases on <;> cases c <;> rfl
    rw [h3]
    simp only [Bool.and_eq_true, optStr_eq, decide_eq_true_eq, and_true]
    exact ⟨fun h => ⟨h.1.symm, h.2⟩, fun h => ⟨h.1.symm, h.2⟩⟩
  refine Post.bind (Post.unchangedNone (hst _) ?_)
  refine Post.returned ?_
  obtain ⟨hact, hfile⟩ := same_states T hsame user
  by_cases hu : state = some cur ∧ enabled = some on
  · have hd : decide (state = some cur ∧ enabled = some on) = true := by simpa using hu
    rw [hd, if_pos rfl]
    refine Post.success (hst _) ?_
    refine ⟨⟨fun _ => hsame, fun _ _ => hsame⟩, ?_⟩
    rintro res ⟨⟩ _
    rw [heq, hd]
    refine ⟨⟨rfl, rfl⟩, fun _ => hsame, fun _ _ => hsame, fun _ => ⟨?_, ?_⟩⟩
    · simp [stateDiffers, hu.1, hact]
    · simp [enabledDiffers, hu.2, hfile]
  · have hd : decide (state = some cur ∧ enabled = some on) = false := by simpa using hu
    rw [hd]
    simp only [Bool.false_eq_true, if_false]
    refine Post.bind (Post.unlessDry (fun hdry => ?_) fun hdry => ?_)
    · refine Post.success (hst _) ?_
      refine ⟨⟨fun _ => hsame, fun _ _ => hsame⟩, ?_⟩
      rintro res ⟨⟩ _
      rw [heq, hd]
      exact ⟨⟨rfl, rfl⟩, fun _ => hsame, fun _ _ => hsame, fun h => by rw [hdry] at h; cases h⟩
    · refine (serviceActions_post T hs (hst _)).mono ?_ ?_
      · rintro _ _ w2 ⟨rfl, h1, h2, h3⟩
        refine Post.success (hst _) ?_
        have hE : (env.dry = true → Same w w2) ∧ (stateDiffers state cur = false → enabledDiffers enabled on = false → Same w w2) :=
          ⟨fun h => (by rw [hdry] at h; cases h), fun k1 k2 => same_trans hsame (h3 k1 k2)⟩
        refine ⟨hE, ?_⟩
        rintro res ⟨⟩ _
        rw [heq, hd]
        rw [hact] at h1
        rw [hfile] at h2
        exact ⟨⟨rfl, rfl⟩, hE.1, hE.2, fun _ => ⟨h1, h2⟩⟩
      · intro w2 h3
        exact ⟨fun h => (by rw [hdry] at h; cases h), fun k1 k2 => same_trans hsame (h3 k1 k2)⟩

end
end Verif.Ops
