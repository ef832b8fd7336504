/-
C53: reloading the configuration of systemd.
-/
import Verif.Ops.ServiceProps
import Verif.Ops.GitTraceLemmas

namespace Verif.Ops

open Script Remote
open Wire (Packet)

/-- C53: `daemon_reload` runs the command once, for the right instance of systemd, and nothing else; if it ends normally the command was
answered. A dry run sends nothing. It always reports a change. -/
theorem C53_daemon_reload (userMode check : Bool) (env : Env) (st st' : St) (t : Trace) (r : Except Exn OpResult)
    (h : Execution (daemonReload userMode check) env st t r st') :
    (t = [] ∨ (env.dry = false ∧ commandsOf t = [some (systemctl userMode [p!"daemon-reload"])]))
    ∧ ∀ res, r = .ok res → res.success = true ∧ res.changed = true ∧ (env.dry = true ∨ ∃ pk out err, t = [(pk, .ok (Packet.processCompleted out err 0))]) := by
  have key : Traces (daemonReload userMode check) env st fun t r _ =>
      (t = [] ∨ (env.dry = false ∧ commandsOf t = [some (systemctl userMode [p!"daemon-reload"])]))
      ∧ ∀ res, r = .ok res → res.success = true ∧ res.changed = true ∧ (env.dry = true ∨ ∃ pk out err, t = [(pk, .ok (Packet.processCompleted out err 0))]) := by
    unfold daemonReload
    refine Traces.operation (Traces.mono (Q := fun t r st' => (t = [] ∨ (env.dry = false ∧ commandsOf t = [some (systemctl userMode [p!"daemon-reload"])]))
      ∧ ∀ res, r = .ok (some res) → res.success = true ∧ res.changed = true ∧ (env.dry = true ∨ ∃ pk out err, t = [(pk, .ok (Packet.processCompleted out err 0))])) ?_ ?_)
    · refine Traces.bind (Traces.local_ (local_initialState _) fun r1 st1 h1 => ⟨fun e _ => ⟨.inl rfl, fun _ h => (by cases h)⟩, fun _ hr1 => ?_⟩)
      subst hr1
      replace h1 : st1 = { st with op := { ({} : OpState) with initial := some [(p!"reloaded", .bool false)] } } := by cases h1; rfl
      refine Traces.bind (Traces.local_ (local_finalState _) fun r2 st2 h2 => ⟨fun e _ => ⟨.inl rfl, fun _ h => (by cases h)⟩, fun _ hr2 => ?_⟩)
      subst hr2
      subst h1
      replace h2 : st2 = { st with op := { ({} : OpState) with initial := some [(p!"reloaded", .bool false)], final := some [(p!"reloaded", .bool true)] } } := by cases h2; rfl
      have hsucc : ∀ pre : Trace, (pre = [] ∨ (env.dry = false ∧ commandsOf pre = [some (systemctl userMode [p!"daemon-reload"])])) →
          (env.dry = true ∨ ∃ pk out err, pre = [(pk, .ok (Packet.processCompleted out err 0))]) →
          Traces (returned success) env st2 fun t r _ => (([] ++ ([] ++ (pre ++ t)) : Trace) = [] ∨ (env.dry = false ∧ commandsOf ([] ++ ([] ++ (pre ++ t))) = [some (systemctl userMode [p!"daemon-reload"])]))
            ∧ ∀ res, r = .ok (some res) → res.success = true ∧ res.changed = true ∧ (env.dry = true ∨ ∃ pk out err, ([] ++ ([] ++ (pre ++ t)) : Trace) = [(pk, .ok (Packet.processCompleted out err 0))]) := by
        intro pre hp1 hp2
        subst h2
        refine Traces.returned (Traces.local_ local_success ?_)
        intro r st' hr
        simp only [List.nil_append, List.append_nil]
        refine ⟨hp1, fun res hres => ?_⟩
        rcases success_cases env { st with op := { ({} : OpState) with initial := some [(p!"reloaded", .bool false)], final := some [(p!"reloaded", .bool true)] } }
          with ⟨e, hs⟩ | ⟨i, f, hi, hf, hs⟩
        · rw [hs] at hr
          cases hr
          cases hres
        · rw [hs] at hr
          cases hr
          cases hres
          cases hi
          cases hf
          exact ⟨rfl, rfl, hp2⟩
      unfold unlessDry
      refine Traces.bind (Traces.bind (Traces.local_ local_dry fun r3 st3 h3 => ⟨fun e _ => ⟨fun e' _ => ⟨.inl rfl, fun _ h => (by cases h)⟩, fun _ h => (by cases h)⟩, fun d hr3 => ?_⟩))
      subst hr3
      have hd : d = env.dry ∧ st3 = st2 := by
        have : (.ret (.ok env.dry, st2) : Client.Prog (Except Exn Bool × St)) = .ret (.ok d, st3) := h3
        cases this; exact ⟨rfl, rfl⟩
      obtain ⟨rfl, rfl⟩ := hd
      split
      · rename_i hdry
        exact Traces.pure ⟨fun _ h => (by cases h), fun _ _ => hsucc [] (.inl rfl) (.inl hdry)⟩
      · rename_i hdry
        replace hdry : env.dry = false := by simpa using hdry
        refine Traces.asks ((asks_run _ true).map fun _ => ()) ?_ ?_
        · exact fun e => ⟨fun _ _ => ⟨.inl rfl, fun _ h => (by cases h)⟩, fun _ h => (by cases h)⟩
        · intro pk x hpk
          have hcmd : commandsOf [(pk, x)] = [some (systemctl userMode [p!"daemon-reload"])] := by
            rw [commandsOf_cons, hpk]; cases userMode <;> rfl
          refine ⟨fun e _ => ⟨.inr ⟨hdry, hcmd⟩, fun _ h => (by cases h)⟩, fun u hu => ?_⟩
          refine hsucc [(pk, x)] (.inr ⟨hdry, hcmd⟩) (.inr ?_)
          match x, hu with
          | .ok (.processCompleted out err code), hu =>
            by_cases hc : code = 0
            · subst hc; exact ⟨_, _, _, rfl⟩
            · simp [completed, hc, Except.map] at hu
    · rintro t r st' ⟨h1, h2⟩ r' h3 h4 h5
      refine ⟨h1, fun res hres => ?_⟩
      cases r with
      | error e => rw [h3 e rfl] at hres; cases hres
      | ok x =>
        cases x with
        | none => obtain ⟨e, he⟩ := h4 rfl; rw [he] at hres; cases hres
        | some x =>
          rcases h5 x rfl with ⟨h, _⟩ | ⟨_, _, e, he⟩
          · rw [h] at hres; cases hres; exact h2 _ rfl
          · rw [he] at hres; cases hres
  exact key t r st' h

end Verif.Ops
