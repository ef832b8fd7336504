/-
Running commands: what the requests are, and what holds on a host with any programs.
-/
import Verif.Ops.ManageLemmas
import Verif.Script.SettingsProps

namespace Verif.Ops

open Script Remote
open Client (Prog direct lostConnection Completed)
open Wire (Packet)

section
variable {sys : Sys} {lost : Nat → Option Bool} {env : Env} {st st' : St} {w : World}

/-- Running a command on a host with any programs. -/
theorem Post.run {argv : List Str} {check : Bool} {Q : Completed → St → World → Prop} {E : World → Prop}
    (h : ∀ p out err code w', p.argv = argv → sys.exec p { w with started := p :: w.started } = (.done out err code, w') →
      E w' ∧ ((check = true → code = 0) → Q { stdout := some out, stderr := some err, returncode := code } st w')) (hE : E w) :
    Post sys lost (Connection.run argv (check := check)) env st w Q E := by
  unfold Connection.run
  refine Post.bind (Post.currentDefaults ?_ hE)
  intro c rest _
  have key : ∀ r w', (Client.Connector.run argv none true check (pick c.asUser none) (pick c.asGroup none) (pick c.umask none)
      (pick c.cwd none)).run (direct sys) w = (r, w') → (∀ a, r = .ok a → Q a st w') ∧ E w' := by
    intro r w' h0
    rw [Client.run_eq] at h0
    split at h0
    · next r' hp =>
      cases h0
      refine ⟨?_, hE⟩
      intro a ha
      exfalso
      rcases Client.plan_error hp with ⟨f, m, rfl⟩ | ⟨m, rfl⟩ | ⟨e, rfl⟩
      · simp only [Client.refused, Client.unpackResponse] at ha
        cases hga : Packet.getattr _ f <;> rw [hga] at ha <;> cases ha
      · cases ha
      · cases e with
        | osError n s m => cases n <;> cases ha
        | _ => cases ha
    · next proc hp =>
      obtain ⟨h1, _, _⟩ := plan_argv hp
      match hx : sys.exec proc { w with started := proc :: w.started } with
      | (.failed e, w1) =>
        rw [hx] at h0
        cases h0
        exact ⟨fun a ha => (by cases ha), hE⟩
      | (.done out err code, w1) =>
        rw [hx] at h0
        simp only [Prod.mk.injEq] at h0
        obtain ⟨rfl, rfl⟩ := h0
        obtain ⟨k1, k2⟩ := h proc out err code w1 h1 hx
        refine ⟨?_, k1⟩
        intro a ha
        unfold Client.delivered at ha
        by_cases hc : (check && code != 0) = true
        · simp [hc] at ha
        · simp only [hc] at ha
          cases ha
          refine k2 fun hch => ?_
          rw [hch] at hc
          simpa using hc
  refine Post.call (single_run _ _ _ _ _ _ _ _) ?_ ?_ hE
  · intro a w' h0
    exact ⟨(key _ _ h0).1 a rfl, (key _ _ h0).2⟩
  · intro e w' h0
    exact (key _ _ h0).2

/-- Running a command whose output is not used. -/
theorem Post.runAny {argv : List Str} {Q : Unit → St → World → Prop} {E : World → Prop}
    (h : ∀ p out err code w', p.argv = argv → sys.exec p { w with started := p :: w.started } = (.done out err code, w') →
      E w' ∧ (code = 0 → Q () st w')) (hE : E w) :
    Post sys lost (Ops.runCommand argv) env st w Q E := by
  unfold Ops.runCommand
  refine Post.bind (Post.run (fun p out err code w' h1 h2 => ?_) hE)
  obtain ⟨k1, k2⟩ := h p out err code w' h1 h2
  exact ⟨k1, fun hc => Post.ret (k2 (hc rfl))⟩

end

/-! ### Requests -/

/-- The command of a request to run a command. -/
def argvOf : Packet → Option (List Str)
  | .processRun command .. => some command
  | _ => none

/-- What `run` makes of an answer. -/
def completed (check : Bool) : Except Exn Packet → Except Exn Completed
  | .error e => .error e
  | .ok (.processError message) => .error (.valueError message)
  | .ok (.processCompleted stdout stderr returncode) =>
    if check && returncode != 0 then .error (.calledProcessError returncode stdout stderr)
    else .ok { stdout, stderr, returncode }
  | .ok _ => .error Client.unexpectedResponse

/-- The program runs one command, or raises before that. `f` is what it makes of the answer. -/
def Asks {α : Type} (m : Op α) (argv : List Str) (f : Except Exn Packet → Except Exn α) : Prop :=
  ∀ env st t r st', Execution m env st t r st' → st' = st ∧ ((t = [] ∧ ∃ e, r = .error e)
    ∨ ∃ pk a, t = [(pk, a)] ∧ argvOf pk = some argv ∧ r = f a)

theorem asks_run (argv : List Str) (check : Bool) : Asks (Connection.run argv (check := check)) argv (completed check) := by
  intro env st t r st' h
  unfold Connection.run at h
  rcases execution_bind.mp h with ⟨e, rfl, h1⟩ | ⟨t1, t2, c, st1, h1, h2, rfl⟩
  · unfold Script.currentDefaults at h1
    cases hs : st.stack with
    | nil =>
      simp only [Execution, hs, runs_ret, Prod.mk.injEq] at h1
      exact ⟨h1.2.2, .inl ⟨h1.1, e, rfl⟩⟩
    | cons s rest => simp [Execution, hs, runs_ret] at h1
  · obtain ⟨rfl, rfl, rest, hs⟩ := execution_currentDefaults h1
    obtain ⟨h3, rfl⟩ := execution_call.mp h2
    refine ⟨rfl, .inr ?_⟩
    unfold Client.Connector.run at h3
    cases h3 with
    | req _ _ a t' _ h4 =>
      cases h4
      exact ⟨_, a, rfl, rfl, rfl⟩

theorem Asks.map {α β : Type} {m : Op α} {argv : List Str} {f : Except Exn Packet → Except Exn α} (h : Asks m argv f) (g : α → β) :
    Asks (m >>= fun a => (Pure.pure (g a) : Op β)) argv (fun a => (f a).map g) := by
  intro env st t r st' h0
  rcases execution_bind.mp h0 with ⟨e, rfl, h1⟩ | ⟨t1, t2, c, st1, h1, h2, rfl⟩
  · obtain ⟨rfl, h3⟩ := h _ _ _ _ _ h1
    refine ⟨rfl, ?_⟩
    rcases h3 with ⟨rfl, _⟩ | ⟨pk, a, rfl, h4, h5⟩
    · exact .inl ⟨rfl, e, rfl⟩
    · refine .inr ⟨pk, a, rfl, h4, ?_⟩
      dsimp only
      rw [← h5]; rfl
  · obtain ⟨rfl, h3⟩ := h _ _ _ _ _ h1
    obtain ⟨rfl, rfl, rfl⟩ := execution_pure.mp h2
    refine ⟨rfl, ?_⟩
    rcases h3 with ⟨_, e, h4⟩ | ⟨pk, a, rfl, h4, h5⟩
    · cases h4
    · refine .inr ⟨pk, a, rfl, h4, ?_⟩
      dsimp only
      rw [← h5]; rfl

theorem asks_runCommand (argv : List Str) : Asks (Ops.runCommand argv) argv (fun a => (completed true a).map fun _ => ()) :=
  (asks_run argv true).map _

end Verif.Ops
