/-
Property theorems about the life cycle of a connection (C19).
-/
import Verif.Client.Lifecycle

namespace Verif.Client.Lifecycle

/-- The full statement of C19, first part: whenever opening fails, as many background processes are running as before. -/
def C19_Statement_open : Prop :=
  ∀ (s s' : State) (env : OpenEnv) (e : Exn), open' env s = (.error e, s') → s'.background = s.background

/-- C19. If opening a connection that was not opened before fails for any reason (the command cannot be built or started, no
answer, a wrong answer, an error answer, a crash), no background process is left. Missing: connections that were open
before. -/
theorem C19_open_failure_partial (s s' : State) (env : OpenEnv) (e : Exn) (hs : s.isOpen = false)
    (h : open' env s = (.error e, s')) : s'.background = s.background ∧ (s.process = false → s'.process = false) := by
  unfold open' at h
  split at h
  · cases h; exact ⟨rfl, id⟩
  · simp only at h
    split at h
    · cases h
    · rw [if_neg (by simp [hs])] at h
      cases h
      exact ⟨by simp [State.background], fun _ => rfl⟩

/-- C19. A connection that was just constructed and opened has exactly one background process, unless that has died by itself. -/
theorem C19_one_process (env : OpenEnv) (s' : State) (h : open' env State.fresh = (.ok (), s')) :
    s'.background = (if env.died then 0 else 1) ∧ s'.isOpen = true := by
  unfold open' at h
  split at h
  · cases h
  · simp only at h
    split at h
    · cases h
      cases hd : env.died <;> simp [State.background, State.fresh, hd]
    · split at h <;> cases h

example : (open' { popen := none, alive := .ok .ack, died := false } State.fresh).2.background = 1 := rfl

/-- C19 is false of the code: `close` does not reset `is_open`, so that opening a second time and failing leaves the process
running. -/
theorem C19_reopen_refuted : ¬ C19_Statement_open := by
  intro h
  have := h { State.fresh with isOpen := true } _
    { popen := none, alive := .error (.ioError p!"Unexpected EOF in data stream"), died := false } _ rfl
  revert this
  decide

/-- The state used there is reached by opening and closing a connection. -/
example : (do
    let (r, s) := open' { popen := none, alive := .ok .ack, died := false } State.fresh
    match r with
    | .ok _ => some (close s)
    | .error _ => none) = some (.ok (), { State.fresh with isOpen := true }) := rfl

/-- The full statement of C19, second part: a `with` block over a new connection always ends with no background process and
the host's connection cleared. -/
def C19_Statement_with : Prop :=
  ∀ (env : EnterEnv) (acts : List Act) (outcome : Option Exn),
    let s := (withBlock env acts outcome State.fresh).2
    s.background = 0 ∧ s.hostConnection = false

/-- Nothing that happens in a block starts a process. -/
theorem body_lost (acts : List Act) (o : Option Exn) : ∀ s : State, (body acts o s).2.lost = s.lost
    ∧ ((body acts o s).2.running = true → s.running = true)
    ∧ ((body acts o s).2.running = true → s.pipeOpen = true → (body acts o s).2.pipeOpen = true)
    ∧ ((body acts o s).2.running = true → s.process = true → (body acts o s).2.process = true) := by
  induction acts with
  | nil => intro s; cases o <;> exact ⟨rfl, id, fun _ h => h, fun _ h => h⟩
  | cons a as ih =>
    intro s
    cases a with
    | die =>
      obtain ⟨h1, h2, _, _⟩ := ih { s with running := false }
      refine ⟨h1, fun h => ?_, fun h => ?_, fun h => ?_⟩ <;> cases h2 h
    | close =>
      simp only [body]
      have hc : (close s).2.lost = s.lost ∧ ((close s).2.running = true → s.running = true)
          ∧ ((close s).2.running = true → s.pipeOpen = true → (close s).2.pipeOpen = true)
          ∧ ((close s).2.running = true → s.process = true → (close s).2.process = true) := by
        unfold close
        split
        · exact ⟨rfl, id, fun _ h => h, fun _ h => h⟩
        · split
          · exact ⟨rfl, id, fun _ h => h, fun _ h => h⟩
          · split
            · exact ⟨rfl, fun h => (by cases h), fun h => (by cases h), fun h => (by cases h)⟩
            · exact ⟨rfl, id, fun _ h => h, fun _ h => h⟩
      cases hcl : close s with
      | mk r s1 =>
        rw [hcl] at hc
        cases r with
        | error e => exact hc
        | ok _ =>
          obtain ⟨h1, h2, h3, h4⟩ := ih s1
          exact ⟨h1.trans hc.1, fun h => hc.2.1 (h2 h), fun h hp => h3 h (hc.2.2.1 (h2 h) hp), fun h hp => h4 h (hc.2.2.2 (h2 h) hp)⟩

/-- C19. Once the block of a `with` statement over a new connection has begun, it ends with no background process and with
the host's connection cleared, whatever happened in the block: an exception, a lost process, or a block that closes the
connection itself any number of times. If entering fails while the connection is being opened, no process is left either.
Missing: a failure between opening and the begin of the block (see below). -/
theorem C19_with_block_partial (env : EnterEnv) (acts : List Act) (outcome : Option Exn) (hid : env.identity = none) :
    (withBlock env acts outcome State.fresh).2.background = 0
    ∧ (withBlock env acts outcome State.fresh).2.hostConnection = false := by
  unfold withBlock enter
  cases ho : open' env.opening State.fresh with
  | mk r s =>
    cases r with
    | error e =>
      have := (C19_open_failure_partial State.fresh s env.opening e rfl ho).1
      refine ⟨this, ?_⟩
      unfold open' at ho
      repeat' split at ho
      all_goals (cases ho; first | rfl | skip)
    | ok _ =>
      have hs : s = { isOpen := true, process := true, running := !env.opening.died, pipeOpen := true, lost := 0, hostConnection := false } := by
        unfold open' at ho
        split at ho
        · cases ho
        · simp only at ho
          split at ho
          · cases ho; rfl
          · split at ho <;> cases ho
      subst hs
      simp only [hid]
      have hb := body_lost acts outcome { isOpen := true, process := true, running := !env.opening.died, pipeOpen := true, lost := 0, hostConnection := true }
      generalize body acts outcome { isOpen := true, process := true, running := !env.opening.died, pipeOpen := true, lost := 0, hostConnection := true } = bs at hb
      obtain ⟨r, s⟩ := bs
      obtain ⟨h1, h2, h3, h4⟩ := hb
      simp only at h1 h2 h3 h4
      have hx : (exit s).2.lost = s.lost ∧ (exit s).2.hostConnection = false ∧ (exit s).2.running = false := by
        unfold exit close
        cases hr : s.running with
        | false =>
          simp only
          split
          · exact ⟨rfl, rfl, rfl⟩
          · split
            · exact ⟨rfl, rfl, rfl⟩
            · split <;> exact ⟨rfl, rfl, rfl⟩
        | true =>
          have hp := h3 hr trivial
          have hpr := h4 hr trivial
          simp [hp, hpr]
      simp only
      generalize exit s = x at hx
      obtain ⟨xr, s'⟩ := x
      obtain ⟨x1, x2, x3⟩ := hx
      simp only at x1 x2 x3
      cases xr <;> exact ⟨by simp [State.background, x1, x3, h1], x2⟩

/-- C19. The block's own exception is what the caller sees, if the process is still there at the end and the block did not
close the connection. -/
theorem C19_block_exception_kept (env : EnterEnv) (outcome : Option Exn) (hid : env.identity = none)
    (ho : env.opening = { popen := none, alive := .ok .ack, died := false }) :
    (withBlock env [] outcome State.fresh).1 = (match outcome with | none => .ok () | some e => .error e) := by
  unfold withBlock enter
  rw [ho]
  simp only [open', hid]
  cases outcome <;> rfl

/-- C19 is false of the code, if the identity cannot be determined: the process goes on running and the host's connection
stays set. -/
theorem C19_identity_failure_refuted : ¬ C19_Statement_with := by
  intro h
  have := (h { opening := { popen := none, alive := .ok .ack, died := false }, identity := some (.valueError p!"no such user") } [] none).1
  revert this
  decide

/-- C19 is false of the code: closing twice raises. -/
theorem C19_close_twice_refuted : ¬ ∀ (env : OpenEnv) (s1 s2 : State),
    open' env State.fresh = (.ok (), s1) → close s1 = (.ok (), s2) → ∃ s3, close s2 = (.ok (), s3) := by
  intro h
  obtain ⟨s3, h3⟩ := h { popen := none, alive := .ok .ack, died := false } _ _ rfl rfl
  cases h3

/-- Cases that meet the hypotheses. -/
example : (withBlock { opening := { popen := none, alive := .ok .ack, died := false }, identity := none } [] none State.fresh).1 = .ok () := rfl
example : (withBlock { opening := { popen := none, alive := .ok .ack, died := false }, identity := none } [.die, .close] (some .keyError) State.fresh).1
    = .error brokenPipe := rfl
example : ∃ e s, open' { popen := none, alive := .ok .ok, died := false } State.fresh = (.error e, s) := ⟨_, _, rfl⟩

end Verif.Client.Lifecycle
