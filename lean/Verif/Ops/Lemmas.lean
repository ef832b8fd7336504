/-
Reasoning about all executions of operations.
-/
import Verif.Ops.Spec
import Verif.Script.Lemmas

namespace Verif.Ops

open Script
open Client (isQuery Prog)
open Wire (Packet)

variable {α β : Type}

/-- Every request of every execution has the property. -/
def Sends (P : Packet → Prop) (env : Env) (m : Op α) : Prop :=
  ∀ st t r st', Execution m env st t r st' → ∀ e ∈ t, P e.1

namespace Sends

variable {P : Packet → Prop} {env : Env}

theorem of_ret {m : Op α} (h : ∀ st, ∃ r st', m env st = .ret (r, st')) : Sends P env m := by
  intro st t r st' he
  obtain ⟨r0, st0, h1⟩ := h st
  obtain ⟨rfl, _, _⟩ := (execution_ret h1).mp he
  simp

theorem pure (a : α) : Sends P env (Op.pure a) := .of_ret fun st => ⟨_, st, rfl⟩
theorem pure' (a : α) : Sends P env (Pure.pure a : Op α) := .of_ret fun st => ⟨_, st, rfl⟩
theorem raise (e : Exn) : Sends P env (Op.raise e : Op α) := .of_ret fun st => ⟨_, st, rfl⟩

theorem ofExcept (x : Except Exn α) : Sends P env (Op.ofExcept x) := by
  cases x
  · exact .raise _
  · exact .pure _

theorem bind {m : Op α} {f : α → Op β} (hm : Sends P env m) (hf : ∀ a, Sends P env (f a)) : Sends P env (m >>= f) := by
  intro st t r st' h e he
  rcases execution_bind.mp h with ⟨_, _, h⟩ | ⟨t1, t2, a, st1, h1, h2, rfl⟩
  · exact hm _ _ _ _ h e he
  · rcases List.mem_append.mp he with he | he
    · exact hm _ _ _ _ h1 e he
    · exact hf a _ _ _ _ h2 e he

theorem tryCatch {m : Op α} {f : Exn → Op α} (hm : Sends P env m) (hf : ∀ a, Sends P env (f a)) : Sends P env (Op.tryCatch m f) := by
  intro st t r st' h e he
  rcases execution_tryCatch.mp h with ⟨_, _, h⟩ | ⟨t1, t2, a, st1, h1, h2, rfl⟩
  · exact hm _ _ _ _ h e he
  · rcases List.mem_append.mp he with he | he
    · exact hm _ _ _ _ h1 e he
    · exact hf a _ _ _ _ h2 e he

theorem finally_ {m : Op α} {f : St → St} (hm : Sends P env m) : Sends P env (Op.finally_ m f) := by
  intro st t r st' h
  obtain ⟨st1, h1, _⟩ := execution_finally.mp h
  exact hm _ _ _ _ h1

/-- One request. -/
theorem one {p : Packet} {g : Except Exn Packet → Except Exn α} (h : P p) : Sends P env (Op.call (.req p fun r => .ret (g r))) := by
  intro st t r st' he
  obtain ⟨h1, _⟩ := execution_call.mp he
  obtain ⟨x, rfl, _⟩ := runs_one.mp h1
  simpa using h

theorem currentDefaults : Sends P env currentDefaults := .of_ret fun st => by
  unfold Script.currentDefaults
  split <;> exact ⟨_, _, rfl⟩

theorem dry : Sends P env dry := .of_ret fun _ => ⟨_, _, rfl⟩
theorem diffWanted : Sends P env diffWanted := .of_ret fun _ => ⟨_, _, rfl⟩
theorem getEnv : Sends P env Op.getEnv := .of_ret fun _ => ⟨_, _, rfl⟩
theorem push (s : Settings) : Sends P env (push s) := .of_ret fun _ => ⟨_, _, rfl⟩
theorem failure (m : Str) : Sends P env (failure m) := .of_ret fun _ => ⟨_, _, rfl⟩
theorem setNested (b : Bool) : Sends P env (setNested b) := .of_ret fun _ => ⟨_, _, rfl⟩

theorem success : Sends P env success := .of_ret fun st => by
  rcases success_cases env st with ⟨e, h⟩ | ⟨i, f, _, _, h⟩ <;> exact ⟨_, _, h⟩

theorem initialState (d : Dict) : Sends P env (initialState d) := .of_ret fun st => by
  unfold Script.initialState
  split
  · exact ⟨_, _, rfl⟩
  · split <;> exact ⟨_, _, rfl⟩

theorem finalState (d : Dict) : Sends P env (finalState d) := .of_ret fun st => by
  unfold Script.finalState
  split
  · exact ⟨_, _, rfl⟩
  · split <;> exact ⟨_, _, rfl⟩

theorem unchanged (b : Bool) : Sends P env (unchanged b) := .of_ret fun st => by
  unfold Script.unchanged
  split
  · split <;> exact ⟨_, _, rfl⟩
  · exact ⟨_, _, rfl⟩

theorem changed (k : Str) : Sends P env (changed k) := .of_ret fun st => by
  unfold Script.changed
  split
  · exact ⟨_, _, rfl⟩
  · split
    · split <;> exact ⟨_, _, rfl⟩
    · exact ⟨_, _, rfl⟩

theorem opDiff (f : Str) (a b : Option Bytes) : Sends P env (opDiff f a b) := .of_ret fun st => by
  unfold Script.opDiff
  split
  · exact ⟨_, _, rfl⟩
  · split <;> exact ⟨_, _, rfl⟩

theorem addNestedResult (k : Str) (r : OpResult) : Sends P env (addNestedResult k r) := .of_ret fun st => by
  unfold Script.addNestedResult
  split
  · exact ⟨_, _, rfl⟩
  · simp only []
    split <;> exact ⟨_, _, rfl⟩

theorem operation {check : Bool} {f : Op (Option OpResult)} (h : Sends P env f) : Sends P env (operation check f) := by
  intro st t r st' he e hm
  obtain ⟨t1, t2, a, h1, h2, rfl⟩ := runs_bind.mp he
  have h3 : t2 = [] := by
    obtain ⟨x, st1⟩ := a
    cases x with
    | error e => exact (runs_ret.mp h2).1
    | ok o =>
      cases o with
      | none => exact (runs_ret.mp h2).1
      | some y =>
        dsimp only at h2
        split at h2
        · exact (runs_ret.mp h2).1
        · exact (runs_ret.mp h2).1
  subst h3
  rw [List.append_nil] at hm
  exact h _ _ _ _ h1 e hm

/-! Things that ask only. -/

variable (hP : ∀ p, isQuery p = true → P p)
include hP

theorem stat (path : Str) (a b : Bool) : Sends P env (Connection.stat path a b) := .one (hP _ rfl)
theorem resolveUser (u : Option Str) : Sends P env (Connection.resolveUser u) := .one (hP _ rfl)
theorem resolveGroup (u : Option Str) : Sends P env (Connection.resolveGroup u) := .one (hP _ rfl)
theorem download (path : Str) : Sends P env (Connection.download path) := .one (hP _ rfl)

theorem downloadOr (path : Str) (d : Option Bytes) : Sends P env (Connection.downloadOr path d) :=
  .tryCatch (.bind (.download hP _) fun _ => .pure' _) fun e => by
    split
    · exact .pure _
    · exact .raise _

theorem queryUser (u : Str) (h : Bool) (d : Option Client.UserEntry) : Sends P env (Connection.queryUser u h d) :=
  .tryCatch (.bind (.one (hP _ rfl)) fun _ => .pure' _) fun e => by
    split
    · exact .pure _
    · exact .raise _

theorem queryGroup (u : Str) (d : Option Client.GroupEntry) : Sends P env (Connection.queryGroup u d) :=
  .tryCatch (.bind (.one (hP _ rfl)) fun _ => .pure' _) fun e => by
    split
    · exact .pure _
    · exact .raise _

theorem mapOpt {f : Option Str → Op Str} (h : ∀ x, Sends P env (f x)) (x : Option Str) : Sends P env (mapOpt f x) := by
  cases x with
  | none => exact .pure _
  | some x => exact .bind (h _) fun _ => .pure' _

theorem checkCwd (c : Option Str) : Sends P env (checkCwd c) := by
  unfold Script.checkCwd
  split
  · exact .pure _
  · exact .pure _
  · refine .bind (.stat hP _ _ _) fun s => ?_
    split
    · exact .raise _
    · split
      · exact .raise _
      · exact .pure _

theorem resolveDefaults (s : Settings) : Sends P env (resolveDefaults s) := by
  unfold Script.resolveDefaults
  exact .bind .currentDefaults fun _ => .bind (.mapOpt hP (.resolveUser hP) _) fun _ => .bind (.mapOpt hP (.resolveGroup hP) _) fun _ =>
    .bind (.mapOpt hP (.resolveUser hP) _) fun _ => .bind (.mapOpt hP (.resolveGroup hP) _) fun _ => .bind (.ofExcept _) fun _ =>
    .bind (.ofExcept _) fun _ => .bind (.ofExcept _) fun _ => .bind (.checkCwd hP _) fun _ => .pure' _

theorem withDefaults {s : Settings} {body : Settings → Op α} (h : ∀ a, Sends P env (body a)) : Sends P env (withDefaults s body) := by
  unfold Script.withDefaults
  exact .bind (.ofExcept _) fun _ => .bind .getEnv fun _ => .bind .currentDefaults fun _ => .bind (.resolveDefaults hP _) fun _ =>
    .bind (.push _) fun _ => .finally_ (h _)

omit hP in
theorem run {command : List Str} {input : Option Bytes} {capture check : Bool} {user group umask cwd : Option Str}
    (h : ∀ user group umask cwd, P (.processRun command input capture user group umask cwd)) :
    Sends P env (Connection.run command input capture check user group umask cwd) :=
  .bind .currentDefaults fun _ => .one (h _ _ _ _)

omit hP in
theorem runCommand {command : List Str} (h : ∀ user group umask cwd, P (.processRun command none true user group umask cwd)) :
    Sends P env (runCommand command) :=
  .bind (.run h) fun _ => .pure' _

omit hP in
theorem whenChanged {key : Str} {m : Op Unit} (h : Sends P env m) : Sends P env (whenChanged key m) :=
  .bind (.changed _) fun c => by
    split
    · exact h
    · exact .pure _

omit hP in
theorem changedEither (a b : Str) : Sends P env (changedEither a b) :=
  .bind (.changed _) fun c => by
    split
    · exact .pure _
    · exact .changed _

omit hP in
theorem whenEither {a b : Str} {m : Op Unit} (h : Sends P env m) : Sends P env (whenEither a b m) :=
  .bind (.changedEither _ _) fun c => by
    split
    · exact h
    · exact .pure _

omit hP in
/-- In a dry run nothing is required of the action. -/
theorem unlessDry {m : Op Unit} (h : env.dry = false → Sends P env m) : Sends P env (unlessDry m) := by
  intro st t r st' he
  rcases execution_bind.mp he with ⟨_, _, h1⟩ | ⟨t1, t2, d, st1, h1, h2, rfl⟩
  · obtain ⟨rfl, _, _⟩ := (execution_ret rfl).mp h1
    simp
  · obtain ⟨rfl, hd, _⟩ := (execution_ret rfl).mp h1
    cases hd
    rw [List.nil_append]
    split at h2
    · exact Sends.pure _ _ _ _ _ h2
    · next hd => exact h (by simpa using hd) _ _ _ _ h2

omit hP in
theorem settle {b m : Op Unit} (hb : Sends P env b) (h : env.dry = false → Sends P env m) : Sends P env (settle b m) :=
  .bind (.unchanged _) fun u => by
    split
    · exact .success
    · exact .bind hb fun _ => .bind (.unlessDry h) fun _ => .success

omit hP in
theorem returned {m : Op OpResult} (h : Sends P env m) : Sends P env (returned m) := .bind h fun _ => .pure' _

end Sends

/-! ### Preserving parts of the state -/

/-- No execution changes this part of the state. -/
def Keeps (f : St → β) (m : Op α) : Prop := ∀ env st t r st', Execution m env st t r st' → f st' = f st

namespace Keeps

variable {γ : Type} {f : St → γ}

theorem of_ret {m : Op α} (h : ∀ env st, ∃ r st', m env st = .ret (r, st') ∧ f st' = f st) : Keeps f m := by
  intro env st t r st' he
  obtain ⟨r0, st0, h1, h2⟩ := h env st
  obtain ⟨_, _, rfl⟩ := (execution_ret h1).mp he
  exact h2

theorem pure (a : α) : Keeps f (Op.pure a) := .of_ret fun _ st => ⟨_, st, rfl, rfl⟩
theorem pure' (a : α) : Keeps f (Pure.pure a : Op α) := .of_ret fun _ st => ⟨_, st, rfl, rfl⟩
theorem raise (e : Exn) : Keeps f (Op.raise e : Op α) := .of_ret fun _ st => ⟨_, st, rfl, rfl⟩

theorem ofExcept (x : Except Exn α) : Keeps f (Op.ofExcept x) := by
  cases x
  · exact .raise _
  · exact .pure _

theorem call (p : Prog (Except Exn α)) : Keeps f (Op.call p) := by
  intro env st t r st' h
  obtain ⟨_, rfl⟩ := execution_call.mp h
  rfl

theorem bind {m : Op α} {g : α → Op β} (hm : Keeps f m) (hf : ∀ a, Keeps f (g a)) : Keeps f (m >>= g) := by
  intro env st t r st' h
  rcases execution_bind.mp h with ⟨e, _, h⟩ | ⟨t1, t2, a, st1, h1, h2, _⟩
  · exact hm _ _ _ _ _ h
  · exact (hf a _ _ _ _ _ h2).trans (hm _ _ _ _ _ h1)

theorem tryCatch {m : Op α} {g : Exn → Op α} (hm : Keeps f m) (hf : ∀ a, Keeps f (g a)) : Keeps f (Op.tryCatch m g) := by
  intro env st t r st' h
  rcases execution_tryCatch.mp h with ⟨e, _, h⟩ | ⟨t1, t2, a, st1, h1, h2, _⟩
  · exact hm _ _ _ _ _ h
  · exact (hf a _ _ _ _ _ h2).trans (hm _ _ _ _ _ h1)

theorem currentDefaults : Keeps f currentDefaults := .of_ret fun env st => by
  unfold Script.currentDefaults
  split <;> exact ⟨_, _, rfl, rfl⟩

theorem dry : Keeps f dry := .of_ret fun _ _ => ⟨_, _, rfl, rfl⟩
theorem diffWanted : Keeps f diffWanted := .of_ret fun _ _ => ⟨_, _, rfl, rfl⟩

theorem changed (k : Str) : Keeps f (changed k) := .of_ret fun env st => by
  unfold Script.changed
  split
  · exact ⟨_, _, rfl, rfl⟩
  · split
    · split <;> exact ⟨_, _, rfl, rfl⟩
    · exact ⟨_, _, rfl, rfl⟩

theorem run (command : List Str) (input : Option Bytes) (capture check : Bool) (user group umask cwd : Option Str) :
    Keeps f (Connection.run command input capture check user group umask cwd) :=
  .bind .currentDefaults fun _ => .call _

theorem runCommand (command : List Str) : Keeps f (runCommand command) := .bind (.run _ _ _ _ _ _ _ _) fun _ => .pure' _

theorem whenChanged {key : Str} {m : Op Unit} (h : Keeps f m) : Keeps f (whenChanged key m) :=
  .bind (.changed _) fun c => by
    split
    · exact h
    · exact .pure _

theorem changedEither (a b : Str) : Keeps f (changedEither a b) :=
  .bind (.changed _) fun c => by
    split
    · exact .pure _
    · exact .changed _

theorem whenEither {a b : Str} {m : Op Unit} (h : Keeps f m) : Keeps f (whenEither a b m) :=
  .bind (.changedEither _ _) fun c => by
    split
    · exact h
    · exact .pure _

theorem unlessDry {m : Op Unit} (h : Keeps f m) : Keeps f (unlessDry m) :=
  .bind .dry fun d => by
    split
    · exact .pure _
    · exact h

end Keeps

end Verif.Ops
