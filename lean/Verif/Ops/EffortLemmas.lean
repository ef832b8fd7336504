/-
Counting the requests of operations, for C106.
-/
import Verif.Ops.EffortSpec
import Verif.Ops.Quiet
import Verif.Ops.DeploySpec

namespace Verif.Ops

open Script
open Client (isQuery Prog)
open Wire (Packet)

variable {α β : Type} {env : Env}

open Classical in
/-- The number of requests that do more than look. -/
noncomputable def changing (t : Trace) : Nat := t.countP fun e => decide (¬ ReadOnly e.1)

theorem changing_append (t1 t2 : Trace) : changing (t1 ++ t2) = changing t1 + changing t2 := List.countP_append

theorem changing_le (t : Trace) : changing t ≤ t.length := List.countP_le_length

theorem changing_quiet {t : Trace} (h : ∀ e ∈ t, ReadOnly e.1) : changing t = 0 := by
  refine List.countP_eq_zero.mpr fun e he => ?_
  simpa using h e he

theorem changing_sublist {s t : Trace} (h : s.Sublist t) (hs : ∀ request answer, (request, answer) ∈ s → ¬ ReadOnly request) :
    s.length ≤ changing t := by
  have h1 : changing s = s.length := List.countP_eq_length.mpr fun e he => by simpa using hs e.1 e.2 he
  rw [← h1]
  exact h.countP_le

/-- Limits for one state. -/
def LimitAt (n c : Nat) (env : Env) (st : St) (m : Op α) : Prop :=
  ∀ t r st', Execution m env st t r st' → t.length ≤ n ∧ changing t ≤ c

/-- Limits for all states. -/
def Limit (n c : Nat) (env : Env) (m : Op α) : Prop := ∀ st, LimitAt n c env st m

theorem limited_of {n c : Nat} {m : Op α} (h : ∀ env, Limit n c env m) : Limited n c m := fun env st t r st' hx =>
  ⟨(h env st t r st' hx).1, fun _ hs hr => Nat.le_trans (changing_sublist hs hr) (h env st t r st' hx).2⟩

abbrev Silent (env : Env) (m : Op α) : Prop := Sends (fun _ => False) env m

theorem Silent.nil {m : Op α} (h : Silent env m) {st st' : St} {t : Trace} {r : Except Exn α} (hx : Execution m env st t r st') : t = [] := by
  cases t with
  | nil => rfl
  | cons e t => exact (h st _ r st' hx e (by simp)).elim

namespace Limit

variable {n c n1 c1 n2 c2 : Nat}

theorem silent {m : Op α} (h : Silent env m) : Limit n c env m := fun st t r st' hx => by
  rw [h.nil hx]
  exact ⟨Nat.zero_le _, Nat.zero_le _⟩

theorem mono {m : Op α} (h : Limit n1 c1 env m) (hn : n1 ≤ n) (hc : c1 ≤ c) : Limit n c env m := fun st t r st' hx =>
  ⟨Nat.le_trans (h st t r st' hx).1 hn, Nat.le_trans (h st t r st' hx).2 hc⟩

theorem bind {m : Op α} {f : α → Op β} (hm : Limit n1 c1 env m) (hf : ∀ a, Limit n2 c2 env (f a)) :
    Limit (n1 + n2) (c1 + c2) env (m >>= f) := by
  intro st t r st' hx
  rcases execution_bind.mp hx with ⟨e, rfl, h1⟩ | ⟨t1, t2, a, st1, h1, h2, rfl⟩
  · have := hm _ _ _ _ h1
    omega
  · have h1 := hm _ _ _ _ h1
    have h2 := hf a _ _ _ _ h2
    rw [changing_append, List.length_append]
    omega

theorem tryCatch {m : Op α} {f : Exn → Op α} (hm : Limit n c env m) (hf : ∀ e, Silent env (f e)) : Limit n c env (Op.tryCatch m f) := by
  intro st t r st' hx
  rcases execution_tryCatch.mp hx with ⟨a, rfl, h1⟩ | ⟨t1, t2, a, st1, h1, h2, rfl⟩
  · exact hm _ _ _ _ h1
  · rw [(hf a).nil h2, List.append_nil]
    exact hm _ _ _ _ h1

theorem finally_ {m : Op α} {f : St → St} (hm : Limit n c env m) : Limit n c env (Op.finally_ m f) := by
  intro st t r st' hx
  obtain ⟨st1, h, rfl⟩ := execution_finally.mp hx
  exact hm _ _ _ _ h

/-- first something that makes no request -/
theorem skip {m : Op α} {f : α → Op β} (hm : Silent env m) (hf : ∀ a, Limit n c env (f a)) : Limit n c env (m >>= f) :=
  (bind (n1 := 0) (c1 := 0) (.silent hm) hf).mono (by omega) (by omega)

/-- last something that makes no request -/
theorem last {m : Op α} {f : α → Op β} (hm : Limit n c env m) (hf : ∀ a, Silent env (f a)) : Limit n c env (m >>= f) :=
  bind (n2 := 0) (c2 := 0) hm fun a => .silent (hf a)

theorem ite {p : Prop} [Decidable p] {a b : Op α} (ha : Limit n c env a) (hb : Limit n c env b) : Limit n c env (if p then a else b) := by
  split
  · exact ha
  · exact hb

theorem one {p : Packet} {g : Except Exn Packet → Except Exn α} : Limit 1 1 env (Op.call (.req p fun r => .ret (g r))) := by
  intro st t r st' hx
  obtain ⟨h, _⟩ := execution_call.mp hx
  obtain ⟨a, rfl, _⟩ := runs_one.mp h
  exact ⟨Nat.le_refl _, changing_le _⟩

theorem quiet {m : Op α} (h : Limit n c env m) (hq : Quiet env m) : Limit n 0 env m := fun st t r st' hx =>
  ⟨(h st t r st' hx).1, Nat.le_of_eq (changing_quiet (hq st t r st' hx))⟩

theorem run {command : List Str} {input : Option Bytes} {capture check : Bool} {user group umask cwd : Option Str} :
    Limit 1 1 env (Connection.run command input capture check user group umask cwd) := .skip .currentDefaults fun _ => .one

theorem look {command : List Str} {check : Bool} (h : LooksOnly command) : Limit 1 0 env (Connection.run command none true check) :=
  .quiet .run (quiet_run h)

theorem runCommand {command : List Str} : Limit 1 1 env (runCommand command) := .last .run fun _ => .pure' _

theorem stat (path : Str) (a b : Bool) : Limit 1 0 env (Connection.stat path a b) := .quiet .one (quiet_stat _ _ _)

theorem mapOpt {f : Option Str → Op Str} (h : ∀ x, Limit 1 0 env (f x)) (x : Option Str) : Limit 1 0 env (mapOpt f x) := by
  cases x with
  | none => exact .silent (.pure _)
  | some x => exact .last (h _) fun _ => .pure' _

theorem resolveUser (u : Option Str) : Limit 1 0 env (Connection.resolveUser u) := .quiet .one (.resolveUser readOnly_query _)
theorem resolveGroup (u : Option Str) : Limit 1 0 env (Connection.resolveGroup u) := .quiet .one (.resolveGroup readOnly_query _)
theorem download (path : Str) : Limit 1 0 env (Connection.download path) := .quiet .one (.download readOnly_query _)

theorem orDefault {m : Op (Option α)} {d : Option α} (h : Limit n c env m) : Limit n c env (Connection.orDefault m d) :=
  .tryCatch h fun e => by
    split
    · exact .pure _
    · exact .raise _

theorem downloadOr (path : Str) (d : Option Bytes) : Limit 1 0 env (Connection.downloadOr path d) := .orDefault (.last (.download _) fun _ => .pure' _)

theorem queryUser (u : Str) (h : Bool) (d : Option Client.UserEntry) : Limit 1 0 env (Connection.queryUser u h d) :=
  .quiet (c := 1) (.orDefault (.last .one fun _ => .pure' _)) (.queryUser readOnly_query _ _ _)

theorem queryGroup (u : Str) (d : Option Client.GroupEntry) : Limit 1 0 env (Connection.queryGroup u d) :=
  .quiet (c := 1) (.orDefault (.last .one fun _ => .pure' _)) (.queryGroup readOnly_query _ _)

theorem checkCwd (x : Option Str) : Limit 1 0 env (checkCwd x) := by
  unfold Script.checkCwd
  split
  · exact .silent (.pure _)
  · exact .silent (.pure _)
  · refine .last (.stat _ _ _) fun s => ?_
    cases s with
    | none => exact .raise _
    | some s =>
      dsimp only
      split
      · exact .raise _
      · exact .pure _

theorem resolveDefaults (s : Settings) : Limit 5 0 env (resolveDefaults s) :=
  .skip .currentDefaults fun _ => .bind (n1 := 1) (c1 := 0) (n2 := 4) (c2 := 0) (.mapOpt .resolveUser _) fun _ =>
    .bind (n1 := 1) (c1 := 0) (n2 := 3) (c2 := 0) (.mapOpt .resolveGroup _) fun _ =>
    .bind (n1 := 1) (c1 := 0) (n2 := 2) (c2 := 0) (.mapOpt .resolveUser _) fun _ =>
    .bind (n1 := 1) (c1 := 0) (n2 := 1) (c2 := 0) (.mapOpt .resolveGroup _) fun _ =>
    .skip (.ofExcept _) fun _ => .skip (.ofExcept _) fun _ => .skip (.ofExcept _) fun _ => .last (.checkCwd _) fun _ => .pure' _

theorem withDefaults {s : Settings} {body : Settings → Op α} (h : ∀ a, Limit n c env (body a)) : Limit (5 + n) c env (withDefaults s body) :=
  (Limit.skip (.ofExcept _) fun _ => .skip .getEnv fun _ => .skip .currentDefaults fun _ =>
    .bind (n1 := 5) (c1 := 0) (n2 := n) (c2 := c) (.resolveDefaults _) fun _ => .skip (.push _) fun _ => .finally_ (h _)).mono (Nat.le_refl _) (by omega)

theorem whenChanged {key : Str} {m : Op Unit} (h : Limit n c env m) : Limit n c env (whenChanged key m) :=
  .skip (.changed _) fun _ => .ite h (.silent (.pure _))

theorem whenEither {a b : Str} {m : Op Unit} (h : Limit n c env m) : Limit n c env (whenEither a b m) :=
  .skip (.changedEither _ _) fun _ => .ite h (.silent (.pure _))

theorem unlessDry {m : Op Unit} (h : Limit n c env m) : Limit n c env (unlessDry m) := .skip .dry fun _ => .ite (.silent (.pure _)) h

theorem settle {b m : Op Unit} (hb : Limit n1 c1 env b) (h : Limit n2 c2 env m) : Limit (n1 + n2) (c1 + c2) env (settle b m) :=
  .skip (.unchanged _) fun _ => .ite (.silent .success) (.bind hb fun _ => .last (.unlessDry h) fun _ => .success)

theorem settle' {m : Op Unit} (h : Limit n c env m) : Limit n c env (Ops.settle (Op.pure ()) m) :=
  (settle (n1 := 0) (c1 := 0) (.silent (.pure _)) h).mono (by omega) (by omega)

theorem returned {m : Op OpResult} (h : Limit n c env m) : Limit n c env (returned m) := .last h fun _ => .pure' _

theorem operation {check : Bool} {f : Op (Option OpResult)} (h : Limit n c env f) : Limit n c env (operation check f) := by
  intro st t r st' hx
  unfold Script.operation at hx
  obtain ⟨t1, t2, ⟨r1, st1⟩, h1, h2, rfl⟩ := runs_bind.mp hx
  have h1 := h _ _ _ _ h1
  have : t2 = [] := by
    cases r1 with
    | error e => exact (runs_ret.mp h2).1
    | ok o =>
      cases o with
      | none => exact (runs_ret.mp h2).1
      | some o =>
        dsimp only at h2
        split at h2
        · exact (runs_ret.mp h2).1
        · exact (runs_ret.mp h2).1
  rw [this, List.append_nil]
  exact h1

end Limit

/-! ### Looking at what has changed twice gives the same answer -/

def Steady (env : Env) (m : Op α) : Prop := ∀ st t r st', Execution m env st t r st' → st' = st

theorem Steady.bind {m : Op α} {f : α → Op β} (hm : Steady env m) (hf : ∀ a, Steady env (f a)) : Steady env (m >>= f) := by
  intro st t r st' hx
  rcases execution_bind.mp hx with ⟨e, rfl, h1⟩ | ⟨t1, t2, a, st1, h1, h2, rfl⟩
  · exact hm _ _ _ _ h1
  · rw [hf a _ _ _ _ h2, hm _ _ _ _ h1]

theorem changed_result (k : Str) (env : Env) (st : St) : ∃ r, changed k env st = .ret (r, st) := by
  unfold changed
  split
  · exact ⟨_, rfl⟩
  · split
    · split <;> exact ⟨_, rfl⟩
    · exact ⟨_, rfl⟩

theorem Steady.changed (k : Str) : Steady env (changed k) := fun st t r st' hx => by
  obtain ⟨r0, h⟩ := changed_result k env st
  exact ((execution_ret h).mp hx).2.2

theorem Steady.pure (a : α) : Steady env (Op.pure a) := fun _ _ _ _ hx => (execution_pure.mp hx).2.2

theorem Steady.runCommand (command : List Str) : Steady env (runCommand command) := by
  refine .bind (.bind ?_ fun _ => fun _ _ _ _ hx => (execution_call.mp hx).2) fun _ => .pure _
  intro st t r st' hx
  cases hs : st.stack with
  | nil => exact ((execution_ret (by unfold currentDefaults; rw [hs])).mp hx).2.2
  | cons s l => exact ((execution_ret (by unfold currentDefaults; rw [hs])).mp hx).2.2

theorem Steady.ite {c : Prop} [Decidable c] {a b : Op α} (ha : Steady env a) (hb : Steady env b) : Steady env (if c then a else b) := by
  split
  · exact ha
  · exact hb

theorem Steady.whenChanged {k : Str} {m : Op Unit} (h : Steady env m) : Steady env (whenChanged k m) := .bind (.changed _) fun _ => .ite h (.pure _)

theorem Steady.whenEither {a b : Str} {m : Op Unit} (h : Steady env m) : Steady env (whenEither a b m) :=
  .bind (.bind (.changed _) fun _ => .ite (.pure _) (.changed _)) fun _ => .ite h (.pure _)

theorem LimitAt.bind {n1 c1 n2 c2 : Nat} {st : St} {m : Op α} {f : α → Op β} (hm : LimitAt n1 c1 env st m) (hs : Steady env m)
    (hf : ∀ a, LimitAt n2 c2 env st (f a)) : LimitAt (n1 + n2) (c1 + c2) env st (m >>= f) := by
  intro t r st' hx
  rcases execution_bind.mp hx with ⟨e, rfl, h1⟩ | ⟨t1, t2, a, st1, h1, h2, rfl⟩
  · have := hm _ _ _ h1
    omega
  · have he := hs _ _ _ _ h1
    subst he
    have h1 := hm _ _ _ h1
    have h2 := hf a _ _ _ h2
    rw [changing_append, List.length_append]
    omega

/-- `changed` in a state where its answer is known. -/
theorem LimitAt.changed {n c : Nat} {st : St} {k : Str} {b : Bool} {f : Bool → Op β} (hb : Script.changed k env st = .ret (.ok b, st))
    (hf : LimitAt n c env st (f b)) : LimitAt n c env st (Script.changed k >>= f) := by
  intro t r st' hx
  rcases execution_bind.mp hx with ⟨e, rfl, h1⟩ | ⟨t1, t2, a, st1, h1, h2, rfl⟩
  · obtain ⟨_, h1, _⟩ := (execution_ret hb).mp h1
    cases h1
  · obtain ⟨rfl, heq, rfl⟩ := (execution_ret hb).mp h1
    cases heq
    exact hf _ _ _ h2

theorem LimitAt.unchangeable {n c : Nat} {st : St} {k : Str} {e : Exn} {f : Bool → Op β} (hb : Script.changed k env st = .ret (.error e, st)) :
    LimitAt n c env st (Script.changed k >>= f) := by
  intro t r st' hx
  rcases execution_bind.mp hx with ⟨e, rfl, h1⟩ | ⟨t1, t2, a, st1, h1, h2, rfl⟩
  · obtain ⟨rfl, _, _⟩ := (execution_ret hb).mp h1
    exact ⟨Nat.zero_le _, Nat.zero_le _⟩
  · obtain ⟨_, h1, _⟩ := (execution_ret hb).mp h1
    cases h1

/-! ### The operations -/

theorem limit_directoryActions (path : Str) (attr : Settings) : Limit 3 3 env (directoryActions path true attr) := by
  intro st
  have hrest : Limit 1 1 env (whenChanged p!"mode" (runCommand (chmodCommand attr.dirMode path))) := .whenChanged .runCommand
  have hrest' : Limit 1 1 env (whenEither p!"owner" p!"group" (runCommand (chownCommand attr path))) := .whenEither .runCommand
  have hs := Steady.whenChanged (env := env) (k := p!"mode") (.runCommand (chmodCommand attr.dirMode path))
  have hs' := Steady.whenEither (env := env) (a := p!"owner") (b := p!"group") (.runCommand (chownCommand attr path))
  have hs0 := Steady.whenChanged (env := env) (k := p!"exists") (.runCommand [p!"mkdir", p!"--", path])
  obtain ⟨r, hr⟩ := changed_result p!"exists" env st
  have hwhen : ∀ (b : Bool) (m : Op Unit) (n : Nat), r = .ok b → (b = true → Limit n n env m) →
      LimitAt (if b then n else 0) (if b then n else 0) env st (whenChanged p!"exists" m) := by
    intro b m n hb hm
    subst hb
    refine .changed hr ?_
    cases b with
    | true => exact hm rfl st
    | false => exact Limit.silent (.pure _) st
  have hend : ∀ b, r = .ok b → LimitAt (if b then 0 else 1) (if b then 0 else 1) env st (changed p!"exists" >>= fun e =>
      if e then Op.pure () else whenChanged p!"touched" (runCommand [p!"touch", p!"--", path])) := by
    intro b hb
    subst hb
    refine .changed hr ?_
    cases b with
    | true => exact Limit.silent (.pure _) st
    | false => exact Limit.whenChanged .runCommand st
  unfold directoryActions
  rw [if_pos rfl]
  cases r with
  | error e =>
    intro t r st' hx
    rcases execution_bind.mp hx with ⟨e, rfl, h1⟩ | ⟨t1, t2, a, st1, h1, h2, rfl⟩
    · exact LimitAt.unchangeable hr _ _ _ h1
    · exfalso
      rcases execution_bind.mp h1 with ⟨e', h, _⟩ | ⟨_, _, _, _, hc, _, _⟩
      · cases h
      · obtain ⟨_, heq, _⟩ := (execution_ret hr).mp hc
        cases heq
  | ok b =>
    have := LimitAt.bind (hwhen b _ 1 rfl fun _ => .runCommand) hs0 fun _ => LimitAt.bind (hrest st) hs fun _ => LimitAt.bind (hrest' st) hs' fun _ => hend b rfl
    cases b <;> exact this

theorem limit_linkActions (path target : Str) (attr : Settings) : Limit 3 3 env (linkActions path target true attr) := by
  unfold linkActions
  rw [if_pos rfl]
  exact .bind (n1 := 1) (c1 := 1) (n2 := 2) (c2 := 2) (.whenChanged .runCommand) fun _ =>
    .bind (n1 := 1) (c1 := 1) (n2 := 1) (c2 := 1) (.whenEither .runCommand) fun _ =>
    .skip (.changed _) fun _ => .ite (.silent (.pure _)) (.whenChanged .runCommand)

theorem limit_directory {n c : Nat} {path : Str} {present touch : Bool} {mode owner group : Option Str} {check : Bool}
    (h : ∀ attr, Limit n c env (directoryActions path present attr)) : Limit (5 + (1 + n)) c env (directory path present touch mode owner group check) := by
  refine .operation (.skip (.ofExcept _) fun _ => .returned (.withDefaults fun attr => ?_))
  refine .skip (.finalState _) fun _ => (Limit.bind (n1 := 1) (c1 := 0) (n2 := n) (c2 := c) (.stat _ _ _) fun s => ?_).mono (Nat.le_refl _) (by omega)
  cases s with
  | none => exact .skip (.initialState _) fun _ => .settle' (h _)
  | some s => exact .ite (.silent (.failure _)) (.skip (.initialState _) fun _ => .settle' (h _))

theorem limit_file {n c : Nat} {path : Str} {present touch : Bool} {mode owner group : Option Str} {check : Bool}
    (h : ∀ attr, Limit n c env (fileActions path present attr)) : Limit (5 + (1 + n)) c env (file path present touch mode owner group check) := by
  refine .operation (.skip (.ofExcept _) fun _ => .returned (.withDefaults fun attr => ?_))
  refine .skip (.finalState _) fun _ => (Limit.bind (n1 := 1) (c1 := 0) (n2 := n) (c2 := c) (.stat _ _ _) fun s => ?_).mono (Nat.le_refl _) (by omega)
  cases s with
  | none => exact .skip (.initialState _) fun _ => .settle' (h _)
  | some s => exact .ite (.silent (.failure _)) (.skip (.initialState _) fun _ => .settle' (h _))

theorem limit_link {n c : Nat} {path target : Str} {present touch : Bool} {owner group : Option Str} {check : Bool}
    (h : ∀ attr, Limit n c env (linkActions path target present attr)) : Limit (5 + (1 + (1 + n))) c env (link path target present touch owner group check) := by
  refine .operation (.skip (.ofExcept _) fun _ => .ite (.silent (.raise _)) (.returned (.withDefaults fun attr => ?_)))
  refine .skip (.finalState _) fun _ => (Limit.bind (n1 := 1) (c1 := 0) (n2 := 1 + n) (c2 := c) (.stat _ _ _) fun s => ?_).mono (Nat.le_refl _) (by omega)
  cases s with
  | none => exact .skip (.initialState _) fun _ => .settle' ((h _).mono (by omega) (Nat.le_refl _))
  | some s =>
    exact .ite (.silent (.failure _)) ((Limit.bind (n1 := 1) (c1 := 0) (n2 := n) (c2 := c) (.look (.readlink _)) fun _ =>
      .skip (.ofExcept _) fun _ => .skip (.initialState _) fun _ => .settle' (h _)).mono (Nat.le_refl _) (by omega))

theorem limit_saveContent (sha512 : Bytes → Bytes) (content : Content) (dest : Str) (mode owner group : Option Str) :
    Limit 9 2 env (saveContent sha512 content dest mode owner group) := by
  refine .skip (.ofExcept _) fun bytes => .withDefaults (n := 4) fun attr => ?_
  have hs : Limit 3 2 env (settle (saveDiff dest bytes) (saveActions attr bytes dest)) := by
    refine .settle (n1 := 1) (c1 := 0) (n2 := 2) (c2 := 2) ?_ ?_
    · exact .skip .diffWanted fun _ => .ite (.last (.downloadOr _ _) fun _ => .opDiff _ _ _) (.silent (.pure _))
    · exact .skip (.changedEither _ _) fun _ => .ite (Limit.one.mono (by omega) (by omega))
        (.bind (n1 := 1) (c1 := 1) (n2 := 1) (c2 := 1) (.whenChanged .runCommand) fun _ => .whenEither .runCommand)
  refine .skip (.finalState _) fun _ => .bind (n1 := 1) (c1 := 0) (n2 := 3) (c2 := 2) (.stat _ _ _) fun s => ?_
  cases s with
  | none => exact .skip (.initialState _) fun _ => hs
  | some s => exact .ite (.silent (.failure _)) (.skip (.initialState _) fun _ => hs)

theorem limit_line (path text : Str) (present : Bool) (regex : Option Regex) (ignoreWhitespace : Bool) (backup : Backup) (check : Bool) :
    Limit 9 2 env (line path text present regex ignoreWhitespace backup check) := by
  have hs : ∀ attr orig, Limit 2 2 env (lineSettle path text present regex ignoreWhitespace backup attr orig) := by
    intro attr orig
    refine .skip (.initialState _) fun _ => .skip (.unchanged _) fun _ => .ite (.silent .success) (.skip (.ofExcept _) fun _ =>
      .skip (.bind .diffWanted fun _ => ?_) fun _ => .last (.unlessDry ?_) fun _ => .success)
    · split
      · exact .opDiff _ _ _
      · exact .pure _
    · cases orig with
      | none => exact Limit.one.mono (by omega) (by omega)
      | some o =>
        refine .bind (n1 := 1) (c1 := 1) (n2 := 1) (c2 := 1) ?_ fun _ => .one
        unfold lineBackup
        split
        · exact .runCommand
        · exact .silent (.pure _)
  refine .operation (.skip (.ofExcept _) fun _ => .returned (.withDefaults (n := 4) fun attr => ?_))
  refine .skip (.finalState _) fun _ => .bind (n1 := 1) (c1 := 0) (n2 := 3) (c2 := 2) (.stat _ _ _) fun s => ?_
  cases s with
  | none => exact (hs _ _).mono (by omega) (by omega)
  | some s => exact .ite (.silent (.failure _)) (.bind (n1 := 1) (c1 := 0) (n2 := 2) (c2 := 2) (.download _) fun _ => hs _ _)

theorem limit_usermod (key option : Str) (value : Option Str) (user : Str) : Limit 1 1 env (usermodIf key option value user) := by
  refine .whenChanged ?_
  cases value with
  | none => exact .silent (.pure _)
  | some v => exact .runCommand

theorem limit_user {n c : Nat} {a : UserArgs} {check : Bool} (h : ∀ t, Limit n c env (userActions a t)) : Limit (1 + n) c env (user a check) :=
  .operation ((Limit.bind (n1 := 1) (c1 := 0) (n2 := n) (c2 := c) (.queryUser _ _ _) fun _ => .skip (.initialState _) fun _ => .skip (.finalState _) fun _ =>
    .returned (.settle' (h _))).mono (Nat.le_refl _) (by omega))

theorem limit_userActions {a : UserArgs} (hp : a.present = true) (t : UserTarget) : Limit 7 7 env (userActions a t) := by
  unfold userActions
  rw [hp]
  simp only [if_true]
  exact .skip (.changed _) fun _ => .ite (Limit.runCommand.mono (by omega) (by omega))
    (.bind (n1 := 1) (c1 := 1) (n2 := 6) (c2 := 6) (limit_usermod _ _ _ _) fun _ =>
     .bind (n1 := 1) (c1 := 1) (n2 := 5) (c2 := 5) (limit_usermod _ _ _ _) fun _ =>
     .bind (n1 := 1) (c1 := 1) (n2 := 4) (c2 := 4) (limit_usermod _ _ _ _) fun _ =>
     .bind (n1 := 1) (c1 := 1) (n2 := 3) (c2 := 3) (limit_usermod _ _ _ _) fun _ =>
     .bind (n1 := 1) (c1 := 1) (n2 := 2) (c2 := 2) (limit_usermod _ _ _ _) fun _ =>
     .bind (n1 := 1) (c1 := 1) (n2 := 1) (c2 := 1) (limit_usermod _ _ _ _) fun _ => limit_usermod _ _ _ _)

theorem limit_userActions_absent {a : UserArgs} (hp : a.present = false) (t : UserTarget) : Limit 1 1 env (userActions a t) := by
  unfold userActions
  rw [hp]
  exact .skip (.changed _) fun _ => .ite .runCommand (.silent (.pure _))

theorem limit_group (name : Str) (present : Bool) (gid : Option Int) (system check : Bool) : Limit 2 1 env (group name present gid system check) := by
  refine .operation (.bind (n1 := 1) (c1 := 0) (n2 := 1) (c2 := 1) (.queryGroup _ _) fun _ => .skip (.initialState _) fun _ => .skip (.finalState _) fun _ =>
    .returned (.settle' (.skip (.changed _) fun _ => .ite (.ite .runCommand .runCommand) (.ite (.whenChanged ?_) (.silent (.pure _))))))
  split
  · exact .silent (.pure _)
  · exact .runCommand

theorem limit_queryInstalled {m : Manager} (h : ∀ p, Limit 1 0 env (m.isInstalled p)) : ∀ l, Limit l.length 0 env (queryInstalled m l)
  | [] => .silent (.pure _)
  | p :: ps => by
    have := limit_queryInstalled h ps
    exact (Limit.bind (h p) fun _ => Limit.last this fun _ => .pure' _).mono (by rw [List.length_cons]; omega) (Nat.le_refl _)

theorem limit_forEach {f : Str → Op Unit} (h : ∀ p, Limit 1 1 env (f p)) : ∀ l, Limit l.length l.length env (forEach f l)
  | [] => .silent (.pure _)
  | p :: ps => (Limit.bind (h p) fun _ => limit_forEach h ps).mono (by rw [List.length_cons]; omega) (by rw [List.length_cons]; omega)

theorem distinct_length : ∀ l : List Str, (distinct l).length ≤ l.length
  | [] => Nat.le_refl _
  | x :: xs => by
    have := distinct_length xs
    unfold distinct
    split
    · rw [List.length_cons]; omega
    · rw [List.length_cons, List.length_cons]; omega

theorem queryInstalled_length {m : Manager} : ∀ (l : List Str) (st st' : St) (t : Trace) (i : List Str),
    Execution (queryInstalled m l) env st t (.ok i) st' → i.length ≤ l.length
  | [], st, st', t, i, h => by
    obtain ⟨_, h, _⟩ := execution_pure.mp h
    cases h
    exact Nat.le_refl _
  | p :: ps, st, st', t, i, h => by
    rcases execution_bind.mp h with ⟨e, he, _⟩ | ⟨t1, t2, b, st1, _, h2, _⟩
    · cases he
    · rcases execution_bind.mp h2 with ⟨e, he, _⟩ | ⟨t3, t4, rest, st2, h3, h4, _⟩
      · cases he
      · obtain ⟨_, heq, _⟩ := execution_pure.mp h4
        cases heq
        have := queryInstalled_length ps _ _ _ _ h3
        split <;> simp only [List.length_cons] <;> omega

theorem Limit.bind_exec {n1 c1 n2 c2 : Nat} {m : Op α} {f : α → Op β} (hm : Limit n1 c1 env m)
    (hf : ∀ st t a st', Execution m env st t (.ok a) st' → Limit n2 c2 env (f a)) : Limit (n1 + n2) (c1 + c2) env (m >>= f) := by
  intro st t r st' hx
  rcases execution_bind.mp hx with ⟨e, rfl, h1⟩ | ⟨t1, t2, a, st1, h1, h2, rfl⟩
  · have := hm _ _ _ _ h1
    omega
  · have h2 := hf _ _ _ _ h1 _ _ _ _ h2
    have h1 := hm _ _ _ _ h1
    rw [changing_append, List.length_append]
    omega

theorem limit_packageWith {order : List Str → List Str} {m : Manager} {packages : List Str} {present check : Bool} (ho : ∀ l, (order l).Perm l)
    (hq : ∀ p, Limit 1 0 env (m.isInstalled p)) (hi : ∀ p, Limit 1 1 env (m.install p)) (hu : ∀ p, Limit 1 1 env (m.uninstall p)) :
    Limit (2 * packages.length) packages.length env (packageWith order m packages present check) := by
  refine .operation (.returned ((Limit.bind_exec (n2 := packages.length) (c2 := packages.length) (limit_queryInstalled hq packages)
    fun st t installed st' hx => ?_).mono (by omega) (by omega)))
  refine .skip (.initialState _) fun _ => .skip (.finalState _) fun _ => .settle' (.ite ?_ ?_)
  · have hl : (order ((distinct packages).filter fun p => !installed.contains p)).length ≤ packages.length := by
      rw [(ho _).length_eq]
      exact Nat.le_trans (List.length_filter_le _ _) (distinct_length _)
    exact (limit_forEach hi _).mono hl hl
  · have hl : (order (distinct installed)).length ≤ packages.length := by
      rw [(ho _).length_eq]
      exact Nat.le_trans (distinct_length _) (queryInstalled_length _ _ _ _ _ hx)
    exact (limit_forEach hu _).mono hl hl

theorem limit_apt {order : List Str → List Str} (ho : ∀ l, (order l).Perm l) (opts packages : List Str) (present check : Bool) :
    Limit (2 * packages.length) packages.length env (packageWith order (apt opts) packages present check) :=
  limit_packageWith ho (fun p => .quiet (c := 1) (.last .run fun _ => .pure' _) (quiet_apt opts p)) (fun _ => .runCommand) fun _ => .runCommand

theorem limit_pacman {order : List Str → List Str} (ho : ∀ l, (order l).Perm l) (opts packages : List Str) (present check : Bool) :
    Limit (2 * packages.length) packages.length env (packageWith order (pacman opts) packages present check) :=
  limit_packageWith ho (fun p => .quiet (c := 1) (.last .run fun _ => .pure' _) (quiet_pacman opts p)) (fun _ => .runCommand) fun _ => .runCommand

theorem limit_portage {order : List Str → List Str} (ho : ∀ l, (order l).Perm l) (opts : List Str) (oneshot : Bool) (packages : List Str)
    (present check : Bool) : Limit (2 * packages.length) packages.length env (packageWith order (portage opts oneshot) packages present check) :=
  limit_packageWith ho (fun p => .quiet (c := 1) (.last .run fun _ => .pure' _) (quiet_portage opts oneshot p)) (fun _ => .runCommand) fun _ => .runCommand

theorem limit_package {order : List Str → List Str} (ho : ∀ l, (order l).Perm l) (packages : List Str) (present check : Bool) :
    Limit (2 * packages.length + 1) packages.length env (package order packages present check) := by
  refine (Limit.bind_exec (n1 := 1) (c1 := 0) (n2 := 2 * packages.length) (c2 := packages.length)
    (.quiet (c := 1) (.last .run fun _ => .pure' _) quiet_findPackage) fun st t a st' hx => ?_).mono (by omega) (by omega)
  cases a with
  | none => exact .operation (.silent (.raise _))
  | some m =>
    obtain ⟨k, hk⟩ := findCommand_mem hx
    simp only [packageManagers, List.mem_cons, Prod.mk.injEq, List.not_mem_nil, or_false] at hk
    rcases hk with ⟨_, rfl⟩ | ⟨_, rfl⟩ | ⟨_, rfl⟩
    · exact limit_apt ho _ _ _ _
    · exact limit_pacman ho _ _ _ _
    · exact limit_portage ho _ _ _ _ _

theorem limit_daemonReload (userMode check : Bool) : Limit 1 1 env (daemonReload userMode check) :=
  .operation (.skip (.initialState _) fun _ => .skip (.finalState _) fun _ => .last (.unlessDry .runCommand) fun _ => .returned .success)

theorem limit_showProperty (a b : Str) : Limit 1 0 env (showProperty a b) := .quiet (c := 1) (.last .run fun _ => .pure' _) (quiet_showProperty a b)

theorem limit_systemdService (service : Str) (state : Option Str) (enabled : Option Bool) (userMode check : Bool) :
    Limit 4 2 env (systemdService service state enabled userMode check) := by
  refine .operation (.ite (.silent (.raise _)) (.bind (n1 := 1) (c1 := 0) (n2 := 3) (c2 := 2) (limit_showProperty _ _) fun _ =>
    .bind (n1 := 1) (c1 := 0) (n2 := 2) (c2 := 2) (limit_showProperty _ _) fun _ => .skip (.initialState _) fun _ => .skip (.finalState _) fun _ =>
    .skip (.unchanged _) fun _ => .returned (.ite (.silent .success) (.last (.unlessDry ?_) fun _ => .success))))
  refine .bind (n1 := 1) (c1 := 1) (n2 := 1) (c2 := 1) (.whenChanged ?_) fun _ => .whenChanged ?_
  · cases state with
    | none => exact .silent (.pure _)
    | some s =>
      dsimp only
      cases stateAction s with
      | none => exact .silent (.raise _)
      | some a => exact .runCommand
  · cases enabled with
    | none => exact .silent (.pure _)
    | some e => exact .runCommand

theorem limit_service (name : Str) (state : Option Str) (enabled : Option Bool) (check : Bool) : Limit 5 2 env (service name state enabled check) := by
  refine .bind_exec (n1 := 1) (c1 := 0) (n2 := 4) (c2 := 2) (.quiet (c := 1) (.last .run fun _ => .pure' _) quiet_findService) fun st t a st' hx => ?_
  cases a with
  | none => exact .operation (.silent (.raise _))
  | some m =>
    obtain ⟨k, hk⟩ := findCommand_mem hx
    simp only [serviceManagers, List.mem_cons, Prod.mk.injEq, List.not_mem_nil, or_false] at hk
    obtain ⟨_, rfl⟩ := hk
    exact limit_systemdService _ _ _ _ _

theorem limit_repo (a : RepoArgs) (check : Bool) : Limit 7 2 env (repo a check) := by
  have hsub : Limit 1 1 env (submodules a) := .ite .runCommand (.silent (.pure _))
  have hs : ∀ ex cur, Limit 4 2 env (repoSettle a ex cur) := fun ex cur =>
    .ite (.skip (.finalState _) fun _ => .silent .success) (.bind (n1 := 1) (c1 := 0) (n2 := 3) (c2 := 2) (.look (.gitUpstream _ _))
      fun _ => .skip (.ofExcept _) fun _ => .skip (.finalState _) fun _ => .skip (.unchanged _) fun _ => .ite (.silent .success) (.skip .dry fun _ => .ite (.silent .success)
        (.ite ((Limit.bind (n1 := 1) (c1 := 1) (n2 := 1) (c2 := 1) .runCommand fun _ => .last hsub fun _ => .success).mono (by omega) (by omega))
          (.bind (n1 := 1) (c1 := 0) (n2 := 2) (c2 := 2) (.look (.gitUrl _))
            fun _ => .ite (.silent (.failure _)) (.bind (n1 := 1) (c1 := 1) (n2 := 1) (c2 := 1) .runCommand fun _ => .last hsub fun _ => .success)))))
  refine .operation (.skip (.ofExcept _) fun _ => .bind (n1 := 1) (c1 := 0) (n2 := 6) (c2 := 2) (.stat _ _ _) fun s => ?_)
  cases s with
  | none => exact .skip (.initialState _) fun _ => .returned ((hs _ _).mono (by omega) (by omega))
  | some s =>
    refine .ite (.bind (n1 := 1) (c1 := 0) (n2 := 5) (c2 := 2) (.stat _ _ _) fun g => ?_) (.returned (.silent (.failure _)))
    cases g with
    | none => exact .returned (.silent (.failure _))
    | some g =>
      exact .ite (.returned (.silent (.failure _))) (.bind (n1 := 1) (c1 := 0) (n2 := 4) (c2 := 2) (.look (.gitCommit _)) fun _ =>
        .skip (.initialState _) fun _ => .returned (hs _ _))

/-! ### upload_dir -/

/-- 1 for directories -/
def dirCount (t : Tree) : Nat := if t.isDir then 1 else 0

/-- 1 for what is uploaded -/
def fileCount (t : Tree) : Nat := if t.content?.isSome then 1 else 0

def subdirCount (items : List WalkItem) : Nat := (items.map fun i => i.subdirs.length).sum

def subfileCount (items : List WalkItem) : Nat := (items.map fun i => (i.subfiles.map fun f => fileCount f.2).sum).sum

theorem count_dirs (entries : List (Str × Tree)) : ((entries.filter (·.2.isDir)).map (·.1)).length = (entries.map fun e => dirCount e.2).sum := by
  induction entries with
  | nil => rfl
  | cons e es ih =>
    rw [List.length_map] at ih ⊢
    rw [List.map_cons, List.sum_cons, ← ih, List.filter_cons]
    unfold dirCount
    split
    · rw [List.length_cons]; omega
    · omega

theorem count_files (entries : List (Str × Tree)) :
    ((entries.filter (!·.2.isDir)).map fun e => fileCount e.2).sum = (entries.map fun e => fileCount e.2).sum := by
  induction entries with
  | nil => rfl
  | cons e es ih =>
    rw [List.map_cons, List.sum_cons, ← ih, List.filter_cons]
    split
    · rw [List.map_cons, List.sum_cons]
    · next h =>
      obtain ⟨n, t⟩ := e
      cases t <;> simp_all [Tree.isDir, fileCount, Tree.content?]

mutual
theorem walk_dirs (rel : List Str) : ∀ t : Tree, subdirCount (walkTree rel t) + dirCount t = t.directories
  | .dir entries => by
    have := walk_dirsIn rel entries
    unfold walkTree Tree.directories
    show (walkItem rel entries).subdirs.length + subdirCount (walkEntries rel entries) + 1 = _
    have h : (walkItem rel entries).subdirs.length = _ := count_dirs entries
    omega
  | .dirLink => by unfold walkTree Tree.directories; rfl
  | .file _ => by unfold walkTree Tree.directories; rfl
  | .fileLink _ => by unfold walkTree Tree.directories; rfl
  | .special => by unfold walkTree Tree.directories; rfl
theorem walk_dirsIn (rel : List Str) : ∀ entries : List (Str × Tree),
    subdirCount (walkEntries rel entries) + (entries.map fun e => dirCount e.2).sum = Tree.directoriesIn entries
  | [] => by unfold walkEntries Tree.directoriesIn; rfl
  | (n, t) :: r => by
    have h1 := walk_dirs (rel ++ [n]) t
    have h2 := walk_dirsIn rel r
    unfold walkEntries Tree.directoriesIn
    unfold subdirCount at *
    rw [List.map_append, List.sum_append, List.map_cons, List.sum_cons]
    dsimp only
    omega
end

mutual
theorem walk_files (rel : List Str) : ∀ t : Tree, subfileCount (walkTree rel t) + fileCount t = t.files
  | .dir entries => by
    have := walk_filesIn rel entries
    unfold walkTree Tree.files
    show ((walkItem rel entries).subfiles.map fun f => fileCount f.2).sum + subfileCount (walkEntries rel entries) + 0 = _
    have h : ((walkItem rel entries).subfiles.map fun f => fileCount f.2).sum = _ := count_files entries
    omega
  | .dirLink => by unfold walkTree Tree.files; rfl
  | .file _ => by unfold walkTree Tree.files; rfl
  | .fileLink _ => by unfold walkTree Tree.files; rfl
  | .special => by unfold walkTree Tree.files; rfl
theorem walk_filesIn (rel : List Str) : ∀ entries : List (Str × Tree),
    subfileCount (walkEntries rel entries) + (entries.map fun e => fileCount e.2).sum = Tree.filesIn entries
  | [] => by unfold walkEntries Tree.filesIn; rfl
  | (n, t) :: r => by
    have h1 := walk_files (rel ++ [n]) t
    have h2 := walk_filesIn rel r
    unfold walkEntries Tree.filesIn
    unfold subfileCount at *
    rw [List.map_append, List.sum_append, List.map_cons, List.sum_cons]
    dsimp only
    omega
end

theorem destDirs_length (dest : Str) (items : List WalkItem) : (destDirs dest items).length = subdirCount items + 1 := by
  unfold destDirs subdirCount
  rw [List.length_cons, List.length_flatMap]
  simp

theorem destFiles_count (dest : Str) (items : List WalkItem) : ((destFiles dest items).map fun f => fileCount f.1).sum = subfileCount items := by
  unfold destFiles subfileCount
  induction items with
  | nil => rfl
  | cons i is ih =>
    rw [List.flatMap_cons, List.map_append, List.sum_append, ih, List.map_cons, List.sum_cons, List.map_map]
    rfl

theorem limit_upload (sha512 : Bytes → Bytes) (src : Str) (read : Except Exn Bytes) (dest : Str) (mode owner group : Option Str) (check : Bool) :
    Limit 9 2 env (upload sha512 src read dest mode owner group check) :=
  .operation (.skip (.ofExcept _) fun _ => .skip (.ofExcept _) fun _ => .returned (limit_saveContent _ _ _ _ _ _))

theorem limit_uploadDirs (mode owner group : Option Str) : ∀ l : List Str, Limit (9 * l.length) (3 * l.length) env (uploadDirs mode owner group l)
  | [] => .silent (.pure _)
  | d :: ds => (Limit.bind (n1 := 9) (c1 := 3) (limit_directory (n := 3) fun _ => limit_directoryActions _ _) fun _ => .skip (.addNestedResult _ _) fun _ =>
      limit_uploadDirs mode owner group ds).mono (by rw [List.length_cons]; omega) (by rw [List.length_cons]; omega)

theorem limit_uploadFiles (sha512 : Bytes → Bytes) (mode owner group : Option Str) : ∀ l : List (Tree × Str),
    Limit (9 * (l.map fun f => fileCount f.1).sum) (2 * (l.map fun f => fileCount f.1).sum) env (uploadFiles sha512 mode owner group l)
  | [] => .silent (.pure _)
  | (t, df) :: fs => by
    have ih := limit_uploadFiles sha512 mode owner group fs
    rw [uploadFiles, List.map_cons, List.sum_cons]
    have hfc : fileCount t = if t.content?.isSome then 1 else 0 := rfl
    cases hc : t.content? with
    | some c =>
      rw [hc] at hfc
      rw [show fileCount (t, df).1 = 1 from hfc]
      exact (Limit.bind (n1 := 9) (c1 := 2) (limit_upload _ _ _ _ _ _ _ _) fun _ => .skip (.addNestedResult _ _) fun _ => ih).mono (by omega) (by omega)
    | none => exact ih.mono (by omega) (by omega)

theorem limit_uploadDir (sha512 : Bytes → Bytes) (src : Str) (tree : Tree) (dest : Str) (dirMode fileMode owner group : Option Str) (check : Bool) :
    Limit (9 * tree.directories + 9 * tree.files) (3 * tree.directories + 2 * tree.files) env
      (uploadDir sha512 src tree dest dirMode fileMode owner group check) := by
  refine .operation (.skip (.setNested _) fun _ => .skip (.ofExcept _) fun _ => ?_)
  by_cases hd : tree.isDir = true
  · rw [if_neg (by simp [hd])]
    have hn := walk_dirs [] tree
    have hf := walk_files [] tree
    have h0 : fileCount tree = 0 := by
      unfold fileCount
      cases tree <;> simp_all [Tree.isDir, Tree.content?]
    unfold dirCount at hn
    rw [if_pos hd] at hn
    refine (Limit.bind (limit_uploadDirs _ _ _ _) fun _ => Limit.last (limit_uploadFiles _ _ _ _ _) fun _ => .returned .success).mono ?_ ?_
    · rw [destDirs_length, destFiles_count]; omega
    · rw [destDirs_length, destFiles_count]; omega
  · rw [if_pos (by simpa using hd)]
    exact .silent (.raise _)

theorem effort_limit {n c : Nat} {op : Op OpResult} (h : Effort n c op) (env : Env) : Limit n c env op := by
  cases h with
  | directory => exact limit_directory fun _ => limit_directoryActions _ _
  | noDirectory => exact limit_directory (n := 1) fun _ => .whenChanged .runCommand
  | file =>
    exact limit_file (n := 3) fun _ => .bind (n1 := 1) (c1 := 1) (n2 := 2) (c2 := 2) (.whenEither .runCommand) fun _ =>
      .bind (n1 := 1) (c1 := 1) (n2 := 1) (c2 := 1) (.whenChanged .runCommand) fun _ => .whenEither .runCommand
  | noFile => exact limit_file (n := 1) fun _ => .whenChanged .runCommand
  | link => exact limit_link fun _ => limit_linkActions _ _ _
  | noLink => exact limit_link (n := 1) fun _ => .whenChanged .runCommand
  | uploadContent => exact .operation (.skip (.ofExcept _) fun _ => .returned (limit_saveContent _ _ _ _ _ _))
  | upload => exact limit_upload _ _ _ _ _ _ _ _
  | uploadDir => exact limit_uploadDir _ _ _ _ _ _ _ _ _
  | templateContent =>
    exact .operation (.skip (.ofExcept _) fun _ => .skip (.ofExcept _) fun _ => .returned (limit_saveContent _ _ _ _ _ _))
  | template =>
    exact .operation (.skip (.ofExcept _) fun _ => .skip (.ofExcept _) fun _ => .skip (.ofExcept _) fun _ => .returned (limit_saveContent _ _ _ _ _ _))
  | line => exact limit_line _ _ _ _ _ _ _
  | user _ _ hp => exact limit_user fun _ => limit_userActions hp _
  | noUser _ _ hp => exact limit_user fun _ => limit_userActions_absent hp _
  | group => exact limit_group _ _ _ _ _
  | apt _ _ _ _ _ ho => exact limit_apt ho _ _ _ _
  | pacman _ _ _ _ _ ho => exact limit_pacman ho _ _ _ _
  | portage _ _ _ _ _ _ ho => exact limit_portage ho _ _ _ _ _
  | package _ _ _ _ ho => exact limit_package ho _ _ _
  | daemonReload => exact limit_daemonReload _ _
  | systemdService => exact limit_systemdService _ _ _ _ _
  | service => exact limit_service _ _ _ _
  | repo => exact limit_repo _ _

theorem deploy_limit : ∀ {n c : Nat} {ops : List (Op OpResult)}, Efforts n c ops → ∀ env, Limit n c env (deploy ops)
  | _, _, _, .nil, _ => .silent (.pure _)
  | _, _, _, .cons h hs, env => .bind (effort_limit h env) fun _ => .last (deploy_limit hs env) fun _ => .pure _

end Verif.Ops
