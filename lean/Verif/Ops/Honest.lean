/-
An operation that reports no change has only looked at the host.
-/
import Verif.Ops.Quiet
import Verif.Script.ApiProps

namespace Verif.Ops

open Script
open Client (isQuery)
open Wire (Packet)

/-- A result that reports no change. -/
def Calm (x : OpResult) : Prop := x.changed = false ∨ (x.success = true ∧ x.initial.eq x.final = true)

def Honest (env : Env) (m : Op OpResult) : Prop :=
  ∀ st t x st', Execution m env st t (.ok x) st' → Calm x → ∀ e ∈ t, ReadOnly e.1

def HonestR (env : Env) (m : Op (Option OpResult)) : Prop :=
  ∀ st t x st', Execution m env st t (.ok (some x)) st' → Calm x → ∀ e ∈ t, ReadOnly e.1

/-- Both states are set and differ. -/
def Different (st : St) : Prop := ∃ i f, st.op.initial = some i ∧ st.op.final = some f ∧ i.eq f = false

/-- Honest, if the states differ. -/
def HonestD (env : Env) (m : Op OpResult) : Prop :=
  ∀ st t x st', Different st → Execution m env st t (.ok x) st' → Calm x → ∀ e ∈ t, ReadOnly e.1

/-- If the states differ, a change is reported. -/
def Reports (env : Env) (m : Op OpResult) : Prop :=
  ∀ st t x st', Different st → Execution m env st t (.ok x) st' → ¬ Calm x

/-- The part of the state that must be kept between `unchanged` and `success`. -/
def states (st : St) : Option Dict × Option Dict := (st.op.initial, st.op.final)

theorem Different.of_states {st st' : St} (h : states st' = states st) (hd : Different st) : Different st' := by
  obtain ⟨i, f, h1, h2, h3⟩ := hd
  simp only [states, Prod.mk.injEq] at h
  exact ⟨i, f, h.1.trans h1, h.2.trans h2, h3⟩

variable {α : Type} {env : Env}

theorem execution_ok_bind {β : Type} {m : Op α} {f : α → Op β} {st st' : St} {t : Trace} {b : β} (h : Execution (m >>= f) env st t (.ok b) st') :
    ∃ t1 t2 a st1, t = t1 ++ t2 ∧ Execution m env st t1 (.ok a) st1 ∧ Execution (f a) env st1 t2 (.ok b) st' := by
  rcases execution_bind.mp h with ⟨_, h0, _⟩ | ⟨t1, t2, a, st1, h1, h2, rfl⟩
  · cases h0
  · exact ⟨t1, t2, a, st1, rfl, h1, h2⟩

theorem Quiet.honest {m : Op OpResult} (h : Quiet env m) : Honest env m := fun _ _ _ _ he _ => h _ _ _ _ he
theorem Quiet.honestR {m : Op (Option OpResult)} (h : Quiet env m) : HonestR env m := fun _ _ _ _ he _ => h _ _ _ _ he

theorem Honest.raise (e : Exn) : Honest env (Op.raise e) := Quiet.honest (.raise _)
theorem HonestR.raise (e : Exn) : HonestR env (Op.raise e) := Quiet.honestR (.raise _)
theorem Honest.failure (m : Str) : Honest env (failure m) := Quiet.honest (.failure _)

theorem Honest.ite {c : Prop} [Decidable c] {a b : Op OpResult} (ha : Honest env a) (hb : Honest env b) : Honest env (if c then a else b) := by
  split <;> assumption
theorem HonestR.ite {c : Prop} [Decidable c] {a b : Op (Option OpResult)} (ha : HonestR env a) (hb : HonestR env b) :
    HonestR env (if c then a else b) := by
  split <;> assumption

theorem Honest.bind {m : Op α} {f : α → Op OpResult} (hm : Quiet env m) (hf : ∀ a, Honest env (f a)) : Honest env (m >>= f) := by
  intro st t x st' h hc e he
  obtain ⟨t1, t2, a, st1, rfl, h1, h2⟩ := execution_ok_bind h
  · rcases List.mem_append.mp he with he | he
    · exact hm _ _ _ _ h1 e he
    · exact hf a _ _ _ _ h2 hc e he

theorem HonestR.bind {m : Op α} {f : α → Op (Option OpResult)} (hm : Quiet env m) (hf : ∀ a, HonestR env (f a)) : HonestR env (m >>= f) := by
  intro st t x st' h hc e he
  obtain ⟨t1, t2, a, st1, rfl, h1, h2⟩ := execution_ok_bind h
  · rcases List.mem_append.mp he with he | he
    · exact hm _ _ _ _ h1 e he
    · exact hf a _ _ _ _ h2 hc e he

theorem HonestR.returned {m : Op OpResult} (h : Honest env m) : HonestR env (returned m) := by
  intro st t x st' he hc
  obtain ⟨t1, t2, a, st1, rfl, h1, h2⟩ := execution_ok_bind he
  · have h3 := (execution_ret rfl).mp h2
    simp only [Except.ok.injEq, Option.some.injEq] at h3
    obtain ⟨rfl, rfl, rfl⟩ := h3
    rw [List.append_nil]
    exact h _ _ _ _ h1 hc

theorem Honest.operation {check : Bool} {f : Op (Option OpResult)} (h : HonestR env f) : Honest env (operation check f) := by
  intro st t x st' he hc
  obtain ⟨r0, st0, h1, _, h3⟩ := execution_operation.mp he
  rcases r0 with e | (_ | y)
  · cases h3
  · cases h3
  · dsimp only at h3
    split at h3
    · cases h3
    · cases h3
      exact h _ _ _ _ h1 hc

theorem Honest.withDefaults {s : Settings} {body : Settings → Op OpResult} (h : ∀ a, Honest env (body a)) : Honest env (withDefaults s body) := by
  unfold Script.withDefaults
  refine .bind (.ofExcept _) fun _ => .bind .getEnv fun _ => .bind .currentDefaults fun _ =>
    .bind (.resolveDefaults readOnly_query _) fun _ => .bind (.push _) fun _ => ?_
  intro st t x st' he hc
  obtain ⟨st1, h1, _⟩ := execution_finally.mp he
  exact h _ _ _ _ _ h1 hc

theorem Reports.success : Reports env success := by
  rintro st t x st' ⟨i, f, hi, hf, hd⟩ he
  rcases success_cases env st with ⟨e, h⟩ | ⟨i', f', hi', hf', h⟩
  · obtain ⟨_, h, _⟩ := (execution_ret h).mp he
    cases h
  rw [hi] at hi'; rw [hf] at hf'
  cases hi'; cases hf'
  obtain ⟨_, h, _⟩ := (execution_ret h).mp he
  cases h
  rintro (h | ⟨_, h⟩)
  · simp [hd] at h
  · dsimp only at h; rw [hd] at h; cases h

theorem Reports.bind {m : Op α} {f : α → Op OpResult} (hm : Keeps states m) (hf : ∀ a, Reports env (f a)) : Reports env (m >>= f) := by
  intro st t x st' hd h
  obtain ⟨t1, t2, a, st1, rfl, h1, h2⟩ := execution_ok_bind h
  · exact hf a _ _ _ _ (hd.of_states (hm _ _ _ _ _ h1)) h2

theorem Reports.honest {m : Op OpResult} (h : Reports env m) : HonestD env m := fun _ _ _ _ hd he hc => absurd hc (h _ _ _ _ hd he)
theorem Quiet.honestD {m : Op OpResult} (h : Quiet env m) : HonestD env m := fun _ _ _ _ _ he _ => h _ _ _ _ he

theorem HonestD.ite {c : Prop} [Decidable c] {a b : Op OpResult} (ha : HonestD env a) (hb : HonestD env b) : HonestD env (if c then a else b) := by
  split <;> assumption

theorem HonestD.bind {m : Op α} {f : α → Op OpResult} (hk : Keeps states m) (hm : Quiet env m) (hf : ∀ a, HonestD env (f a)) :
    HonestD env (m >>= f) := by
  intro st t x st' hd h hc e he
  obtain ⟨t1, t2, a, st1, rfl, h1, h2⟩ := execution_ok_bind h
  · rcases List.mem_append.mp he with he | he
    · exact hm _ _ _ _ h1 e he
    · exact hf a _ _ _ _ (hd.of_states (hk _ _ _ _ _ h1)) h2 hc e he

/-- What `unchanged()` returned tells whether the states differ. -/
theorem execution_unchanged {st st' : St} {t : Trace} {u : Bool} (h : Execution (unchanged false) env st t (.ok u) st') :
    t = [] ∧ st' = st ∧ ∃ i f, st.op.initial = some i ∧ st.op.final = some f ∧ u = i.eq f := by
  simp only [Execution, unchanged] at h
  split at h
  · next i f hi hf =>
    simp only [Bool.not_false, if_true] at h
    replace h := runs_ret.mp h
    obtain ⟨rfl, h⟩ := h
    simp only [Prod.mk.injEq, Except.ok.injEq] at h
    exact ⟨rfl, h.2, i, f, hi, hf, h.1⟩
  · replace h := runs_ret.mp h
    obtain ⟨_, h⟩ := h
    simp at h

theorem Honest.unchanged {g : Bool → Op OpResult} (ht : Honest env (g true)) (hf : HonestD env (g false)) : Honest env (unchanged >>= g) := by
  intro st t x st' h hc e he
  obtain ⟨t1, t2, u, st1, rfl, h1, h2⟩ := execution_ok_bind h
  · obtain ⟨rfl, rfl, i, f, hi, hf', hu⟩ := execution_unchanged h1
    cases u with
    | true => exact ht _ _ _ _ h2 hc e he
    | false => exact hf _ _ _ _ ⟨i, f, hi, hf', hu.symm⟩ h2 hc e he

theorem Honest.settle {b m : Op Unit} (hb : Keeps states b) (hm : Keeps states m) : Honest env (settle b m) := by
  refine .unchanged (g := fun u => if u then success else _) ?_ ?_
  · simp only [if_true]
    exact Quiet.honest .success
  · simp only [Bool.false_eq_true, if_false]
    exact Reports.honest (.bind hb fun _ => .bind (.unlessDry hm) fun _ => .success)

theorem keeps_ite {β : Type} {g : St → β} {c : Prop} [Decidable c] {a b : Op α} (ha : Keeps g a) (hb : Keeps g b) : Keeps g (if c then a else b) := by
  split <;> assumption

/-! ### The actions keep the states -/

theorem keeps_directoryActions {β : Type} {g : St → β} (path : Str) (present : Bool) (attr : Settings) : Keeps g (directoryActions path present attr) :=
  keeps_ite (.bind (.whenChanged (.runCommand _)) fun _ => .bind (.whenChanged (.runCommand _)) fun _ =>
    .bind (.whenEither (.runCommand _)) fun _ => .bind (.changed _) fun _ => keeps_ite (.pure _) (.whenChanged (.runCommand _)))
    (.whenChanged (.runCommand _))

theorem keeps_fileActions {β : Type} {g : St → β} (path : Str) (present : Bool) (attr : Settings) : Keeps g (fileActions path present attr) :=
  keeps_ite (.bind (.whenEither (.runCommand _)) fun _ => .bind (.whenChanged (.runCommand _)) fun _ => .whenEither (.runCommand _))
    (.whenChanged (.runCommand _))

theorem keeps_linkActions {β : Type} {g : St → β} (path target : Str) (present : Bool) (attr : Settings) : Keeps g (linkActions path target present attr) :=
  keeps_ite (.bind (.whenChanged (.runCommand _)) fun _ => .bind (.whenEither (.runCommand _)) fun _ =>
    .bind (.changed _) fun _ => keeps_ite (.pure _) (.whenChanged (.runCommand _)))
    (.whenChanged (.runCommand _))

theorem keeps_upload {β : Type} {g : St → β} (file : Str) (content : Bytes) (mode owner group : Option Str) :
    Keeps g (Connection.upload file content mode owner group) := .call _

theorem keeps_saveActions {β : Type} {g : St → β} (attr : Settings) (content : Bytes) (dest : Str) : Keeps g (saveActions attr content dest) :=
  .bind (.changedEither _ _) fun _ => keeps_ite (keeps_upload _ _ _ _ _)
    (.bind (.whenChanged (.runCommand _)) fun _ => .whenEither (.runCommand _))

theorem keeps_downloadOr {β : Type} {g : St → β} (path : Str) (d : Option Bytes) : Keeps g (Connection.downloadOr path d) :=
  .tryCatch (.bind (.call _) fun _ => .pure' _) fun e => by
    split
    · exact .pure _
    · exact .raise _

theorem keeps_opDiff (f : Str) (a b : Option Bytes) : Keeps states (opDiff f a b) := .of_ret fun env st => by
  unfold Script.opDiff
  split
  · exact ⟨_, _, rfl, rfl⟩
  · split <;> exact ⟨_, _, rfl, rfl⟩

theorem keeps_saveDiff (dest : Str) (content : Bytes) : Keeps states (saveDiff dest content) :=
  .bind .diffWanted fun _ => keeps_ite (.bind (keeps_downloadOr _ _) fun _ => keeps_opDiff _ _ _) (.pure _)

theorem keeps_lineDiff (path : Str) (orig : Option Bytes) (new : Bytes) : Keeps states (lineDiff path orig new) :=
  .bind .diffWanted fun _ => keeps_ite (keeps_opDiff _ _ _) (.pure _)

theorem keeps_lineActions {β : Type} {g : St → β} (path : Str) (backup : Backup) (attr : Settings) (orig : Option Bytes) (new : Bytes) :
    Keeps g (lineActions path backup attr orig new) := by
  cases orig with
  | none => exact keeps_upload _ _ _ _ _
  | some o =>
    refine .bind ?_ fun _ => keeps_upload _ _ _ _ _
    unfold lineBackup
    split
    · exact .runCommand _
    · exact .pure _

theorem keeps_usermodIf {β : Type} {g : St → β} (key option : Str) (value : Option Str) (user : Str) : Keeps g (usermodIf key option value user) :=
  .whenChanged (by
    split
    · exact .pure _
    · exact .runCommand _)

theorem keeps_userActions {β : Type} {g : St → β} (a : UserArgs) (t : UserTarget) : Keeps g (userActions a t) :=
  .bind (.changed _) fun _ => keeps_ite (keeps_ite (.runCommand _) (.runCommand _)) (keeps_ite
    (.bind (keeps_usermodIf _ _ _ _) fun _ => .bind (keeps_usermodIf _ _ _ _) fun _ => .bind (keeps_usermodIf _ _ _ _) fun _ =>
      .bind (keeps_usermodIf _ _ _ _) fun _ => .bind (keeps_usermodIf _ _ _ _) fun _ => .bind (keeps_usermodIf _ _ _ _) fun _ =>
      keeps_usermodIf _ _ _ _) (.pure _))

theorem keeps_groupActions {β : Type} {g : St → β} (group : Str) (present : Bool) (target : Option Int) (system : Bool) :
    Keeps g (groupActions group present target system) :=
  .bind (.changed _) fun _ => keeps_ite (keeps_ite (.runCommand _) (.runCommand _)) (keeps_ite (.whenChanged (by
    split
    · exact .pure _
    · exact .runCommand _)) (.pure _))

theorem keeps_forEach {β : Type} {g : St → β} {f : Str → Op Unit} (h : ∀ p, Keeps g (f p)) : ∀ l, Keeps g (forEach f l)
  | [] => .pure _
  | _ :: l => .bind (h _) fun _ => keeps_forEach h l

theorem keeps_serviceActions {β : Type} {g : St → β} (service : Str) (state : Option Str) (enabled : Option Bool) (userMode : Bool) :
    Keeps g (serviceActions service state enabled userMode) :=
  .bind (.whenChanged (by
    split
    · exact .pure _
    · split
      · exact .raise _
      · exact .runCommand _)) fun _ => .whenChanged (by
    split
    · exact .pure _
    · exact .runCommand _)

/-! ### The operations -/

theorem honest_directory (path : Str) (present touch : Bool) (mode owner group : Option Str) (check : Bool) :
    Honest env (directory path present touch mode owner group check) := by
  refine .operation (.bind (.ofExcept _) fun _ => .returned (.withDefaults fun attr => ?_))
  refine .bind (.finalState _) fun _ => .bind (quiet_stat _ _ _) fun s => ?_
  cases s with
  | none => exact .bind (.initialState _) fun _ => .settle (.pure _) (keeps_directoryActions _ _ _)
  | some s => exact .ite (.failure _) (.bind (.initialState _) fun _ => .settle (.pure _) (keeps_directoryActions _ _ _))

theorem honest_file (path : Str) (present touch : Bool) (mode owner group : Option Str) (check : Bool) :
    Honest env (file path present touch mode owner group check) := by
  refine .operation (.bind (.ofExcept _) fun _ => .returned (.withDefaults fun attr => ?_))
  refine .bind (.finalState _) fun _ => .bind (quiet_stat _ _ _) fun s => ?_
  cases s with
  | none => exact .bind (.initialState _) fun _ => .settle (.pure _) (keeps_fileActions _ _ _)
  | some s => exact .ite (.failure _) (.bind (.initialState _) fun _ => .settle (.pure _) (keeps_fileActions _ _ _))

theorem honest_link (path target : Str) (present touch : Bool) (owner group : Option Str) (check : Bool) :
    Honest env (link path target present touch owner group check) := by
  refine .operation (.bind (.ofExcept _) fun _ => .ite (.raise _) (.returned (.withDefaults fun attr => ?_)))
  refine .bind (.finalState _) fun _ => .bind (quiet_stat _ _ _) fun s => ?_
  cases s with
  | none => exact .bind (.initialState _) fun _ => .settle (.pure _) (keeps_linkActions _ _ _ _)
  | some s =>
    exact .ite (.failure _) (.bind (quiet_run (.readlink _)) fun _ => .bind (.ofExcept _) fun _ =>
      .bind (.initialState _) fun _ => .settle (.pure _) (keeps_linkActions _ _ _ _))

theorem honest_saveContent (sha512 : Bytes → Bytes) (content : Content) (dest : Str) (mode owner group : Option Str) :
    Honest env (saveContent sha512 content dest mode owner group) := by
  refine .bind (.ofExcept _) fun c => .withDefaults fun attr => ?_
  refine .bind (.finalState _) fun _ => .bind (quiet_stat _ _ _) fun s => ?_
  cases s with
  | none => exact .bind (.initialState _) fun _ => .settle (keeps_saveDiff _ _) (keeps_saveActions _ _ _)
  | some s => exact .ite (.failure _) (.bind (.initialState _) fun _ => .settle (keeps_saveDiff _ _) (keeps_saveActions _ _ _))

theorem honest_uploadContent (sha512 : Bytes → Bytes) (content : Content) (dest : Str) (mode owner group : Option Str) (check : Bool) :
    Honest env (uploadContent sha512 content dest mode owner group check) :=
  .operation (.bind (.ofExcept _) fun _ => .returned (honest_saveContent _ _ _ _ _ _))

theorem honest_upload (sha512 : Bytes → Bytes) (src : Str) (read : Except Exn Bytes) (dest : Str) (mode owner group : Option Str) (check : Bool) :
    Honest env (upload sha512 src read dest mode owner group check) :=
  .operation (.bind (.ofExcept _) fun _ => .bind (.ofExcept _) fun _ => .returned (honest_saveContent _ _ _ _ _ _))

theorem honest_templateContent {V : Type} (sha512 : Bytes → Bytes) (templ : List (Str × V) → Rendered) (dest : Str) (vars : List (Str × V))
    (context : Option (List (Str × V))) (host : V) (mode owner group : Option Str) (check : Bool) :
    Honest env (templateContent sha512 templ dest vars context host mode owner group check) :=
  .operation (.bind (.ofExcept _) fun _ => .bind (.ofExcept _) fun _ => .returned (honest_saveContent _ _ _ _ _ _))

theorem honest_template {V : Type} (sha512 : Bytes → Bytes) (src : Str) (templ : Except Exn (List (Str × V) → Rendered)) (dest : Str)
    (vars : List (Str × V)) (context : Option (List (Str × V))) (host : V) (mode owner group : Option Str) (check : Bool) :
    Honest env (template sha512 src templ dest vars context host mode owner group check) :=
  .operation (.bind (.ofExcept _) fun _ => .bind (.ofExcept _) fun _ => .bind (.ofExcept _) fun _ => .returned (honest_saveContent _ _ _ _ _ _))

theorem honest_lineSettle (path line : Str) (present : Bool) (regex : Option Regex) (ignoreWhitespace : Bool) (backup : Backup)
    (attr : Settings) (orig : Option Bytes) : Honest env (lineSettle path line present regex ignoreWhitespace backup attr orig) := by
  refine .bind (.initialState _) fun _ => .unchanged (g := fun u => if u then success else _) ?_ ?_
  · simp only [if_true]
    exact Quiet.honest .success
  · simp only [Bool.false_eq_true, if_false]
    exact Reports.honest (.bind (.ofExcept _) fun _ => .bind (keeps_lineDiff _ _ _) fun _ =>
      .bind (.unlessDry (keeps_lineActions _ _ _ _ _)) fun _ => .success)

theorem honest_line (path text : Str) (present : Bool) (regex : Option Regex) (ignoreWhitespace : Bool) (backup : Backup) (check : Bool) :
    Honest env (line path text present regex ignoreWhitespace backup check) := by
  refine .operation (.bind (.ofExcept _) fun _ => .returned (.withDefaults fun attr => ?_))
  refine .bind (.finalState _) fun _ => .bind (quiet_stat _ _ _) fun s => ?_
  cases s with
  | none => exact honest_lineSettle _ _ _ _ _ _ _ _
  | some s => exact .ite (.failure _) (.bind (.download readOnly_query _) fun _ => honest_lineSettle _ _ _ _ _ _ _ _)

theorem honest_user (a : UserArgs) (check : Bool) : Honest env (user a check) :=
  .operation (.bind (.queryUser readOnly_query _ _ _) fun _ => .bind (.initialState _) fun _ => .bind (.finalState _) fun _ =>
    .returned (.settle (.pure _) (keeps_userActions _ _)))

theorem honest_group (name : Str) (present : Bool) (gid : Option Int) (system check : Bool) : Honest env (group name present gid system check) :=
  .operation (.bind (.queryGroup readOnly_query _ _) fun _ => .bind (.initialState _) fun _ => .bind (.finalState _) fun _ =>
    .returned (.settle (.pure _) (keeps_groupActions _ _ _ _)))

theorem honest_packageWith (order : List Str → List Str) {m : Manager} (h : ∀ p, Quiet env (m.isInstalled p))
    (hi : ∀ p, Keeps states (m.install p)) (hu : ∀ p, Keeps states (m.uninstall p)) (packages : List Str)
    (present check : Bool) : Honest env (packageWith order m packages present check) :=
  .operation (.returned (.bind (quiet_queryInstalled h _) fun _ => .bind (.initialState _) fun _ => .bind (.finalState _) fun _ =>
    .settle (.pure _) (keeps_ite (keeps_forEach hi _) (keeps_forEach hu _))))

theorem honest_apt (order : List Str → List Str) (opts packages : List Str) (present check : Bool) :
    Honest env (packageWith order (apt opts) packages present check) :=
  honest_packageWith _ (quiet_apt _) (fun _ => .runCommand _) (fun _ => .runCommand _) _ _ _
theorem honest_pacman (order : List Str → List Str) (opts packages : List Str) (present check : Bool) :
    Honest env (packageWith order (pacman opts) packages present check) :=
  honest_packageWith _ (quiet_pacman _) (fun _ => .runCommand _) (fun _ => .runCommand _) _ _ _
theorem honest_portage (order : List Str → List Str) (opts : List Str) (oneshot : Bool) (packages : List Str) (present check : Bool) :
    Honest env (packageWith order (portage opts oneshot) packages present check) :=
  honest_packageWith _ (quiet_portage _ _) (fun _ => .runCommand _) (fun _ => .runCommand _) _ _ _

theorem Honest.bind_exec {m : Op α} {f : α → Op OpResult} (hm : Quiet env m)
    (hf : ∀ st t a st', Execution m env st t (.ok a) st' → Honest env (f a)) : Honest env (m >>= f) := by
  intro st t x st' h hc e he
  obtain ⟨t1, t2, a, st1, rfl, h1, h2⟩ := execution_ok_bind h
  · rcases List.mem_append.mp he with he | he
    · exact hm _ _ _ _ h1 e he
    · exact hf _ _ a _ h1 _ _ _ _ h2 hc e he

theorem honest_package (order : List Str → List Str) (packages : List Str) (present check : Bool) : Honest env (package order packages present check) := by
  refine .bind_exec quiet_findPackage fun st t a st' h => ?_
  cases a with
  | none => exact .operation (.raise _)
  | some m =>
    obtain ⟨k, hk⟩ := findCommand_mem h
    simp only [packageManagers, List.mem_cons, Prod.mk.injEq, List.not_mem_nil, or_false] at hk
    rcases hk with ⟨_, rfl⟩ | ⟨_, rfl⟩ | ⟨_, rfl⟩
    · exact honest_apt _ _ _ _ _
    · exact honest_pacman _ _ _ _ _
    · exact honest_portage _ _ _ _ _ _

/-- After the states are set they are what was given. -/
theorem execution_initialState {d : Dict} {st st' : St} {t : Trace} (h : Execution (initialState d) env st t (.ok ()) st') :
    t = [] ∧ st.op.hasNested = false ∧ st.op.initial = none ∧ st' = { st with op := { st.op with initial := some d } } := by
  simp only [Execution, initialState] at h
  split at h
  · obtain ⟨_, h⟩ := runs_ret.mp h; simp at h
  · next hn =>
    split at h
    · obtain ⟨_, h⟩ := runs_ret.mp h; simp at h
    · next hi =>
      replace h := runs_ret.mp h
      obtain ⟨rfl, h⟩ := h
      simp only [Prod.mk.injEq] at h
      exact ⟨rfl, by simpa using hn, hi, h.2⟩

theorem execution_finalState {d : Dict} {st st' : St} {t : Trace} (h : Execution (finalState d) env st t (.ok ()) st') :
    t = [] ∧ st.op.hasNested = false ∧ st.op.final = none ∧ st' = { st with op := { st.op with final := some d } } := by
  simp only [Execution, finalState] at h
  split at h
  · obtain ⟨_, h⟩ := runs_ret.mp h; simp at h
  · next hn =>
    split at h
    · obtain ⟨_, h⟩ := runs_ret.mp h; simp at h
    · next hi =>
      replace h := runs_ret.mp h
      obtain ⟨rfl, h⟩ := h
      simp only [Prod.mk.injEq] at h
      exact ⟨rfl, by simpa using hn, hi, h.2⟩

theorem honest_daemonReload (userMode check : Bool) : Honest env (daemonReload userMode check) := by
  refine .operation ?_
  intro st t x st' h hc
  replace h := execution_ok_bind h
  obtain ⟨t1, t2, _, st1, rfl, h1, h⟩ := h
  rcases execution_bind.mp h with ⟨_, h0, _⟩ | ⟨t3, t4, _, st2, h2, h, rfl⟩
  · cases h0
  obtain ⟨rfl, _, _, rfl⟩ := execution_initialState h1
  obtain ⟨rfl, _, _, rfl⟩ := execution_finalState h2
  refine absurd hc ?_
  replace h := execution_ok_bind h
  obtain ⟨t5, t6, _, st3, rfl, h3, h⟩ := h
  have hk := Keeps.unlessDry (f := states) (.runCommand _) _ _ _ _ _ h3
  obtain ⟨t5, t6, _, st4, rfl, h4, h5⟩ := execution_ok_bind h
  have h6 := (execution_ret rfl).mp h5
  simp only [Except.ok.injEq, Option.some.injEq] at h6
  obtain ⟨rfl, rfl, rfl⟩ := h6
  exact Reports.success _ _ _ _ (Different.of_states hk ⟨_, _, rfl, rfl, rfl⟩) h4

theorem unchangedLoop_service {c : Str} {b : Bool} {state : Option Str} {enabled : Option Bool}
    (h : (serviceState (some c) (some b)).eq (serviceState state enabled) = true) :
    unchangedLoop (serviceState (some c) (some b)) (serviceState state enabled) ((serviceState state enabled).map (·.1)) = .ok true := by
  have wf : ∀ s e, Val.Wf (.dict (serviceState s e)) := by
    intro s e
    refine .dict _ (by show List.Nodup [p!"state", p!"enabled"]; decide) ?_
    intro k v hv
    simp only [serviceState, List.mem_cons, Prod.mk.injEq, List.not_mem_nil, or_false] at hv
    rcases hv with ⟨_, rfl⟩ | ⟨_, rfl⟩
    · cases s <;> exact .plain _ (by intro d hd; cases hd)
    · cases e <;> exact .plain _ (by intro d hd; cases hd)
  have keys : ∀ s e k, Dict.get (serviceState s e) k ≠ none ↔ k = p!"state" ∨ k = p!"enabled" := by
    intro s e k
    rw [← Option.isSome_iff_ne_none, Dict.get_isSome]
    show k ∈ [_, _] ↔ _
    simp
  rw [dict_eq_iff, Val.eq_iff (wf _ _) (wf _ _)] at h
  obtain ⟨b', h1, h2⟩ := unchangedLoop_eq (wf (some c) (some b)) (wf state enabled) (fun k => by rw [keys, keys]; exact id)
    ((serviceState state enabled).map (·.1)) (fun k hk => by rw [← Option.isSome_iff_ne_none, Dict.get_isSome]; exact hk)
  rw [h1, h2.mpr]
  intro k _ a v ha hv
  have key : ∀ {x y : Val}, Val.Same x y → ∀ d e : Dict, x = .dict d → y = .dict e → ∀ k a v, d.get k = some a → e.get k = some v → Val.Same a v := by
    intro x y hs d e hx hy k a v ha hv
    cases hs with
    | refl => subst hx; cases hy; rw [ha] at hv; cases hv; exact .refl _
    | dict _ _ _ h => cases hx; cases hy; exact h _ _ _ ha hv
  exact key h _ _ rfl rfl _ _ _ ha hv

theorem honest_systemdService (service : Str) (state : Option Str) (enabled : Option Bool) (userMode check : Bool) :
    Honest env (systemdService service state enabled userMode check) := by
  refine .operation (.ite (.raise _) (.bind (quiet_showProperty _ _) fun active => .bind (quiet_showProperty _ _) fun uf => ?_))
  intro st t x st' h hc
  replace h := execution_ok_bind h
  obtain ⟨t1, t2, _, st1, rfl, h1, h⟩ := h
  rcases execution_bind.mp h with ⟨_, h0, _⟩ | ⟨t3, t4, _, st2, h2, h, rfl⟩
  · cases h0
  obtain ⟨rfl, _, _, rfl⟩ := execution_initialState h1
  obtain ⟨rfl, _, _, rfl⟩ := execution_finalState h2
  replace h := execution_ok_bind h
  obtain ⟨t5, t6, u, st3, rfl, h3, h⟩ := h
  simp only [Execution, unchanged, Bool.not_true, Bool.false_eq_true, if_false] at h3
  replace h3 := runs_ret.mp h3
  obtain ⟨rfl, h3⟩ := h3
  simp only [Prod.mk.injEq] at h3
  obtain ⟨hu, rfl⟩ := h3
  obtain ⟨t7, t8, y, st4, rfl, h4, h5⟩ := execution_ok_bind h
  have h6 := (execution_ret rfl).mp h5
  simp only [Except.ok.injEq, Option.some.injEq] at h6
  obtain ⟨rfl, rfl, rfl⟩ := h6
  simp only [List.nil_append, List.append_nil]
  cases u with
  | true =>
    simp only [if_true] at h4
    exact Quiet.honest .success _ _ _ _ h4 hc
  | false =>
    simp only [Bool.false_eq_true, if_false] at h4
    refine absurd hc (Reports.bind (.unlessDry (keeps_serviceActions _ _ _ _)) (fun _ => Reports.success) _ _ _ _ ?_ h4)
    refine ⟨_, _, rfl, rfl, ?_⟩
    rw [← Bool.not_eq_true]
    intro he
    rw [unchangedLoop_service he] at hu
    cases hu

theorem honest_service (name : Str) (state : Option Str) (enabled : Option Bool) (check : Bool) : Honest env (service name state enabled check) := by
  refine .bind_exec quiet_findService fun st t a st' h => ?_
  cases a with
  | none => exact .operation (.raise _)
  | some m =>
    obtain ⟨k, hk⟩ := findCommand_mem h
    simp only [serviceManagers, List.mem_cons, Prod.mk.injEq, List.not_mem_nil, or_false] at hk
    obtain ⟨_, rfl⟩ := hk
    exact honest_systemdService _ _ _ _ _

theorem keeps_submodules {β : Type} {g : St → β} (a : RepoArgs) : Keeps g (submodules a) := keeps_ite (.runCommand _) (.pure _)

theorem honest_repoSettle (a : RepoArgs) (ex : Bool) (c : Option Str) : Honest env (repoSettle a ex c) := by
  refine .ite (Quiet.honest (.bind (.finalState _) fun _ => .success)) (.bind (quiet_run (.gitUpstream _ _)) fun _ => .bind (.ofExcept _) fun _ =>
    .bind (.finalState _) fun _ => .unchanged (g := fun u => if u then success else _) ?_ ?_)
  · simp only [if_true]
    exact Quiet.honest .success
  · simp only [Bool.false_eq_true, if_false]
    refine .bind .dry .dry fun d => .ite (Quiet.honestD .success) (.ite ?_ ?_)
    · exact Reports.honest (.bind (.runCommand _) fun _ => .bind (keeps_submodules _) fun _ => .success)
    · refine .bind (.run _ _ _ _ _ _ _ _) (quiet_run (.gitUrl _)) fun r => .ite (Quiet.honestD (.failure _)) ?_
      exact Reports.honest (.bind (.runCommand _) fun _ => .bind (keeps_submodules _) fun _ => .success)

theorem honest_repo (a : RepoArgs) (check : Bool) : Honest env (repo a check) := by
  refine .operation (.bind (.ofExcept _) fun _ => .bind (quiet_stat _ _ _) fun s => ?_)
  cases s with
  | none => exact .bind (.initialState _) fun _ => .returned (honest_repoSettle _ _ _)
  | some s =>
    refine .ite (.bind (quiet_stat _ _ _) fun g => ?_) (.returned (.failure _))
    cases g with
    | none => exact .returned (.failure _)
    | some g =>
      exact .ite (.returned (.failure _)) (.bind (quiet_run (.gitCommit _)) fun _ => .bind (.initialState _) fun _ =>
        .returned (honest_repoSettle _ _ _))

/-! ### upload_dir -/

/-- The states of an operation with nested results: one entry for each of them. -/
def Nested (l : List (Str × Dict × Dict)) (st : St) : Prop :=
  st.op.hasNested = true ∧ st.op.initial.getD [] = l.map (fun e => (e.1, .dict e.2.1)) ∧
    st.op.final.getD [] = l.map (fun e => (e.1, .dict e.2.2)) ∧ (l.map (·.1)).Nodup

theorem nested_add {l : List (Str × Dict × Dict)} {k : Str} {x : OpResult} {st st' : St} {t : Trace} (hn : Nested l st)
    (h : Execution (addNestedResult k x) env st t (.ok ()) st') : t = [] ∧ Nested (l ++ [(k, x.initial, x.final)]) st' := by
  obtain ⟨h1, h2, h3, h4⟩ := hn
  simp only [Execution, addNestedResult, h1, Bool.not_true, Bool.false_eq_true, if_false] at h
  split at h
  · obtain ⟨_, h⟩ := runs_ret.mp h; simp at h
  · next hk =>
    replace h := runs_ret.mp h
    obtain ⟨rfl, h⟩ := h
    simp only [Prod.mk.injEq, true_and] at h
    subst h
    refine ⟨rfl, rfl, by simp [h2], by simp [h3], ?_⟩
    simp only [h2, Bool.or_eq_true, Dict.get_isSome, not_or, List.map_map] at hk
    simp only [List.map_append, List.map_cons, List.map_nil]
    rw [List.nodup_append]
    refine ⟨h4, by simp, ?_⟩
    intro a ha b hb hab
    simp only [List.mem_singleton] at hb
    subst hb hab
    exact hk.1 (by simpa using ha)

/-- A decorated operation keeps the operation object of its caller; with `check` its result is a success. -/
theorem operation_kept {check : Bool} {f : Op (Option OpResult)} {st st' : St} {t : Trace} {r : Except Exn OpResult}
    (h : Execution (operation check f) env st t r st') : st'.op = st.op := by
  obtain ⟨r0, st0, _, rfl, _⟩ := execution_operation.mp h
  cases r0 <;> rfl

theorem operation_success {f : Op (Option OpResult)} {st st' : St} {t : Trace} {x : OpResult}
    (h : Execution (operation true f) env st t (.ok x) st') : x.success = true := by
  replace h := execution_operation.mp h
  obtain ⟨r0, _, _, _, h⟩ := h
  rcases r0 with e | (_ | y)
  · cases h
  · cases h
  · dsimp only at h
    split at h
    · cases h
    · next hs =>
      cases h
      simpa using hs

theorem honest_uploadDirs {mode owner group : Option Str} : ∀ {ds : List Str} {l : List (Str × Dict × Dict)} {st st' : St} {t : Trace}, Nested l st →
    Execution (uploadDirs mode owner group ds) env st t (.ok ()) st' →
    ∃ l', Nested (l ++ l') st' ∧ ((∀ e ∈ l', e.2.1.eq e.2.2 = true) → ∀ e ∈ t, ReadOnly e.1) := by
  intro ds
  induction ds with
  | nil =>
    intro l st st' t hn h
    obtain ⟨rfl, _, rfl⟩ := (execution_ret rfl).mp h
    exact ⟨[], by simpa using hn, by simp⟩
  | cons d ds ih =>
    intro l st st' t hn h
    replace h := execution_ok_bind h
    obtain ⟨t1, t2, x, st1, rfl, h1, h⟩ := h
    replace h := execution_ok_bind h
    obtain ⟨t3, t4, _, st2, rfl, h2, h⟩ := h
    have hn1 : Nested l st1 := by
      unfold Nested
      rw [operation_kept h1]
      exact hn
    obtain ⟨rfl, hn2⟩ := nested_add hn1 h2
    obtain ⟨l', h3, h4⟩ := ih hn2 h
    refine ⟨(d, x.initial, x.final) :: l', by simpa using h3, fun hall e he => ?_⟩
    rcases List.mem_append.mp he with he | he
    · exact honest_directory _ _ _ _ _ _ _ _ _ _ _ h1 (.inr ⟨operation_success h1, hall _ List.mem_cons_self⟩) e he
    · exact h4 (fun e he => hall e (by simp [he])) e he

theorem honest_uploadFiles {sha512 : Bytes → Bytes} {mode owner group : Option Str} : ∀ {fs : List (Tree × Str)} {l : List (Str × Dict × Dict)}
    {st st' : St} {t : Trace}, Nested l st → Execution (uploadFiles sha512 mode owner group fs) env st t (.ok ()) st' →
    ∃ l', Nested (l ++ l') st' ∧ ((∀ e ∈ l', e.2.1.eq e.2.2 = true) → ∀ e ∈ t, ReadOnly e.1) := by
  intro fs
  induction fs with
  | nil =>
    intro l st st' t hn h
    obtain ⟨rfl, _, rfl⟩ := (execution_ret rfl).mp h
    exact ⟨[], by simpa using hn, by simp⟩
  | cons d ds ih =>
    intro l st st' t hn h
    obtain ⟨tr, df⟩ := d
    rw [uploadFiles] at h
    split at h
    · replace h := execution_ok_bind h
      obtain ⟨t1, t2, x, st1, rfl, h1, h⟩ := h
      replace h := execution_ok_bind h
      obtain ⟨t3, t4, _, st2, rfl, h2, h⟩ := h
      have hn1 : Nested l st1 := by
        unfold Nested
        rw [operation_kept h1]
        exact hn
      obtain ⟨rfl, hn2⟩ := nested_add hn1 h2
      obtain ⟨l', h3, h4⟩ := ih hn2 h
      refine ⟨(df, x.initial, x.final) :: l', by simpa using h3, fun hall e he => ?_⟩
      rcases List.mem_append.mp he with he | he
      · exact honest_upload _ _ _ _ _ _ _ _ _ _ _ _ h1 (.inr ⟨operation_success h1, hall _ List.mem_cons_self⟩) e he
      · exact h4 (fun e he => hall e (by simp [he])) e he
    · exact ih hn h

theorem nested_equal {l : List (Str × Dict × Dict)} (hn : (l.map (·.1)).Nodup)
    (h : Dict.eq (l.map fun e => (e.1, .dict e.2.1)) (l.map fun e => (e.1, .dict e.2.2)) = true) : ∀ e ∈ l, e.2.1.eq e.2.2 = true := by
  intro e he
  simp only [Dict.eq, Bool.and_eq_true] at h
  obtain ⟨v, h1, h2⟩ := (within_iff _ _).mp h.2 e.1 (.dict e.2.1) (List.mem_map.mpr ⟨e, he, rfl⟩)
  have h3 := Dict.get_of_mem (d := l.map fun e => (e.1, Val.dict e.2.2)) (by rw [List.map_map]; exact hn) (k := e.1) (v := .dict e.2.2)
    (List.mem_map.mpr ⟨e, he, rfl⟩)
  rw [h3] at h1
  cases h1
  rw [dict_eq_iff]
  exact h2

theorem honest_uploadDir (sha512 : Bytes → Bytes) (src : Str) (tree : Tree) (dest : Str) (dirMode fileMode owner group : Option Str) (check : Bool) :
    Honest env (uploadDir sha512 src tree dest dirMode fileMode owner group check) := by
  intro st t x st' he hc
  obtain ⟨r0, st0, h, _, h3⟩ := execution_operation.mp he
  have hr : r0 = .ok (some x) := by
    rcases r0 with e | (_ | y)
    · cases h3
    · cases h3
    · dsimp only at h3
      split at h3
      · cases h3
      · cases h3; rfl
  subst hr
  replace h := execution_ok_bind h
  obtain ⟨t1, t2, _, st1, rfl, h1, h⟩ := h
  obtain ⟨rfl, _, rfl⟩ := (execution_ret rfl).mp h1
  replace h := execution_ok_bind h
  obtain ⟨t3, t4, _, st2, rfl, h2, h⟩ := h
  have h2' : t3 = [] ∧ st2 = { st with op := { hasNested := true } } := by
    cases hp : checkAbsolutePath dest p!"dest" with
    | error e =>
      rw [hp] at h2
      replace h2 := (execution_ret rfl).mp h2
      obtain ⟨_, h2, _⟩ := h2
      cases h2
    | ok u =>
      rw [hp] at h2
      replace h2 := (execution_ret rfl).mp h2
      obtain ⟨h2, _, h2'⟩ := h2
      exact ⟨h2, h2'⟩
  obtain ⟨rfl, rfl⟩ := h2'
  dsimp only at h
  split at h
  · replace h := (execution_ret rfl).mp h
    obtain ⟨_, h, _⟩ := h
    cases h
  replace h := execution_ok_bind h
  obtain ⟨t5, t6, _, st3, rfl, h5, h⟩ := h
  replace h := execution_ok_bind h
  obtain ⟨t7, t8, _, st4, rfl, h7, h⟩ := h
  obtain ⟨l1, hn1, hq1⟩ := honest_uploadDirs (l := []) ⟨rfl, rfl, rfl, by simp⟩ h5
  obtain ⟨l2, hn2, hq2⟩ := honest_uploadFiles hn1 h7
  obtain ⟨t9, t10, y, st5, rfl, h9, h10⟩ := execution_ok_bind h
  have h6 := (execution_ret rfl).mp h10
  simp only [Except.ok.injEq, Option.some.injEq] at h6
  obtain ⟨rfl, rfl, rfl⟩ := h6
  obtain ⟨_, hi, hf, hnd⟩ := hn2
  have hall : ∀ e ∈ l1 ++ l2, e.2.1.eq e.2.2 = true := by
    simp only [List.nil_append] at hi hf hnd
    refine nested_equal hnd ?_
    rw [← hi, ← hf]
    rcases success_cases env st4 with ⟨e, hsc⟩ | ⟨i, f, hsi, hsf, hsc⟩
    · obtain ⟨_, h9, _⟩ := (execution_ret hsc).mp h9
      cases h9
    obtain ⟨_, h9, _⟩ := (execution_ret hsc).mp h9
    cases h9
    rw [hsi, hsf]
    rcases hc with hc | ⟨_, hc⟩
    · simpa using hc
    · exact hc
  have ht9 : ∀ e ∈ t9, ReadOnly e.1 := (Sends.success (P := ReadOnly) _ _ _ _ h9)
  intro e he
  simp only [List.nil_append, List.append_nil, List.mem_append] at he
  rcases he with he | he | he
  · exact hq1 (fun e he => hall e (by simp [he])) e he
  · exact hq2 (fun e he => hall e (by simp [he])) e he
  · exact ht9 e he

end Verif.Ops
