/-
Reasoning about failures of requests, for all executions of operations.
-/
import Verif.Ops.FailSpec
import Verif.Ops.Quiet
import Verif.Ops.EffortLemmas
import Verif.Run.Program

namespace Verif.Ops

open Script
open Wire (Packet)

variable {α β : Type} {env : Env}

/-- In every execution failures are noticed. -/
def Firm (env : Env) (m : Op α) : Prop := ∀ st t r st', Execution m env st t r st' → Noticed t r

theorem Noticed.all {t : Trace} {a : α} (h : Noticed t (.ok a : Except Exn α)) : ∀ request answer, (request, answer) ∈ t → Succeeds request answer := by
  intro p x hm
  obtain ⟨b, c, rfl⟩ := List.append_of_mem hm
  rcases h b p x c rfl with h | ⟨_, e, _, he⟩
  · exact h
  · cases he

theorem Noticed.append {t1 t2 : Trace} {r : Except Exn α} (h1 : ∀ request answer, (request, answer) ∈ t1 → Succeeds request answer)
    (h2 : Noticed t2 r) : Noticed (t1 ++ t2) r := by
  intro b p x c heq
  rcases List.append_eq_append_iff.mp heq with ⟨l, hl, hr⟩ | ⟨l, hl, hr⟩
  · exact h2 l p x c hr
  · cases l with
    | nil => exact h2 [] p x c hr.symm
    | cons y l =>
      rw [List.cons_append] at hr
      obtain ⟨rfl, _⟩ := List.cons.inj hr
      exact .inl (h1 p x (by rw [hl]; simp))

namespace Firm

theorem silent {m : Op α} (h : Silent env m) : Firm env m := fun st t r st' hx b p x c ht => by
  rw [h.nil hx] at ht
  simp at ht

theorem bind_exec {m : Op α} {f : α → Op β} (hm : Firm env m)
    (hf : ∀ st t a st', Execution m env st t (.ok a) st' → Firm env (f a)) : Firm env (m >>= f) := by
  intro st t r st' h
  rcases execution_bind.mp h with ⟨e, rfl, h0⟩ | ⟨t1, t2, a, st1, h1, h2, rfl⟩
  · intro b p x c ht
    rcases hm _ _ _ _ h0 b p x c ht with h | ⟨h, e', he, hr⟩
    · exact .inl h
    · cases hr; exact .inr ⟨h, _, he, rfl⟩
  · exact .append (hm _ _ _ _ h1).all (hf _ _ _ _ h1 _ _ _ _ h2)

theorem bind {m : Op α} {f : α → Op β} (hm : Firm env m) (hf : ∀ a, Firm env (f a)) : Firm env (m >>= f) :=
  .bind_exec hm fun _ _ a _ _ => hf a

theorem finally_ {m : Op α} {f : St → St} (hm : Firm env m) : Firm env (Op.finally_ m f) := by
  intro st t r st' h
  obtain ⟨st1, h1, _⟩ := execution_finally.mp h
  exact hm _ _ _ _ h1

theorem one {p : Packet} {g : Except Exn Packet → Except Exn α} (h : ∀ x, Succeeds p x ∨ ∃ e, Fails p x e ∧ g x = .error e) :
    Firm env (Op.call (.req p fun r => .ret (g r))) := by
  intro st t r st' he b q x c ht
  obtain ⟨h1, _⟩ := execution_call.mp he
  obtain ⟨y, rfl, rfl⟩ := runs_one.mp h1
  have : b = [] ∧ (q, x) = (p, y) ∧ c = [] := by
    cases b with
    | nil => simp at ht; simp [ht]
    | cons z b => simp at ht
  obtain ⟨rfl, heq, rfl⟩ := this
  cases heq
  rcases h x with h | ⟨e, h1, h2⟩
  · exact .inl h
  · exact .inr ⟨rfl, e, h1, h2⟩

/-- Questions with a default. -/
theorem orDefault {p : Packet} {g : Except Exn Packet → Except Exn α} {d : Option α}
    (h : ∀ x, Succeeds p x ∨ ∃ e, Fails p x e ∧ g x = .error e ∧ e.isValueError = false) :
    Firm env (Connection.orDefault (do let c ← Op.call (.req p fun r => .ret (g r)); return some c) d) := by
  intro st t r st' he
  unfold Connection.orDefault at he
  have hfirm : Firm env (do let c ← Op.call (.req p fun r => .ret (g r)); return some c : Op (Option α)) :=
    .bind (.one fun x => (h x).imp id fun ⟨e, h1, h2, _⟩ => ⟨e, h1, h2⟩) fun _ => .silent (.pure' _)
  rcases execution_tryCatch.mp he with ⟨a, rfl, h1⟩ | ⟨t1, t2, e, st1, h1, h2, rfl⟩
  · exact hfirm _ _ _ _ h1
  · have h3 : t1 = [] ∨ ∃ x, t1 = [(p, x)] ∧ g x = .error e := by
      rcases execution_bind.mp h1 with ⟨e', he', h3⟩ | ⟨t1', t2', c, st1', h3, h4, rfl⟩
      · cases he'
        obtain ⟨h4, _⟩ := execution_call.mp h3
        obtain ⟨x, rfl, hx⟩ := runs_one.mp h4
        exact .inr ⟨x, rfl, hx.symm⟩
      · obtain ⟨_, h5, _⟩ := execution_pure.mp h4
        cases h5
    have h4 : t2 = [] ∧ r = if e.isValueError then .ok d else .error e := by
      split at h2
      · next hv => obtain ⟨h5, h6, _⟩ := execution_pure.mp h2; rw [if_pos hv]; exact ⟨h5, h6⟩
      · next hv => obtain ⟨h5, h6, _⟩ := execution_raise.mp h2; rw [if_neg hv]; exact ⟨h5, h6⟩
    obtain ⟨rfl, rfl⟩ := h4
    rw [List.append_nil]
    intro b q x c ht
    rcases h3 with rfl | ⟨y, rfl, hy⟩
    · simp at ht
    · have : b = [] ∧ (q, x) = (p, y) ∧ c = [] := by
        cases b with
        | nil => simp at ht; simp [ht]
        | cons z b => simp at ht
      obtain ⟨rfl, heq, rfl⟩ := this
      cases heq
      rcases h x with h | ⟨e', hf, hg, hv⟩
      · exact .inl h
      · rw [hg] at hy
        cases hy
        exact .inr ⟨rfl, _, hf, by rw [hv]; rfl⟩

theorem pure (a : α) : Firm env (Op.pure a) := .silent (.pure _)
theorem pure' (a : α) : Firm env (Pure.pure a : Op α) := .silent (.pure' _)
theorem raise (e : Exn) : Firm env (Op.raise e : Op α) := .silent (.raise _)
theorem ofExcept (x : Except Exn α) : Firm env (Op.ofExcept x) := .silent (.ofExcept _)
theorem currentDefaults : Firm env currentDefaults := .silent .currentDefaults
theorem dry : Firm env dry := .silent .dry
theorem diffWanted : Firm env diffWanted := .silent .diffWanted
theorem getEnv : Firm env Op.getEnv := .silent .getEnv
theorem push (s : Settings) : Firm env (push s) := .silent (.push _)
theorem failure (m : Str) : Firm env (failure m) := .silent (.failure _)
theorem setNested (b : Bool) : Firm env (setNested b) := .silent (.setNested _)
theorem success : Firm env success := .silent .success
theorem initialState (d : Dict) : Firm env (initialState d) := .silent (.initialState _)
theorem finalState (d : Dict) : Firm env (finalState d) := .silent (.finalState _)
theorem unchanged (b : Bool) : Firm env (unchanged b) := .silent (.unchanged _)
theorem changed (k : Str) : Firm env (changed k) := .silent (.changed _)
theorem opDiff (f : Str) (a b : Option Bytes) : Firm env (opDiff f a b) := .silent (.opDiff _ _ _)
theorem addNestedResult (k : Str) (r : OpResult) : Firm env (addNestedResult k r) := .silent (.addNestedResult _ _)
theorem changedEither (a b : Str) : Firm env (changedEither a b) := .silent (.changedEither _ _)

theorem ite {c : Prop} [Decidable c] {a b : Op α} (ha : Firm env a) (hb : Firm env b) : Firm env (if c then a else b) := by
  split <;> assumption

theorem whenChanged {key : Str} {m : Op Unit} (h : Firm env m) : Firm env (whenChanged key m) := .bind (.changed _) fun _ => .ite h (.pure _)
theorem whenEither {a b : Str} {m : Op Unit} (h : Firm env m) : Firm env (whenEither a b m) := .bind (.changedEither _ _) fun _ => .ite h (.pure _)
theorem unlessDry {m : Op Unit} (h : True → Firm env m) : Firm env (unlessDry m) := .bind .dry fun _ => .ite (.pure _) (h trivial)
theorem settle {b m : Op Unit} (hb : Firm env b) (h : True → Firm env m) : Firm env (settle b m) :=
  .bind (.unchanged _) fun _ => .ite .success (.bind hb fun _ => .bind (.unlessDry h) fun _ => .success)
theorem returned {m : Op OpResult} (h : Firm env m) : Firm env (returned m) := .bind h fun _ => .pure' _

theorem operation {check : Bool} {f : Op (Option OpResult)} (h : Firm env f) : Firm env (operation check f) := by
  intro st t r st' he
  obtain ⟨t1, t2, a, h1, h2, rfl⟩ := runs_bind.mp he
  obtain ⟨x, st1⟩ := a
  have h0 := h _ _ _ _ h1
  cases x with
  | error e =>
    obtain ⟨rfl, h3⟩ := runs_ret.mp h2
    cases h3
    rw [List.append_nil]
    intro b p x c ht
    rcases h0 b p x c ht with h | ⟨h, e', he, hr⟩
    · exact .inl h
    · cases hr; exact .inr ⟨h, _, he, rfl⟩
  | ok o =>
    have h3 : t2 = [] := by
      cases o with
      | none => exact (runs_ret.mp h2).1
      | some y =>
        dsimp only at h2
        split at h2
        · exact (runs_ret.mp h2).1
        · exact (runs_ret.mp h2).1
    subst h3
    rw [List.append_nil]
    intro b p x c ht
    exact .inl (h0.all p x (by rw [ht]; simp))

end Firm

/-! ### Requests -/

theorem firm_one_run {command : List Str} {input : Option Bytes} {capture : Bool} {user group umask cwd : Option Str} :
    Firm env (Op.call (Client.Connector.run command input capture true user group umask cwd)) := by
  refine .one fun x => ?_
  rcases x with e | p
  · exact .inr ⟨e, .exception _ _ (by rintro ⟨h, _⟩; cases h), rfl⟩
  · by_cases h1 : ∃ m, p = .processError m
    · obtain ⟨m, rfl⟩ := h1
      exact .inr ⟨_, .unstarted _ _ _ _ _ _ _ _, rfl⟩
    · by_cases h2 : ∃ o e c, p = .processCompleted o e c
      · obtain ⟨o, e, c, rfl⟩ := h2
        by_cases hc : c = 0
        · subst hc
          exact .inl (.run _ _ _ _ _ _ _ _ _)
        · by_cases hs : StatusIsAnswer (.processRun command input capture user group umask cwd)
          · exact .inl (.status _ _ _ _ hs)
          · exact .inr ⟨_, .status _ _ _ _ _ _ _ _ _ _ hc hs, by simp [hc]⟩
      · refine .inr ⟨_, .nonsense _ _ ?_, ?_⟩
        · intro h
          cases h with
          | run => exact h2 ⟨_, _, _, rfl⟩
          | unstarted => exact h1 ⟨_, rfl⟩
        · cases p with
          | processError m => exact absurd ⟨m, rfl⟩ h1
          | processCompleted o e c => exact absurd ⟨o, e, c, rfl⟩ h2
          | _ => rfl

theorem firm_run {command : List Str} {input : Option Bytes} {capture : Bool} {user group umask cwd : Option Str} :
    Firm env (Connection.run command input capture true user group umask cwd) := .bind .currentDefaults fun _ => firm_one_run

theorem firm_pacman_query {package : Str} : Firm env (Connection.run [p!"pacman", p!"-Ql", p!"--", package] none true false) := by
  refine .bind .currentDefaults fun _ => .one fun x => ?_
  rcases x with e | p
  · exact .inr ⟨e, .exception _ _ (by rintro ⟨h, _⟩; cases h), rfl⟩
  · by_cases h1 : ∃ m, p = .processError m
    · obtain ⟨m, rfl⟩ := h1
      exact .inr ⟨_, .unstarted _ _ _ _ _ _ _ _, rfl⟩
    · by_cases h2 : ∃ o e c, p = .processCompleted o e c
      · obtain ⟨o, e, c, rfl⟩ := h2
        exact .inl (.status _ _ _ _ (.pacman _ _ _ _ _))
      · refine .inr ⟨_, .nonsense _ _ ?_, ?_⟩
        · intro h
          cases h with
          | run => exact h2 ⟨_, _, _, rfl⟩
          | unstarted => exact h1 ⟨_, rfl⟩
        · cases p with
          | processError m => exact absurd ⟨m, rfl⟩ h1
          | processCompleted o e c => exact absurd ⟨o, e, c, rfl⟩ h2
          | _ => rfl

theorem firm_command (command : List Str) : Firm env (runCommand command) := .bind firm_run fun _ => .pure' _

theorem firm_store (file : Str) (content : Bytes) (mode owner group : Option Str) : Firm env (Connection.upload file content mode owner group) := by
  refine .one fun x => ?_
  rcases x with e | p
  · exact .inr ⟨e, .exception _ _ (by rintro ⟨h, _⟩; cases h), rfl⟩
  · by_cases h : p = .ok
    · subst h
      exact .inl (.answered _ _ (.upload _ _ _ _ _) nofun)
    · refine .inr ⟨_, .nonsense _ _ (by rintro ⟨⟩; exact h rfl), ?_⟩
      cases p with
      | ok => exact absurd rfl h
      | _ => rfl

theorem firm_stat (path : Str) (a b : Bool) : Firm env (Connection.stat path a b) := by
  refine .one fun x => ?_
  rcases x with e | p
  · by_cases hv : e.isValueError = true
    · exact .inl (.missing _ _ (.stat _ _ _) hv)
    · exact .inr ⟨e, .exception _ _ (fun h => hv h.2), by simp [hv]⟩
  · by_cases h : Answers (.stat path a b) p
    · exact .inl (.answered _ _ h nofun)
    · refine .inr ⟨_, .nonsense _ _ h, ?_⟩
      cases p with
      | statResult => exact absurd (.stat _ _ _ _ _ _ _ _ _ _ _) h
      | _ => rfl

theorem firm_resolveUser (u : Option Str) : Firm env (Connection.resolveUser u) := by
  refine .one fun x => ?_
  rcases x with e | p
  · exact .inr ⟨e, .exception _ _ (by rintro ⟨h, _⟩; cases h), rfl⟩
  · by_cases h : Answers (.resolveUser u) p
    · exact .inl (.answered _ _ h nofun)
    · refine .inr ⟨_, .nonsense _ _ h, ?_⟩
      cases p with
      | resolveResult => exact absurd (.resolveUser _ _) h
      | _ => rfl

theorem firm_resolveGroup (u : Option Str) : Firm env (Connection.resolveGroup u) := by
  refine .one fun x => ?_
  rcases x with e | p
  · exact .inr ⟨e, .exception _ _ (by rintro ⟨h, _⟩; cases h), rfl⟩
  · by_cases h : Answers (.resolveGroup u) p
    · exact .inl (.answered _ _ h nofun)
    · refine .inr ⟨_, .nonsense _ _ h, ?_⟩
      cases p with
      | resolveResult => exact absurd (.resolveGroup _ _) h
      | _ => rfl

theorem download_cases (path : Str) (x : Except Exn Packet) : Succeeds (.download path) x ∨ ∃ e, Fails (.download path) x e
    ∧ (match x with
      | .error e => .error e
      | .ok (.downloadResult content) => .ok content
      | .ok _ => .error Client.unexpectedResponse : Except Exn Bytes) = .error e ∧ e.isValueError = false := by
  rcases x with e | p
  · by_cases hv : e.isValueError = true
    · exact .inl (.missing _ _ (.download _) hv)
    · exact .inr ⟨e, .exception _ _ (fun h => hv h.2), rfl, by simpa using hv⟩
  · by_cases h : Answers (.download path) p
    · exact .inl (.answered _ _ h nofun)
    · refine .inr ⟨_, .nonsense _ _ h, ?_, rfl⟩
      cases p with
      | downloadResult => exact absurd (.download _ _) h
      | _ => rfl

theorem firm_download (path : Str) : Firm env (Connection.download path) :=
  .one fun x => (download_cases path x).imp id fun ⟨e, h1, h2, _⟩ => ⟨e, h1, h2⟩

theorem firm_downloadOr (path : Str) (d : Option Bytes) : Firm env (Connection.downloadOr path d) := .orDefault (download_cases path)

theorem firm_queryUser (u : Str) (h : Bool) (d : Option Client.UserEntry) : Firm env (Connection.queryUser u h d) := by
  refine .orDefault fun x => ?_
  rcases x with e | p
  · by_cases hv : e.isValueError = true
    · exact .inl (.missing _ _ (.queryUser _ _) hv)
    · exact .inr ⟨e, .exception _ _ (fun h => hv h.2), rfl, by simpa using hv⟩
  · by_cases h : Answers (.queryUser u h) p
    · exact .inl (.answered _ _ h nofun)
    · refine .inr ⟨_, .nonsense _ _ h, ?_, rfl⟩
      cases p with
      | userEntry => exact absurd (.queryUser _ _ _ _ _ _ _ _ _ _ _) h
      | _ => rfl

theorem firm_queryGroup (u : Str) (d : Option Client.GroupEntry) : Firm env (Connection.queryGroup u d) := by
  refine .orDefault fun x => ?_
  rcases x with e | p
  · by_cases hv : e.isValueError = true
    · exact .inl (.missing _ _ (.queryGroup _) hv)
    · exact .inr ⟨e, .exception _ _ (fun h => hv h.2), rfl, by simpa using hv⟩
  · by_cases h : Answers (.queryGroup u) p
    · exact .inl (.answered _ _ h nofun)
    · refine .inr ⟨_, .nonsense _ _ h, ?_, rfl⟩
      cases p with
      | groupEntry => exact absurd (.queryGroup _ _ _ _) h
      | _ => rfl

/-! ### Operations -/

theorem firm_mapOpt {f : Option Str → Op Str} (h : ∀ x, Firm env (f x)) (x : Option Str) : Firm env (mapOpt f x) := by
  cases x with
  | none => exact .pure _
  | some x => exact .bind (h _) fun _ => .pure' _

theorem firm_checkCwd (c : Option Str) : Firm env (checkCwd c) := by
  unfold Script.checkCwd
  split
  · exact .pure _
  · exact .pure _
  · refine .bind (firm_stat _ _ _) fun s => ?_
    split
    · exact .raise _
    · split
      · exact .raise _
      · exact .pure _

theorem firm_resolveDefaults (s : Settings) : Firm env (resolveDefaults s) := by
  unfold Script.resolveDefaults
  exact .bind .currentDefaults fun _ => .bind (firm_mapOpt firm_resolveUser _) fun _ => .bind (firm_mapOpt firm_resolveGroup _) fun _ =>
    .bind (firm_mapOpt firm_resolveUser _) fun _ => .bind (firm_mapOpt firm_resolveGroup _) fun _ => .bind (.ofExcept _) fun _ =>
    .bind (.ofExcept _) fun _ => .bind (.ofExcept _) fun _ => .bind (firm_checkCwd _) fun _ => .pure' _

theorem firm_withDefaults {s : Settings} {body : Settings → Op α} (h : ∀ a, Firm env (body a)) : Firm env (withDefaults s body) := by
  unfold Script.withDefaults
  exact .bind (.ofExcept _) fun _ => .bind .getEnv fun _ => .bind .currentDefaults fun _ => .bind (firm_resolveDefaults _) fun _ =>
    .bind (.push _) fun _ => .finally_ (h _)

theorem firm_directoryActions (path : Str) (present : Bool) (attr : Settings) : Firm env (directoryActions path present attr) :=
  .ite (.bind (.whenChanged (firm_command _)) fun _ => .bind (.whenChanged (firm_command _)) fun _ => .bind (.whenEither (firm_command _)) fun _ =>
    .bind (.changed _) fun _ => .ite (.pure _) (.whenChanged (firm_command _))) (.whenChanged (firm_command _))

theorem firm_directory (path : Str) (present touch : Bool) (mode owner group : Option Str) (check : Bool) :
    Firm env (directory path present touch mode owner group check) := by
  refine .operation (.bind (.ofExcept _) fun _ => .returned (firm_withDefaults fun attr => ?_))
  refine .bind (.finalState _) fun _ => .bind (firm_stat _ _ _) fun s => ?_
  have hs : Firm env (settle (Op.pure ()) (directoryActions path present attr)) := .settle (.pure _) fun _ => firm_directoryActions _ _ _
  cases s with
  | none => exact .bind (.initialState _) fun _ => hs
  | some s => exact .ite (.failure _) (.bind (.initialState _) fun _ => hs)

theorem firm_file (path : Str) (present touch : Bool) (mode owner group : Option Str) (check : Bool) :
    Firm env (file path present touch mode owner group check) := by
  refine .operation (.bind (.ofExcept _) fun _ => .returned (firm_withDefaults fun attr => ?_))
  refine .bind (.finalState _) fun _ => .bind (firm_stat _ _ _) fun s => ?_
  have hs : Firm env (settle (Op.pure ()) (fileActions path present attr)) := .settle (.pure _) fun _ =>
    .ite (.bind (.whenEither (firm_command _)) fun _ => .bind (.whenChanged (firm_command _)) fun _ => .whenEither (firm_command _))
      (.whenChanged (firm_command _))
  cases s with
  | none => exact .bind (.initialState _) fun _ => hs
  | some s => exact .ite (.failure _) (.bind (.initialState _) fun _ => hs)

theorem firm_linkActions (path target : Str) (present : Bool) (attr : Settings) : Firm env (linkActions path target present attr) := by
  unfold linkActions
  repeat' first
    | exact firm_command _
    | exact .pure _
    | apply Firm.whenChanged
    | apply Firm.whenEither
    | exact Firm.changed _
    | exact Firm.changedEither _ _
    | refine Firm.bind ?_ fun _ => ?_
    | apply Firm.ite

theorem firm_link (path target : Str) (present touch : Bool) (owner group : Option Str) (check : Bool) :
    Firm env (link path target present touch owner group check) := by
  refine .operation (.bind (.ofExcept _) fun _ => .ite (.raise _) (.returned (firm_withDefaults fun attr => ?_)))
  refine .bind (.finalState _) fun _ => .bind (firm_stat _ _ _) fun s => ?_
  have hs : Firm env (settle (Op.pure ()) (linkActions path target present attr)) := .settle (.pure _) fun _ => firm_linkActions _ _ _ _
  cases s with
  | none => exact .bind (.initialState _) fun _ => hs
  | some s =>
    exact .ite (.failure _) (.bind (firm_run) fun _ => .bind (.ofExcept _) fun _ => .bind (.initialState _) fun _ => hs)

theorem firm_saveDiff (dest : Str) (content : Bytes) : Firm env (saveDiff dest content) :=
  .bind .diffWanted fun _ => .ite (.bind (firm_downloadOr _ _) fun _ => .opDiff _ _ _) (.pure _)

theorem firm_saveActions (attr : Settings) (content : Bytes) (dest : Str) : Firm env (saveActions attr content dest) := by
  unfold saveActions
  repeat' first
    | exact firm_command _
    | exact firm_store _ _ _ _ _
    | exact .pure _
    | apply Firm.whenChanged
    | apply Firm.whenEither
    | exact Firm.changed _
    | exact Firm.changedEither _ _
    | refine Firm.bind ?_ fun _ => ?_
    | apply Firm.ite

theorem firm_saveContent (sha512 : Bytes → Bytes) (content : Content) (dest : Str) (mode owner group : Option Str) :
    Firm env (saveContent sha512 content dest mode owner group) := by
  refine .bind (.ofExcept _) fun c => firm_withDefaults fun attr => ?_
  refine .bind (.finalState _) fun _ => .bind (firm_stat _ _ _) fun s => ?_
  have hs : Firm env (settle (saveDiff dest c) (saveActions attr c dest)) := .settle (firm_saveDiff _ _) fun _ => firm_saveActions _ _ _
  cases s with
  | none => exact .bind (.initialState _) fun _ => hs
  | some s => exact .ite (.failure _) (.bind (.initialState _) fun _ => hs)

theorem firm_upload (sha512 : Bytes → Bytes) (src : Str) (read : Except Exn Bytes) (dest : Str) (mode owner group : Option Str) (check : Bool) :
    Firm env (upload sha512 src read dest mode owner group check) :=
  .operation (.bind (.ofExcept _) fun _ => .bind (.ofExcept _) fun _ => .returned (firm_saveContent _ _ _ _ _ _))

theorem firm_uploadDir (sha512 : Bytes → Bytes) (src : Str) (tree : Tree) (dest : Str) (dirMode fileMode owner group : Option Str) (check : Bool) :
    Firm env (uploadDir sha512 src tree dest dirMode fileMode owner group check) := by
  have hdirs : ∀ l, Firm env (uploadDirs dirMode owner group l) := by
    intro l
    induction l with
    | nil => exact .pure _
    | cons d ds ih => exact .bind (firm_directory _ _ _ _ _ _ _) fun _ => .bind (.addNestedResult _ _) fun _ => ih
  have hfiles : ∀ l, Firm env (uploadFiles sha512 fileMode owner group l) := by
    intro l
    induction l with
    | nil => exact .pure _
    | cons d ds ih =>
      obtain ⟨t, df⟩ := d
      rw [uploadFiles]
      split
      · exact .bind (firm_upload _ _ _ _ _ _ _ _) fun _ => .bind (.addNestedResult _ _) fun _ => ih
      · exact ih
  refine .operation (.bind (.setNested _) fun _ => .bind (.ofExcept _) fun _ => ?_)
  dsimp only
  exact .ite (.raise _) (.bind (hdirs _) fun _ => .bind (hfiles _) fun _ => .returned .success)

theorem firm_lineActions (path : Str) (backup : Backup) (attr : Settings) (orig : Option Bytes) (new : Bytes) :
    Firm env (lineActions path backup attr orig new) := by
  cases orig with
  | none => exact firm_store _ _ _ _ _
  | some o =>
    refine .bind ?_ fun _ => firm_store _ _ _ _ _
    unfold lineBackup
    split
    · exact firm_command _
    · exact .pure _

theorem firm_lineSettle (path line : Str) (present : Bool) (regex : Option Regex) (ignoreWhitespace : Bool) (backup : Backup)
    (attr : Settings) (orig : Option Bytes) : Firm env (lineSettle path line present regex ignoreWhitespace backup attr orig) :=
  .bind (.initialState _) fun _ => .bind (.unchanged _) fun _ => .ite .success (.bind (.ofExcept _) fun _ =>
    .bind (.bind .diffWanted fun _ => .ite (.opDiff _ _ _) (.pure _)) fun _ => .bind (.unlessDry fun _ => firm_lineActions _ _ _ _ _) fun _ => .success)

theorem firm_line (path text : Str) (present : Bool) (regex : Option Regex) (ignoreWhitespace : Bool) (backup : Backup) (check : Bool) :
    Firm env (line path text present regex ignoreWhitespace backup check) := by
  refine .operation (.bind (.ofExcept _) fun _ => .returned (firm_withDefaults fun attr => ?_))
  refine .bind (.finalState _) fun _ => .bind (firm_stat _ _ _) fun s => ?_
  cases s with
  | none => exact firm_lineSettle _ _ _ _ _ _ _ _
  | some s => exact .ite (.failure _) (.bind (firm_download _) fun _ => firm_lineSettle _ _ _ _ _ _ _ _)

theorem firm_group (name : Str) (present : Bool) (gid : Option Int) (system check : Bool) : Firm env (group name present gid system check) := by
  refine .operation (.bind (firm_queryGroup _ _) fun c => .bind (.initialState _) fun _ => .bind (.finalState _) fun _ => .returned (.settle (.pure _) fun _ => ?_))
  refine .bind (.changed _) fun _ => .ite (.ite (firm_command _) (firm_command _)) (.ite (.whenChanged ?_) (.pure _))
  split
  · exact .pure _
  · exact firm_command _

theorem firm_queryInstalled {m : Manager} (h : ∀ p, Firm env (m.isInstalled p)) : ∀ l, Firm env (queryInstalled m l)
  | [] => .pure _
  | _ :: l => .bind (h _) fun _ => .bind (firm_queryInstalled h l) fun _ => .pure' _

theorem firm_forEach {f : Str → Op Unit} (h : ∀ p, Firm env (f p)) : ∀ l, Firm env (forEach f l)
  | [] => .pure _
  | _ :: l => .bind (h _) fun _ => firm_forEach h l

theorem firm_packageWith (order : List Str → List Str) {m : Manager} (h : ∀ p, Firm env (m.isInstalled p)) (h1 : ∀ p, Firm env (m.install p))
    (h2 : ∀ p, Firm env (m.uninstall p)) (packages : List Str) (present check : Bool) : Firm env (packageWith order m packages present check) :=
  .operation (.returned (.bind (firm_queryInstalled h _) fun _ => .bind (.initialState _) fun _ => .bind (.finalState _) fun _ =>
    .settle (.pure _) fun _ => .ite (firm_forEach h1 _) (firm_forEach h2 _)))

theorem firm_apt (order : List Str → List Str) (opts packages : List Str) (present check : Bool) : Firm env (packageWith order (apt opts) packages present check) :=
  firm_packageWith _ (fun _ => .bind (firm_run) fun _ => .pure' _) (fun _ => firm_command _) (fun _ => firm_command _) _ _ _

theorem firm_pacman (order : List Str → List Str) (opts packages : List Str) (present check : Bool) : Firm env (packageWith order (pacman opts) packages present check) :=
  firm_packageWith _ (fun _ => .bind (firm_pacman_query) fun _ => .pure' _) (fun _ => firm_command _) (fun _ => firm_command _) _ _ _

theorem firm_portage (order : List Str → List Str) (opts : List Str) (oneshot : Bool) (packages : List Str) (present check : Bool) :
    Firm env (packageWith order (portage opts oneshot) packages present check) :=
  firm_packageWith _ (fun _ => .bind (firm_run) fun _ => .pure' _) (fun _ => firm_command _) (fun _ => firm_command _) _ _ _

theorem firm_package (order : List Str → List Str) (packages : List Str) (present check : Bool) : Firm env (package order packages present check) := by
  refine .bind_exec (.bind (firm_run) fun _ => .pure' _) fun st t a st' h => ?_
  cases a with
  | none => exact .operation (.raise _)
  | some m =>
    obtain ⟨k, hk⟩ := findCommand_mem h
    simp only [packageManagers, List.mem_cons, Prod.mk.injEq, List.not_mem_nil, or_false] at hk
    rcases hk with ⟨_, rfl⟩ | ⟨_, rfl⟩ | ⟨_, rfl⟩
    · exact firm_apt _ _ _ _ _
    · exact firm_pacman _ _ _ _ _
    · exact firm_portage _ _ _ _ _ _

theorem firm_serviceActions (service : Str) (state : Option Str) (enabled : Option Bool) (userMode : Bool) :
    Firm env (serviceActions service state enabled userMode) := by
  refine .bind (.whenChanged ?_) fun _ => .whenChanged ?_
  · split
    · exact .pure _
    · split
      · exact .raise _
      · exact firm_command _
  · split
    · exact .pure _
    · exact firm_command _

theorem firm_systemdService (service : Str) (state : Option Str) (enabled : Option Bool) (userMode check : Bool) :
    Firm env (systemdService service state enabled userMode check) :=
  .operation (.ite (.raise _) (.bind (.bind (firm_run) fun _ => .pure' _) fun _ => .bind (.bind (firm_run) fun _ => .pure' _) fun _ =>
    .bind (.initialState _) fun _ => .bind (.finalState _) fun _ => .bind (.unchanged _) fun _ =>
    .returned (.ite .success (.bind (.unlessDry fun _ => firm_serviceActions _ _ _ _) fun _ => .success))))

theorem firm_service (name : Str) (state : Option Str) (enabled : Option Bool) (check : Bool) : Firm env (service name state enabled check) := by
  refine .bind_exec (.bind (firm_run) fun _ => .pure' _) fun st t a st' h => ?_
  cases a with
  | none => exact .operation (.raise _)
  | some m =>
    obtain ⟨k, hk⟩ := findCommand_mem h
    simp only [serviceManagers, List.mem_cons, Prod.mk.injEq, List.not_mem_nil, or_false] at hk
    obtain ⟨_, rfl⟩ := hk
    exact firm_systemdService _ _ _ _ _

theorem firm_submodules (a : RepoArgs) : Firm env (submodules a) := .ite (firm_command _) (.pure _)

theorem firm_repoSettle (a : RepoArgs) (ex : Bool) (c : Option Str) : Firm env (repoSettle a ex c) :=
  .ite (.bind (.finalState _) fun _ => .success) (.bind (firm_run) fun _ => .bind (.ofExcept _) fun _ =>
    .bind (.finalState _) fun _ => .bind (.unchanged _) fun _ => .ite .success (.bind .dry fun _ => .ite .success
      (.ite (.bind (firm_command _) fun _ => .bind (firm_submodules _) fun _ => .success)
        (.bind (firm_run) fun _ => .ite (.failure _) (.bind (firm_command _) fun _ => .bind (firm_submodules _) fun _ => .success)))))

theorem firm_repo (a : RepoArgs) (check : Bool) : Firm env (repo a check) := by
  refine .operation (.bind (.ofExcept _) fun _ => .bind (firm_stat _ _ _) fun s => ?_)
  cases s with
  | none => exact .bind (.initialState _) fun _ => .returned (firm_repoSettle _ _ _)
  | some s =>
    refine .ite (.bind (firm_stat _ _ _) fun g => ?_) (.returned (.failure _))
    cases g with
    | none => exact .returned (.failure _)
    | some g =>
      exact .ite (.returned (.failure _)) (.bind (firm_run) fun _ => .bind (.initialState _) fun _ =>
        .returned (firm_repoSettle _ _ _))

theorem firm_usermod (key option : Str) (value : Option Str) (user : Str) : Firm env (usermodIf key option value user) := by
  refine .whenChanged ?_
  cases value with
  | none => exact .pure _
  | some v => exact firm_command _

theorem firm_user (a : UserArgs) (check : Bool) : Firm env (user a check) := by
  refine .operation (.bind (firm_queryUser _ _ _) fun _ => .bind (.initialState _) fun _ => .bind (.finalState _) fun _ => .returned (.settle (.pure _) fun _ => ?_))
  unfold userActions
  exact .bind (.changed _) fun _ => .ite (.ite (firm_command _) (firm_command _)) (.ite
    (.bind (firm_usermod _ _ _ _) fun _ => .bind (firm_usermod _ _ _ _) fun _ => .bind (firm_usermod _ _ _ _) fun _ => .bind (firm_usermod _ _ _ _) fun _ =>
     .bind (firm_usermod _ _ _ _) fun _ => .bind (firm_usermod _ _ _ _) fun _ => firm_usermod _ _ _ _) (.pure _))

theorem firm_operation {opts : List Str} {op : Op OpResult} (hop : Operation opts op): Firm env op := by
  cases hop with
  | directory => exact firm_directory _ _ _ _ _ _ _
  | file => exact firm_file _ _ _ _ _ _ _
  | link => exact firm_link _ _ _ _ _ _ _
  | uploadContent => exact .operation (.bind (.ofExcept _) fun _ => .returned (firm_saveContent _ _ _ _ _ _))
  | upload => exact firm_upload _ _ _ _ _ _ _ _
  | uploadDir => exact firm_uploadDir _ _ _ _ _ _ _ _ _
  | templateContent => exact .operation (.bind (.ofExcept _) fun _ => .bind (.ofExcept _) fun _ => .returned (firm_saveContent _ _ _ _ _ _))
  | template =>
    exact .operation (.bind (.ofExcept _) fun _ => .bind (.ofExcept _) fun _ => .bind (.ofExcept _) fun _ => .returned (firm_saveContent _ _ _ _ _ _))
  | line => exact firm_line _ _ _ _ _ _ _
  | user a check => exact firm_user _ _
  | group => exact firm_group _ _ _ _ _
  | apt => exact firm_apt _ _ _ _ _
  | pacman => exact firm_pacman _ _ _ _ _
  | portage => exact firm_portage _ _ _ _ _ _
  | package => exact firm_package _ _ _ _
  | daemonReload => exact .operation (.bind (.initialState _) fun _ => .bind (.finalState _) fun _ => .bind (.unlessDry fun _ => firm_command _) fun _ => .returned .success)
  | systemdService => exact firm_systemdService _ _ _ _ _
  | service => exact firm_service _ _ _ _
  | repo => exact firm_repo _ _

theorem firm_deploy : ∀ {ops : List (Op OpResult)}, (∀ op ∈ ops, ∃ opts, Operation opts op) → Firm env (deploy ops)
  | [], _ => .pure _
  | op :: _, h =>
    have ⟨_, hop⟩ := h op (by simp)
    .bind (firm_operation hop) fun _ => .bind (firm_deploy fun o ho => h o (by simp [ho])) fun _ => .pure _

end Verif.Ops
