/-
Properties of all operations, whatever the remote answers: dry runs and unchanged results touch nothing (C29, C31), wrong
file types and relative paths are refused (C32, C33), and arguments are never taken for options (C70).
-/
import Verif.Ops.Triple

namespace Verif.Ops

open Script
open Client (isQuery)
open Wire (Packet)

/-! ### C29 -/

/-- C29. In a dry run no operation sends a request that can modify the host, whatever the remote answers. -/
theorem C29_dry_run_only_looks (opts : List Str) (op : Op OpResult) (hop : Operation opts op) (env : Env) (hd : env.dry = true) (st st' : St) (t : Trace)
    (r : Except Exn OpResult) (h : Execution op env st t r st') : ∀ request answer, (request, answer) ∈ t → ReadOnly request := by
  have hq : Quiet env op := by
    cases hop with
    | directory => exact quiet_directory hd _ _ _ _ _ _ _
    | file => exact quiet_file hd _ _ _ _ _ _ _
    | link => exact quiet_link hd _ _ _ _ _ _ _
    | uploadContent => exact quiet_uploadContent hd _ _ _ _ _ _ _
    | upload => exact quiet_upload hd _ _ _ _ _ _ _ _
    | uploadDir => exact quiet_uploadDir hd _ _ _ _ _ _ _ _ _
    | templateContent => exact quiet_templateContent hd _ _ _ _ _ _ _ _ _ _
    | template => exact quiet_template hd _ _ _ _ _ _ _ _ _ _ _
    | line => exact quiet_line hd _ _ _ _ _ _ _
    | user => exact quiet_user hd _ _
    | group => exact quiet_group hd _ _ _ _ _
    | apt => exact quiet_packageWith hd _ (quiet_apt _) _ _ _
    | pacman => exact quiet_packageWith hd _ (quiet_pacman _) _ _ _
    | portage => exact quiet_packageWith hd _ (quiet_portage _ _) _ _ _
    | package => exact quiet_package hd _ _ _ _
    | daemonReload => exact quiet_daemonReload hd _ _
    | systemdService => exact quiet_systemdService hd _ _ _ _ _
    | service => exact quiet_service hd _ _ _ _
    | repo => exact quiet_repo hd _ _
  exact fun request answer he => hq _ _ _ _ h _ he

/-- Without a dry run, requests that modify the host do occur. -/
example : ¬ ReadOnly (.processRun [p!"groupdel", p!"--", p!"users"] none true none none none none)
    ∧ ∃ t r st', Execution (group p!"users" false none false true) { base := {} } { stack := [{}] } t r st'
      ∧ ((Packet.processRun [p!"groupdel", p!"--", p!"users"] none true none none none none), .ok (.processCompleted (some []) (some []) 0)) ∈ t := by
  refine ⟨?_, [(.queryGroup p!"users", .ok (.groupEntry p!"users" 100 [])),
    (.processRun [p!"groupdel", p!"--", p!"users"] none true none none none none, .ok (.processCompleted (some []) (some []) 0))], _, _, .req _ _ _ _ _ (.req _ _ _ _ _ (.ret _)), by simp⟩
  rintro (h | ⟨_, _, _, _, _, _, _, h, hl⟩)
  · cases h
  · cases h
    cases hl

/-! ### C31 -/

/-- C31. If an operation reports that nothing was changed, it has sent no request that can modify the host, whatever the
remote answered. -/
theorem C31_unchanged_only_looks (opts : List Str) (op : Op OpResult) (hop : Operation opts op) (env : Env) (st st' : St) (t : Trace) (x : OpResult)
    (h : Execution op env st t (.ok x) st') (hx : x.changed = false) : ∀ request answer, (request, answer) ∈ t → ReadOnly request := by
  have hq : Honest env op := by
    cases hop with
    | directory => exact honest_directory _ _ _ _ _ _ _
    | file => exact honest_file _ _ _ _ _ _ _
    | link => exact honest_link _ _ _ _ _ _ _
    | uploadContent => exact honest_uploadContent _ _ _ _ _ _ _
    | upload => exact honest_upload _ _ _ _ _ _ _ _
    | uploadDir => exact honest_uploadDir _ _ _ _ _ _ _ _ _
    | templateContent => exact honest_templateContent _ _ _ _ _ _ _ _ _ _
    | template => exact honest_template _ _ _ _ _ _ _ _ _ _ _
    | line => exact honest_line _ _ _ _ _ _ _
    | user => exact honest_user _ _
    | group => exact honest_group _ _ _ _ _
    | apt => exact honest_apt _ _ _ _ _
    | pacman => exact honest_pacman _ _ _ _ _
    | portage => exact honest_portage _ _ _ _ _ _
    | package => exact honest_package _ _ _ _
    | daemonReload => exact honest_daemonReload _ _
    | systemdService => exact honest_systemdService _ _ _ _ _
    | service => exact honest_service _ _ _ _
    | repo => exact honest_repo _ _
  exact fun request answer he => hq _ _ _ _ h (.inl hx) _ he

/-- An execution without a change: the group exists. -/
example : ∃ t x st', Execution (group p!"users" true none false true) { base := {} } { stack := [{}] } t (.ok x) st' ∧ x.changed = false ∧ t ≠ [] :=
  ⟨[(.queryGroup p!"users", .ok (.groupEntry p!"users" 100 []))], _, _, .req _ _ _ _ _ (.ret _), rfl, by simp⟩

/-! ### C33 -/

/-- C33. An empty or relative path is refused with a ValueError before anything is sent. It names the argument and says what is wrong. -/
theorem C33_relative_path_refused (argument path : Str) (op : Op OpResult) (hop : TakesPath argument path op) (hp : path.head? ≠ some 47)
    (env : Env) (st st' : St) (t : Trace) (r : Except Exn OpResult) (h : Execution op env st t r st') :
    t = [] ∧ ∃ msg, r = .error (.valueError msg) ∧ (p!"Path " ++ argument) <+: msg
      ∧ (if path = [] then p!"must be non-empty" else p!"must be absolute") <:+ msg := by
  have hc : ∀ desc, ∃ msg, checkAbsolutePath path desc = .error (.valueError msg) ∧ (p!"Path " ++ desc) <+: msg
      ∧ (if path = [] then p!"must be non-empty" else p!"must be absolute") <:+ msg := by
    intro desc
    cases path with
    | nil => exact ⟨_, rfl, List.prefix_append _ _, ⟨p!"Path " ++ desc ++ p!" ", by simp⟩⟩
    | cons c rest =>
      simp only [List.head?_cons, ne_eq, Option.some.injEq] at hp
      simp only [checkAbsolutePath, ne_eq, hp, not_false_eq_true, if_true]
      exact ⟨_, rfl, List.prefix_append _ _, ⟨p!"Path " ++ desc ++ p!" ", by simp⟩⟩
  have key : ∀ {check : Bool} {desc : Str} {f : Unit → Op (Option OpResult)} {env : Env} {st st' : St} {t : Trace} {r : Except Exn OpResult},
      Execution (operation check (Op.ofExcept (checkAbsolutePath path desc) >>= f)) env st t r st' →
        t = [] ∧ ∃ msg, r = .error (.valueError msg) ∧ (p!"Path " ++ desc) <+: msg
          ∧ (if path = [] then p!"must be non-empty" else p!"must be absolute") <:+ msg := by
    intro check desc f env st st' t r h
    obtain ⟨msg, hm, hw⟩ := hc desc
    obtain ⟨r0, st0, h1, _, h3⟩ := execution_operation.mp h
    rw [hm] at h1
    rcases execution_bind.mp h1 with ⟨e, rfl, h2⟩ | ⟨t1, t2, a, st1, h2, _, _⟩
    · obtain ⟨rfl, h2, _⟩ := execution_ofExcept.mp h2
      cases h2
      exact ⟨rfl, msg, h3, hw⟩
    · obtain ⟨_, h2, _⟩ := execution_ofExcept.mp h2
      cases h2
  cases hop with
  | directory => exact key h
  | file => exact key h
  | link => exact key h
  | uploadContent => exact key h
  | upload => exact key h
  | uploadDir =>
    obtain ⟨msg, hm, hw⟩ := hc p!"dest"
    obtain ⟨r0, st0, h1, _, h3⟩ := execution_operation.mp h
    rcases execution_bind.mp h1 with ⟨e, rfl, h2⟩ | ⟨t1, t2, a, st1, h2, h4, rfl⟩
    · obtain ⟨_, h2, _⟩ := (execution_ret rfl).mp h2
      cases h2
    · obtain ⟨rfl, _, _⟩ := (execution_ret rfl).mp h2
      rw [hm] at h4
      rcases execution_bind.mp h4 with ⟨e, rfl, h2⟩ | ⟨t1, t2, a, st1, h2, _, _⟩
      · obtain ⟨rfl, h2, _⟩ := execution_ofExcept.mp h2
        cases h2
        exact ⟨rfl, msg, h3, hw⟩
      · obtain ⟨_, h2, _⟩ := execution_ofExcept.mp h2
        cases h2
  | templateContent => exact key h
  | template => exact key h
  | line => exact key h
  | repo => exact key h

/-- C33, the other direction: an absolute path is not refused. Every operation gets as far as asking the remote, or fails
because of another argument. -/
theorem C33_absolute_path_accepted (path desc : Str) : checkAbsolutePath path desc = .ok () ↔ path.head? = some 47 := by
  cases path with
  | nil => simp [checkAbsolutePath]
  | cons c rest =>
    by_cases h : c = 47
    · simp [checkAbsolutePath, h]
    · simp [checkAbsolutePath, h]

/-- A relative path. -/
example : ∃ r st', Execution (directory p!"etc/x" true false none none none true) { base := {} } { stack := [{}] } [] r st' :=
  ⟨_, _, .ret _⟩

/-! ### C32 -/

/-- Something else than a file of this type is at the path: whenever the remote is asked, it says so. -/
def OtherType (path type : Str) (e : Packet × Except Exn Packet) : Prop :=
  ∀ follow sum, e.1 = .stat path follow sum →
    ∃ type' mode owner group size mtime ctime sum, e.2 = .ok (.statResult type' mode owner group size mtime ctime sum) ∧ type' ≠ type

abbrev Refuses (path type : Str) (env : Env) (m : Op OpResult) : Prop :=
  Triple (OtherType path type) (fun _ => True) ReadOnly env m fun x => x.success = false

variable {env : Env}

theorem refuses_stat {α : Type} {path type : Str} {follow sum : Bool} {f : Option Client.StatResult → Op α} {Q : α → Prop}
    (h : ∀ s, s.type ≠ type → Triple (OtherType path type) (fun _ => True) ReadOnly env (f (some s)) Q) :
    Triple (OtherType path type) (fun _ => True) ReadOnly env (Connection.stat path follow sum >>= f) Q := by
  refine .bind (Q := fun o => ∃ s, o = some s ∧ s.type ≠ type) (.one (.inl rfl) ?_) ?_
  · intro r x hr hx
    obtain ⟨type', mode, owner, group, size, mtime, ctime, sum, rfl, hne⟩ := hr _ _ rfl
    cases hx
    exact ⟨_, rfl, hne⟩
  · rintro _ ⟨s, rfl, hs⟩
    exact h s hs

theorem refuses_withDefaults {α : Type} {path type : Str} {s : Settings} {body : Settings → Op α} {Q : α → Prop}
    (h : ∀ a, Triple (OtherType path type) (fun _ => True) ReadOnly env (body a) Q) :
    Triple (OtherType path type) (fun _ => True) ReadOnly env (withDefaults s body) Q :=
  .withDefaults (fun _ _ _ _ => .of_sends (.resolveDefaults readOnly_query _) (.resolveDefaults _)) fun _ _ => h _

theorem refuses_failure {path type msg : Str} : Refuses path type env (failure msg) :=
  .of_ret fun st => ⟨_, _, rfl, St.show_stack _ _, fun x hx => by cases hx; rfl⟩

theorem refuses_operation {path type : Str} {check : Bool} {f : Op (Option OpResult)}
    (h : Triple (OtherType path type) (fun _ => True) ReadOnly env f fun o => ∀ x, o = some x → x.success = false) :
    Triple (OtherType path type) (fun _ => True) ReadOnly env (operation check f) fun x => x.success = false ∧ check = false :=
  .operation (h.weaken fun o ho x hx hc => ⟨ho x hx, by
    have := ho x hx
    rw [this] at hc
    simpa using hc⟩)

theorem refuses_returned {path type : Str} {m : Op OpResult} (h : Refuses path type env m) :
    Triple (OtherType path type) (fun _ => True) ReadOnly env (returned m) fun o => ∀ x, o = some x → x.success = false :=
  .returned (h.weaken fun y hy x hx => by cases hx; exact hy)

theorem refuses_directoryBody (path : Str) (present touch : Bool) (attr : Settings) : Refuses path p!"dir" env (directoryBody path present touch attr) := by
  refine .seq (.finalState _) (balanced_finalState _) fun _ => refuses_stat fun s hs => ?_
  simp only [ne_eq, hs, not_false_eq_true, if_true]
  exact refuses_failure

theorem refuses_directory (path : Str) (present touch : Bool) (mode owner group : Option Str) (check : Bool) :
    Triple (OtherType path p!"dir") (fun _ => True) ReadOnly env (directory path present touch mode owner group check)
      fun x => x.success = false ∧ check = false :=
  refuses_operation (.seq (.ofExcept _) (.ofExcept _) fun _ => refuses_returned (refuses_withDefaults (refuses_directoryBody _ _ _)))

theorem refuses_saveContent (sha512 : Bytes → Bytes) (content : Content) (dest : Str) (mode owner group : Option Str) :
    Refuses dest p!"file" env (saveContent sha512 content dest mode owner group) := by
  refine .seq (.ofExcept _) (.ofExcept _) fun _ => refuses_withDefaults fun a => ?_
  refine .seq (.finalState _) (balanced_finalState _) fun _ => refuses_stat fun s hs => ?_
  simp only [ne_eq, hs, not_false_eq_true, if_true]
  exact refuses_failure

/-- C32. If something of another type is at the path, the operation fails: it raises, or (with `check=False`) returns a
failure. And it sends no request that can modify the host. -/
theorem C32_wrong_type_refused (path type : Str) (op : Op OpResult) (hop : Manages path type op) (env : Env) (st st' : St) (t : Trace)
    (r : Except Exn OpResult) (h : Execution op env st t r st') (ht : ∀ e ∈ t, OtherType path type e) :
    (∀ request answer, (request, answer) ∈ t → ReadOnly request) ∧ ∀ x, r = .ok x → x.success = false := by
  have key : Refuses path type env op := by
    cases hop with
    | directory => exact (refuses_directory _ _ _ _ _ _ _).weaken fun _ h => h.1
    | file =>
      refine (refuses_operation (.seq (.ofExcept _) (.ofExcept _) fun _ => refuses_returned (refuses_withDefaults fun a => ?_))).weaken fun _ h => h.1
      refine .seq (.finalState _) (balanced_finalState _) fun _ => refuses_stat fun s hs => ?_
      simp only [ne_eq, hs, not_false_eq_true, if_true]
      exact refuses_failure
    | link =>
      refine (refuses_operation (.seq (.ofExcept _) (.ofExcept _) fun _ => .ite (fun _ => .raise _) fun _ =>
        refuses_returned (refuses_withDefaults fun a => ?_))).weaken fun _ h => h.1
      refine .seq (.finalState _) (balanced_finalState _) fun _ => refuses_stat fun s hs => ?_
      simp only [ne_eq, hs, not_false_eq_true, if_true]
      exact refuses_failure
    | uploadContent =>
      exact (refuses_operation (.seq (.ofExcept _) (.ofExcept _) fun _ => refuses_returned (refuses_saveContent _ _ _ _ _ _))).weaken fun _ h => h.1
    | upload =>
      exact (refuses_operation (.seq (.ofExcept _) (.ofExcept _) fun _ => .seq (.ofExcept _) (.ofExcept _) fun _ =>
        refuses_returned (refuses_saveContent _ _ _ _ _ _))).weaken fun _ h => h.1
    | uploadDir =>
      refine (refuses_operation (.seq (.setNested _) (.of_ret fun _ _ => ⟨_, _, rfl, rfl⟩) fun _ => .seq (.ofExcept _) (.ofExcept _) fun _ => ?_)).weaken
        fun _ h => h.1
      dsimp only
      refine .ite (fun _ => .raise _) fun _ => .bind (Q := fun _ => False) ?_ fun _ hf => hf.elim
      exact .bind (refuses_directory _ _ _ _ _ _ _) fun x hx => (Bool.noConfusion hx.2)
    | templateContent =>
      exact (refuses_operation (.seq (.ofExcept _) (.ofExcept _) fun _ => .seq (.ofExcept _) (.ofExcept _) fun _ =>
        refuses_returned (refuses_saveContent _ _ _ _ _ _))).weaken fun _ h => h.1
    | template =>
      exact (refuses_operation (.seq (.ofExcept _) (.ofExcept _) fun _ => .seq (.ofExcept _) (.ofExcept _) fun _ =>
        .seq (.ofExcept _) (.ofExcept _) fun _ => refuses_returned (refuses_saveContent _ _ _ _ _ _))).weaken fun _ h => h.1
    | line =>
      refine (refuses_operation (.seq (.ofExcept _) (.ofExcept _) fun _ => refuses_returned (refuses_withDefaults fun a => ?_))).weaken fun _ h => h.1
      refine .seq (.finalState _) (balanced_finalState _) fun _ => refuses_stat fun s hs => ?_
      simp only [ne_eq, hs, not_false_eq_true, if_true]
      exact refuses_failure
    | repo =>
      refine (refuses_operation (.seq (.ofExcept _) (.ofExcept _) fun _ => refuses_stat fun s hs => ?_)).weaken fun _ h => h.1
      simp only [hs, if_false]
      exact refuses_returned refuses_failure
  obtain ⟨h1, _, h3⟩ := key _ _ _ _ (fun _ _ => trivial) h ht
  exact ⟨fun request answer he => h1 _ he, h3⟩

/-- A file where a directory is wanted. -/
example : ∃ t r st', Execution (directory p!"/x" true false none none none true) { base := {} }
      { stack := [{ fileMode := some p!"644", dirMode := some p!"755", umask := some p!"22" }] } t r st'
    ∧ (∀ e ∈ t, OtherType p!"/x" p!"dir" e) ∧ t ≠ [] :=
  ⟨[(.stat p!"/x" false false, .ok (.statResult p!"file" 0o644 p!"root" p!"root" 0 0 0 none))], _, _, .req _ _ _ _ _ (.ret _), by
    intro e he follow sum _
    simp only [List.mem_singleton] at he
    subst he
    exact ⟨_, _, _, _, _, _, _, _, rfl, by decide⟩, by simp⟩

end Verif.Ops
