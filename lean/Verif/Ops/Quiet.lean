/-
In a dry run, operations only look at the host.
-/
import Verif.Ops.Lemmas

namespace Verif.Ops

open Script
open Client (isQuery)
open Wire (Packet)

abbrev Quiet {α : Type} (env : Env) (m : Op α) : Prop := Sends ReadOnly env m

theorem readOnly_query : ∀ p, isQuery p = true → ReadOnly p := fun _ h => .inl h

theorem quiet_run {env : Env} {command : List Str} {input : Option Bytes} {capture check : Bool} {user group umask cwd : Option Str}
    (h : LooksOnly command) : Quiet env (Connection.run command input capture check user group umask cwd) :=
  .run fun _ _ _ _ => .inr ⟨_, _, _, _, _, _, _, rfl, h⟩

variable {env : Env}

theorem quiet_settle (hd : env.dry = true) {b m : Op Unit} (hb : Quiet env b) : Quiet env (settle b m) :=
  .settle hb fun h => by rw [hd] at h; cases h

theorem quiet_unlessDry (hd : env.dry = true) {m : Op Unit} : Quiet env (unlessDry m) :=
  .unlessDry fun h => by rw [hd] at h; cases h

theorem quiet_withDefaults {α : Type} {s : Settings} {body : Settings → Op α} (h : ∀ a, Quiet env (body a)) : Quiet env (withDefaults s body) :=
  .withDefaults readOnly_query h

theorem quiet_ite {α : Type} {c : Prop} [Decidable c] {a b : Op α} (ha : Quiet env a) (hb : Quiet env b) : Quiet env (if c then a else b) := by
  split <;> assumption

theorem quiet_stat (path : Str) (a b : Bool) : Quiet env (Connection.stat path a b) := .stat readOnly_query _ _ _

variable (hd : env.dry = true)
include hd

theorem quiet_directory (path : Str) (present touch : Bool) (mode owner group : Option Str) (check : Bool) :
    Quiet env (directory path present touch mode owner group check) := by
  refine .operation (.bind (.ofExcept _) fun _ => .returned (quiet_withDefaults fun attr => ?_))
  refine .bind (.finalState _) fun _ => .bind (quiet_stat _ _ _) fun s => ?_
  cases s with
  | none => exact .bind (.initialState _) fun _ => quiet_settle hd (.pure _)
  | some s => exact quiet_ite (.failure _) (.bind (.initialState _) fun _ => quiet_settle hd (.pure _))

theorem quiet_file (path : Str) (present touch : Bool) (mode owner group : Option Str) (check : Bool) :
    Quiet env (file path present touch mode owner group check) := by
  refine .operation (.bind (.ofExcept _) fun _ => .returned (quiet_withDefaults fun attr => ?_))
  refine .bind (.finalState _) fun _ => .bind (quiet_stat _ _ _) fun s => ?_
  cases s with
  | none => exact .bind (.initialState _) fun _ => quiet_settle hd (.pure _)
  | some s => exact quiet_ite (.failure _) (.bind (.initialState _) fun _ => quiet_settle hd (.pure _))

theorem quiet_link (path target : Str) (present touch : Bool) (owner group : Option Str) (check : Bool) :
    Quiet env (link path target present touch owner group check) := by
  refine .operation (.bind (.ofExcept _) fun _ => quiet_ite (.raise _) (.returned (quiet_withDefaults fun attr => ?_)))
  refine .bind (.finalState _) fun _ => .bind (quiet_stat _ _ _) fun s => ?_
  cases s with
  | none => exact .bind (.initialState _) fun _ => quiet_settle hd (.pure _)
  | some s =>
    exact quiet_ite (.failure _) (.bind (quiet_run (.readlink _)) fun _ => .bind (.ofExcept _) fun _ =>
      .bind (.initialState _) fun _ => quiet_settle hd (.pure _))

omit hd in
theorem quiet_saveDiff (dest : Str) (content : Bytes) : Quiet env (saveDiff dest content) :=
  .bind .diffWanted fun _ => quiet_ite (.bind (.downloadOr readOnly_query _ _) fun _ => .opDiff _ _ _) (.pure _)

theorem quiet_saveContent (sha512 : Bytes → Bytes) (content : Content) (dest : Str) (mode owner group : Option Str) :
    Quiet env (saveContent sha512 content dest mode owner group) := by
  refine .bind (.ofExcept _) fun c => quiet_withDefaults fun attr => ?_
  refine .bind (.finalState _) fun _ => .bind (quiet_stat _ _ _) fun s => ?_
  cases s with
  | none => exact .bind (.initialState _) fun _ => quiet_settle hd (quiet_saveDiff _ _)
  | some s => exact quiet_ite (.failure _) (.bind (.initialState _) fun _ => quiet_settle hd (quiet_saveDiff _ _))

theorem quiet_uploadContent (sha512 : Bytes → Bytes) (content : Content) (dest : Str) (mode owner group : Option Str) (check : Bool) :
    Quiet env (uploadContent sha512 content dest mode owner group check) :=
  .operation (.bind (.ofExcept _) fun _ => .returned (quiet_saveContent hd _ _ _ _ _ _))

theorem quiet_upload (sha512 : Bytes → Bytes) (src : Str) (read : Except Exn Bytes) (dest : Str) (mode owner group : Option Str) (check : Bool) :
    Quiet env (upload sha512 src read dest mode owner group check) :=
  .operation (.bind (.ofExcept _) fun _ => .bind (.ofExcept _) fun _ => .returned (quiet_saveContent hd _ _ _ _ _ _))

theorem quiet_uploadDir (sha512 : Bytes → Bytes) (src : Str) (tree : Tree) (dest : Str) (dirMode fileMode owner group : Option Str) (check : Bool) :
    Quiet env (uploadDir sha512 src tree dest dirMode fileMode owner group check) := by
  have hdirs : ∀ l, Quiet env (uploadDirs dirMode owner group l) := by
    intro l
    induction l with
    | nil => exact .pure _
    | cons d ds ih => exact .bind (quiet_directory hd _ _ _ _ _ _ _) fun _ => .bind (.addNestedResult _ _) fun _ => ih
  have hfiles : ∀ l, Quiet env (uploadFiles sha512 fileMode owner group l) := by
    intro l
    induction l with
    | nil => exact .pure _
    | cons d ds ih =>
      obtain ⟨t, df⟩ := d
      rw [uploadFiles]
      split
      · exact .bind (quiet_upload hd _ _ _ _ _ _ _ _) fun _ => .bind (.addNestedResult _ _) fun _ => ih
      · exact ih
  refine .operation (.bind (.setNested _) fun _ => .bind (.ofExcept _) fun _ => ?_)
  dsimp only
  exact quiet_ite (.raise _) (.bind (hdirs _) fun _ => .bind (hfiles _) fun _ => .returned .success)

theorem quiet_templateContent {V : Type} (sha512 : Bytes → Bytes) (templ : List (Str × V) → Rendered) (dest : Str) (vars : List (Str × V))
    (context : Option (List (Str × V))) (host : V) (mode owner group : Option Str) (check : Bool) :
    Quiet env (templateContent sha512 templ dest vars context host mode owner group check) :=
  .operation (.bind (.ofExcept _) fun _ => .bind (.ofExcept _) fun _ => .returned (quiet_saveContent hd _ _ _ _ _ _))

theorem quiet_template {V : Type} (sha512 : Bytes → Bytes) (src : Str) (templ : Except Exn (List (Str × V) → Rendered)) (dest : Str)
    (vars : List (Str × V)) (context : Option (List (Str × V))) (host : V) (mode owner group : Option Str) (check : Bool) :
    Quiet env (template sha512 src templ dest vars context host mode owner group check) :=
  .operation (.bind (.ofExcept _) fun _ => .bind (.ofExcept _) fun _ => .bind (.ofExcept _) fun _ => .returned (quiet_saveContent hd _ _ _ _ _ _))

theorem quiet_lineSettle (path line : Str) (present : Bool) (regex : Option Regex) (ignoreWhitespace : Bool) (backup : Backup)
    (attr : Settings) (orig : Option Bytes) : Quiet env (lineSettle path line present regex ignoreWhitespace backup attr orig) :=
  .bind (.initialState _) fun _ => .bind (.unchanged _) fun _ => quiet_ite .success (.bind (.ofExcept _) fun _ =>
    .bind (.bind .diffWanted fun _ => quiet_ite (.opDiff _ _ _) (.pure _)) fun _ => .bind (quiet_unlessDry hd) fun _ => .success)

theorem quiet_line (path text : Str) (present : Bool) (regex : Option Regex) (ignoreWhitespace : Bool) (backup : Backup) (check : Bool) :
    Quiet env (line path text present regex ignoreWhitespace backup check) := by
  refine .operation (.bind (.ofExcept _) fun _ => .returned (quiet_withDefaults fun attr => ?_))
  refine .bind (.finalState _) fun _ => .bind (quiet_stat _ _ _) fun s => ?_
  cases s with
  | none => exact quiet_lineSettle hd _ _ _ _ _ _ _ _
  | some s => exact quiet_ite (.failure _) (.bind (.download readOnly_query _) fun _ => quiet_lineSettle hd _ _ _ _ _ _ _ _)

theorem quiet_user (a : UserArgs) (check : Bool) : Quiet env (user a check) :=
  .operation (.bind (.queryUser readOnly_query _ _ _) fun c => .bind (.initialState _) fun _ => .bind (.finalState _) fun _ =>
    .returned (quiet_settle hd (.pure _)))

theorem quiet_group (name : Str) (present : Bool) (gid : Option Int) (system check : Bool) : Quiet env (group name present gid system check) :=
  .operation (.bind (.queryGroup readOnly_query _ _) fun c => .bind (.initialState _) fun _ => .bind (.finalState _) fun _ =>
    .returned (quiet_settle hd (.pure _)))

omit hd in
theorem quiet_queryInstalled {m : Manager} (h : ∀ p, Quiet env (m.isInstalled p)) : ∀ l, Quiet env (queryInstalled m l)
  | [] => .pure _
  | _ :: l => .bind (h _) fun _ => .bind (quiet_queryInstalled h l) fun _ => .pure' _

theorem quiet_packageWith (order : List Str → List Str) {m : Manager} (h : ∀ p, Quiet env (m.isInstalled p)) (packages : List Str)
    (present check : Bool) : Quiet env (packageWith order m packages present check) :=
  .operation (.returned (.bind (quiet_queryInstalled h _) fun _ => .bind (.initialState _) fun _ => .bind (.finalState _) fun _ =>
    quiet_settle hd (.pure _)))

omit hd in
theorem quiet_apt (opts : List Str) (p : Str) : Quiet env ((apt opts).isInstalled p) := .bind (quiet_run (.aptInstalled _)) fun _ => .pure' _
omit hd in
theorem quiet_pacman (opts : List Str) (p : Str) : Quiet env ((pacman opts).isInstalled p) := .bind (quiet_run (.pacmanInstalled _)) fun _ => .pure' _
omit hd in
theorem quiet_portage (opts : List Str) (b : Bool) (p : Str) : Quiet env ((portage opts b).isInstalled p) :=
  .bind (quiet_run (.portageInstalled _)) fun _ => .pure' _

omit hd in
theorem lookupKey_mem {α : Type} {m : List (Str × α)} {k : Str} {v : α} (h : lookupKey m k = some v) : (k, v) ∈ m := by
  unfold lookupKey at h
  rw [Option.map_eq_some_iff] at h
  obtain ⟨x, h1, rfl⟩ := h
  have h2 := List.find?_some h1
  rw [beq_iff_eq] at h2
  have h3 := List.mem_of_find?_eq_some h1
  obtain ⟨k', v'⟩ := x
  subst h2
  exact h3

omit hd in
theorem quiet_findPackage : Quiet env (findCommand packageManagers) :=
  .bind (quiet_run LooksOnly.packageCommand) fun _ => .pure' _

omit hd in
theorem quiet_findService : Quiet env (findCommand serviceManagers) :=
  .bind (quiet_run LooksOnly.serviceCommand) fun _ => .pure' _

omit hd in
/-- What `find_command` returns is one of the registered managers. -/
theorem findCommand_mem {α : Type} {m : List (Str × α)} {st st' : St} {t : Trace} {v : α}
    (h : Execution (findCommand m) env st t (.ok (some v)) st') : ∃ k, (k, v) ∈ m := by
  rcases execution_bind.mp h with ⟨_, h0, _⟩ | ⟨t1, t2, a, st1, h1, h2, rfl⟩
  · cases h0
  · have := (execution_ret rfl).mp h2
    simp only [Except.ok.injEq] at this
    exact ⟨_, lookupKey_mem this.2.1.symm⟩

omit hd in
theorem Sends.bind_exec {α β : Type} {P : Packet → Prop} {m : Op α} {f : α → Op β} (hm : Sends P env m)
    (hf : ∀ st t a st', Execution m env st t (.ok a) st' → Sends P env (f a)) : Sends P env (m >>= f) := by
  intro st t r st' h e he
  rcases execution_bind.mp h with ⟨_, _, h⟩ | ⟨t1, t2, a, st1, h1, h2, rfl⟩
  · exact hm _ _ _ _ h e he
  · rcases List.mem_append.mp he with he | he
    · exact hm _ _ _ _ h1 e he
    · exact hf _ _ a _ h1 _ _ _ _ h2 e he

theorem quiet_package (order : List Str → List Str) (packages : List Str) (present check : Bool) : Quiet env (package order packages present check) := by
  refine .bind_exec quiet_findPackage fun st t a st' h => ?_
  cases a with
  | none => exact .operation (.raise _)
  | some m =>
    obtain ⟨k, hk⟩ := findCommand_mem h
    refine quiet_packageWith hd order ?_ _ _ _
    simp only [packageManagers, List.mem_cons, Prod.mk.injEq, List.not_mem_nil, or_false] at hk
    rcases hk with ⟨_, rfl⟩ | ⟨_, rfl⟩ | ⟨_, rfl⟩
    · exact quiet_apt _
    · exact quiet_pacman _
    · exact quiet_portage _ _

theorem quiet_daemonReload (userMode check : Bool) : Quiet env (daemonReload userMode check) :=
  .operation (.bind (.initialState _) fun _ => .bind (.finalState _) fun _ => .bind (quiet_unlessDry hd) fun _ => .returned .success)

omit hd in
theorem quiet_showProperty (a b : Str) : Quiet env (showProperty a b) := .bind (quiet_run (.unitProperty _ _)) fun _ => .pure' _

theorem quiet_systemdService (service : Str) (state : Option Str) (enabled : Option Bool) (userMode check : Bool) :
    Quiet env (systemdService service state enabled userMode check) :=
  .operation (quiet_ite (.raise _) (.bind (quiet_showProperty _ _) fun _ => .bind (quiet_showProperty _ _) fun _ =>
    .bind (.initialState _) fun _ => .bind (.finalState _) fun _ => .bind (.unchanged _) fun _ =>
    .returned (quiet_ite .success (.bind (quiet_unlessDry hd) fun _ => .success))))

theorem quiet_service (name : Str) (state : Option Str) (enabled : Option Bool) (check : Bool) : Quiet env (service name state enabled check) := by
  refine .bind_exec quiet_findService fun st t a st' h => ?_
  cases a with
  | none => exact .operation (.raise _)
  | some m =>
    obtain ⟨k, hk⟩ := findCommand_mem h
    simp only [serviceManagers, List.mem_cons, Prod.mk.injEq, List.not_mem_nil, or_false] at hk
    obtain ⟨_, rfl⟩ := hk
    exact quiet_systemdService hd _ _ _ _ _

theorem quiet_dry {α : Type} {f : Bool → Op α} (h : Quiet env (f true)) : Quiet env (dry >>= f) := by
  refine .bind_exec .dry fun st t a st' he => ?_
  have := ((execution_ret rfl).mp he).2.1
  cases this
  rw [hd]
  exact h

theorem quiet_repoSettle (a : RepoArgs) (ex : Bool) (c : Option Str) : Quiet env (repoSettle a ex c) :=
  quiet_ite (.bind (.finalState _) fun _ => .success) (.bind (quiet_run (.gitUpstream _ _)) fun _ => .bind (.ofExcept _) fun _ =>
    .bind (.finalState _) fun _ => .bind (.unchanged _) fun _ => quiet_ite .success (quiet_dry hd (by
      simp only [if_true]
      exact .success)))

theorem quiet_repo (a : RepoArgs) (check : Bool) : Quiet env (repo a check) := by
  refine .operation (.bind (.ofExcept _) fun _ => .bind (quiet_stat _ _ _) fun s => ?_)
  cases s with
  | none => exact .bind (.initialState _) fun _ => .returned (quiet_repoSettle hd _ _ _)
  | some s =>
    refine quiet_ite (.bind (quiet_stat _ _ _) fun g => ?_) (.returned (.failure _))
    cases g with
    | none => exact .returned (.failure _)
    | some g =>
      exact quiet_ite (.returned (.failure _)) (.bind (quiet_run (.gitCommit _)) fun _ => .bind (.initialState _) fun _ =>
        .returned (quiet_repoSettle hd _ _ _))

end Verif.Ops
