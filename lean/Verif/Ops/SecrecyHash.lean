/-
Operations that do not ask for password hashes.
-/
import Verif.Ops.SecrecySpec
import Verif.Ops.Quiet

namespace Verif.Ops

open Script
open Wire (Packet)

variable {α β : Type} {env : Env}

/-- No password hash is asked for. -/
abbrev NoHash (env : Env) (m : Op α) : Prop := Sends (fun p => ¬ AsksForHash p) env m

theorem nohash_run (command : List Str) (input : Option Bytes) (capture check : Bool) (user group umask cwd : Option Str) :
    NoHash env (Connection.run command input capture check user group umask cwd) := .run fun _ _ _ _ => by rintro ⟨_, h⟩; cases h

theorem nohash_command (command : List Str) : NoHash env (runCommand command) := .runCommand fun _ _ _ _ => by rintro ⟨_, h⟩; cases h

theorem nohash_store (file : Str) (content : Bytes) (mode owner group : Option Str) : NoHash env (Connection.upload file content mode owner group) :=
  .one (by rintro ⟨_, h⟩; cases h)

theorem nohash_stat (path : Str) (a b : Bool) : NoHash env (Connection.stat path a b) := .one (by rintro ⟨_, h⟩; cases h)
theorem nohash_resolveUser (u : Option Str) : NoHash env (Connection.resolveUser u) := .one (by rintro ⟨_, h⟩; cases h)
theorem nohash_resolveGroup (u : Option Str) : NoHash env (Connection.resolveGroup u) := .one (by rintro ⟨_, h⟩; cases h)
theorem nohash_download (path : Str) : NoHash env (Connection.download path) := .one (by rintro ⟨_, h⟩; cases h)

theorem nohash_downloadOr (path : Str) (d : Option Bytes) : NoHash env (Connection.downloadOr path d) :=
  .tryCatch (.bind (nohash_download _) fun _ => .pure' _) fun e => by
    split
    · exact .pure _
    · exact .raise _

theorem nohash_queryGroup (u : Str) (d : Option Client.GroupEntry) : NoHash env (Connection.queryGroup u d) :=
  .tryCatch (.bind (.one (by rintro ⟨_, h⟩; cases h)) fun _ => .pure' _) fun e => by
    split
    · exact .pure _
    · exact .raise _

theorem nohash_mapOpt {f : Option Str → Op Str} (h : ∀ x, NoHash env (f x)) (x : Option Str) : NoHash env (mapOpt f x) := by
  cases x with
  | none => exact .pure _
  | some x => exact .bind (h _) fun _ => .pure' _

theorem nohash_checkCwd (c : Option Str) : NoHash env (checkCwd c) := by
  unfold Script.checkCwd
  split
  · exact .pure _
  · exact .pure _
  · refine .bind (nohash_stat _ _ _) fun s => ?_
    split
    · exact .raise _
    · split
      · exact .raise _
      · exact .pure _

theorem nohash_resolveDefaults (s : Settings) : NoHash env (resolveDefaults s) := by
  unfold Script.resolveDefaults
  exact .bind .currentDefaults fun _ => .bind (nohash_mapOpt nohash_resolveUser _) fun _ => .bind (nohash_mapOpt nohash_resolveGroup _) fun _ =>
    .bind (nohash_mapOpt nohash_resolveUser _) fun _ => .bind (nohash_mapOpt nohash_resolveGroup _) fun _ => .bind (.ofExcept _) fun _ =>
    .bind (.ofExcept _) fun _ => .bind (.ofExcept _) fun _ => .bind (nohash_checkCwd _) fun _ => .pure' _

theorem nohash_withDefaults {s : Settings} {body : Settings → Op α} (h : ∀ a, NoHash env (body a)) : NoHash env (withDefaults s body) := by
  unfold Script.withDefaults
  exact .bind (.ofExcept _) fun _ => .bind .getEnv fun _ => .bind .currentDefaults fun _ => .bind (nohash_resolveDefaults _) fun _ =>
    .bind (.push _) fun _ => .finally_ (h _)

theorem nohash_ite {c : Prop} [Decidable c] {a b : Op α} (ha : NoHash env a) (hb : NoHash env b) : NoHash env (if c then a else b) := by
  split <;> assumption

theorem nohash_directoryActions (path : Str) (present : Bool) (attr : Settings) : NoHash env (directoryActions path present attr) :=
  nohash_ite (.bind (.whenChanged (nohash_command _)) fun _ => .bind (.whenChanged (nohash_command _)) fun _ => .bind (.whenEither (nohash_command _)) fun _ =>
    .bind (.changed _) fun _ => nohash_ite (.pure _) (.whenChanged (nohash_command _))) (.whenChanged (nohash_command _))

theorem nohash_directory (path : Str) (present touch : Bool) (mode owner group : Option Str) (check : Bool) :
    NoHash env (directory path present touch mode owner group check) := by
  refine .operation (.bind (.ofExcept _) fun _ => .returned (nohash_withDefaults fun attr => ?_))
  refine .bind (.finalState _) fun _ => .bind (nohash_stat _ _ _) fun s => ?_
  have hs : NoHash env (settle (Op.pure ()) (directoryActions path present attr)) := .settle (.pure _) fun _ => nohash_directoryActions _ _ _
  cases s with
  | none => exact .bind (.initialState _) fun _ => hs
  | some s => exact nohash_ite (.failure _) (.bind (.initialState _) fun _ => hs)

theorem nohash_file (path : Str) (present touch : Bool) (mode owner group : Option Str) (check : Bool) :
    NoHash env (file path present touch mode owner group check) := by
  refine .operation (.bind (.ofExcept _) fun _ => .returned (nohash_withDefaults fun attr => ?_))
  refine .bind (.finalState _) fun _ => .bind (nohash_stat _ _ _) fun s => ?_
  have hs : NoHash env (settle (Op.pure ()) (fileActions path present attr)) := .settle (.pure _) fun _ =>
    nohash_ite (.bind (.whenEither (nohash_command _)) fun _ => .bind (.whenChanged (nohash_command _)) fun _ => .whenEither (nohash_command _))
      (.whenChanged (nohash_command _))
  cases s with
  | none => exact .bind (.initialState _) fun _ => hs
  | some s => exact nohash_ite (.failure _) (.bind (.initialState _) fun _ => hs)

theorem nohash_linkActions (path target : Str) (present : Bool) (attr : Settings) : NoHash env (linkActions path target present attr) := by
  unfold linkActions
  repeat' first
    | exact nohash_command _
    | exact .pure _
    | apply Sends.whenChanged
    | apply Sends.whenEither
    | exact Sends.changed _
    | exact Sends.changedEither _ _
    | refine Sends.bind ?_ fun _ => ?_
    | apply nohash_ite

theorem nohash_link (path target : Str) (present touch : Bool) (owner group : Option Str) (check : Bool) :
    NoHash env (link path target present touch owner group check) := by
  refine .operation (.bind (.ofExcept _) fun _ => nohash_ite (.raise _) (.returned (nohash_withDefaults fun attr => ?_)))
  refine .bind (.finalState _) fun _ => .bind (nohash_stat _ _ _) fun s => ?_
  have hs : NoHash env (settle (Op.pure ()) (linkActions path target present attr)) := .settle (.pure _) fun _ => nohash_linkActions _ _ _ _
  cases s with
  | none => exact .bind (.initialState _) fun _ => hs
  | some s =>
    exact nohash_ite (.failure _) (.bind (nohash_run _ _ _ _ _ _ _ _) fun _ => .bind (.ofExcept _) fun _ => .bind (.initialState _) fun _ => hs)

theorem nohash_saveDiff (dest : Str) (content : Bytes) : NoHash env (saveDiff dest content) :=
  .bind .diffWanted fun _ => nohash_ite (.bind (nohash_downloadOr _ _) fun _ => .opDiff _ _ _) (.pure _)

theorem nohash_saveActions (attr : Settings) (content : Bytes) (dest : Str) : NoHash env (saveActions attr content dest) := by
  unfold saveActions
  repeat' first
    | exact nohash_command _
    | exact nohash_store _ _ _ _ _
    | exact .pure _
    | apply Sends.whenChanged
    | apply Sends.whenEither
    | exact Sends.changed _
    | exact Sends.changedEither _ _
    | refine Sends.bind ?_ fun _ => ?_
    | apply nohash_ite

theorem nohash_saveContent (sha512 : Bytes → Bytes) (content : Content) (dest : Str) (mode owner group : Option Str) :
    NoHash env (saveContent sha512 content dest mode owner group) := by
  refine .bind (.ofExcept _) fun c => nohash_withDefaults fun attr => ?_
  refine .bind (.finalState _) fun _ => .bind (nohash_stat _ _ _) fun s => ?_
  have hs : NoHash env (settle (saveDiff dest c) (saveActions attr c dest)) := .settle (nohash_saveDiff _ _) fun _ => nohash_saveActions _ _ _
  cases s with
  | none => exact .bind (.initialState _) fun _ => hs
  | some s => exact nohash_ite (.failure _) (.bind (.initialState _) fun _ => hs)

theorem nohash_upload (sha512 : Bytes → Bytes) (src : Str) (read : Except Exn Bytes) (dest : Str) (mode owner group : Option Str) (check : Bool) :
    NoHash env (upload sha512 src read dest mode owner group check) :=
  .operation (.bind (.ofExcept _) fun _ => .bind (.ofExcept _) fun _ => .returned (nohash_saveContent _ _ _ _ _ _))

theorem nohash_uploadDir (sha512 : Bytes → Bytes) (src : Str) (tree : Tree) (dest : Str) (dirMode fileMode owner group : Option Str) (check : Bool) :
    NoHash env (uploadDir sha512 src tree dest dirMode fileMode owner group check) := by
  have hdirs : ∀ l, NoHash env (uploadDirs dirMode owner group l) := by
    intro l
    induction l with
    | nil => exact .pure _
    | cons d ds ih => exact .bind (nohash_directory _ _ _ _ _ _ _) fun _ => .bind (.addNestedResult _ _) fun _ => ih
  have hfiles : ∀ l, NoHash env (uploadFiles sha512 fileMode owner group l) := by
    intro l
    induction l with
    | nil => exact .pure _
    | cons d ds ih =>
      obtain ⟨t, df⟩ := d
      rw [uploadFiles]
      split
      · exact .bind (nohash_upload _ _ _ _ _ _ _ _) fun _ => .bind (.addNestedResult _ _) fun _ => ih
      · exact ih
  refine .operation (.bind (.setNested _) fun _ => .bind (.ofExcept _) fun _ => ?_)
  dsimp only
  exact nohash_ite (.raise _) (.bind (hdirs _) fun _ => .bind (hfiles _) fun _ => .returned .success)

theorem nohash_lineActions (path : Str) (backup : Backup) (attr : Settings) (orig : Option Bytes) (new : Bytes) :
    NoHash env (lineActions path backup attr orig new) := by
  cases orig with
  | none => exact nohash_store _ _ _ _ _
  | some o =>
    refine .bind ?_ fun _ => nohash_store _ _ _ _ _
    unfold lineBackup
    split
    · exact nohash_command _
    · exact .pure _

theorem nohash_lineSettle (path line : Str) (present : Bool) (regex : Option Regex) (ignoreWhitespace : Bool) (backup : Backup)
    (attr : Settings) (orig : Option Bytes) : NoHash env (lineSettle path line present regex ignoreWhitespace backup attr orig) :=
  .bind (.initialState _) fun _ => .bind (.unchanged _) fun _ => nohash_ite .success (.bind (.ofExcept _) fun _ =>
    .bind (.bind .diffWanted fun _ => nohash_ite (.opDiff _ _ _) (.pure _)) fun _ => .bind (.unlessDry fun _ => nohash_lineActions _ _ _ _ _) fun _ => .success)

theorem nohash_line (path text : Str) (present : Bool) (regex : Option Regex) (ignoreWhitespace : Bool) (backup : Backup) (check : Bool) :
    NoHash env (line path text present regex ignoreWhitespace backup check) := by
  refine .operation (.bind (.ofExcept _) fun _ => .returned (nohash_withDefaults fun attr => ?_))
  refine .bind (.finalState _) fun _ => .bind (nohash_stat _ _ _) fun s => ?_
  cases s with
  | none => exact nohash_lineSettle _ _ _ _ _ _ _ _
  | some s => exact nohash_ite (.failure _) (.bind (nohash_download _) fun _ => nohash_lineSettle _ _ _ _ _ _ _ _)

theorem nohash_group (name : Str) (present : Bool) (gid : Option Int) (system check : Bool) : NoHash env (group name present gid system check) := by
  refine .operation (.bind (nohash_queryGroup _ _) fun c => .bind (.initialState _) fun _ => .bind (.finalState _) fun _ => .returned (.settle (.pure _) fun _ => ?_))
  refine .bind (.changed _) fun _ => nohash_ite (nohash_ite (nohash_command _) (nohash_command _)) (nohash_ite (.whenChanged ?_) (.pure _))
  split
  · exact .pure _
  · exact nohash_command _

theorem nohash_queryInstalled {m : Manager} (h : ∀ p, NoHash env (m.isInstalled p)) : ∀ l, NoHash env (queryInstalled m l)
  | [] => .pure _
  | _ :: l => .bind (h _) fun _ => .bind (nohash_queryInstalled h l) fun _ => .pure' _

theorem nohash_forEach {f : Str → Op Unit} (h : ∀ p, NoHash env (f p)) : ∀ l, NoHash env (forEach f l)
  | [] => .pure _
  | _ :: l => .bind (h _) fun _ => nohash_forEach h l

theorem nohash_packageWith (order : List Str → List Str) {m : Manager} (h : ∀ p, NoHash env (m.isInstalled p)) (h1 : ∀ p, NoHash env (m.install p))
    (h2 : ∀ p, NoHash env (m.uninstall p)) (packages : List Str) (present check : Bool) : NoHash env (packageWith order m packages present check) :=
  .operation (.returned (.bind (nohash_queryInstalled h _) fun _ => .bind (.initialState _) fun _ => .bind (.finalState _) fun _ =>
    .settle (.pure _) fun _ => nohash_ite (nohash_forEach h1 _) (nohash_forEach h2 _)))

theorem nohash_apt (order : List Str → List Str) (opts packages : List Str) (present check : Bool) : NoHash env (packageWith order (apt opts) packages present check) :=
  nohash_packageWith _ (fun _ => .bind (nohash_run _ _ _ _ _ _ _ _) fun _ => .pure' _) (fun _ => nohash_command _) (fun _ => nohash_command _) _ _ _

theorem nohash_pacman (order : List Str → List Str) (opts packages : List Str) (present check : Bool) : NoHash env (packageWith order (pacman opts) packages present check) :=
  nohash_packageWith _ (fun _ => .bind (nohash_run _ _ _ _ _ _ _ _) fun _ => .pure' _) (fun _ => nohash_command _) (fun _ => nohash_command _) _ _ _

theorem nohash_portage (order : List Str → List Str) (opts : List Str) (oneshot : Bool) (packages : List Str) (present check : Bool) :
    NoHash env (packageWith order (portage opts oneshot) packages present check) :=
  nohash_packageWith _ (fun _ => .bind (nohash_run _ _ _ _ _ _ _ _) fun _ => .pure' _) (fun _ => nohash_command _) (fun _ => nohash_command _) _ _ _

theorem nohash_package (order : List Str → List Str) (packages : List Str) (present check : Bool) : NoHash env (package order packages present check) := by
  refine .bind_exec (.bind (nohash_run _ _ _ _ _ _ _ _) fun _ => .pure' _) fun st t a st' h => ?_
  cases a with
  | none => exact .operation (.raise _)
  | some m =>
    obtain ⟨k, hk⟩ := findCommand_mem h
    simp only [packageManagers, List.mem_cons, Prod.mk.injEq, List.not_mem_nil, or_false] at hk
    rcases hk with ⟨_, rfl⟩ | ⟨_, rfl⟩ | ⟨_, rfl⟩
    · exact nohash_apt _ _ _ _ _
    · exact nohash_pacman _ _ _ _ _
    · exact nohash_portage _ _ _ _ _ _

theorem nohash_serviceActions (service : Str) (state : Option Str) (enabled : Option Bool) (userMode : Bool) :
    NoHash env (serviceActions service state enabled userMode) := by
  refine .bind (.whenChanged ?_) fun _ => .whenChanged ?_
  · split
    · exact .pure _
    · split
      · exact .raise _
      · exact nohash_command _
  · split
    · exact .pure _
    · exact nohash_command _

theorem nohash_systemdService (service : Str) (state : Option Str) (enabled : Option Bool) (userMode check : Bool) :
    NoHash env (systemdService service state enabled userMode check) :=
  .operation (nohash_ite (.raise _) (.bind (.bind (nohash_run _ _ _ _ _ _ _ _) fun _ => .pure' _) fun _ => .bind (.bind (nohash_run _ _ _ _ _ _ _ _) fun _ => .pure' _) fun _ =>
    .bind (.initialState _) fun _ => .bind (.finalState _) fun _ => .bind (.unchanged _) fun _ =>
    .returned (nohash_ite .success (.bind (.unlessDry fun _ => nohash_serviceActions _ _ _ _) fun _ => .success))))

theorem nohash_service (name : Str) (state : Option Str) (enabled : Option Bool) (check : Bool) : NoHash env (service name state enabled check) := by
  refine .bind_exec (.bind (nohash_run _ _ _ _ _ _ _ _) fun _ => .pure' _) fun st t a st' h => ?_
  cases a with
  | none => exact .operation (.raise _)
  | some m =>
    obtain ⟨k, hk⟩ := findCommand_mem h
    simp only [serviceManagers, List.mem_cons, Prod.mk.injEq, List.not_mem_nil, or_false] at hk
    obtain ⟨_, rfl⟩ := hk
    exact nohash_systemdService _ _ _ _ _

theorem nohash_submodules (a : RepoArgs) : NoHash env (submodules a) := nohash_ite (nohash_command _) (.pure _)

theorem nohash_repoSettle (a : RepoArgs) (ex : Bool) (c : Option Str) : NoHash env (repoSettle a ex c) :=
  nohash_ite (.bind (.finalState _) fun _ => .success) (.bind (nohash_run _ _ _ _ _ _ _ _) fun _ => .bind (.ofExcept _) fun _ =>
    .bind (.finalState _) fun _ => .bind (.unchanged _) fun _ => nohash_ite .success (.bind .dry fun _ => nohash_ite .success
      (nohash_ite (.bind (nohash_command _) fun _ => .bind (nohash_submodules _) fun _ => .success)
        (.bind (nohash_run _ _ _ _ _ _ _ _) fun _ => nohash_ite (.failure _) (.bind (nohash_command _) fun _ => .bind (nohash_submodules _) fun _ => .success)))))

theorem nohash_repo (a : RepoArgs) (check : Bool) : NoHash env (repo a check) := by
  refine .operation (.bind (.ofExcept _) fun _ => .bind (nohash_stat _ _ _) fun s => ?_)
  cases s with
  | none => exact .bind (.initialState _) fun _ => .returned (nohash_repoSettle _ _ _)
  | some s =>
    refine nohash_ite (.bind (nohash_stat _ _ _) fun g => ?_) (.returned (.failure _))
    cases g with
    | none => exact .returned (.failure _)
    | some g =>
      exact nohash_ite (.returned (.failure _)) (.bind (nohash_run _ _ _ _ _ _ _ _) fun _ => .bind (.initialState _) fun _ =>
        .returned (nohash_repoSettle _ _ _))

theorem nohash_operation {opts : List Str} {op : Op OpResult} (hop : Operation opts op) (hnot : ∀ a check, op ≠ user a check) : NoHash env op := by
  cases hop with
  | directory => exact nohash_directory _ _ _ _ _ _ _
  | file => exact nohash_file _ _ _ _ _ _ _
  | link => exact nohash_link _ _ _ _ _ _ _
  | uploadContent => exact .operation (.bind (.ofExcept _) fun _ => .returned (nohash_saveContent _ _ _ _ _ _))
  | upload => exact nohash_upload _ _ _ _ _ _ _ _
  | uploadDir => exact nohash_uploadDir _ _ _ _ _ _ _ _ _
  | templateContent => exact .operation (.bind (.ofExcept _) fun _ => .bind (.ofExcept _) fun _ => .returned (nohash_saveContent _ _ _ _ _ _))
  | template =>
    exact .operation (.bind (.ofExcept _) fun _ => .bind (.ofExcept _) fun _ => .bind (.ofExcept _) fun _ => .returned (nohash_saveContent _ _ _ _ _ _))
  | line => exact nohash_line _ _ _ _ _ _ _
  | user a check => exact absurd rfl (hnot a check)
  | group => exact nohash_group _ _ _ _ _
  | apt => exact nohash_apt _ _ _ _ _
  | pacman => exact nohash_pacman _ _ _ _ _
  | portage => exact nohash_portage _ _ _ _ _ _
  | package => exact nohash_package _ _ _ _
  | daemonReload => exact .operation (.bind (.initialState _) fun _ => .bind (.finalState _) fun _ => .bind (.unlessDry fun _ => nohash_command _) fun _ => .returned .success)
  | systemdService => exact nohash_systemdService _ _ _ _ _
  | service => exact nohash_service _ _ _ _
  | repo => exact nohash_repo _ _

end Verif.Ops
