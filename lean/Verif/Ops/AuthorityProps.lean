/-
Operations act on nothing but what they are told (C76).
-/
import Verif.Ops.AuthoritySpec
import Verif.Ops.OptionProps
import Verif.Ops.MirrorProps
import Verif.Ops.Record

namespace Verif.Ops

open Script
open Client (isQuery)
open Wire (Packet)

/-- Requests that only look, or ask for something that is allowed. -/
def Allowed (A : Act → Prop) (p : Packet) : Prop := ReadOnly p ∨ ∃ a, A a ∧ Requests p a

variable {env : Env} {A : Act → Prop}

theorem allowed_query : ∀ p, isQuery p = true → Allowed A p := fun p h => .inl (readOnly_query p h)

theorem Sends.mono {α : Type} {P Q : Packet → Prop} {m : Op α} (h : Sends P env m) (hq : ∀ p, P p → Q p) : Sends Q env m :=
  fun st t r st' he e hm => hq _ (h st t r st' he e hm)

theorem may_quiet {α : Type} {m : Op α} (h : Quiet env m) : Sends (Allowed A) env m := h.mono fun _ h => .inl h

theorem may_look {command : List Str} {check : Bool} (h : LooksOnly command) :
    Sends (Allowed A) env (Connection.run command none true check) := may_quiet (quiet_run h)

theorem may_run {command : List Str} (h : A (.command command)) : Sends (Allowed A) env (runCommand command) :=
  .runCommand fun user group umask cwd => .inr ⟨_, h, user, group, umask, cwd, rfl⟩

theorem may_write {file : Str} {content : Bytes} (h : A (.write file content)) (mode owner group : Option Str) :
    Sends (Allowed A) env (Connection.upload file content mode owner group) := by
  unfold Connection.upload
  exact .one (.inr ⟨_, h, _, _, _, rfl⟩)

theorem may_directory {path : Str} {present touch : Bool} {mode owner group : Option Str} {check : Bool}
    (h : ∀ attr, Sends (Allowed A) env (directoryActions path present attr)) : Sends (Allowed A) env (directory path present touch mode owner group check) := by
  refine .operation (.bind (.ofExcept _) fun _ => .returned (.withDefaults allowed_query fun attr => ?_))
  refine .bind (.finalState _) fun _ => .bind (.stat allowed_query _ _ _) fun s => ?_
  cases s with
  | none => exact .bind (.initialState _) fun _ => .settle (.pure _) fun _ => h _
  | some s => exact sends_ite (.failure _) (.bind (.initialState _) fun _ => .settle (.pure _) fun _ => h _)

theorem may_make (hA : ∀ a, Makes path a → A a) (attr : Settings) : Sends (Allowed A) env (directoryActions path true attr) :=
  .bind (.whenChanged (may_run (hA _ .mkdir))) fun _ => .bind (.whenChanged (may_run (hA _ (.attributes _ (.chmod _))))) fun _ =>
    .bind (.whenEither (may_run (hA _ (.attributes _ (.chown _))))) fun _ =>
    .bind (.changed _) fun _ => sends_ite (.pure _) (.whenChanged (may_run (hA _ .touch)))

theorem may_file {path : Str} {present touch : Bool} {mode owner group : Option Str} {check : Bool}
    (h : ∀ attr, Sends (Allowed A) env (fileActions path present attr)) : Sends (Allowed A) env (file path present touch mode owner group check) := by
  refine .operation (.bind (.ofExcept _) fun _ => .returned (.withDefaults allowed_query fun attr => ?_))
  refine .bind (.finalState _) fun _ => .bind (.stat allowed_query _ _ _) fun s => ?_
  cases s with
  | none => exact .bind (.initialState _) fun _ => .settle (.pure _) fun _ => h _
  | some s => exact sends_ite (.failure _) (.bind (.initialState _) fun _ => .settle (.pure _) fun _ => h _)

theorem may_link {path target : Str} {present touch : Bool} {owner group : Option Str} {check : Bool}
    (h : ∀ attr, Sends (Allowed A) env (linkActions path target present attr)) : Sends (Allowed A) env (link path target present touch owner group check) := by
  refine .operation (.bind (.ofExcept _) fun _ => sends_ite (.raise _) (.returned (.withDefaults allowed_query fun attr => ?_)))
  refine .bind (.finalState _) fun _ => .bind (.stat allowed_query _ _ _) fun s => ?_
  cases s with
  | none => exact .bind (.initialState _) fun _ => .settle (.pure _) fun _ => h _
  | some s =>
    exact sends_ite (.failure _) (.bind (may_look (.readlink _)) fun _ => .bind (.ofExcept _) fun _ => .bind (.initialState _) fun _ => .settle (.pure _) fun _ => h _)

theorem may_saveContent {sha512 : Bytes → Bytes} {content : Content} {bytes : Bytes} {dest : Str} {mode owner group : Option Str}
    (hc : content.encode = .ok bytes) (hA : ∀ a, Saves dest bytes a → A a) :
    Sends (Allowed A) env (saveContent sha512 content dest mode owner group) := by
  unfold saveContent
  rw [hc]
  intro st t r st' he
  rcases execution_bind.mp he with ⟨e, rfl, h1⟩ | ⟨t1, t2, a, st1, h1, h2, rfl⟩
  · obtain ⟨rfl, h1, _⟩ := execution_ofExcept.mp h1
    cases h1
  · obtain ⟨rfl, h1, _⟩ := execution_ofExcept.mp h1
    cases h1
    refine Sends.withDefaults allowed_query (fun attr => ?_) _ _ _ _ h2
    have hs : Sends (Allowed A) env (settle (saveDiff dest bytes) (saveActions attr bytes dest)) :=
      .settle (may_quiet (quiet_saveDiff _ _)) fun _ => .bind (.changedEither _ _) fun _ => sends_ite (may_write (hA _ .write) _ _ _)
        (.bind (.whenChanged (may_run (hA _ (.attributes _ (.chmod _))))) fun _ => .whenEither (may_run (hA _ (.attributes _ (.chown _)))))
    refine .bind (.finalState _) fun _ => .bind (.stat allowed_query _ _ _) fun s => ?_
    cases s with
    | none => exact .bind (.initialState _) fun _ => hs
    | some s => exact sends_ite (.failure _) (.bind (.initialState _) fun _ => hs)

theorem sends_known {α β : Type} {x : Except Exn β} {content : β} {f : β → Op α} (hx : x = .ok content) (h : Sends (Allowed A) env (f content)) :
    Sends (Allowed A) env (Op.ofExcept x >>= f) := by
  subst hx
  intro st t r st' he
  rcases execution_bind.mp he with ⟨e, rfl, h1⟩ | ⟨t1, t2, a, st1, h1, h2, rfl⟩
  · obtain ⟨rfl, h1, _⟩ := execution_ofExcept.mp h1
    cases h1
  · obtain ⟨rfl, h1, _⟩ := execution_ofExcept.mp h1
    cases h1
    exact h _ _ _ _ h2

theorem may_upload {sha512 : Bytes → Bytes} {src : Str} {content : Bytes} {dest : Str} {mode owner group : Option Str} {check : Bool}
    (hA : ∀ a, Saves (destOf src dest) content a → A a) :
    Sends (Allowed A) env (upload sha512 src (.ok content) dest mode owner group check) := by
  exact .operation (.bind (.ofExcept _) fun _ => sends_known rfl (.returned (may_saveContent rfl hA)))

theorem may_line (path text : Str) (present : Bool) (regex : Option Regex) (ignoreWhitespace : Bool) (backup : Backup) (check : Bool) :
    Sends (Allowed (Edits path)) env (line path text present regex ignoreWhitespace backup check) := by
  have hs : ∀ attr orig, Sends (Allowed (Edits path)) env (lineSettle path text present regex ignoreWhitespace backup attr orig) := by
    intro attr orig
    refine .bind (.initialState _) fun _ => .bind (.unchanged _) fun _ => sends_ite .success (.bind (.ofExcept _) fun _ =>
      .bind (.bind .diffWanted fun _ => sends_ite (.opDiff _ _ _) (.pure _)) fun _ => .bind (.unlessDry fun _ => ?_) fun _ => .success)
    cases orig with
    | none => exact may_write (.write _) _ _ _
    | some o =>
      refine .bind ?_ fun _ => may_write (.write _) _ _ _
      unfold lineBackup
      split
      · exact may_run (.backup _)
      · exact .pure _
  refine .operation (.bind (.ofExcept _) fun _ => .returned (.withDefaults allowed_query fun attr => ?_))
  refine .bind (.finalState _) fun _ => .bind (.stat allowed_query _ _ _) fun s => ?_
  cases s with
  | none => exact hs _ _
  | some s => exact sends_ite (.failure _) (.bind (.download allowed_query _) fun _ => hs _ _)

theorem may_user {a : UserArgs} {check : Bool} (h : ∀ t, Sends (Allowed A) env (userActions a t)) : Sends (Allowed A) env (user a check) :=
  .operation (.bind (.queryUser allowed_query _ _ _) fun _ => .bind (.initialState _) fun _ => .bind (.finalState _) fun _ =>
    .returned (.settle (.pure _) fun _ => h _))

theorem may_usermod {user : Str} (key option : Str) (value : Option Str) : Sends (Allowed (Adjusts user)) env (usermodIf key option value user) := by
  refine .whenChanged ?_
  cases value with
  | none => exact .pure _
  | some v => exact may_run (.usermod _ _)

theorem useradd_shape (a : UserArgs) (t : UserTarget) : Adjusts a.user (.command (useraddCommand a t)) := by
  have front : ∀ (c : Str) (l : List Str), (∃ m, l = c :: m) → ∀ k, ∃ m, l ++ k = c :: m := by
    rintro c _ ⟨m, rfl⟩ k
    exact ⟨m ++ k, rfl⟩
  have h0 : ∃ l, useraddCommand a t = p!"useradd" :: l ++ [p!"--", a.user] := by
    unfold useraddCommand
    generalize hl : (_ ++ _ : List Str) = l
    obtain ⟨x, hx⟩ : ∃ x, l = x ++ [p!"--", a.user] ∧ ∃ m, x = p!"useradd" :: m :=
      ⟨_, hl.symm, by repeat' apply front
                      exact ⟨_, rfl⟩⟩
    obtain ⟨rfl, m, rfl⟩ := hx
    exact ⟨m, rfl⟩
  obtain ⟨l, hl⟩ := h0
  rw [hl]
  exact .useradd _

theorem may_packageWith {order : List Str → List Str} {m : Manager} {packages : List Str} {present check : Bool} (ho : ∀ l p, p ∈ order l → p ∈ l)
    (hq : ∀ p, Quiet env (m.isInstalled p)) (hi : present = true → ∀ p ∈ packages, Sends (Allowed A) env (m.install p))
    (hu : present = false → ∀ p ∈ packages, Sends (Allowed A) env (m.uninstall p)) :
    Sends (Allowed A) env (packageWith order m packages present check) := by
  have each : ∀ (f : Str → Op Unit) (l : List Str), (∀ p ∈ l, Sends (Allowed A) env (f p)) → Sends (Allowed A) env (forEach f l) := by
    intro f l
    induction l with
    | nil => exact fun _ => .pure _
    | cons p ps ih => exact fun h => .bind (h p (by simp)) fun _ => ih fun q hq => h q (by simp [hq])
  have dmem : ∀ (l : List Str) p, p ∈ distinct l → p ∈ l := by
    intro l
    induction l with
    | nil => simp [distinct]
    | cons x xs ih =>
      intro p hp
      unfold distinct at hp
      split at hp
      · exact List.mem_cons_of_mem _ (ih p hp)
      · rcases List.mem_cons.mp hp with rfl | hp
        · simp
        · exact List.mem_cons_of_mem _ (ih p hp)
  refine .operation (.returned (.bind_exec (may_quiet (quiet_queryInstalled hq _)) fun st t installed st' hx => ?_))
  refine .bind (.initialState _) fun _ => .bind (.finalState _) fun _ => .settle (.pure _) fun _ => ?_
  have hsub : ∀ p ∈ installed, p ∈ packages := by
    have : ∀ (l : List Str) (st st' : St) (t : Trace) (i : List Str), Execution (queryInstalled m l) env st t (.ok i) st' → ∀ p ∈ i, p ∈ l := by
      intro l
      induction l with
      | nil =>
        intro st st' t i h
        obtain ⟨_, h, _⟩ := execution_pure.mp h
        cases h
        simp
      | cons q qs ih =>
        intro st st' t i h
        replace h := execution_ok_bind h
        obtain ⟨t1, t2, b, st1, rfl, _, h⟩ := h
        replace h := execution_ok_bind h
        obtain ⟨t3, t4, rest, st2, rfl, h3, h⟩ := h
        obtain ⟨_, h, _⟩ := execution_pure.mp h
        cases h
        have := ih _ _ _ _ h3
        intro p hp
        split at hp
        · rcases List.mem_cons.mp hp with rfl | hp
          · simp
          · exact List.mem_cons_of_mem _ (this p hp)
        · exact List.mem_cons_of_mem _ (this p hp)
    exact this _ _ _ _ _ hx
  cases present with
  | true => exact each _ _ fun p hp => hi rfl p (dmem _ _ (List.mem_filter.mp (ho _ _ hp)).1)
  | false => exact each _ _ fun p hp => hu rfl p (hsub p (dmem _ _ (ho _ _ hp)))

theorem may_apt {order : List Str → List Str} (ho : ∀ l p, p ∈ order l → p ∈ l) (opts packages : List Str) (check : Bool) :
    Sends (Allowed (Installs packages)) env (packageWith order (apt opts) packages true check)
    ∧ Sends (Allowed (Uninstalls packages)) env (packageWith order (apt opts) packages false check) :=
  ⟨may_packageWith ho (quiet_apt opts) (fun _ p hp => may_run (.apt opts p hp)) (fun h => nomatch h),
   may_packageWith ho (quiet_apt opts) (fun h => nomatch h) (fun _ p hp => may_run (.apt opts p hp))⟩

theorem may_pacman {order : List Str → List Str} (ho : ∀ l p, p ∈ order l → p ∈ l) (opts packages : List Str) (check : Bool) :
    Sends (Allowed (Installs packages)) env (packageWith order (pacman opts) packages true check)
    ∧ Sends (Allowed (Uninstalls packages)) env (packageWith order (pacman opts) packages false check) :=
  ⟨may_packageWith ho (quiet_pacman opts) (fun _ p hp => may_run (.pacman opts p hp)) (fun h => nomatch h),
   may_packageWith ho (quiet_pacman opts) (fun h => nomatch h) (fun _ p hp => may_run (.pacman opts p hp))⟩

theorem may_portage {order : List Str → List Str} (ho : ∀ l p, p ∈ order l → p ∈ l) (opts : List Str) (oneshot : Bool) (packages : List Str) (check : Bool) :
    Sends (Allowed (Installs packages)) env (packageWith order (portage opts oneshot) packages true check)
    ∧ Sends (Allowed (Uninstalls packages)) env (packageWith order (portage opts oneshot) packages false check) :=
  ⟨may_packageWith ho (quiet_portage opts oneshot) (fun _ p hp => may_run (.portage _ p hp)) (fun h => nomatch h),
   may_packageWith ho (quiet_portage opts oneshot) (fun h => nomatch h) (fun _ p hp => may_run (.portage opts p hp))⟩

theorem may_package {order : List Str → List Str} (ho : ∀ l p, p ∈ order l → p ∈ l) (packages : List Str) (present check : Bool)
    (h : ∀ m, m = apt [] ∨ m = pacman [] ∨ m = portage [] false → Sends (Allowed A) env (packageWith order m packages present check)) :
    Sends (Allowed A) env (package order packages present check) := by
  refine .bind_exec (may_quiet quiet_findPackage) fun st t a st' hx => ?_
  cases a with
  | none => exact .operation (.raise _)
  | some m =>
    obtain ⟨k, hk⟩ := findCommand_mem hx
    simp only [packageManagers, List.mem_cons, Prod.mk.injEq, List.not_mem_nil, or_false] at hk
    refine h m ?_
    rcases hk with ⟨_, rfl⟩ | ⟨_, rfl⟩ | ⟨_, rfl⟩ <;> simp

theorem may_systemd (service : Str) (state : Option Str) (enabled : Option Bool) (userMode check : Bool) :
    Sends (Allowed (Controls service state enabled (if userMode then [p!"--user"] else []))) env (systemdService service state enabled userMode check) := by
  refine .operation (sends_ite (.raise _) (.bind (may_quiet (quiet_showProperty _ _)) fun _ => .bind (may_quiet (quiet_showProperty _ _)) fun _ =>
    .bind (.initialState _) fun _ => .bind (.finalState _) fun _ => .bind (.unchanged _) fun _ =>
    .returned (sends_ite .success (.bind (.unlessDry fun _ => ?_) fun _ => .success))))
  have base : ∀ a, (if userMode then [p!"systemctl", p!"--user"] else [p!"systemctl"]) ++ [a, p!"--", service]
      = p!"systemctl" :: (if userMode then [p!"--user"] else []) ++ [a, p!"--", service] := by
    intro a
    cases userMode <;> rfl
  refine .bind (.whenChanged ?_) fun _ => .whenChanged ?_
  · cases state with
    | none => exact .pure _
    | some s =>
      dsimp only
      cases ha : stateAction s with
      | none => exact .raise _
      | some a =>
        refine may_run ?_
        rw [base]
        unfold stateAction at ha
        split at ha
        · next h => cases ha; exact .start (by rw [h])
        · split at ha
          · next h => cases ha; exact .restart (by rw [h])
          · split at ha
            · next h => cases ha; exact .reload (by rw [h])
            · split at ha
              · next h => cases ha; exact .stop (by rw [h])
              · cases ha
  · cases enabled with
    | none => exact .pure _
    | some e =>
      refine may_run ?_
      rw [base]
      cases e with
      | true => exact .enable rfl
      | false => exact .disable rfl

theorem may_checkout {A : Act → Prop} (a : RepoArgs) (check : Bool) (hclone : A (.command (cloneCommand a))) (hpull : A (.command (pullCommand a)))
    (hmod : A (.command (submoduleCommand a))) : Sends (Allowed A) env (repo a check) := by
  have hsub : Sends (Allowed A) env (submodules a) := sends_ite (may_run hmod) (.pure _)
  have hs : ∀ ex c, Sends (Allowed A) env (repoSettle a ex c) := fun ex c =>
    sends_ite (.bind (.finalState _) fun _ => .success) (.bind (may_look (.gitUpstream _ _))
      fun _ => .bind (.ofExcept _) fun _ => .bind (.finalState _) fun _ => .bind (.unchanged _) fun _ => sends_ite .success (.bind .dry fun _ => sends_ite .success
        (sends_ite (.bind (may_run hclone) fun _ => .bind hsub fun _ => .success)
          (.bind (may_look (.gitUrl _))
            fun _ => sends_ite (.failure _) (.bind (may_run hpull) fun _ => .bind hsub fun _ => .success)))))
  refine .operation (.bind (.ofExcept _) fun _ => .bind (.stat allowed_query _ _ _) fun s => ?_)
  cases s with
  | none => exact .bind (.initialState _) fun _ => .returned (hs _ _)
  | some s =>
    refine sends_ite (.bind (.stat allowed_query _ _ _) fun g => ?_) (.returned (.failure _))
    cases g with
    | none => exact .returned (.failure _)
    | some g =>
      exact sends_ite (.returned (.failure _)) (.bind (may_look (.gitCommit _)) fun _ => .bind (.initialState _) fun _ => .returned (hs _ _))

theorem may_repo (a : RepoArgs) (check : Bool) : Sends (Allowed (Clones a.url a.path)) env (repo a check) := by
  refine may_checkout a check ?_ ?_ ?_
  · unfold cloneCommand
    rw [List.append_assoc, List.append_assoc, ← List.append_assoc (optArg _ _), ← List.append_assoc]
    exact .clone _
  · unfold pullCommand
    simp only [List.append_assoc]
    exact .pull _
  · unfold submoduleCommand
    rw [List.append_assoc]
    exact .submodules _

/-- C76. Whatever the host answers, everything that an operation requests either only looks at the host, or is one of the
changes that its arguments stand for: nothing is removed unless that was asked for, no other path, account, package, unit or
repository is named, and no other content is written. -/
theorem C76_only_what_was_asked (op : Op OpResult) (allowed : Act → Prop) (hop : May op allowed) (env : Env) (st st' : St) (t : Trace)
    (r : Except Exn OpResult) (h : Execution op env st t r st') :
    ∀ e ∈ t, ReadOnly e.1 ∨ ∃ act, allowed act ∧ Requests e.1 act := by
  have key : Sends (Allowed allowed) env op := by
    cases hop with
    | directory => exact may_directory fun _ => may_make (fun _ h => h) _
    | removeDirectory => exact may_directory fun _ => .whenChanged (may_run .run)
    | file =>
      exact may_file fun _ => .bind (.whenEither (may_run .touch)) fun _ => .bind (.whenChanged (may_run (.attributes _ (.chmod _)))) fun _ =>
        .whenEither (may_run (.attributes _ (.chown _)))
    | removeFile => exact may_file fun _ => .whenChanged (may_run .run)
    | link =>
      exact may_link fun _ => .bind (.whenChanged (may_run .ln)) fun _ => .bind (.whenEither (may_run (.chown _))) fun _ =>
        .bind (.changed _) fun _ => sends_ite (.pure _) (.whenChanged (may_run .touch))
    | removeLink => exact may_link fun _ => .whenChanged (may_run .run)
    | uploadBytes => exact .operation (.bind (.ofExcept _) fun _ => .returned (may_saveContent rfl fun _ h => h))
    | uploadText _ _ _ _ _ _ _ _ he =>
      exact .operation (.bind (.ofExcept _) fun _ => .returned (may_saveContent (by simp only [Content.encode, he]) fun _ h => h))
    | upload => exact may_upload fun _ h => h
    | templateContent _ _ _ _ _ _ _ _ _ _ _ _ ht he =>
      exact .operation (.bind (.ofExcept _) fun _ => sends_known (by simp only [renderTemplate, ht, Content.encode, he])
        (.returned (may_saveContent rfl fun _ h => h)))
    | template _ _ _ _ _ _ _ _ _ _ _ _ _ ht he =>
      exact .operation (.bind (.ofExcept _) fun _ => sends_known rfl (sends_known (by simp only [renderTemplate, ht, Content.encode, he])
        (.returned (may_saveContent rfl fun _ h => h))))
    | line => exact may_line _ _ _ _ _ _ _
    | user args _ hp =>
      refine may_user fun t => .bind (.changed _) fun _ => ?_
      rw [hp]
      exact sends_ite (may_run (useradd_shape _ _)) (.bind (may_usermod _ _ _) fun _ => .bind (may_usermod _ _ _) fun _ => .bind (may_usermod _ _ _) fun _ =>
        .bind (may_usermod _ _ _) fun _ => .bind (may_usermod _ _ _) fun _ => .bind (may_usermod _ _ _) fun _ => may_usermod _ _ _)
    | removeUser args _ hp =>
      refine may_user fun t => .bind (.changed _) fun _ => ?_
      rw [hp]
      exact sends_ite (may_run .run) (.pure _)
    | group name gid system =>
      refine .operation (.bind (.queryGroup allowed_query _ _) fun _ => .bind (.initialState _) fun _ => .bind (.finalState _) fun _ =>
        .returned (.settle (.pure _) fun _ => .bind (.changed _) fun _ => sends_ite (may_run ?_) (.whenChanged ?_)))
      · unfold groupaddCommand
        rw [List.append_assoc, List.append_assoc, ← List.append_assoc (if system = true then _ else _)]
        exact .groupadd _
      · split
        · exact .pure _
        · exact may_run (.groupmod _)
    | removeGroup =>
      exact .operation (.bind (.queryGroup allowed_query _ _) fun _ => .bind (.initialState _) fun _ => .bind (.finalState _) fun _ =>
        .returned (.settle (.pure _) fun _ => .bind (.changed _) fun _ => sends_ite (may_run .run) (.pure _)))
    | package _ _ _ ho =>
      refine may_package ho _ _ _ ?_
      rintro m (rfl | rfl | rfl)
      · exact (may_apt ho _ _ _).1
      · exact (may_pacman ho _ _ _).1
      · exact (may_portage ho _ _ _ _).1
    | removePackage _ _ _ ho =>
      refine may_package ho _ _ _ ?_
      rintro m (rfl | rfl | rfl)
      · exact (may_apt ho _ _ _).2
      · exact (may_pacman ho _ _ _).2
      · exact (may_portage ho _ _ _ _).2
    | apt _ _ _ _ ho => exact (may_apt ho _ _ _).1
    | removeApt _ _ _ _ ho => exact (may_apt ho _ _ _).2
    | pacman _ _ _ _ ho => exact (may_pacman ho _ _ _).1
    | removePacman _ _ _ _ ho => exact (may_pacman ho _ _ _).2
    | portage _ _ _ _ _ ho => exact (may_portage ho _ _ _ _).1
    | removePortage _ _ _ _ _ ho => exact (may_portage ho _ _ _ _).2
    | daemonReload => exact .operation (.bind (.initialState _) fun _ => .bind (.finalState _) fun _ => .bind (.unlessDry fun _ => may_run .run) fun _ => .returned .success)
    | daemonReloadUser => exact .operation (.bind (.initialState _) fun _ => .bind (.finalState _) fun _ => .bind (.unlessDry fun _ => may_run .run) fun _ => .returned .success)
    | systemdService => exact may_systemd _ _ _ false _
    | systemdUserService => exact may_systemd _ _ _ true _
    | service =>
      refine .bind_exec (may_quiet quiet_findService) fun st t a st' hx => ?_
      cases a with
      | none => exact .operation (.raise _)
      | some m =>
        obtain ⟨k, hk⟩ := findCommand_mem hx
        simp only [serviceManagers, List.mem_cons, Prod.mk.injEq, List.not_mem_nil, or_false] at hk
        obtain ⟨_, rfl⟩ := hk
        exact may_systemd _ _ _ false _
    | repo => exact may_repo _ _
  exact key st t r st' h

/-- Removing one package: a question, and the one command. -/
example : May (packageWith id (pacman []) [p!"vim"] false true) (Uninstalls [p!"vim"])
    ∧ ∃ t r st', Execution (packageWith id (pacman []) [p!"vim"] false true) { base := {} } { stack := [{}] } t r st'
      ∧ ∃ e ∈ t, Requests e.1 (.command [p!"pacman", p!"--color", p!"always", p!"--noconfirm", p!"-Rns", p!"--", p!"vim"]) :=
  ⟨.removePacman _ _ _ _ fun _ _ h => h,
   [(.processRun [p!"pacman", p!"-Ql", p!"--", p!"vim"] none true none none none none, .ok (.processCompleted (some []) (some []) 0)),
    (.processRun [p!"pacman", p!"--color", p!"always", p!"--noconfirm", p!"-Rns", p!"--", p!"vim"] none true none none none none,
      .ok (.processCompleted (some []) (some []) 0))], _, _, .req _ _ _ _ _ (.req _ _ _ _ _ (.ret _)), _,
   List.mem_cons_of_mem _ (List.mem_singleton.mpr rfl), _, _, _, _, rfl⟩

/-- Removing is not among the changes for which a directory is asked to be present. -/
example (path : Str) (argv : List Str) : ¬ Makes path (.command (p!"rm" :: argv)) := by
  rintro (_ | _ | ⟨_, _ | _⟩)

/-- C76 for `upload_dir`: directories are made, and files written, at the places in the destination that correspond to the
directories and files of the source tree, and nowhere else. -/
theorem C76_upload_dir (sha512 : Bytes → Bytes) (src dest : Str) (entries : List (Str × Tree)) (names : List Str)
    (hp : Tree.Proper (.dir entries)) (hl : Lands src dest names) (dirMode fileMode owner group : Option Str) (check : Bool)
    (env : Env) (st st' : St) (t : Trace) (r : Except Exn OpResult)
    (h : Execution (uploadDir sha512 src (.dir entries) dest dirMode fileMode owner group check) env st t r st') :
    ∀ e ∈ t, ReadOnly e.1 ∨ ∃ rel x act, Tree.At (.dir entries) rel x ∧ Requests e.1 act
      ∧ ((x.isDir = true ∧ Makes (pathOf (names ++ rel)) act) ∨ ∃ c, x.content? = some (.ok c) ∧ Saves (pathOf (names ++ rel)) c act) := by
  obtain ⟨hdest, hnames⟩ := destOf_lands hl
  let A : Act → Prop := fun act => ∃ rel x, Tree.At (.dir entries) rel x
      ∧ ((x.isDir = true ∧ Makes (pathOf (names ++ rel)) act) ∨ ∃ c, x.content? = some (.ok c) ∧ Saves (pathOf (names ++ rel)) c act)
  have hdirs : ∀ l : List Str, (∀ d ∈ l, ∀ a, Makes d a → A a) → Sends (Allowed A) env (uploadDirs dirMode owner group l) := by
    intro l
    induction l with
    | nil => exact fun _ => .pure _
    | cons d ds ih =>
      exact fun hd => .bind (may_directory fun _ => may_make (hd d (by simp)) _) fun _ => .bind (.addNestedResult _ _) fun _ => ih fun d h => hd d (by simp [h])
  have hfiles : ∀ l : List (Tree × Str), (∀ x ∈ l, ∀ c, x.1.content? = some (.ok c) → (destOf (baseName x.2) x.2 = x.2 ∧ ∀ a, Saves x.2 c a → A a)) →
      Sends (Allowed A) env (uploadFiles sha512 fileMode owner group l) := by
    intro l
    induction l with
    | nil => exact fun _ => .pure _
    | cons d ds ih =>
      intro hd
      obtain ⟨tr, df⟩ := d
      rw [uploadFiles]
      have ih := ih fun x h => hd x (by simp [h])
      split
      · next c hc =>
        refine .bind ?_ fun _ => .bind (.addNestedResult _ _) fun _ => ih
        cases c with
        | ok c =>
          have := hd (tr, df) (by simp) c hc
          exact may_upload (by rw [this.1]; exact this.2)
        | error e =>
          refine .operation (.bind (.ofExcept _) fun _ => ?_)
          intro st t r st' hx
          rcases execution_bind.mp hx with ⟨e, rfl, h1⟩ | ⟨t1, t2, a, st1, h1, h2, rfl⟩
          · obtain ⟨rfl, _, _⟩ := execution_ofExcept.mp h1
            simp
          · obtain ⟨rfl, h1, _⟩ := execution_ofExcept.mp h1
            cases h1
      · exact ih
  have key : Sends (Allowed A) env (uploadDir sha512 src (.dir entries) dest dirMode fileMode owner group check) := by
    refine .operation (.bind (.setNested _) fun _ => .bind (.ofExcept _) fun _ => ?_)
    dsimp only
    rw [hdest, destDirs_eq hp hnames, destFiles_eq hp hnames]
    refine sends_ite (.raise _) (.bind (hdirs _ ?_) fun _ => .bind (hfiles _ ?_) fun _ => .returned .success)
    · intro d hd a ha
      obtain ⟨rel, hr, rfl⟩ := List.mem_map.mp hd
      obtain ⟨x, hx, hdir⟩ := relDirs_mem.mp hr
      exact ⟨rel, x, hx, .inl ⟨hdir, ha⟩⟩
    · intro d hd c hc
      obtain ⟨y, hy, rfl⟩ := List.mem_map.mp hd
      obtain ⟨hat, hdir⟩ := relFiles_mem.mp hy
      refine ⟨?_, fun a ha => ⟨y.1, y.2, hat, .inr ⟨c, hc, ha⟩⟩⟩
      rcases List.eq_nil_or_concat y.1 with hnil | ⟨l, m, hlm⟩
      · rw [hnil] at hat
        have hroot : y.2 = .dir entries := at_unique hp hat (.here _)
        rw [hroot] at hdir
        cases hdir
      · rw [hlm, List.concat_eq_append, ← List.append_assoc]
        refine destOf_pathOf fun n hn => ?_
        rw [List.append_assoc, ← List.concat_eq_append, ← hlm, List.mem_append] at hn
        exact hn.elim (hnames n) (at_names hp hat n)
  intro e he
  rcases key st t r st' h e he with h | ⟨a, ⟨rel, x, h1, h2⟩, h3⟩
  · exact .inl h
  · exact .inr ⟨rel, x, a, h1, h3, h2⟩

/-- `upload_dir("./site", "/tmp/")` on the example host: two directories and two files. -/
example : Tree.Proper (.dir Example.tree)
    ∧ (conversation Example.sys Example.always (uploadDir Example.sys.sha512 p!"./site" (.dir Example.tree) p!"/tmp/" none none (some p!"alice") none true)
        Example.env Example.st Example.host).filterMap (fun e => match e.1 with
          | .processRun argv _ _ _ _ _ _ => some argv
          | .upload file _ _ _ _ => some [file]
          | _ => none)
      = [[p!"mkdir", p!"--", p!"/tmp/site"], [p!"chmod", p!"700", p!"--", p!"/tmp/site"], [p!"chown", p!"alice:root", p!"--", p!"/tmp/site"],
         [p!"mkdir", p!"--", p!"/tmp/site/sub"], [p!"chmod", p!"700", p!"--", p!"/tmp/site/sub"], [p!"chown", p!"alice:root", p!"--", p!"/tmp/site/sub"],
         [p!"/tmp/site/a.conf"], [p!"/tmp/site/sub/b"]] :=
  ⟨Example.tree_proper, by decide +kernel⟩

end Verif.Ops
