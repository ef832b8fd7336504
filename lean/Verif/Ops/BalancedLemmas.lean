/-
Operations leave the defaults that are in force as they are.
-/
import Verif.Ops.ReportProps
import Verif.Ops.LookLemmas
import Verif.Ops.CallsProps
import Verif.Ops.AuthorityProps
import Verif.Ops.UserProps
import Verif.Ops.PackageProps
import Verif.Ops.ServiceProps

namespace Verif.Ops

open Script Remote
open Wire (Packet)

variable {α : Type} {env : Env}

theorem balanced_user (a : UserArgs) (check : Bool) : Balanced (user a check) :=
  .operation (.bind (keeps_queryUser _ _ _) fun _ => .bind (balanced_initialState _) fun _ => .bind (balanced_finalState _) fun _ =>
    balanced_returned (balanced_settle (.pure _) (keeps_userActions _ _)))

theorem balanced_group (name : Str) (present : Bool) (gid : Option Int) (system check : Bool) : Balanced (group name present gid system check) :=
  .operation (.bind (keeps_queryGroup _ _) fun _ => .bind (balanced_initialState _) fun _ => .bind (balanced_finalState _) fun _ =>
    balanced_returned (balanced_settle (.pure _) (keeps_groupActions _ _ _ _)))

theorem balanced_packageWith (order : List Str → List Str) {m : Manager} (hm : ∀ p, Balanced (m.isInstalled p)) (hi : ∀ p, Balanced (m.install p))
    (hu : ∀ p, Balanced (m.uninstall p)) (names : List Str) (present check : Bool) : Balanced (packageWith order m names present check) := by
  refine .operation (balanced_returned (.bind (keeps_queryInstalled hm _) fun _ => .bind (balanced_initialState _) fun _ => .bind (balanced_finalState _) fun _ =>
    balanced_settle (.pure _) ?_))
  cases present with
  | true => exact keeps_forEach hi _
  | false => exact keeps_forEach hu _

theorem balanced_systemdService (unit : Str) (state : Option Str) (enabled : Option Bool) (userMode check : Bool) :
    Balanced (systemdService unit state enabled userMode check) := by
  refine .operation ?_
  split
  · exact .raise _
  · refine .bind (keeps_showProperty _ _) fun _ => .bind (keeps_showProperty _ _) fun _ => .bind (balanced_initialState _) fun _ =>
      .bind (balanced_finalState _) fun _ => .bind (balanced_unchanged _) fun _ => balanced_returned ?_
    split
    · exact balanced_success
    · exact .bind (Keeps.unlessDry (f := St.stack) (keeps_serviceActions _ _ _ _)) fun _ => balanced_success

theorem backend_balanced {m : Manager} {query install remove : Str → List Str} {yes : Option Bytes → Int → Prop} (hb : Backend m query install remove yes)
    (order : List Str → List Str) (names : List Str) (present check : Bool) : Balanced (packageWith order m names present check) := by
  obtain ⟨Y⟩ := hb.queries
  refine balanced_packageWith order (fun p => ?_) (fun p => ?_) (fun p => ?_) names present check
  · rw [Y.isInstalled]; exact .bind (balanced_run _ _ _ _ _ _ _ _) fun _ => .pure _
  · rw [Y.installs]; exact Keeps.runCommand _
  · rw [Y.uninstalls]; exact Keeps.runCommand _

theorem balanced_ite {c : Prop} [Decidable c] {a b : Op α} (ha : Balanced a) (hb : Balanced b) : Balanced (if c then a else b) := by
  split <;> assumption

theorem balanced_keeps {m : Op α} (h : Keeps id m) : Balanced m := fun _ _ _ _ _ he => congrArg St.stack (h _ _ _ _ _ he)

theorem balanced_line (path text : Str) (present : Bool) (regex : Option Regex) (ignoreWhitespace : Bool) (backup : Backup) (check : Bool) :
    Balanced (line path text present regex ignoreWhitespace backup check) := by
  refine .operation (.bind (.ofExcept _) fun _ => balanced_returned (.withDefaults fun attr => ?_))
  refine .bind (balanced_finalState _) fun _ => .bind (.call _) fun s => ?_
  cases s with
  | none => exact balanced_lineSettle _ _ _ _ _ _ _ _
  | some s => exact balanced_ite (balanced_failure _) (.bind (.call _) fun _ => balanced_lineSettle _ _ _ _ _ _ _ _)

theorem balanced_repoSettle (a : RepoArgs) (ex : Bool) (c : Option Str) : Balanced (repoSettle a ex c) :=
  balanced_ite (.bind (balanced_finalState _) fun _ => balanced_success) (.bind (balanced_run _ _ _ _ _ _ _ _) fun _ => .bind (.ofExcept _) fun _ =>
    .bind (balanced_finalState _) fun _ => .bind (balanced_unchanged _) fun _ => balanced_ite balanced_success (.bind (balanced_keeps .dry) fun _ => balanced_ite balanced_success (balanced_ite
      (.bind (balanced_keeps (.runCommand _)) fun _ => .bind (balanced_keeps (keeps_submodules _)) fun _ => balanced_success)
      (.bind (balanced_run _ _ _ _ _ _ _ _) fun _ => balanced_ite (balanced_failure _)
        (.bind (balanced_keeps (.runCommand _)) fun _ => .bind (balanced_keeps (keeps_submodules _)) fun _ => balanced_success)))))

theorem balanced_repo (a : RepoArgs) (check : Bool) : Balanced (repo a check) := by
  refine .operation (.bind (.ofExcept _) fun _ => .bind (.call _) fun s => ?_)
  cases s with
  | none => exact .bind (balanced_initialState _) fun _ => balanced_returned (balanced_repoSettle _ _ _)
  | some s =>
    refine balanced_ite (.bind (.call _) fun g => ?_) (balanced_returned (balanced_failure _))
    cases g with
    | none => exact balanced_returned (balanced_failure _)
    | some g =>
      exact balanced_ite (balanced_returned (balanced_failure _)) (.bind (balanced_run _ _ _ _ _ _ _ _) fun _ => .bind (balanced_initialState _) fun _ =>
        balanced_returned (balanced_repoSettle _ _ _))

theorem balanced_uploadDirs (mode owner group : Option Str) : ∀ ds, Balanced (uploadDirs mode owner group ds)
  | [] => .pure _
  | _ :: ds => .bind (balanced_directory _ _ _ _ _ _ _) fun _ => .bind (balanced_addNestedResult _ _) fun _ => balanced_uploadDirs mode owner group ds

theorem balanced_uploadFiles (sha512 : Bytes → Bytes) (mode owner group : Option Str) : ∀ fs, Balanced (uploadFiles sha512 mode owner group fs)
  | [] => .pure _
  | (t, df) :: fs => by
    unfold uploadFiles
    split
    · exact .bind (.operation (.bind (.ofExcept _) fun _ => .bind (.ofExcept _) fun _ => balanced_returned (balanced_saveContent _ _ _ _ _ _))) fun _ =>
        .bind (balanced_addNestedResult _ _) fun _ => balanced_uploadFiles sha512 mode owner group fs
    · exact balanced_uploadFiles sha512 mode owner group fs

theorem balanced_apt (order : List Str → List Str) (opts packages : List Str) (present check : Bool) :
    Balanced (packageWith order (apt opts) packages present check) :=
  balanced_packageWith _ (fun _ => .bind (balanced_run _ _ _ _ _ _ _ _) fun _ => .pure _) (fun _ => balanced_keeps (.runCommand _)) (fun _ => balanced_keeps (.runCommand _)) _ _ _
theorem balanced_pacman (order : List Str → List Str) (opts packages : List Str) (present check : Bool) :
    Balanced (packageWith order (pacman opts) packages present check) :=
  balanced_packageWith _ (fun _ => .bind (balanced_run _ _ _ _ _ _ _ _) fun _ => .pure _) (fun _ => balanced_keeps (.runCommand _)) (fun _ => balanced_keeps (.runCommand _)) _ _ _
theorem balanced_portage (order : List Str → List Str) (opts : List Str) (oneshot : Bool) (packages : List Str) (present check : Bool) :
    Balanced (packageWith order (portage opts oneshot) packages present check) :=
  balanced_packageWith _ (fun _ => .bind (balanced_run _ _ _ _ _ _ _ _) fun _ => .pure _) (fun _ => balanced_keeps (.runCommand _)) (fun _ => balanced_keeps (.runCommand _)) _ _ _

theorem balanced_found {γ : Type} {ms : List (Str × γ)} {g : Option γ → Op OpResult} (h : ∀ k m, (k, m) ∈ ms → Balanced (g (some m)))
    (hn : Balanced (g none)) : Balanced (findCommand ms >>= g) := by
  intro env st t r st' he
  rcases execution_bind.mp he with ⟨e, rfl, h0⟩ | ⟨t1, t2, a, st1, h1, h2, rfl⟩
  · exact keeps_findCommand (g := St.stack) _ _ _ _ _ _ h0
  · refine Eq.trans ?_ (keeps_findCommand (g := St.stack) _ _ _ _ _ _ h1)
    cases a with
    | none => exact hn _ _ _ _ _ h2
    | some m =>
      obtain ⟨k, hm⟩ := findCommand_mem h1
      exact h k m hm _ _ _ _ _ h2

theorem balanced_operation (opts : List Str) (op : Op OpResult) (hop : Operation opts op) : Balanced op := by
  cases hop with
  | directory => exact balanced_directory _ _ _ _ _ _ _
  | file => exact balanced_file _ _ _ _ _ _ _
  | link => exact balanced_link _ _ _ _ _ _ _
  | uploadContent => exact .operation (.bind (.ofExcept _) fun _ => balanced_returned (balanced_saveContent _ _ _ _ _ _))
  | upload => exact .operation (.bind (.ofExcept _) fun _ => .bind (.ofExcept _) fun _ => balanced_returned (balanced_saveContent _ _ _ _ _ _))
  | uploadDir =>
    refine .operation (.bind (.of_ret fun _ st => ⟨_, _, rfl, rfl⟩) fun _ => .bind (.ofExcept _) fun _ => balanced_ite (.raise _) ?_)
    exact .bind (balanced_uploadDirs _ _ _ _) fun _ => .bind (balanced_uploadFiles _ _ _ _ _) fun _ => balanced_returned balanced_success
  | templateContent => exact .operation (.bind (.ofExcept _) fun _ => .bind (.ofExcept _) fun _ => balanced_returned (balanced_saveContent _ _ _ _ _ _))
  | template => exact .operation (.bind (.ofExcept _) fun _ => .bind (.ofExcept _) fun _ => .bind (.ofExcept _) fun _ => balanced_returned (balanced_saveContent _ _ _ _ _ _))
  | line => exact balanced_line _ _ _ _ _ _ _
  | user => exact balanced_user _ _
  | group => exact balanced_group _ _ _ _ _
  | apt => exact balanced_apt _ _ _ _ _
  | pacman => exact balanced_pacman _ _ _ _ _
  | portage => exact balanced_portage _ _ _ _ _ _
  | package =>
    refine balanced_found (fun k m hm => ?_) (.operation (.raise _))
    simp only [packageManagers, List.mem_cons, List.not_mem_nil, or_false, Prod.mk.injEq] at hm
    rcases hm with ⟨_, rfl⟩ | ⟨_, rfl⟩ | ⟨_, rfl⟩
    · exact balanced_apt _ _ _ _ _
    · exact balanced_pacman _ _ _ _ _
    · exact balanced_portage _ _ _ _ _ _
  | daemonReload =>
    exact .operation (.bind (balanced_initialState _) fun _ => .bind (balanced_finalState _) fun _ => .bind (balanced_keeps (.unlessDry (.runCommand _))) fun _ =>
      balanced_returned balanced_success)
  | systemdService => exact balanced_systemdService _ _ _ _ _
  | service =>
    refine balanced_found (fun k m hm => ?_) (.operation (.raise _))
    simp only [serviceManagers, List.mem_cons, List.not_mem_nil, or_false, Prod.mk.injEq] at hm
    obtain ⟨_, rfl⟩ := hm
    exact balanced_systemdService _ _ _ _ _
  | repo => exact balanced_repo _ _

end Verif.Ops
