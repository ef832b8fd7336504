/-
Scripts that set up a whole site: packages, accounts, files, checkouts and services.
-/
import Verif.Ops.CallsSpec
import Verif.Ops.PackageSpec
import Verif.Ops.ServiceSpec
import Verif.Ops.UserSpec
import Verif.Ops.Spec
import Verif.Ops.GitResumeSpec

namespace Verif.Ops

open Script Remote

/-- One call in such a script. None of them is told to ignore errors. -/
inductive Item where
  /-- `files.directory`, `files.file`, `files.link`, `files.upload`, ... or `files.upload_dir` -/
  | files (c : Call)
  /-- `system.group` -/
  | group (name : Str) (present : Bool) (gid : Option Int) (system : Bool)
  /-- `system.user` -/
  | user (a : UserArgs)
  /-- `apt.package`, `pacman.package`, or `portage.package`; or, if `found` is set, `system.package` on a host where it finds `m` -/
  | packages (found : Bool) (m : Manager) (order : List Str → List Str) (names : List Str) (present : Bool)
  /-- `systemd.service`; or, if `found` is set, `system.service` -/
  | service (found : Bool) (unit : Str) (state : Option Str) (enabled : Option Bool)
  /-- `git.repo`; `G` is what there is to know about clones on the host, and about repositories elsewhere -/
  | repo (G : Repositories) (a : RepoArgs)

/-- What is called. -/
def Item.op (sha512 : Bytes → Bytes) : Item → Op OpResult
  | .files c => c.op sha512
  | .group name present gid system => Ops.group name present gid system true
  | .user a => Ops.user a true
  | .packages found m order names present => if found then package order names present true else packageWith order m names present true
  | .service found unit state enabled => if found then Ops.service unit state enabled true else systemdService unit state enabled false true
  | .repo _ a => Ops.repo a true

/-- What the call asks for in the file system. -/
def Item.tasks (sha512 : Bytes → Bytes) : Item → List Task
  | .files c => c.tasks sha512
  | _ => []

/-- The commands that a call may run in order to change something other than files: those that are about what it was asked for. -/
inductive Item.Runs : Item → List Str → Prop where
  | groupadd (name : Str) (gid : Option Int) (system : Bool) (options : List Str) :
      Item.Runs (.group name true gid system) (p!"groupadd" :: options ++ [p!"--", name])
  | groupmod (name : Str) (gid : Option Int) (system : Bool) (x : Str) :
      Item.Runs (.group name true gid system) [p!"groupmod", p!"--gid", x, p!"--", name]
  | groupdel (name : Str) (gid : Option Int) (system : Bool) :
      Item.Runs (.group name false gid system) [p!"groupdel", p!"--", name]
  | useradd (a : UserArgs) (options : List Str) : a.present = true → Item.Runs (.user a) (p!"useradd" :: options ++ [p!"--", a.user])
  | usermod (a : UserArgs) (option value : Str) : a.present = true → Item.Runs (.user a) [p!"usermod", option, value, p!"--", a.user]
  | userdel (a : UserArgs) : a.present = false → Item.Runs (.user a) [p!"userdel", p!"--", a.user]
  | install {m : Manager} {query install remove : Str → List Str} {yes : Option Bytes → Int → Prop} (h : Backend m query install remove yes)
      (found : Bool) (order : List Str → List Str) (names : List Str) (p : Str) : p ∈ names → Item.Runs (.packages found m order names true) (install p)
  | remove {m : Manager} {query install remove : Str → List Str} {yes : Option Bytes → Int → Prop} (h : Backend m query install remove yes)
      (found : Bool) (order : List Str → List Str) (names : List Str) (p : Str) : p ∈ names → Item.Runs (.packages found m order names false) (remove p)
  | start (found : Bool) (unit : Str) (enabled : Option Bool) : Item.Runs (.service found unit (some p!"started") enabled) [p!"systemctl", p!"start", p!"--", unit]
  | stop (found : Bool) (unit : Str) (enabled : Option Bool) : Item.Runs (.service found unit (some p!"stopped") enabled) [p!"systemctl", p!"stop", p!"--", unit]
  | enable (found : Bool) (unit : Str) (state : Option Str) : Item.Runs (.service found unit state (some true)) [p!"systemctl", p!"enable", p!"--", unit]
  | disable (found : Bool) (unit : Str) (state : Option Str) : Item.Runs (.service found unit state (some false)) [p!"systemctl", p!"disable", p!"--", unit]
  | clone (G : Repositories) (a : RepoArgs) : Item.Runs (.repo G a)
      ([p!"git", p!"clone"] ++ opt p!"--depth" (a.depth.map Py.intStr) ++ opt p!"--branch" a.branchOrTag ++ [p!"--", a.url, a.path])
  | pull (G : Repositories) (a : RepoArgs) : Item.Runs (.repo G a)
      ([p!"git", p!"-C", a.path, p!"pull"] ++ opt p!"--depth" (a.depth.map Py.intStr) ++ flag p!"--rebase" a.rebase ++ flag p!"--ff-only" a.ffOnly)
  | submodules (G : Repositories) (a : RepoArgs) : Item.Runs (.repo G a)
      ([p!"git", p!"-C", a.path, p!"submodule", p!"update", p!"--init"]
        ++ opt p!"--depth" (if a.shallowSubmodules then a.depth.map Py.intStr else none) ++ flag p!"--recursive" a.recursiveSubmodules)

/-- All that leads to the place is a directory. (If nothing is to be there, it may be missing.) -/
def Task.Open (w : World) (t : Task) : Prop :=
  ∀ p s, t.names = p ++ s → s ≠ [] → (∃ n, w.fs p = some n ∧ n.kind = .dir) ∨ (t.wish.isAbsent = true ∧ w.fs p = none)

/-- The host is as the call asks for. -/
def Item.Done (sys : Sys) (env : Env) (st : St) (U : UnitStates) (w : World) : Item → Prop
  | .files c => ∀ t ∈ c.tasks sys.sha512, t.wish.Granted sys env st w w t.names ∧ t.Open w
  | .group name present gid _ =>
    if present then ∃ e, groupNamed w name = some e ∧ ∀ i, gid = some i → i ≠ 0 → (e.gid : Int) = i else groupNamed w name = none
  | .user a => if a.present then ∃ u, accountOf w a.user = some u ∧ Fits a u else userNamed w a.user = none
  | .packages _ _ _ names present => ∀ p ∈ names, (p ∈ w.packages ↔ present = true)
  | .service _ unit state enabled =>
    (state = some p!"started" → U.active false w unit = .active ∨ U.active false w unit = .activating)
    ∧ (state = some p!"stopped" → ¬ (U.active false w unit).Up)
    ∧ (enabled = some true → U.file false w unit = .enabled) ∧ (enabled = some false → U.file false w unit ≠ .enabled)
  | .repo G a => ∃ c, G.clone w a.path = some c ∧ (a.update = true → c.origin = a.url ∧ ∃ u, G.upstream a.url (requested a) = some u ∧ c.commit = u.commit)

/-- `system.package` always finds this package manager: it is there, and those that are looked for before are not. -/
def FindsManager (sys : Sys) (m : Manager) : Prop :=
  ∃ exists_ : World → Str → Bool, BashHost sys exists_ packageProbe
    ∧ ∃ before name after, packageManagers = before ++ (name, m) :: after ∧ ∀ w, exists_ w name = true ∧ ∀ b ∈ before, exists_ w b.1 = false

/-- `system.service` always finds systemd. -/
def FindsSystemd (sys : Sys) : Prop :=
  ∃ exists_ : World → Str → Bool, BashHost sys exists_ serviceProbe ∧ ∀ w, exists_ w p!"systemctl" = true

/-- A call with arguments for which the operation does what it should (see C48, C51, C52, C53, C54, C83 and C99 for what is excluded), and a
host with the tool for it. -/
def Item.Proper (sys : Sys) (U : UnitStates) : Item → Prop
  | .files c => c.Fits
  | .group name _ _ _ => Py.parseInt 10 name = none ∧ GroupTools sys
  | .user a => PlainUserArgs a ∧ (∀ l, a.groups = some l → a.appendGroups = false → l.Nodup) ∧ UserTools sys
  | .packages found m order names present => (∃ query install remove yes, Backend m query install remove yes ∧ PackageHost sys query install remove yes)
      ∧ (∀ l, (order l).Perm l) ∧ (present = true → names.Nodup) ∧ (found = true → FindsManager sys m)
  | .service found unit state _ => (state = none ∨ state = some p!"started" ∨ state = some p!"stopped") ∧ Systemd sys U unit ∧ (found = true → FindsSystemd sys)
  | .repo G a => a.branchOrTag ≠ some [] ∧ GitHost sys G a.path a.url
      ∧ (∃ u, G.upstream a.url (requested a) = some u ∧ u.branch = true)

/-- What is asked for in the file system altogether. -/
def siteTasks (sha512 : Bytes → Bytes) (items : List Item) : List Task := items.flatMap (Item.tasks sha512)

/-- A host on which such a script can be run: names and numbers of accounts are unique, accounts are complete and not mentioned as
members of groups after they were removed, services are not just being reloaded, clones that exist belong to the url that is asked for,
and the places of files are as for scripts that manage files. -/
structure Orderly (sys : Sys) (tools : Tools) (env : Env) (st : St) (U : UnitStates) (items : List Item) (w : World) : Prop where
  ordinary : Ordinary sys tools w
  aliases : NoAliases w
  groups : UniqueGroups w
  users : ∀ a, .user a ∈ items → (userNamed w a.user = none → memberOf w a.user = []) ∧ (userNamed w a.user ≠ none → accountOf w a.user ≠ none)
  services : ∀ found unit state enabled, .service found unit state enabled ∈ items → U.active false w unit ≠ .reloading
  repos : ∀ G a, .repo G a ∈ items → Usable G a w
  tasks : Tasks sys w (siteTasks sys.sha512 items)
  bits : NoSetIdsAsked env st w (siteTasks sys.sha512 items)

/-- What the calls may have to do with each other. -/
structure Compatible (sys : Sys) (tools : Tools) (env : Env) (st : St) (U : UnitStates) (items : List Item) : Prop where
  /-- commands that only look change nothing -/
  looking : ∀ p w, LooksOnly p.argv → (sys.exec p w).2 = w
  /-- whatever command is run, the host stays orderly -/
  orderly : ∀ i ∈ items, ∀ p w out err code w', i.Runs p.argv → sys.exec p w = (.done out err code, w') →
    Orderly sys tools env st U items w → Orderly sys tools env st U items w'
  /-- a command that a later call may run does not undo what an earlier one has achieved -/
  kept : ∀ pre i post, items = pre ++ i :: post → ∀ j ∈ pre, ∀ p w out err code w', i.Runs p.argv → sys.exec p w = (.done out err code, w') →
    Orderly sys tools env st U items w → j.Done sys env st U w → j.Done sys env st U w'
  /-- whether a service runs does not depend on the files that are managed -/
  running : ∀ found unit state enabled, .service found unit state enabled ∈ items → ∀ w w',
    Untouched (fun q => ∃ t ∈ siteTasks sys.sha512 items, t.Covers q) w w' → U.active false w' unit = U.active false w unit
  /-- whether a service is enabled does not depend on the files that are managed later -/
  enabled : ∀ pre c post, items = pre ++ .files c :: post → ∀ found unit state enabled, .service found unit state enabled ∈ pre → ∀ w w',
    Untouched (fun q => ∃ t ∈ c.tasks sys.sha512, t.Covers q) w w' → U.file false w' unit = U.file false w unit
  /-- clones are not among the files that are managed -/
  clones : ∀ G a, .repo G a ∈ items → ∀ w w', Untouched (fun q => ∃ t ∈ siteTasks sys.sha512 items, t.Covers q) w w' → G.clone w' a.path = G.clone w a.path

/-- For a service both a state and whether to enable it are given. (Otherwise a change is reported even if there is none, see
`C53_changed_flag_refuted`.) -/
def Item.Full : Item → Prop
  | .service _ _ state enabled => state ≠ none ∧ enabled ≠ none
  | _ => True

/-- Modes of directories are octal numbers. -/
def OctalDirModes (env : Env) (st : St) (ts : List Task) : Prop :=
  ∀ t ∈ ts, t.wish.isDir = true → ∀ m, (t.wish.settings env st).dirMode = some m → ∃ i : Nat, Py.parseInt 8 m = some (i : Int)

end Verif.Ops
