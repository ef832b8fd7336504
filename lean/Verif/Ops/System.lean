/-
Operations on accounts, packages, services and git repositories.
Models /repo/src/fora/operations/{utils,system,systemd,git,apt,pacman,portage}.py. Names, descriptions and log output are
omitted.
-/
import Verif.Ops.Utils

namespace Verif.Ops

open Script

/-! ### Python's `or`, `sorted` and `set` -/

/-- `a or b` for optional ints: 0 counts as false. -/
def orInt (a b : Option Int) : Option Int :=
  match a with
  | none => b
  | some i => if i = 0 then b else some i

/-- `a or b` for optional strings: the empty string counts as false. -/
def orStr (a b : Option Str) : Option Str :=
  match a with
  | none => b
  | some [] => b
  | some s => some s

/-- `a or b` for an optional list and a list. -/
def orList (a : Option (List Str)) (b : List Str) : List Str :=
  match a with
  | none => b
  | some [] => b
  | some l => l

/-- `a <= b` for strings: by code points. -/
def strLe : Str → Str → Bool
  | [], _ => true
  | _ :: _, [] => false
  | a :: as, b :: bs => if a = b then strLe as bs else decide (a < b)

/-- Inserts into a sorted list. -/
def insertStr (x : Str) : List Str → List Str
  | [] => [x]
  | y :: ys => if strLe x y then x :: y :: ys else y :: insertStr x ys

/-- `sorted(l)`. -/
def sorted : List Str → List Str
  | [] => []
  | x :: xs => insertStr x (sorted xs)

/-- The elements of `set(l)`, each once, in some order. -/
def distinct : List Str → List Str
  | [] => []
  | x :: xs => if xs.contains x then distinct xs else x :: distinct xs

/-! ### user and group -/

/-- The states of `user`, system.py:117-139. -/
def userState (ex : Bool) (uid : Option Int) (group : Option Str) (groups : List Str) (comment home shell hash : Option Str) : Dict :=
  [(p!"exists", .bool ex), (p!"uid", .optInt uid), (p!"group", .optStr group), (p!"groups", .list groups),
   (p!"comment", .optStr comment), (p!"home", .optStr home), (p!"shell", .optStr shell), (p!"password_hash", .optStr hash)]

/-- What `user` was asked for. -/
structure UserArgs where
  user : Str
  present : Bool := true
  uid : Option Int := none
  group : Option Str := none
  groups : Option (List Str) := none
  appendGroups : Bool := false
  system : Bool := false
  passwordHash : Option Str := none
  home : Option Str := none
  shell : Option Str := none
  comment : Option Str := none

/-- The target values, system.py:123-134. -/
structure UserTarget where
  uid : Option Int
  group : Option Str
  groups : List Str
  passwordHash : Option Str
  comment : Option Str
  home : Str
  shell : Str

/-- system.py:123-134. -/
def userTarget (a : UserArgs) (current : Option Client.UserEntry) : UserTarget :=
  { uid := orInt a.uid (current.map (·.uid))
    group := orStr a.group (current.map (·.group))
    groups := sorted (
      if a.appendGroups then distinct ((orList a.groups []) ++ (current.map (·.groups)).getD [])
      else orList a.groups ((current.map (·.groups)).getD []))
    passwordHash := orStr a.passwordHash (current.bind (·.passwordHash))
    comment := orStr a.comment (current.map (·.gecos))
    home := (orStr a.home (some ((current.map (·.home)).getD p!"/dev/null"))).getD []
    shell := (orStr a.shell (some ((current.map (·.shell)).getD p!"/sbin/nologin"))).getD [] }

/-- An option with its value, if there is one. -/
def optArg (option : Str) : Option Str → List Str
  | none => []
  | some v => [option, v]

/-- `create_command`, system.py:150-180. -/
def useraddCommand (a : UserArgs) (t : UserTarget) : List Str :=
  [p!"useradd"]
  ++ (if a.system then [p!"--system"] else [])
  ++ optArg p!"--uid" (t.uid.map Py.intStr)
  ++ (match t.group with
    | none => [p!"--user-group"]
    | some g => [p!"--no-user-group", p!"--gid", g])
  ++ (if t.groups.length > 0 then [p!"--groups", Py.join p!"," t.groups] else [])
  ++ optArg p!"--comment" t.comment
  ++ [p!"--no-create-home", p!"--home-dir", t.home]
  ++ [p!"--shell", t.shell]
  ++ (match t.passwordHash with
    | none => []
    | some [] => []
    | some h => [p!"--password", h])
  ++ [p!"--", a.user]

/-- `if op.changed(key) and value is not None: conn.run(["usermod", option, value, "--", user])` -/
def usermodIf (key option : Str) (value : Option Str) (user : Str) : Op Unit :=
  whenChanged key (match value with
    | none => Op.pure ()
    | some v => runCommand [p!"usermod", option, v, p!"--", user])

/-- The actions of `user`, system.py:146-209. -/
def userActions (a : UserArgs) (t : UserTarget) : Op Unit := do
  let e ← changed p!"exists"
  if e then
    if a.present then runCommand (useraddCommand a t) else runCommand [p!"userdel", p!"--", a.user]
  else if a.present then do
    usermodIf p!"uid" p!"--uid" (t.uid.map Py.intStr) a.user
    usermodIf p!"group" p!"--gid" t.group a.user
    usermodIf p!"groups" p!"--groups" (if t.groups.length > 0 then some (Py.join p!"," t.groups) else none) a.user
    usermodIf p!"comment" p!"--comment" t.comment a.user
    usermodIf p!"home" p!"--home" (some t.home) a.user
    usermodIf p!"shell" p!"--shell" (some t.shell) a.user
    usermodIf p!"password_hash" p!"--password" t.passwordHash a.user
  else Op.pure ()

/-- The initial state of `user`, system.py:117-121. -/
def currentUser : Option Client.UserEntry → Dict
  | none => userState false none none [] none none none none
  | some c => userState true (some c.uid) (some c.group) (sorted c.groups) (some c.gecos) (some c.home) (some c.shell) c.passwordHash

/-- The final state of `user`, system.py:136-139. -/
def wantedUser (a : UserArgs) (t : UserTarget) : Dict :=
  if a.present then userState true t.uid t.group t.groups t.comment (some t.home) (some t.shell) t.passwordHash
  else userState false none none [] none none none none

/-- `user`, system.py:10-211. (`groups` is a list: the type check at the beginning is omitted.) -/
def user (a : UserArgs) (check : Bool) : Op OpResult :=
  operation check do
    let current ← Connection.queryUser a.user true
    initialState (currentUser current)
    finalState (wantedUser a (userTarget a current))
    returned (settle (Op.pure ()) (userActions a (userTarget a current)))

/-- The states of `group`, system.py:257-269. -/
def groupState (ex : Bool) (gid : Option Int) : Dict := [(p!"exists", .bool ex), (p!"gid", .optInt gid)]

/-- `create_command`, system.py:280-288. -/
def groupaddCommand (group : Str) (gid : Option Int) (system : Bool) : List Str :=
  [p!"groupadd"] ++ (if system then [p!"--system"] else []) ++ optArg p!"--gid" (gid.map Py.intStr) ++ [p!"--", group]

/-- The actions of `group`, system.py:276-298. -/
def groupActions (group : Str) (present : Bool) (target : Option Int) (system : Bool) : Op Unit := do
  let e ← changed p!"exists"
  if e then
    if present then runCommand (groupaddCommand group target system) else runCommand [p!"groupdel", p!"--", group]
  else if present then
    whenChanged p!"gid" (match target with
      | none => Op.pure ()
      | some g => runCommand [p!"groupmod", p!"--gid", Py.intStr g, p!"--", group])
  else Op.pure ()

/-- `group`, system.py:213-300. -/
def group (group : Str) (present : Bool) (gid : Option Int) (system check : Bool) : Op OpResult :=
  operation check do
    let current ← Connection.queryGroup group
    initialState (groupState current.isSome (current.map (·.gid)))
    finalState (if present then groupState true (orInt gid (current.map (·.gid))) else groupState false none)
    returned (settle (Op.pure ()) (groupActions group present (orInt gid (current.map (·.gid))) system))

/-! ### Packages -/

/-- What a package manager provides to `generic_package`. -/
structure Manager where
  isInstalled : Str → Op Bool
  install : Str → Op Unit
  uninstall : Str → Op Unit

/-- The loop that finds out what is installed, utils.py:84-86; every package of the list is queried. -/
def queryInstalled (m : Manager) : List Str → Op (List Str)
  | [] => Op.pure []
  | p :: ps => do
    let i ← m.isInstalled p
    let rest ← queryInstalled m ps
    return if i then p :: rest else rest

/-- `for p in ps: f(p)` -/
def forEach (f : Str → Op Unit) : List Str → Op Unit
  | [] => Op.pure ()
  | p :: ps => do
    f p
    forEach f ps

/-- The state of `generic_package`, utils.py:89-90. -/
def installedState (l : List Str) : Dict := [(p!"installed", .list l)]

/-- `generic_package`, utils.py:53-105. `order` is the order in which Python happens to iterate over a set. (`packages` is a
list: the type check is omitted.) -/
def genericPackage (order : List Str → List Str) (m : Manager) (packages : List Str) (present : Bool) : Op OpResult := do
  let installed ← queryInstalled m packages
  initialState (installedState (sorted (distinct installed)))
  finalState (installedState (if present then sorted packages else []))
  settle (Op.pure ()) (
    if present then forEach m.install (order ((distinct packages).filter fun p => !installed.contains p))
    else forEach m.uninstall (order (distinct installed)))

/-- `needle in haystack` for bytes. -/
def bytesContain (hay needle : Bytes) : Bool :=
  needle.isPrefixOf hay || match hay with
    | [] => false
    | _ :: t => bytesContain t needle

/-- apt.py:9-22. `dpgk-query` is what the code says. -/
def apt (opts : List Str) : Manager where
  isInstalled p := do
    let ret ← Connection.run [p!"dpgk-query", p!"--show", p!"--showformat=${Status}", p!"--", p]
    return ret.stdout.any (bytesContain · b!"ok installed")
  install p := runCommand ([p!"apt-get", p!"install"] ++ opts ++ [p!"--", p])
  uninstall p := runCommand ([p!"apt-get", p!"remove"] ++ opts ++ [p!"--", p])

/-- pacman.py:9-21. -/
def pacman (opts : List Str) : Manager where
  isInstalled p := do
    let ret ← Connection.run [p!"pacman", p!"-Ql", p!"--", p] (check := false)
    return ret.returncode == 0
  install p := runCommand ([p!"pacman", p!"--color", p!"always", p!"--noconfirm", p!"-S"] ++ opts ++ [p!"--", p])
  uninstall p := runCommand ([p!"pacman", p!"--color", p!"always", p!"--noconfirm", p!"-Rns"] ++ opts ++ [p!"--", p])

/-- portage.py:9-24. -/
def portage (opts : List Str) (oneshot : Bool) : Manager where
  isInstalled p := do
    let ret ← Connection.run [p!"emerge", p!"--info", p!"--", p]
    return ret.stdout.any (bytesContain · b!"was built with the following")
  install p := runCommand ([p!"emerge", p!"--color=y", p!"--verbose"] ++ ((if oneshot then [p!"--oneshot"] else []) ++ opts) ++ [p!"--", p])
  uninstall p := runCommand ([p!"emerge", p!"--color=y", p!"--verbose", p!"--depclean"] ++ opts ++ [p!"--", p])

/-- `apt.package`, `pacman.package`, `portage.package`: apt.py:25-60, pacman.py:24-59, portage.py:27-65. -/
def packageWith (order : List Str → List Str) (m : Manager) (packages : List Str) (present check : Bool) : Op OpResult :=
  operation check (returned (genericPackage order m packages present))

/-- `package_managers`, utils.py:12, in the order in which `import_submodules` (operations/__init__.py:7) imports the
modules. -/
def packageManagers : List (Str × Manager) :=
  [(p!"apt-get", apt []), (p!"pacman", pacman []), (p!"emerge", portage [] false)]

/-- `raise new_op_fail(..)`, operations/utils.py:197-210: a new operation object, whose summary is a failure with the message, and an
OperationError with the same message (that is what the decorator makes of such an exception). -/
def newOpFail (error : Str) : Op OpResult := operation true (Op.raise (.operationError error))

/-- `system.package`, system.py:302-345, with any registry of package managers. The message goes on with the commands that were
searched for, which is omitted. -/
def packageFrom (order : List Str → List Str) (managers : List (Str × Manager)) (packages : List Str) (present check : Bool) : Op OpResult := do
  let m ← findCommand managers
  match m with
  | none => newOpFail p!"No supported package manager was found on the remote system."
  | some m => packageWith order m packages present check

/-- `system.package`, system.py:302-345. -/
def package (order : List Str → List Str) (packages : List Str) (present check : Bool) : Op OpResult :=
  packageFrom order packageManagers packages present check

/-! ### Services -/

/-- `daemon_reload`, systemd.py:9-44. -/
def daemonReload (userMode check : Bool) : Op OpResult :=
  operation check do
    initialState [(p!"reloaded", .bool false)]
    finalState [(p!"reloaded", .bool true)]
    unlessDry (runCommand (if userMode then [p!"systemctl", p!"--user", p!"daemon-reload"] else [p!"systemctl", p!"daemon-reload"]))
    returned success

/-- `state_actions`, systemd.py:81-86. -/
def stateAction (state : Str) : Option Str :=
  if state = p!"started" then some p!"start"
  else if state = p!"restarted" then some p!"restart"
  else if state = p!"reloaded" then some p!"reload"
  else if state = p!"stopped" then some p!"stop"
  else none

/-- `conn.run(["systemctl", "show", "--value", "--property", property, "--", service]).stdout`, decoded and stripped,
systemd.py:92-99. Note that `--user` is not passed. -/
def showProperty (property service : Str) : Op Str := do
  let res ← Connection.run [p!"systemctl", p!"show", p!"--value", p!"--property", property, p!"--", service]
  return Py.strip (Py.decodeIgnore (res.stdout.getD []))

/-- The states of `service`, systemd.py:101-102. -/
def serviceState (state : Option Str) (enabled : Option Bool) : Dict :=
  [(p!"state", .optStr state), (p!"enabled", .optBool enabled)]

/-- The actions of `service`, systemd.py:110-116. -/
def serviceActions (service : Str) (state : Option Str) (enabled : Option Bool) (userMode : Bool) : Op Unit := do
  let base := if userMode then [p!"systemctl", p!"--user"] else [p!"systemctl"]
  whenChanged p!"state" (match state with
    | none => Op.pure ()
    | some s => match stateAction s with
      | none => Op.raise .keyError
      | some a => runCommand (base ++ [a, p!"--", service]))
  whenChanged p!"enabled" (match enabled with
    | none => Op.pure ()
    | some e => runCommand (base ++ [if e then p!"enable" else p!"disable", p!"--", service]))

/-- `service`, systemd.py:46-118. -/
def systemdService (service : Str) (state : Option Str) (enabled : Option Bool) (userMode check : Bool) : Op OpResult :=
  operation check do
    if state.any (fun s => (stateAction s).isNone) then
      Op.raise (.valueError (p!"Invalid target state '" ++ state.getD [] ++ p!"'"))
    else do
      let active ← showProperty p!"ActiveState" service
      let curState := if active = p!"active" || active = p!"activating" then p!"started" else p!"stopped"
      let unitFile ← showProperty p!"UnitFileState" service
      initialState (serviceState (some curState) (some (unitFile == p!"enabled")))
      finalState (serviceState state enabled)
      let u ← unchanged (ignoreNone := true)
      returned (if u then success else do
        unlessDry (serviceActions service state enabled userMode)
        success)

/-- `system.service`, system.py:347-397, with any registry of service managers. -/
def serviceFrom (managers : List (Str × (Str → Option Str → Option Bool → Bool → Op OpResult))) (service : Str) (state : Option Str)
    (enabled : Option Bool) (check : Bool) : Op OpResult := do
  let m ← findCommand managers
  match m with
  | none => newOpFail p!"No supported service manager was found on the remote system."
  | some f => f service state enabled check

/-- `service_managers`, utils.py:15. -/
def serviceManagers : List (Str × (Str → Option Str → Option Bool → Bool → Op OpResult)) :=
  [(p!"systemctl", fun service state enabled check => systemdService service state enabled false check)]

/-- `system.service`, system.py:347-397. -/
def service (service : Str) (state : Option Str) (enabled : Option Bool) (check : Bool) : Op OpResult :=
  serviceFrom serviceManagers service state enabled check

/-! ### git -/

/-- `(ret.stdout or b"").decode("utf-8", errors="backslashreplace").strip()` -/
def outputText (stdout : Option Bytes) : Str := Py.strip (Py.decodeBackslash (stdout.getD []))

/-- `s.split()[0]` for a stripped string: up to the first white space. An empty string has no first word: IndexError. -/
def firstWord (s : Str) : Except Exn Str :=
  match s with
  | [] => .error .indexError
  | s => .ok (s.takeWhile (fun c => !Py.isSpace c))

structure RepoArgs where
  url : Str
  path : Str
  branchOrTag : Option Str := none
  update : Bool := true
  depth : Option Int := none
  rebase : Bool := true
  ffOnly : Bool := false
  updateSubmodules : Bool := false
  recursiveSubmodules : Bool := false
  shallowSubmodules : Bool := false

/-- git.py:104-109. -/
def cloneCommand (a : RepoArgs) : List Str :=
  [p!"git", p!"clone"] ++ optArg p!"--depth" (a.depth.map Py.intStr) ++ optArg p!"--branch" a.branchOrTag ++ [p!"--", a.url, a.path]

/-- git.py:114-118 and 139-143. -/
def submoduleCommand (a : RepoArgs) : List Str :=
  [p!"git", p!"-C", a.path, p!"submodule", p!"update", p!"--init"]
  ++ (if a.shallowSubmodules then optArg p!"--depth" (a.depth.map Py.intStr) else [])
  ++ (if a.recursiveSubmodules then [p!"--recursive"] else [])

/-- git.py:128-134. -/
def pullCommand (a : RepoArgs) : List Str :=
  [p!"git", p!"-C", a.path, p!"pull"] ++ optArg p!"--depth" (a.depth.map Py.intStr)
  ++ (if a.rebase then [p!"--rebase"] else []) ++ (if a.ffOnly then [p!"--ff-only"] else [])

/-- `if update_submodules: conn.run(submodule_cmd)` -/
def submodules (a : RepoArgs) : Op Unit :=
  if a.updateSubmodules then runCommand (submoduleCommand a) else Op.pure ()

/-- The part of `repo` after the current state is known, git.py:84-146. `exists_` is whether the repository has already been
cloned. -/
def repoSettle (a : RepoArgs) (exists_ : Bool) (curCommit : Option Str) : Op OpResult :=
  if exists_ && !a.update then do
    finalState [(p!"initialized", .bool true), (p!"commit", .optStr curCommit)]
    success
  else do
    let res ← Connection.run [p!"git", p!"ls-remote", p!"--exit-code", p!"--", a.url, (orStr a.branchOrTag (some p!"HEAD")).getD []]
    let newest ← Op.ofExcept (firstWord (outputText res.stdout))
    finalState [(p!"initialized", .bool true), (p!"commit", .str newest)]
    let u ← unchanged
    if u then success
    else do
      let d ← dry
      if d then success
      else if !exists_ then do
        runCommand (cloneCommand a)
        submodules a
        success
      else do
        let ret ← Connection.run [p!"git", p!"-C", a.path, p!"config", p!"--get", p!"remote.origin.url"]
        if outputText ret.stdout ≠ a.url then
          failure (p!"refusing to update existing git repository with different remote url '" ++ outputText ret.stdout ++ p!"'")
        else do
          runCommand (pullCommand a)
          submodules a
          success

/-- `repo`, git.py:9-146. (`elif update` is always true where it is reached.) -/
def repo (a : RepoArgs) (check : Bool) : Op OpResult :=
  operation check do
    Op.ofExcept (checkAbsolutePath a.path p!"path")
    let stat ← Connection.stat a.path
    match stat with
    | none => do
      initialState [(p!"initialized", .bool false), (p!"commit", .null)]
      returned (repoSettle a false none)
    | some s =>
      if s.type = p!"dir" then do
        let git ← Connection.stat (pathJoin a.path p!".git")
        match git with
        | none => returned (failure (p!"directory '" ++ a.path ++ p!"' already exists but is not a git repository"))
        | some g =>
          if g.type ≠ p!"dir" then
            returned (failure (p!"directory '" ++ a.path ++ p!"' already exists but doesn't contains a valid .git directory"))
          else do
            let head ← Connection.run [p!"git", p!"-C", a.path, p!"rev-parse", p!"HEAD"]
            let commit := outputText head.stdout
            initialState [(p!"initialized", .bool true), (p!"commit", .str commit)]
            returned (repoSettle a true (some commit))
      else returned (failure (p!"path '" ++ a.path ++ p!"' exists but is not a directory!"))

end Verif.Ops
