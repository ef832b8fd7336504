/-
The remote host, as far as fora can see it.

Nothing in this file is fora code. It gives meaning to the operating system calls that the dispatcher
(/repo/src/fora/connectors/tunnel_dispatcher.py) makes: a file system with directories, symbolic links and permission
bits, the account databases, the environment, the credentials of the dispatcher process. It belongs to the trusted base.
-/
import Verif.Py.Exn
import Verif.Py.Utf8

namespace Verif.Remote

/-- A place in the file system: the names on the way from the root directory. `[]` is the root. -/
abbrev Loc := List Str

/-- What a directory entry is. -/
inductive NodeKind where
  | file (content : Bytes)
  | dir
  | link (target : Str)
  | chr | blk | fifo | sock
  /-- a type none of the `S_IS*` macros used by fora knows (e.g. a door or a whiteout) -/
  | other
  deriving DecidableEq, Repr

/-- A file system object. Hard links are not modelled: an object belongs to one place. -/
structure Node where
  kind : NodeKind
  /-- permission bits including setuid (0o4000), setgid (0o2000) and sticky (0o1000); below 0o10000 -/
  perm : Nat
  uid : Nat
  gid : Nat
  mtime : Int
  ctime : Int
  deriving DecidableEq, Repr

/-- An entry of the user database. -/
structure PwEntry where
  name : Str
  uid : Nat
  gid : Nat
  gecos : Str
  home : Str
  shell : Str
  deriving DecidableEq, Repr

/-- An entry of the group database. -/
structure GrEntry where
  name : Str
  gid : Nat
  members : List Str
  deriving DecidableEq, Repr

/-- A process as it was started: what the program that is executed can observe about its own identity. -/
structure Proc where
  argv : List Str
  /-- `none`: it inherits the standard input of the dispatcher, i.e. the protocol stream -/
  stdin : Option Bytes
  /-- `false`: it inherits the standard output of the dispatcher, i.e. the protocol stream -/
  capture : Bool
  /-- real, effective and saved user id -/
  uid : Nat
  /-- real, effective and saved group id -/
  gid : Nat
  supp : List Nat
  umask : Nat
  cwd : Loc
  deriving DecidableEq, Repr

/-- State of the services of an init system: enabled and running units. -/
structure SvcUnit where
  name : Str
  enabled : Bool
  active : Bool
  deriving DecidableEq, Repr

/-- The state of the remote host. -/
structure World where
  fs : Loc → Option Node
  users : List PwEntry
  groups : List GrEntry
  /-- password hashes by user name -/
  shadow : List (Str × Str)
  env : List (Str × Str)
  /-- user id of the dispatcher process -/
  uid : Nat
  gid : Nat
  supp : List Nat
  /-- working directory of the dispatcher process -/
  cwd : Loc
  /-- current time in nanoseconds -/
  clock : Int
  /-- names of installed packages -/
  packages : List Str
  /-- known service units -/
  units : List SvcUnit
  /-- every process started so far, latest first (history variable) -/
  started : List Proc

/-- An `OSError` with a number. `msg` is what `str(e)` prints. -/
structure OSErr where
  errno : Int
  strerror : Str
  msg : Str
  deriving DecidableEq, Repr

def OSErr.exn (e : OSErr) : Exn := .osError (some e.errno) e.strerror e.msg

abbrev ENOENT : Int := 2
abbrev ENOTDIR : Int := 20
abbrev EISDIR : Int := 21
abbrev ELOOP : Int := 40

/-- `os.strerror` for the numbers used here. -/
def strerror (n : Int) : Str :=
  if n = ENOENT then p!"No such file or directory"
  else if n = ENOTDIR then p!"Not a directory"
  else if n = EISDIR then p!"Is a directory"
  else if n = ELOOP then p!"Too many levels of symbolic links"
  else p!"Unknown error"

/-- The `OSError` for a failed call on a path. (`str(e)` prints `repr(path)`; quoting is simplified.) -/
def osErr (errno : Int) (path : Str) : OSErr :=
  { errno := errno, strerror := strerror errno,
    msg := p!"[Errno " ++ Py.intStr errno ++ p!"] " ++ strerror errno ++ p!": '" ++ path ++ p!"'" }

/-- The operating system calls that touch a path. -/
inductive Call where
  | stat (path : Str) (follow : Bool)
  | openRead (path : Str)
  | read (path : Str)
  | openWrite (path : Str)
  | write (path : Str)
  | chmod (path : Str)
  | chown (path : Str)
  | chdir (path : Str)
  deriving DecidableEq, Repr

/-- How starting a program ends. -/
inductive ExecRes where
  /-- it ran and terminated; `stdout` and `stderr` is what it wrote to its standard output and error -/
  | done (stdout stderr : Bytes) (code : Int)
  /-- `execve` failed -/
  | failed (e : OSErr)
  deriving DecidableEq, Repr

/-- Everything about the remote that is not fixed by this model; theorems quantify over it. -/
structure Sys where
  /-- Any call on a path may fail for reasons of its own (permissions, I/O errors, quotas, ...). -/
  fault : World → Call → Option OSErr
  /-- How much of the data reaches the file if writing fails. -/
  written : World → Str → Nat
  /-- What programs do when they are executed. -/
  exec : Proc → World → ExecRes × World
  /-- SHA-512. -/
  sha512 : Bytes → Bytes

/-! ### Paths -/

/-- Splits at every `/`. -/
def splitSlash : Str → List Str
  | [] => [[]]
  | c :: cs =>
    if c = 47 then [] :: splitSlash cs
    else match splitSlash cs with
      | [] => [[c]]
      | x :: xs => (c :: x) :: xs

/-- The components of a path. Empty components and `.` mean nothing. (Simplification: a trailing slash, which would
force the last component to be a directory, means nothing either.) -/
def components (path : Str) : List Str := (splitSlash path).filter fun c => c ≠ [] ∧ c ≠ p!"."

/-- A path beginning with `/`. -/
def isAbs (path : Str) : Bool := path.head? == some 47

/-- Walks the components starting at a directory. `onLink` continues after a symbolic link. A missing last component
is not an error here: the result is the place where it would be. -/
def walkAux (fs : Loc → Option Node) (follow : Bool) (onLink : Loc → List Str → Except Int Loc) :
    List Str → Loc → Except Int Loc
  | [], loc => .ok loc
  | c :: r, loc =>
    match fs loc with
    | none => .error ENOENT
    | some n =>
      match n.kind with
      | .dir =>
        if c = p!".." then walkAux fs follow onLink r loc.dropLast
        else
          match fs (loc ++ [c]) with
          | none => if r = [] then .ok (loc ++ [c]) else .error ENOENT
          | some m =>
            match m.kind with
            | .link t =>
              if r = [] ∧ follow = false then .ok (loc ++ [c])
              else onLink (if isAbs t then [] else loc) (components t ++ r)
            | _ => walkAux fs follow onLink r (loc ++ [c])
      | _ => .error ENOTDIR

/-- Path resolution with at most the given number of symbolic links on the way. -/
def walk (fs : Loc → Option Node) (follow : Bool) : Nat → List Str → Loc → Except Int Loc
  | 0 => walkAux fs follow fun _ _ => .error ELOOP
  | n + 1 => walkAux fs follow fun loc cs => walk fs follow n cs loc

/-- Path resolution (path_resolution(7)); Linux follows at most 40 links. -/
def resolve (fs : Loc → Option Node) (cwd : Loc) (path : Str) (follow : Bool) : Except Int Loc :=
  if path = [] then .error ENOENT
  else walk fs follow 40 (components path) (if isAbs path then [] else cwd)

/-- The object a path denotes. -/
def lookup (fs : Loc → Option Node) (cwd : Loc) (path : Str) (follow : Bool) : Except Int (Loc × Node) :=
  match resolve fs cwd path follow with
  | .error e => .error e
  | .ok l =>
    match fs l with
    | none => .error ENOENT
    | some n => .ok (l, n)

/-- Replaces what is at one place. -/
def setNode (fs : Loc → Option Node) (l : Loc) (n : Option Node) : Loc → Option Node :=
  fun q => if q = l then n else fs q

def World.set (w : World) (l : Loc) (n : Option Node) : World := { w with fs := setNode w.fs l n }

/-! ### Calls -/

/-- The file type part of `st_mode` divided by 0o10000. -/
def NodeKind.fmt : NodeKind → Nat
  | .fifo => 1
  | .chr => 2
  | .dir => 4
  | .blk => 6
  | .file _ => 8
  | .link _ => 10
  | .sock => 12
  | .other => 14

/-- `st_mode`. -/
def Node.stMode (n : Node) : Nat := n.kind.fmt * 4096 + n.perm

/-- `st_size`. (Simplification: 0 for everything that has no content.) -/
def Node.size (n : Node) : Nat :=
  match n.kind with
  | .file c => c.length
  | .link t => ((Py.encodeEscape t).getD []).length
  | _ => 0

/-- Python refuses paths with NUL characters before calling the system. -/
def hasNul (path : Str) : Bool := path.contains 0

def nulError : Exn := .valueError p!"embedded null byte"

/-- Applies the check for NUL characters and the environment's own errors before a call. -/
def guardCall (sys : Sys) (w : World) (path : Str) (call : Call) : Except Exn PUnit :=
  if hasNul path then .error nulError
  else match sys.fault w call with
    | some e => .error e.exn
    | none => .ok ()

/-- `os.stat(path, follow_symlinks=follow)`. -/
def osStat (sys : Sys) (w : World) (path : Str) (follow : Bool) : Except Exn Node :=
  match guardCall sys w path (.stat path follow) with
  | .error e => .error e
  | .ok _ =>
    match lookup w.fs w.cwd path follow with
    | .error n => .error (osErr n path).exn
    | .ok (_, n) => .ok n

/-- `os.path.isdir(path)`: any error, including that of a NUL character, means no. -/
def osIsdir (sys : Sys) (w : World) (path : Str) : Bool :=
  match osStat sys w path true with
  | .ok n => n.kind == .dir
  | .error _ => false

/-- `with open(path, 'rb') as f: f.read()`. (Simplification: devices and pipes read as empty.) -/
def osRead (sys : Sys) (w : World) (path : Str) : Except Exn Bytes :=
  match guardCall sys w path (.openRead path) with
  | .error e => .error e
  | .ok _ =>
    match lookup w.fs w.cwd path true with
    | .error n => .error (osErr n path).exn
    | .ok (_, n) =>
      match n.kind with
      | .dir => .error (osErr EISDIR path).exn
      | k =>
        match sys.fault w (.read path) with
        | some e => .error e.exn
        | none => .ok (match k with | .file c => c | _ => [])

/-- The group of a new object in the given directory: a setgid directory hands down its own. -/
def inheritGid (fs : Loc → Option Node) (l : Loc) (gid : Nat) : Nat :=
  match fs l.dropLast with
  | some d => if d.perm &&& 0o2000 ≠ 0 then d.gid else gid
  | none => gid

/-- `with open(path, 'wb') as f: f.write(content)`, executed by the dispatcher, whose umask is 0o077
(tunnel_dispatcher.py:776). Opening truncates or creates the file; if writing fails, a part of the data may have been
written. (Simplification: writing to devices and pipes has no effect.) -/
def osWrite (sys : Sys) (w : World) (path : Str) (content : Bytes) : Except Exn PUnit × World :=
  match guardCall sys w path (.openWrite path) with
  | .error e => (.error e, w)
  | .ok _ =>
    match resolve w.fs w.cwd path true with
    | .error n => (.error (osErr n path).exn, w)
    | .ok l =>
      match w.fs l with
      | none =>
        let node (c : Bytes) : Node :=
          { kind := .file c, perm := 0o600, uid := w.uid, gid := inheritGid w.fs l w.gid, mtime := w.clock, ctime := w.clock }
        match sys.fault w (.write path) with
        | some e => (.error e.exn, w.set l (some (node (content.take (sys.written w path)))))
        | none => (.ok (), w.set l (some (node content)))
      | some n =>
        match n.kind with
        | .dir => (.error (osErr EISDIR path).exn, w)
        | .file _ =>
          let node (c : Bytes) : Node := { n with kind := .file c, mtime := w.clock, ctime := w.clock }
          match sys.fault w (.write path) with
          | some e => (.error e.exn, w.set l (some (node (content.take (sys.written w path)))))
          | none => (.ok (), w.set l (some (node content)))
        | _ =>
          match sys.fault w (.write path) with
          | some e => (.error e.exn, w)
          | none => (.ok (), w)

/-- A Python int that fits a C `int`, which is what `os.chmod` and `os.umask` require. -/
def fitsCInt (i : Int) : Bool := decide (-2147483648 ≤ i) && decide (i ≤ 2147483647)

/-- `os.chmod(path, mode)`. Follows links. -/
def osChmod (sys : Sys) (w : World) (path : Str) (mode : Int) : Except Exn PUnit × World :=
  if !fitsCInt mode then (.error .overflowError, w)
  else match guardCall sys w path (.chmod path) with
  | .error e => (.error e, w)
  | .ok _ =>
    match lookup w.fs w.cwd path true with
    | .error n => (.error (osErr n path).exn, w)
    | .ok (l, n) => (.ok (), w.set l (some { n with perm := (mode % 4096).toNat, ctime := w.clock }))

/-- What a successful change of owner does to the permission bits: on everything but directories setuid is cleared, and
setgid if the group may execute (chown(2), also for root). -/
def chownPerm (n : Node) : Nat :=
  if n.kind = .dir then n.perm
  else if n.perm &&& 0o10 ≠ 0 then n.perm &&& 0o1777
  else n.perm &&& 0o3777

/-- `os.chown(path, uid, gid)`. Follows links. -/
def osChown (sys : Sys) (w : World) (path : Str) (uid gid : Nat) : Except Exn PUnit × World :=
  match guardCall sys w path (.chown path) with
  | .error e => (.error e, w)
  | .ok _ =>
    match lookup w.fs w.cwd path true with
    | .error n => (.error (osErr n path).exn, w)
    | .ok (l, n) => (.ok (), w.set l (some { n with perm := chownPerm n, uid := uid, gid := gid, ctime := w.clock }))

/-! ### Account databases -/

/-- `pwd.getpwnam(name)`. -/
def getpwnam (w : World) (name : Str) : Except Exn PwEntry :=
  if hasNul name then .error nulError
  else match w.users.find? (·.name == name) with
    | some e => .ok e
    | none => .error .keyError

/-- `pwd.getpwuid(uid)`: numbers out of range are a `KeyError` as well; -1 means the largest id. -/
def getpwuid (w : World) (uid : Int) : Except Exn PwEntry :=
  match w.users.find? (fun e => ((e.uid : Int) == if uid = -1 then 4294967295 else uid)) with
  | some e => .ok e
  | none => .error .keyError

/-- `grp.getgrnam(name)`. -/
def getgrnam (w : World) (name : Str) : Except Exn GrEntry :=
  if hasNul name then .error nulError
  else match w.groups.find? (·.name == name) with
    | some e => .ok e
    | none => .error .keyError

/-- `grp.getgrgid(gid)`. -/
def getgrgid (w : World) (gid : Int) : Except Exn GrEntry :=
  match w.groups.find? (fun e => ((e.gid : Int) == if gid = -1 then 4294967295 else gid)) with
  | some e => .ok e
  | none => .error .keyError

/-- `spwd.getspnam(name).sp_pwdp`. Python 3.9: a missing entry is a `KeyError`, missing privileges a `PermissionError`. -/
def getspnam (w : World) (name : Str) : Except Exn Str :=
  if hasNul name then .error nulError
  else if w.uid ≠ 0 then .error (.osError (some 13) p!"Permission denied" p!"[Errno 13] Permission denied")
  else match w.shadow.find? (·.1 == name) with
    | some e => .ok e.2
    | none => .error .keyError

end Verif.Remote
