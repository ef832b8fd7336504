/-
The standard tools that the operations on files run: mkdir, chmod, chown, touch, rm, ln, readlink and cp.

Nothing in this file is fora code. It gives meaning to the command lines that /repo/src/fora/operations/files.py and
/repo/src/fora/operations/utils.py send, following GNU coreutils, and belongs to the trusted base. Whatever the environment
decides (permissions, full disks, I/O errors, missing programs) is an oracle that theorems quantify over: every change that a
tool attempts may fail.

Not modelled: trailing slashes, hard links, time stamps of directories whose entries change, that `chmod` by an unprivileged
user outside the group drops setgid.
-/
import Verif.Remote.World

namespace Verif.Remote

/-- What the environment decides about the tools. -/
structure Tools where
  /-- `execve` fails -/
  missing : Proc → World → Option OSErr
  /-- the i-th change that the process attempts fails; what it prints -/
  fault : Proc → World → Nat → Option Bytes
  /-- removing a tree does not succeed: which of its entries cannot be removed -/
  kept : Proc → World → Option (Loc → Bool)
  /-- how much of a file is copied before copying fails -/
  copied : Proc → World → Nat
  /-- what is printed on errors that the tool itself detects -/
  says : Proc → World → Bytes
  /-- what a symbolic mode makes of the permission bits; `none`: it is not a valid mode -/
  symbolic : Str → Node → Proc → Option Nat
  /-- what a less common form of `OWNER:GROUP` stands for; `none`: it is not valid -/
  ownerSpec : Str → World → Option (Option Nat × Option Nat)
  /-- any other program, or any other use of these tools -/
  other : Proc → World → ExecRes × World

/-- The uses of tools that are modelled. -/
inductive Tool where
  /-- `mkdir -- path` -/
  | mkdir (path : Str)
  /-- `chmod mode -- path` -/
  | chmod (mode path : Str)
  /-- `chown spec -- path`, or with `--no-dereference` if `follow` is false -/
  | chown (spec path : Str) (follow : Bool)
  /-- `touch -- path` -/
  | touch (path : Str)
  /-- `touch --no-dereference -- path` -/
  | touchLink (path : Str)
  /-- `rm -- path` -/
  | rm (path : Str)
  /-- `rm -rf -- path` -/
  | rmTree (path : Str)
  /-- `ln -sf -- target path` -/
  | ln (target path : Str)
  /-- `readlink -n path` -/
  | readlink (path : Str)
  /-- `cp -a -- src dst` -/
  | cp (src dst : Str)
  deriving DecidableEq, Repr

/-- An argument that is taken for an option. -/
def isOption (a : Str) : Bool := a.head? == some 45

/-- The use that a command line stands for. -/
def parseTool : List Str → Option Tool
  | [a, b, c] =>
    if a = p!"mkdir" ∧ b = p!"--" then some (.mkdir c)
    else if a = p!"touch" ∧ b = p!"--" then some (.touch c)
    else if a = p!"rm" ∧ b = p!"--" then some (.rm c)
    else if a = p!"readlink" ∧ b = p!"-n" ∧ isOption c = false then some (.readlink c)
    else none
  | [a, b, c, d] =>
    if a = p!"chmod" ∧ isOption b = false ∧ c = p!"--" then some (.chmod b d)
    else if a = p!"chown" ∧ isOption b = false ∧ c = p!"--" then some (.chown b d true)
    else if a = p!"touch" ∧ b = p!"--no-dereference" ∧ c = p!"--" then some (.touchLink d)
    else if a = p!"rm" ∧ b = p!"-rf" ∧ c = p!"--" then some (.rmTree d)
    else none
  | [a, b, c, d, e] =>
    if a = p!"chown" ∧ b = p!"--no-dereference" ∧ isOption c = false ∧ d = p!"--" then some (.chown c e false)
    else if a = p!"ln" ∧ b = p!"-sf" ∧ c = p!"--" then some (.ln d e)
    else if a = p!"cp" ∧ b = p!"-a" ∧ c = p!"--" then some (.cp d e)
    else none
  | _ => none

/-- Octal digits, at least one. -/
def octalText (s : Str) : Bool := s ≠ [] && s.all fun c => 48 ≤ c && c ≤ 55

/-- The number they denote. -/
def octalValue (s : Str) : Nat := s.foldl (fun a c => a * 8 + (c - 48)) 0

/-- Decimal digits, at least one. -/
def decimalText (s : Str) : Bool := s ≠ [] && s.all fun c => 48 ≤ c && c ≤ 57

/-- The number they denote. -/
def decimalValue (s : Str) : Nat := s.foldl (fun a c => a * 10 + (c - 48)) 0

/-- The permission bits that `chmod` sets. A numeric mode of less than five digits keeps setuid and setgid of a directory
unless it sets them. -/
def chmodBits (o : Tools) (p : Proc) (mode : Str) (n : Node) : Option Nat :=
  if octalText mode then
    if octalValue mode < 0o10000 then
      some (if n.kind = .dir ∧ mode.length < 5 then (n.perm &&& 0o6000) ||| octalValue mode else octalValue mode)
    else none
  else if mode.any (fun c => c == 43 || c == 45 || c == 61) then (o.symbolic mode n p).map (· % 4096)
  else none

/-- The user that `chown` takes a name for: an account of that name, or a number. -/
def chownUser (w : World) (s : Str) : Option Nat :=
  match w.users.find? (·.name == s) with
  | some e => some e.uid
  | none => if decimalText s ∧ decimalValue s < 4294967295 then some (decimalValue s) else none

/-- The same for groups. -/
def chownGroup (w : World) (s : Str) : Option Nat :=
  match w.groups.find? (·.name == s) with
  | some e => some e.gid
  | none => if decimalText s ∧ decimalValue s < 4294967295 then some (decimalValue s) else none

/-- What `OWNER:GROUP` stands for. Forms with an empty part, without colon, or with a sign are left to the environment. -/
def chownIds (o : Tools) (w : World) (spec : Str) : Option (Option Nat × Option Nat) :=
  match Py.splitOnce 58 spec with
  | (u, some g) =>
    if u = [] ∨ g = [] ∨ u.head? = some 43 ∨ g.head? = some 43 then o.ownerSpec spec w
    else match chownUser w u, chownGroup w g with
      | some x, some y => some (some x, some y)
      | _, _ => none
  | (_, none) => o.ownerSpec spec w

/-- The bits of a mode that a umask leaves. -/
def maskOff (mode umask : Nat) : Nat := mode ^^^ (mode &&& umask)

/-- The setgid bit that a new directory gets from the directory it is created in. -/
def inheritSetgid (fs : Loc → Option Node) (l : Loc) : Nat :=
  match fs l.dropLast with
  | some d => d.perm &&& 0o2000
  | none => 0

def newDir (p : Proc) (w : World) (l : Loc) : Node :=
  { kind := .dir, perm := maskOff 0o777 p.umask ||| inheritSetgid w.fs l, uid := p.uid, gid := inheritGid w.fs l p.gid,
    mtime := w.clock, ctime := w.clock }

def newFile (p : Proc) (w : World) (l : Loc) : Node :=
  { kind := .file [], perm := maskOff 0o666 p.umask, uid := p.uid, gid := inheritGid w.fs l p.gid,
    mtime := w.clock, ctime := w.clock }

def newLink (p : Proc) (w : World) (l : Loc) (target : Str) : Node :=
  { kind := .link target, perm := 0o777, uid := p.uid, gid := inheritGid w.fs l p.gid, mtime := w.clock, ctime := w.clock }

/-- The tool did what it was asked to do. -/
def fine (w : World) : ExecRes × World := (.done [] [] 0, w)

/-- The tool failed, by itself or because of the environment. -/
def broken (msg : Bytes) (w : World) : ExecRes × World := (.done [] msg 1, w)

/-- `l` is the place `top` or below. -/
def under (top l : Loc) : Bool := top.isPrefixOf l

/-- Everything from `l` down to `q` is kept. -/
def wayKept (l : Loc) (kept : Loc → Bool) (q : Loc) : Bool :=
  (List.range (q.length + 1)).all fun i => !under l (q.take i) || kept (q.take i)

/-- What is left of a tree if only some entries are removed: a directory can be removed only with everything in it. -/
def removeMost (fs : Loc → Option Node) (l : Loc) (kept : Loc → Bool) : Loc → Option Node :=
  fun q => if under l q && !wayKept l kept q then none else fs q

/-- Removing what is at a place that is not a directory. -/
def unlinkAt (o : Tools) (p : Proc) (w : World) (l : Loc) : ExecRes × World :=
  match o.fault p w 0 with
  | some m => broken m w
  | none => fine (w.set l none)

/-- The last component of a path as it is written. -/
def lastComponent (path : Str) : Str := ((splitSlash path).filter (· ≠ [])).getLastD []

/-- Where `ln -s -- target path` creates the link: in a directory, under the last component of the target; otherwise at
the path itself. -/
def linkPlace (w : World) (p : Proc) (target path : Str) : Except Int Loc :=
  match lookup w.fs p.cwd path true with
  | .ok (l, n) => if n.kind = .dir then .ok (l ++ [lastComponent target]) else resolve w.fs p.cwd path false
  | .error _ => resolve w.fs p.cwd path false

/-- Where `cp -- src dst` copies to: into a directory, onto an existing file, or to the path itself. It does not write
through a link to nowhere. -/
def copyPlace (w : World) (p : Proc) (src dst : Str) : Except Int Loc :=
  match lookup w.fs p.cwd dst true with
  | .ok (l, n) => if n.kind = .dir then .ok (l ++ [lastComponent src]) else .ok l
  | .error e =>
    match lookup w.fs p.cwd dst false with
    | .ok _ => .error e
    | .error _ => resolve w.fs p.cwd dst false

def runMkdir (o : Tools) (p : Proc) (w : World) (path : Str) : ExecRes × World :=
  match resolve w.fs p.cwd path false with
  | .error _ => broken (o.says p w) w
  | .ok l =>
    match w.fs l with
    | some _ => broken (o.says p w) w
    | none =>
      match o.fault p w 0 with
      | some m => broken m w
      | none => fine (w.set l (some (newDir p w l)))

def runChmod (o : Tools) (p : Proc) (w : World) (mode path : Str) : ExecRes × World :=
  match lookup w.fs p.cwd path true with
  | .error _ => broken (o.says p w) w
  | .ok (l, n) =>
    match chmodBits o p mode n with
    | none => broken (o.says p w) w
    | some b =>
      match o.fault p w 0 with
      | some m => broken m w
      | none => fine (w.set l (some { n with perm := b, ctime := w.clock }))

def runChown (o : Tools) (p : Proc) (w : World) (spec path : Str) (follow : Bool) : ExecRes × World :=
  match lookup w.fs p.cwd path follow with
  | .error _ => broken (o.says p w) w
  | .ok (l, n) =>
    match chownIds o w spec with
    | none => broken (o.says p w) w
    | some (u, g) =>
      match o.fault p w 0 with
      | some m => broken m w
      | none => fine (w.set l (some { n with perm := chownPerm n, uid := u.getD n.uid, gid := g.getD n.gid, ctime := w.clock }))

/-- Creates the file if there is none; otherwise sets its times. Creating may succeed and setting the times fail. -/
def runTouch (o : Tools) (p : Proc) (w : World) (path : Str) : ExecRes × World :=
  match resolve w.fs p.cwd path true with
  | .error _ => broken (o.says p w) w
  | .ok l =>
    match w.fs l with
    | some n =>
      match o.fault p w 0 with
      | some m => broken m w
      | none => fine (w.set l (some { n with mtime := w.clock, ctime := w.clock }))
    | none =>
      match o.fault p w 0 with
      | some m => broken m w
      | none =>
        match o.fault p w 1 with
        | some m => broken m (w.set l (some (newFile p w l)))
        | none => fine (w.set l (some (newFile p w l)))

def runTouchLink (o : Tools) (p : Proc) (w : World) (path : Str) : ExecRes × World :=
  match lookup w.fs p.cwd path false with
  | .error _ => broken (o.says p w) w
  | .ok (l, n) =>
    match o.fault p w 0 with
    | some m => broken m w
    | none => fine (w.set l (some { n with mtime := w.clock, ctime := w.clock }))

def runRm (o : Tools) (p : Proc) (w : World) (path : Str) : ExecRes × World :=
  match lookup w.fs p.cwd path false with
  | .error _ => broken (o.says p w) w
  | .ok (l, n) => if n.kind = .dir then broken (o.says p w) w else unlinkAt o p w l

/-- A missing path is fine; `/`, `.` and `..` are refused; removing may stop half way. -/
def runRmTree (o : Tools) (p : Proc) (w : World) (path : Str) : ExecRes × World :=
  if lastComponent path = p!"." ∨ lastComponent path = p!".." then broken (o.says p w) w
  else match lookup w.fs p.cwd path false with
    | .error e => if e = ENOENT ∨ e = ENOTDIR then fine w else broken (o.says p w) w
    | .ok (l, n) =>
      if l = [] then broken (o.says p w) w
      else if n.kind = .dir then
        match o.kept p w with
        | some k => broken (o.says p w) { w with fs := removeMost w.fs l k }
        | none => fine { w with fs := removeMost w.fs l fun _ => false }
      else unlinkAt o p w l

/-- An existing entry that is not a directory is replaced: removed first, then the link is created. -/
def runLn (o : Tools) (p : Proc) (w : World) (target path : Str) : ExecRes × World :=
  match linkPlace w p target path with
  | .error _ => broken (o.says p w) w
  | .ok l =>
    if target = [] then broken (o.says p w) w
    else match w.fs l with
    | none =>
      match o.fault p w 0 with
      | some m => broken m w
      | none => fine (w.set l (some (newLink p w l target)))
    | some n =>
      if n.kind = .dir then broken (o.says p w) w
      else match o.fault p w 0 with
        | some m => broken m w
        | none =>
          match o.fault p w 1 with
          | some m => broken m (w.set l none)
          | none => fine (w.set l (some (newLink p w l target)))

def runReadlink (o : Tools) (p : Proc) (w : World) (path : Str) : ExecRes × World :=
  match lookup w.fs p.cwd path false with
  | .error _ => broken [] w
  | .ok (_, n) =>
    match n.kind with
    | .link t =>
      match o.fault p w 0 with
      | some _ => broken [] w
      | none => (.done ((Py.encodeEscape t).getD []) [] 0, w)
    | _ => broken [] w

/-- Copies a regular file with its attributes. An existing file is overwritten in place. Writing may fail half way, and
setting the attributes may fail. Anything else is left to the environment. -/
def runCp (o : Tools) (p : Proc) (w : World) (src dst : Str) : ExecRes × World :=
  match lookup w.fs p.cwd src false with
  | .error _ => broken (o.says p w) w
  | .ok (from_, n) =>
    match n.kind with
    | .file c =>
      match copyPlace w p src dst with
      | .error _ => broken (o.says p w) w
      | .ok l =>
        if l = from_ then broken (o.says p w) w
        else match w.fs l with
        | some old =>
          match old.kind with
          | .file _ =>
            match o.fault p w 0 with
            | some m => broken m w
            | none =>
              match o.fault p w 1 with
              | some m =>
                broken m (w.set l (some { old with kind := .file (c.take (o.copied p w)), mtime := w.clock, ctime := w.clock }))
              | none => fine (w.set l (some { n with ctime := w.clock }))
          | .dir => broken (o.says p w) w
          | _ => o.other p w
        | none =>
          match o.fault p w 0 with
          | some m => broken m w
          | none =>
            match o.fault p w 1 with
            | some m => broken m (w.set l (some { newFile p w l with kind := .file (c.take (o.copied p w)) }))
            | none => fine (w.set l (some { n with ctime := w.clock }))
    | _ => o.other p w

/-- What a tool does. -/
def runTool (o : Tools) (p : Proc) (w : World) : Tool → ExecRes × World
  | .mkdir path => runMkdir o p w path
  | .chmod mode path => runChmod o p w mode path
  | .chown spec path follow => runChown o p w spec path follow
  | .touch path => runTouch o p w path
  | .touchLink path => runTouchLink o p w path
  | .rm path => runRm o p w path
  | .rmTree path => runRmTree o p w path
  | .ln target path => runLn o p w target path
  | .readlink path => runReadlink o p w path
  | .cp src dst => runCp o p w src dst

/-- What executing a program does on a host with these tools. -/
def core (o : Tools) (p : Proc) (w : World) : ExecRes × World :=
  match o.missing p w with
  | some e => (.failed e, w)
  | none =>
    match parseTool p.argv with
    | none => o.other p w
    | some t => runTool o p w t

end Verif.Remote
