/-
Operations on files.
Models /repo/src/fora/operations/files.py. Names, descriptions and log output are omitted. What Python reads from the local
machine (file contents, directory trees, the time, the result of rendering a template, matches of a regular expression) is
an argument, so that theorems quantify over it.
-/
import Verif.Ops.Utils

namespace Verif.Ops

open Script

/-! ### directory -/

/-- The states of `directory` and `file`, files.py:98-117 and 187-206. -/
def pathState (ex : Bool) (mode owner group : Option Str) (touched : Bool) : Dict :=
  [(p!"exists", .bool ex), (p!"mode", .optStr mode), (p!"owner", .optStr owner), (p!"group", .optStr group),
   (p!"touched", .bool touched)]

/-- The actions of `directory`, files.py:124-142. -/
def directoryActions (path : Str) (present : Bool) (attr : Settings) : Op Unit :=
  if present then do
    whenChanged p!"exists" (runCommand [p!"mkdir", p!"--", path])
    whenChanged p!"mode" (runCommand (chmodCommand attr.dirMode path))
    whenEither p!"owner" p!"group" (runCommand (chownCommand attr path))
    let e ← changed p!"exists"
    if e then Op.pure () else whenChanged p!"touched" (runCommand [p!"touch", p!"--", path])
  else whenChanged p!"exists" (runCommand [p!"rm", p!"-rf", p!"--", path])

/-- The block of `directory`, files.py:97-144. -/
def directoryBody (path : Str) (present touch : Bool) (attr : Settings) : Op OpResult := do
  finalState (if present then pathState true attr.dirMode attr.owner attr.group touch else pathState false none none none false)
  let stat ← Connection.stat path
  match stat with
  | none => do
    initialState (pathState false none none none false)
    settle (Op.pure ()) (directoryActions path present attr)
  | some s =>
    if s.type ≠ p!"dir" then failure (p!"path '" ++ path ++ p!"' exists but is not a directory!")
    else do
      initialState (pathState true (some s.mode) (some s.owner) (some s.group) false)
      settle (Op.pure ()) (directoryActions path present attr)

/-- `directory`, files.py:55-144. -/
def directory (path : Str) (present touch : Bool) (mode owner group : Option Str) (check : Bool) : Op OpResult :=
  operation check do
    Op.ofExcept (checkAbsolutePath path p!"path")
    returned (withDefaults { dirMode := mode, owner, group } (directoryBody path present touch))

/-! ### file -/

/-- The actions of `file`, files.py:213-228. -/
def fileActions (path : Str) (present : Bool) (attr : Settings) : Op Unit :=
  if present then do
    whenEither p!"exists" p!"touched" (runCommand [p!"touch", p!"--", path])
    whenChanged p!"mode" (runCommand (chmodCommand attr.fileMode path))
    whenEither p!"owner" p!"group" (runCommand (chownCommand attr path))
  else whenChanged p!"exists" (runCommand [p!"rm", p!"--", path])

/-- The block of `file`, files.py:186-230. -/
def fileBody (path : Str) (present touch : Bool) (attr : Settings) : Op OpResult := do
  finalState (if present then pathState true attr.fileMode attr.owner attr.group touch else pathState false none none none false)
  let stat ← Connection.stat path
  match stat with
  | none => do
    initialState (pathState false none none none false)
    settle (Op.pure ()) (fileActions path present attr)
  | some s =>
    if s.type ≠ p!"file" then failure (p!"path '" ++ path ++ p!"' exists but is not a file!")
    else do
      initialState (pathState true (some s.mode) (some s.owner) (some s.group) false)
      settle (Op.pure ()) (fileActions path present attr)

/-- `file`, files.py:146-230. -/
def file (path : Str) (present touch : Bool) (mode owner group : Option Str) (check : Bool) : Op OpResult :=
  operation check do
    Op.ofExcept (checkAbsolutePath path p!"path")
    returned (withDefaults { fileMode := mode, owner, group } (fileBody path present touch))

/-! ### link -/

/-- The states of `link`, files.py:276-295. -/
def linkState (ex : Bool) (target owner group : Option Str) (touched : Bool) : Dict :=
  [(p!"exists", .bool ex), (p!"target", .optStr target), (p!"owner", .optStr owner), (p!"group", .optStr group),
   (p!"touched", .bool touched)]

/-- The actions of `link`, files.py:302-317. -/
def linkActions (path target : Str) (present : Bool) (attr : Settings) : Op Unit :=
  if present then do
    whenChanged p!"target" (runCommand [p!"ln", p!"-sf", p!"--", target, path])
    whenEither p!"owner" p!"group" (runCommand (chownLinkCommand attr path))
    let e ← changed p!"exists"
    if e then Op.pure () else whenChanged p!"touched" (runCommand [p!"touch", p!"--no-dereference", p!"--", path])
  else whenChanged p!"exists" (runCommand [p!"rm", p!"--", path])

/-- `b.decode()` -/
def decodeStrict (b : Bytes) : Except Exn Str :=
  match Py.decodeUtf8 b with
  | some s => .ok s
  | none => .error .unicodeError

/-- The block of `link`, files.py:275-319. -/
def linkBody (path target : Str) (present touch : Bool) (attr : Settings) : Op OpResult := do
  finalState (if present then linkState true (some target) attr.owner attr.group touch else linkState false none none none false)
  let stat ← Connection.stat path
  match stat with
  | none => do
    initialState (linkState false none none none false)
    settle (Op.pure ()) (linkActions path target present attr)
  | some s =>
    if s.type ≠ p!"link" then failure (p!"path '" ++ path ++ p!"' exists but is not a link!")
    else do
      let res ← Connection.run [p!"readlink", p!"-n", path]
      let existing ← Op.ofExcept (decodeStrict (res.stdout.getD []))
      initialState (linkState true (some existing) (some s.owner) (some s.group) false)
      settle (Op.pure ()) (linkActions path target present attr)

/-- `link`, files.py:232-319. -/
def link (path target : Str) (present touch : Bool) (owner group : Option Str) (check : Bool) : Op OpResult :=
  operation check do
    Op.ofExcept (checkAbsolutePath path p!"path")
    if target = [] then Op.raise (.valueError p!"Link target cannot be empty")
    else returned (withDefaults { owner, group } (linkBody path target present touch))

/-! ### upload_content, upload -/

/-- `upload_content`, files.py:321-357. -/
def uploadContent (sha512 : Bytes → Bytes) (content : Content) (dest : Str) (mode owner group : Option Str) (check : Bool) :
    Op OpResult :=
  operation check do
    Op.ofExcept (checkAbsolutePath dest p!"dest")
    returned (saveContent sha512 content dest mode owner group)

/-- `dest` of `upload` and `template`, files.py:394-395 and 589-590. -/
def destOf (src dest : Str) : Str := if Py.endsWith dest p!"/" then pathJoin dest (baseName src) else dest

/-- `upload`, files.py:359-398. `read` is the outcome of `open(src, 'rb')` and `f.read()`. -/
def upload (sha512 : Bytes → Bytes) (src : Str) (read : Except Exn Bytes) (dest : Str) (mode owner group : Option Str)
    (check : Bool) : Op OpResult :=
  operation check do
    Op.ofExcept (checkAbsolutePath dest p!"dest")
    let content ← Op.ofExcept read
    returned (saveContent sha512 (.bytes content) (destOf src dest) mode owner group)

/-! ### upload_dir -/

/-- What is under the local source directory. -/
inductive Tree where
  /-- a regular file, and what reading it gives -/
  | file (content : Except Exn Bytes)
  /-- a symbolic link to a regular file, and what reading it gives -/
  | fileLink (content : Except Exn Bytes)
  | dir (entries : List (Str × Tree))
  /-- a symbolic link to a directory -/
  | dirLink
  /-- a dangling link, a socket, ... -/
  | special

/-- `os.walk` lists it among the subdirectories. -/
def Tree.isDir : Tree → Bool
  | .dir _ | .dirLink => true
  | _ => false

/-- `os.path.isfile(sf)` and then the content. -/
def Tree.content? : Tree → Option (Except Exn Bytes)
  | .file c | .fileLink c => some c
  | _ => none

/-- One item of `os.walk`: the path relative to the top as a list of names, subdirectories, and other entries. -/
structure WalkItem where
  rel : List Str
  subdirs : List Str
  subfiles : List (Str × Tree)

/-- The item `os.walk` yields for a directory with these entries. -/
def walkItem (rel : List Str) (entries : List (Str × Tree)) : WalkItem :=
  { rel, subdirs := (entries.filter (·.2.isDir)).map (·.1), subfiles := entries.filter (!·.2.isDir) }

mutual
/-- `os.walk(top)`, from the top down and without following links. -/
def walkTree (rel : List Str) : Tree → List WalkItem
  | .dir entries => walkItem rel entries :: walkEntries rel entries
  | _ => []
def walkEntries (rel : List Str) : List (Str × Tree) → List WalkItem
  | [] => []
  | (n, t) :: r => walkTree (rel ++ [n]) t ++ walkEntries rel r
end

/-- `str.split("/")` -/
def splitSlash : Str → List Str
  | [] => [[]]
  | 47 :: r => [] :: splitSlash r
  | c :: r => match splitSlash r with
    | [] => [[c]]
    | x :: xs => (c :: x) :: xs

/-- The loop of `posixpath.normpath` for an absolute path. -/
def normLoop : List Str → List Str → List Str
  | [], acc => acc
  | c :: cs, acc =>
    if c = [] || c = p!"." then normLoop cs acc
    else if c = p!".." then normLoop cs acc.dropLast
    else normLoop cs (acc ++ [c])

/-- `os.path.normpath(p)` for an absolute path. Exactly two leading slashes are kept. -/
def normPath (p : Str) : Str :=
  let root := if Py.startsWith p p!"//" && !Py.startsWith p p!"///" then p!"//" else p!"/"
  root ++ Py.join p!"/" (normLoop (splitSlash p) [])

/-- `relpath(root, start=src)` for a root that `os.walk(src)` yields. -/
def relPath (rel : List Str) : Str := if rel = [] then p!"." else Py.join p!"/" rel

/-- `droot`, files.py:482. -/
def destRoot (dest : Str) (rel : List Str) : Str := normPath (pathJoin dest (relPath rel))

/-- `dirs`, files.py:477-484. -/
def destDirs (dest : Str) (items : List WalkItem) : List Str :=
  dest :: items.flatMap fun i => i.subdirs.map (pathJoin (destRoot dest i.rel))

/-- `files`, files.py:478-486, with what is at the source path instead of the path. -/
def destFiles (dest : Str) (items : List WalkItem) : List (Tree × Str) :=
  items.flatMap fun i => i.subfiles.map fun f => (f.2, pathJoin (destRoot dest i.rel) f.1)

/-- `for d in dirs: op.add_nested_result(d, directory(...))`, files.py:488-489. -/
def uploadDirs (mode owner group : Option Str) : List Str → Op Unit
  | [] => Op.pure ()
  | d :: ds => do
    let r ← directory d true false mode owner group true
    addNestedResult d r
    uploadDirs mode owner group ds

/-- `for sf,df in files: if os.path.isfile(sf): op.add_nested_result(df, upload(...))`, files.py:490-492. The name of the
source file does not matter: `df` never ends with a slash. -/
def uploadFiles (sha512 : Bytes → Bytes) (mode owner group : Option Str) : List (Tree × Str) → Op Unit
  | [] => Op.pure ()
  | (t, df) :: fs =>
    match t.content? with
    | some c => do
      let r ← upload sha512 (baseName df) c df mode owner group true
      addNestedResult df r
      uploadFiles sha512 mode owner group fs
    | none => uploadFiles sha512 mode owner group fs

/-- `upload_dir`, files.py:400-494. `tree` is what is at `src`, a symbolic link there followed (`os.walk` follows it, although none
below). -/
def uploadDir (sha512 : Bytes → Bytes) (src : Str) (tree : Tree) (dest : Str) (dirMode fileMode owner group : Option Str)
    (check : Bool) : Op OpResult :=
  operation check do
    setNested true
    Op.ofExcept (checkAbsolutePath dest p!"dest")
    if !tree.isDir then Op.raise (.valueError (p!"src='" ++ src ++ p!"' must be a directory"))
    else do
      let dest := destOf src dest
      let items := walkTree [] tree
      uploadDirs dirMode owner group (destDirs dest items)
      uploadFiles sha512 fileMode owner group (destFiles dest items)
      returned success

/-! ### template_content, template -/

/-- The outcome of `templ.render(dvars)`. -/
inductive Rendered where
  | text (s : Str)
  /-- jinja2's `UndefinedError` with its message -/
  | undefined (msg : Str)
  /-- any other exception -/
  | failed (e : Exn)

/-- `d[k] = v` -/
def setKey {V : Type} (d : List (Str × V)) (k : Str) (v : V) : List (Str × V) :=
  match d with
  | [] => [(k, v)]
  | (k', v') :: r => if k' = k then (k, v) :: r else (k', v') :: setKey r k v

/-- `d.update(e)` -/
def updateKeys {V : Type} (d : List (Str × V)) : List (Str × V) → List (Str × V)
  | [] => d
  | (k, v) :: r => updateKeys (setKey d k v) r

/-- The variables of a template, files.py:48-52. `hierarchical` is `fora.host.vars_hierarchical()`; note that `"inventory"`
is the host as well. -/
def templateVars {V : Type} (hierarchical : List (Str × V)) (context : Option (List (Str × V))) (host : V) : List (Str × V) :=
  let dvars := updateKeys hierarchical (context.getD [])
  setKey (setKey dvars p!"host" host) p!"inventory" host

/-- `_render_template` with the `try` around it, files.py:23-53, 537-541 and 595-601. -/
def renderTemplate {V : Type} (templ : List (Str × V) → Rendered) (what : Str) (hierarchical : List (Str × V))
    (context : Option (List (Str × V))) (host : V) : Except Exn Bytes :=
  match templ (templateVars hierarchical context host) with
  | .text s => (Content.str s).encode
  | .undefined msg => .error (.valueError (p!"Error while templating " ++ what ++ p!": " ++ msg))
  | .failed e => .error e

/-- `template_content`, files.py:496-543. `templ` is the template that the content stands for. -/
def templateContent {V : Type} (sha512 : Bytes → Bytes) (templ : List (Str × V) → Rendered) (dest : Str)
    (hierarchical : List (Str × V)) (context : Option (List (Str × V))) (host : V) (mode owner group : Option Str) (check : Bool) :
    Op OpResult :=
  operation check do
    Op.ofExcept (checkAbsolutePath dest p!"dest")
    let content ← Op.ofExcept (renderTemplate templ p!"string" hierarchical context host)
    returned (saveContent sha512 (.bytes content) dest mode owner group)

/-- `template`, files.py:545-603. `templ` is the template in the source file, or the exception of reading it. -/
def template {V : Type} (sha512 : Bytes → Bytes) (src : Str) (templ : Except Exn (List (Str × V) → Rendered)) (dest : Str)
    (hierarchical : List (Str × V)) (context : Option (List (Str × V))) (host : V) (mode owner group : Option Str) (check : Bool) :
    Op OpResult :=
  operation check do
    Op.ofExcept (checkAbsolutePath dest p!"dest")
    let templ ← Op.ofExcept templ
    let content ← Op.ofExcept (renderTemplate templ (p!"'" ++ src ++ p!"'") hierarchical context host)
    returned (saveContent sha512 (.bytes content) (destOf src dest) mode owner group)

/-! ### line -/

/-- A regular expression: whether it matches somewhere in the content of a file with `re.MULTILINE`, and whether it matches
somewhere in one line. -/
structure Regex where
  search : Str → Bool
  searchLine : Str → Bool

/-- The argument `backup`, `Union[bool, str]`; `True` together with the current time as `strftime` prints it. -/
inductive Backup where
  | no
  | dated (now : Str)
  | named (name : Str)

/-- The file name of the backup, if one is wanted, files.py:716-719. The empty string counts as false. -/
def Backup.fileName : Backup → Option Str
  | .no => none
  | .dated now => some (p!"." ++ now ++ p!".bak")
  | .named [] => none
  | .named name => some name

/-- Whether the line is in the file, files.py:676-683. -/
def linePresent (line : Str) (regex : Option Regex) (ignoreWhitespace : Bool) (content : Str) : Bool :=
  match regex with
  | none =>
    if ignoreWhitespace then ((Py.splitlines content).map Py.strip).contains (Py.strip line)
    else (Py.splitlines content).contains line
  | some r => r.search content

/-- The new lines, files.py:691-703. -/
def newLines (line : Str) (present : Bool) (regex : Option Regex) (ignoreWhitespace : Bool) (lines : List Str) : List Str :=
  if present then lines ++ [line]
  else match regex with
    | none =>
      if ignoreWhitespace then lines.filter (fun l => line != Py.strip l) else lines.filter (fun l => line != l)
    | some r => lines.filter (fun l => !r.searchLine l)

/-- `"\n".join(lines) + "\n"`, files.py:704. -/
def joinLines (lines : List Str) : Str := Py.join p!"\n" lines ++ p!"\n"

/-- `.encode("utf-8", errors="surrogateescape")`, files.py:705. -/
def encodeLines (s : Str) : Except Exn Bytes :=
  match Py.encodeEscape s with
  | some b => .ok b
  | none => .error .unicodeError

/-- The backup of an existing file, files.py:716-719. -/
def lineBackup (path : Str) (backup : Backup) : Op Unit :=
  match backup.fileName with
  | some b => runCommand [p!"cp", p!"-a", p!"--", path, pathJoin (dirName path) b]
  | none => Op.pure ()

/-- The actions of `line`, files.py:712-720. -/
def lineActions (path : Str) (backup : Backup) (attr : Settings) (orig : Option Bytes) (new : Bytes) : Op Unit :=
  match orig with
  | none => Connection.upload path new attr.fileMode attr.owner attr.group
  | some _ => do
    lineBackup path backup
    Connection.upload path new

/-- `if fora.args.diff: op.diff(path, orig, new)`, files.py:708-709. -/
def lineDiff (path : Str) (orig : Option Bytes) (new : Bytes) : Op Unit := do
  let d ← diffWanted
  if d then opDiff path orig (some new) else Op.pure ()

/-- The part of `line` after the current state is known, files.py:685-722. -/
def lineSettle (path line : Str) (present : Bool) (regex : Option Regex) (ignoreWhitespace : Bool) (backup : Backup)
    (attr : Settings) (orig : Option Bytes) : Op OpResult := do
  let content := (orig.map Py.decodeEscape).getD []
  initialState [(p!"line_present", .bool (orig.any fun b => linePresent line regex ignoreWhitespace (Py.decodeEscape b)))]
  let u ← unchanged
  if u then success
  else do
    let new ← Op.ofExcept (encodeLines (joinLines (newLines line present regex ignoreWhitespace (Py.splitlines content))))
    lineDiff path orig new
    unlessDry (lineActions path backup attr orig new)
    success

/-- The block of `line`, files.py:661-722. -/
def lineBody (path line : Str) (present : Bool) (regex : Option Regex) (ignoreWhitespace : Bool) (backup : Backup)
    (attr : Settings) : Op OpResult := do
  finalState [(p!"line_present", .bool present)]
  let stat ← Connection.stat path
  match stat with
  | none => lineSettle path line present regex ignoreWhitespace backup attr none
  | some s =>
    if s.type ≠ p!"file" then failure (p!"path '" ++ path ++ p!"' exists but is not a file!")
    else do
      let b ← Connection.download path
      lineSettle path line present regex ignoreWhitespace backup attr (some b)

/-- `line`, files.py:605-722. -/
def line (path line : Str) (present : Bool) (regex : Option Regex) (ignoreWhitespace : Bool) (backup : Backup) (check : Bool) :
    Op OpResult :=
  operation check do
    Op.ofExcept (checkAbsolutePath path p!"path")
    returned (withDefaults {} (lineBody path line present regex ignoreWhitespace backup))

end Verif.Ops
