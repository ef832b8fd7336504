/-
Helpers that operations share.
Models /repo/src/fora/operations/utils.py:18-27, 107-195, and the parts of Python's posixpath that operations use.
-/
import Verif.Script.Op

namespace Verif.Ops

open Script

/-! ### posixpath -/

/-- `os.path.join(a, b)`. -/
def pathJoin (a b : Str) : Str :=
  match b with
  | 47 :: _ => b
  | _ => if a = [] || Py.endsWith a p!"/" then a ++ b else a ++ p!"/" ++ b

/-- `os.path.basename(p)`: what follows the last slash. -/
def baseName (p : Str) : Str := (p.reverse.takeWhile (· != 47)).reverse

/-- `os.path.dirname(p)`: what precedes it, without trailing slashes unless there is nothing else. -/
def dirName (p : Str) : Str :=
  let head := (p.reverse.dropWhile (· != 47)).reverse
  if head.all (· == 47) then head else (head.reverse.dropWhile (· == 47)).reverse

/-! ### Checks and actions -/

/-- `check_absolute_path`, utils.py:181-195. `desc` is the text that names the variable: the callers pass
`f"{path=}"`, which also shows its value; here it is only the name. -/
def checkAbsolutePath (path desc : Str) : Except Exn Unit :=
  match path with
  | [] => .error (.valueError (p!"Path " ++ desc ++ p!" must be non-empty"))
  | c :: _ => if c ≠ 47 then .error (.valueError (p!"Path " ++ desc ++ p!" must be absolute")) else .ok ()

/-- `f"{x}"` for a value that may be None. -/
def text (x : Option Str) : Str := x.getD p!"None"

/-- `conn.run(command)`, its result unused. -/
def runCommand (command : List Str) : Op Unit := do
  let _ ← Connection.run command
  return ()

/-- `if op.changed(key): action` -/
def whenChanged (key : Str) (action : Op Unit) : Op Unit := do
  let c ← changed key
  if c then action else Op.pure ()

/-- `op.changed(a) or op.changed(b)` -/
def changedEither (a b : Str) : Op Bool := do
  let c ← changed a
  if c then Op.pure true else changed b

/-- `if op.changed(a) or op.changed(b): action` -/
def whenEither (a b : Str) (action : Op Unit) : Op Unit := do
  let c ← changedEither a b
  if c then action else Op.pure ()

/-- `if not fora.args.dry: action` -/
def unlessDry (action : Op Unit) : Op Unit := do
  let d ← dry
  if d then Op.pure () else action

/-- The end of almost every operation: `if op.unchanged(): return op.success()`, then (with `between`: adding a diff) the
actions unless this is a dry run, then `return op.success()`. -/
def settle (between action : Op Unit) : Op OpResult := do
  let u ← unchanged
  if u then success
  else do
    between
    unlessDry action
    success

/-- A result of `settle` or `failure` as the return value of the function. -/
def returned (m : Op OpResult) : Op (Option OpResult) := do
  let r ← m
  return some r

/-- The command that sets mode bits: `["chmod", mode, "--", path]`. The mode is never None here, since
`resolve_defaults` has refused that. -/
def chmodCommand (mode : Option Str) (path : Str) : List Str := [p!"chmod", text mode, p!"--", path]

/-- `["chown", f"{attr.owner}:{attr.group}", "--", path]` -/
def chownCommand (attr : Settings) (path : Str) : List Str :=
  [p!"chown", text attr.owner ++ p!":" ++ text attr.group, p!"--", path]

/-- `["chown", "--no-dereference", f"{attr.owner}:{attr.group}", "--", path]` -/
def chownLinkCommand (attr : Settings) (path : Str) : List Str :=
  [p!"chown", p!"--no-dereference", text attr.owner ++ p!":" ++ text attr.group, p!"--", path]

/-! ### save_content -/

/-- File content as it is given to an operation: `Union[bytes, str]`. -/
inductive Content where
  | bytes (b : Bytes)
  | str (s : Str)

/-- `content.encode('utf-8')` if it is a str, utils.py:131-132. -/
def Content.encode : Content → Except Exn Bytes
  | .bytes b => .ok b
  | .str s => match Py.encodeUtf8 s with
    | some b => .ok b
    | none => .error .unicodeError

/-- The states of `save_content`, utils.py:137, 143, 149. -/
def contentState (ex : Bool) (mode owner group : Option Str) (sum : Option Bytes) : Dict :=
  [(p!"exists", .bool ex), (p!"mode", .optStr mode), (p!"owner", .optStr owner), (p!"group", .optStr group),
   (p!"sha512", .optBytes sum)]

/-- The actions of `save_content`, utils.py:161-177. -/
def saveActions (attr : Settings) (content : Bytes) (dest : Str) : Op Unit := do
  let c ← changedEither p!"exists" p!"sha512"
  if c then Connection.upload dest content attr.fileMode attr.owner attr.group
  else do
    whenChanged p!"mode" (runCommand (chmodCommand attr.fileMode dest))
    whenEither p!"owner" p!"group" (runCommand (chownCommand attr dest))

/-- `if fora.args.diff: op.diff(dest, conn.download_or(dest), content)`, utils.py:156-157. -/
def saveDiff (dest : Str) (content : Bytes) : Op Unit := do
  let d ← diffWanted
  if d then do
    let old ← Connection.downloadOr dest
    opDiff dest old (some content)
  else Op.pure ()

/-- The block of `save_content`, utils.py:136-179. -/
def saveBody (sha512 : Bytes → Bytes) (content : Bytes) (dest : Str) (attr : Settings) : Op OpResult := do
  finalState (contentState true attr.fileMode attr.owner attr.group (some (sha512 content)))
  let stat ← Connection.stat dest (sha512sum := true)
  match stat with
  | none => do
    initialState (contentState false none none none none)
    settle (saveDiff dest content) (saveActions attr content dest)
  | some s =>
    if s.type ≠ p!"file" then failure (p!"path '" ++ dest ++ p!"' exists but is not a file!")
    else do
      initialState (contentState true (some s.mode) (some s.owner) (some s.group) s.sha512sum)
      settle (saveDiff dest content) (saveActions attr content dest)

/-- `save_content`, utils.py:107-179. `sha512` is `hashlib.sha512(...).digest()`. -/
def saveContent (sha512 : Bytes → Bytes) (content : Content) (dest : Str) (mode owner group : Option Str) : Op OpResult := do
  let content ← Op.ofExcept content.encode
  withDefaults { fileMode := mode, owner, group } (saveBody sha512 content dest)

/-! ### find_command -/

/-- One alternative of the query of `find_command`, utils.py:23. -/
def typeQuery (cmd : Str) : Str := p!"{ type &>/dev/null " ++ cmd ++ p!" && echo " ++ cmd ++ p!" ; }"

/-- The query of `find_command`, utils.py:23-24. -/
def findQuery (cmds : List Str) : Str := Py.join p!" || " (cmds.map typeQuery) ++ p!" || echo __unknown__"

/-- `d.get(k)` for the dictionary of managers. -/
def lookupKey {α : Type} (m : List (Str × α)) (k : Str) : Option α :=
  (m.find? (·.1 == k)).map (·.2)

/-- `find_command`, utils.py:18-27. -/
def findCommand {α : Type} (m : List (Str × α)) : Op (Option α) := do
  let res ← Connection.run [p!"bash", p!"-c", findQuery (m.map (·.1))]
  return lookupKey m (Py.strip (Py.decodeIgnore (res.stdout.getD [])))

end Verif.Ops
