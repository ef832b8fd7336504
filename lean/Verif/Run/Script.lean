/-
Running scripts: /repo/src/fora/loader.py:85-147 and /repo/src/fora/operations/local.py:10-54.
-/
import Verif.Ops.Utils

namespace Verif.Run

/-- A `ScriptWrapper` on the stack of scripts, loader.py:112-113. `id` distinguishes the objects. `file` is the canonical path of
the script. -/
structure ScriptW where
  id : Nat
  name : Str
  file : Str
  deriving DecidableEq, Repr

/-- An exception object. -/
structure Exc where
  kind : Exn
  /-- `isinstance(e, Exception)`; it is not for `KeyboardInterrupt` and `SystemExit` -/
  isException : Bool := true
  /-- the attribute `script_stack`, if it exists -/
  stack : Option (List ScriptW) := none
  deriving DecidableEq, Repr

/-- What the current process knows: `fora.script`, `loader.script_stack`, the working directory, `logger.state`, and which
directories exist and may be entered. -/
structure Ctx where
  script : Option ScriptW := none
  stack : List ScriptW := []
  cwd : Str
  indent : Int := 0
  dirs : Str → Bool
  /-- the identity of the next object -/
  next : Nat := 0

/-- Parameters of a script: a dict. The values are objects, given by their identity. -/
abbrev Dict := List (Str × Nat)

/-- The code of a script, reduced to what concerns the context. Calls of operations and other computations have no effect here,
except that they may raise an exception. -/
inductive Code where
  /-- the end of the code -/
  | done
  /-- an exception is raised -/
  | throw (e : Exc)
  /-- directories are created or removed -/
  | disk (f : (Str → Bool) → (Str → Bool)) (k : Code)
  /-- `os.chdir(path)`; then it goes on, depending on whether there was an exception -/
  | chdir (path : Str) (k : Except Exc Unit → Code)
  /-- `with logger.indent(): body`; then it goes on, or handles the exception -/
  | indent (body : Code) (k : Except Exc Unit → Code)
  /-- `local.script(path, recursive, params, name)`; then it goes on, or handles the exception -/
  | script (path : Str) (recursive : Bool) (params : Option Dict) (name : Option Str) (k : Except Exc Unit → Code)

/-- What does not change meanwhile. -/
structure Env where
  /-- The scripts by their canonical paths. The code is given its parameters. -/
  scripts : Str → Option (Dict → Code)
  /-- `os.path.realpath(path)` in a working directory -/
  realpath : Str → Str → Str
  /-- an inventory is loaded and a host active, with a connection -/
  hostActive : Bool := true

/-- `FileNotFoundError` -/
def notFound : Exc := { kind := .osError (some (2 : Int)) p!"No such file or directory" [] }

/-- `os.path.splitext(os.path.basename(script))[0]`, loader.py:110. (A leading dot does not begin an extension.) -/
def stem (path : Str) : Str :=
  let base := Ops.baseName path
  let r := base.reverse
  let ext := r.takeWhile (· != 46)
  let root := (r.dropWhile (· != 46)).drop 1
  if ext.length = base.length || root.all (· == 46) then base else root.reverse

/-- `os.chdir(dir)` -/
def chdir (dir : Str) (ctx : Ctx) : Except Exc Unit × Ctx :=
  if ctx.dirs dir then (.ok (), { ctx with cwd := dir }) else (.error notFound, ctx)

/-- loader.py:128-132: `with wrapper.defaults(): load_py_module(...)`. The defaults need a connection. -/
def loadScript (env : Env) (run : Code → Ctx → Option (Except Exc Unit × Ctx)) (file : Str) (params : Dict) (ctx : Ctx) : Option (Except Exc Unit × Ctx) :=
  if env.hostActive then
    match env.scripts file with
    | none => some (.error notFound, ctx)
    | some code => run (code params) ctx
  else some (.error { kind := .attributeError }, ctx)

/-- loader.py:133-135: the `finally` block. An exception in it replaces the other one, and skips the rest. -/
def restore (cwd : Str) (script : Option ScriptW) (r : Except Exc Unit) (ctx : Ctx) : Except Exc Unit × Ctx :=
  match chdir cwd ctx with
  | (.error e, ctx) => (.error e, ctx)
  | (.ok (), ctx) => (r, { ctx with script })

/-- loader.py:115-135: the body of the outer `try`. -/
def enterScript (env : Env) (run : Code → Ctx → Option (Except Exc Unit × Ctx)) (w : ScriptW) (params : Option Dict) (ctx : Ctx) : Option (Except Exc Unit × Ctx) :=
  if ctx.dirs ctx.cwd then
    match chdir (Ops.dirName w.file) ctx with
    | (.error e, ctx) => some (.error e, ctx)
    | (.ok (), ctx') =>
      (loadScript env run w.file (params.getD []) { ctx' with script := some w }).map fun r => restore ctx.cwd ctx.script r.1 r.2
  else some (.error notFound, ctx)

/-- loader.py:136-145: the stack of scripts is attached to the exception. -/
def attachStack (stack : List ScriptW) : Except Exc Unit → Except Exc Unit
  | .error e => .error (if e.isException && e.stack.isNone then { e with stack := some stack } else e)
  | .ok () => .ok ()

/-- loader.py:136-147: the end of `run_script` -/
def leaveScript (r : Except Exc Unit × Ctx) : Except Exc Unit × Ctx :=
  (attachStack r.2.stack r.1, { r.2 with stack := r.2.stack.dropLast, indent := r.2.indent - 1 })

/-- loader.py:112: the new wrapper. `realpath` is computed later, in the same directory. -/
def newWrapper (env : Env) (path : Str) (name : Option Str) (ctx : Ctx) : ScriptW :=
  { id := ctx.next, name := name.getD (stem path), file := env.realpath ctx.cwd path }

/-- `run_script`, loader.py:85-147. `run` executes code. The `FrameInfo` of the caller is omitted, and so is the output. -/
def runScript (env : Env) (run : Code → Ctx → Option (Except Exc Unit × Ctx)) (path : Str) (params : Option Dict) (name : Option Str) (ctx : Ctx) :
    Option (Except Exc Unit × Ctx) :=
  let w := newWrapper env path name ctx
  (enterScript env run w params { ctx with indent := ctx.indent + 1, stack := ctx.stack ++ [w], next := ctx.next + 1 }).map leaveScript

/-- `wrapper.definition_file()`, types.py:160-172, for a running script: its module has the attribute `__path__`, set by
`load_py_module`, utils.py:141. That is a directory. -/
def ScriptW.definitionFile (w : ScriptW) : Str := Ops.dirName w.file

/-- `os.path.samefile(script, other)`. `FileNotFoundError` if the script does not exist. (Hard links are not modelled.) -/
def samefile (env : Env) (ctx : Ctx) (script other : Str) : Except Exc Bool :=
  let file := env.realpath ctx.cwd script
  if ((env.scripts file).isSome || ctx.dirs file) && ((env.scripts other).isSome || ctx.dirs other) then .ok (decide (file = other))
  else .error notFound

/-- local.py:46-51: the check of recursive calls -/
def checkRecursion (env : Env) (ctx : Ctx) (script : Str) : List ScriptW → Except Exc Unit
  | [] => .ok ()
  | w :: ws =>
    match samefile env ctx script w.definitionFile with
    | .error e => .error e
    | .ok true => .error { kind := .valueError (p!"Invalid recursive call to script '" ++ script ++ p!"'. Use recursive=True to allow this.") }
    | .ok false => checkRecursion env ctx script ws

/-- local.py:44-51: what is checked before a script is run. `FatalError` is a subclass of `Exception`. -/
def checkCall (env : Env) (ctx : Ctx) (script : Str) (recursive : Bool) : Except Exc Unit :=
  if env.hostActive then
    if recursive then .ok () else checkRecursion env ctx script ctx.stack
  else .error { kind := .runtimeError p!"Invalid attempt to call operation while no host is active!" }

/-- The execution of code, at most `fuel` steps deep. `none` if it is not done after that. -/
def exec (env : Env) : Nat → Code → Ctx → Option (Except Exc Unit × Ctx)
  | 0, _, _ => none
  | _ + 1, .done, ctx => some (.ok (), ctx)
  | _ + 1, .throw e, ctx => some (.error e, ctx)
  | n + 1, .disk f k, ctx => exec env n k { ctx with dirs := f ctx.dirs }
  | n + 1, .chdir path k, ctx =>
    let r := chdir (env.realpath ctx.cwd path) ctx
    exec env n (k r.1) r.2
  | n + 1, .indent body k, ctx =>
    match exec env n body { ctx with indent := ctx.indent + 1 } with
    | none => none
    | some (r, ctx) => exec env n (k r) { ctx with indent := ctx.indent - 1 }
  | n + 1, .script path recursive params name k, ctx =>
    match checkCall env ctx path recursive with
    | .error e => exec env n (k (.error e)) ctx
    | .ok () =>
      match runScript env (exec env n) path params name ctx with
      | none => none
      | some (r, ctx) => exec env n (k r) ctx

end Verif.Run
