/-
What is printed when something fails: /repo/src/fora/utils.py:231-289 and 323-346, with the places where exceptions pass on their
way out of the program, /repo/src/fora/operations/api.py:222-292 and /repo/src/fora/loader.py:112-147.
-/
import Verif.Run.Table
import Verif.Run.Report
import Verif.Py.Utf8

namespace Verif.Failure
open Run (Cell Options fullWidth col)

/-- A frame of the interpreter with the line that it is executing (`inspect.FrameInfo`). -/
structure Frame where
  filename : Str
  line : Nat
  function : Str
  /-- the lines of source code, if the file can be read -/
  context : Option (List Str)
  /-- `f_locals['__name__']`: the frame of a module has it, the frame of a function usually has not. -/
  name : Option Str := none
  deriving DecidableEq, Repr

/-- What kind of exception it is. -/
inductive Cause where
  /-- `subprocess.CalledProcessError`, with the text of the command, and its output unless that was not captured -/
  | process (cmd : Str) (code : Int) (stdout stderr : Option Bytes)
  /-- `OperationError` -/
  | operation (message : Str)
  /-- any other instance of `Exception`, with its text -/
  | exception (text : Str)
  /-- `KeyboardInterrupt` or `SystemExit` -/
  | interrupt
  deriving DecidableEq, Repr

/-- An exception object on its way. -/
structure Err where
  cause : Cause
  /-- it has the attribute `__fora_already_printed` -/
  printed : Bool := false
  /-- its attribute `script_stack`: the places from which the scripts were called -/
  stack : Option (List Frame) := none
  /-- its traceback, the outermost frame first -/
  traceback : List Frame := []
  deriving DecidableEq, Repr

/-- What is written to the standard error. -/
inductive Out where
  /-- a line (in pieces) -/
  | line (c : Cell)
  /-- a text and a newline -/
  | text (s : Str)
  /-- what `traceback.print_exception` prints for an exception with this traceback (its format is the interpreter's affair) -/
  | traceback (cause : Cause) (frames : List Frame)
  deriving DecidableEq, Repr

/-- The options of the program and the width of the terminal. -/
structure Config where
  opts : Options
  terminal : Nat
  /-- utils.py:35: `dynamically_loaded_modules` -/
  dynamic : List Str

/-- utils.py:337-346: a heading -/
def heading (cfg : Config) (left : Cell) : Out := .line (fullWidth cfg.terminal left [])

/-- utils.py:337-341 -/
def commandHeading (cfg : Config) (cmd : Str) (code : Int) : Out :=
  heading cfg [p!"──────── ", col cfg.opts p!"1;31", p!"command", col cfg.opts p!"", p!" ", cmd, p!" ", col cfg.opts p!"1;31", p!"failed", col cfg.opts p!"", p!" ",
    p!"with code " ++ Py.intStr code ++ p!" ]"]

/-- utils.py:342 and 344 -/
def outputHeading (cfg : Config) (name : Str) : Out :=
  heading cfg [p!"──────── ", col cfg.opts p!"1;33", name, col cfg.opts p!"", col cfg.opts p!"90", p!" (special characters escaped) ", col cfg.opts p!""]

/-- utils.py:346 -/
def endHeading (cfg : Config) : Out :=
  heading cfg [p!"──────── ", col cfg.opts p!"1;33", p!"end", col cfg.opts p!"", col cfg.opts p!"90", p!" ", col cfg.opts p!""]

/-- `print_process_error`, utils.py:323-346: what is printed, and whether it comes to its end. Output that was not captured is
`None`, and has no method `decode`. -/
def printProcessError (cfg : Config) (cmd : Str) (code : Int) (stdout stderr : Option Bytes) : List Out × Bool :=
  match stdout with
  | none => ([commandHeading cfg cmd code, outputHeading cfg p!"stdout"], false)
  | some out =>
    let head := [commandHeading cfg cmd code, outputHeading cfg p!"stdout", .text (Py.decodeBackslash out), outputHeading cfg p!"stderr"]
    match stderr with
    | none => (head, false)
    | some err => (head ++ [.text (Py.decodeBackslash err), endHeading cfg], true)

/-- `AttributeError` -/
def noDecode : Cause := .exception p!"'NoneType' object has no attribute 'decode'"

/-- operations/api.py:271-273 and loader.py:137-139: the output of a failed command is printed unless it was already. If that
fails, there is another exception. -/
def report (cfg : Config) (e : Err) : List Out × Except Err Err :=
  match e.cause with
  | .process cmd code stdout stderr =>
    if e.printed then ([], .ok e)
    else
      match printProcessError cfg cmd code stdout stderr with
      | (o, true) => (o, .ok { e with printed := true })
      | (o, false) => (o, .error { cause := noDecode })
  | _ => ([], .ok e)

/-- What an exception passes, from the inside to the outside. -/
inductive Layer where
  /-- a function, or a module, that does not handle it -/
  | call (f : Frame)
  /-- an operation that was called from the frame `caller`. `wrapper` is the frame of the decorator. -/
  | operation (caller wrapper : Frame)
  /-- a script that was called from the frame `caller`. `loader` are the frames of `run_script` and of what it calls to execute the
  script. -/
  | script (caller : Frame) (loader : List Frame)

/-- operations/api.py:260-281: an exception leaves an operation. That the operation is reported as failed (`op.failure`) is modelled in
Script/Op.lean. -/
def leaveOperation (cfg : Config) (caller wrapper : Frame) (e : Err) : List Out × Err :=
  match e.cause with
  | .operation _ => ([], { e with traceback := if cfg.opts.debug then wrapper :: e.traceback else [wrapper, caller] })
  | .process .. =>
    match report cfg e with
    | (o, .ok e) => (o, { e with traceback := if cfg.opts.debug then wrapper :: e.traceback else [wrapper, caller] })
    | (o, .error e) => (o, { e with traceback := wrapper :: e.traceback })
  | _ => ([], { e with traceback := wrapper :: e.traceback })

/-- loader.py:136-147: an exception leaves a script. `stack` is the stack of scripts. -/
def leaveScript (cfg : Config) (stack : List Frame) (loader : List Frame) (e : Err) : List Out × Err :=
  match e.cause with
  | .interrupt => ([], { e with traceback := loader ++ e.traceback })
  | _ =>
    match report cfg e with
    | (o, .ok e) => (o, { e with stack := if e.stack.isNone then some stack else e.stack, traceback := loader ++ e.traceback })
    | (o, .error e) => (o, { e with traceback := loader.take 1 ++ e.traceback })

/-- The place from which a script was called. -/
def Layer.scriptCaller : Layer → Option Frame
  | .script caller _ => some caller
  | _ => none

/-- `script_stack` (loader.py:16) while these layers are active: the outermost script comes first. -/
def stackOf (ls : List Layer) : List Frame := (ls.filterMap Layer.scriptCaller).reverse

/-- An exception passes the layers: what is printed meanwhile, and what becomes of it. -/
def through (cfg : Config) : List Layer → Err → List Out × Err
  | [], e => ([], e)
  | .call f :: ls, e => through cfg ls { e with traceback := f :: e.traceback }
  | .operation c w :: ls, e =>
    let r := leaveOperation cfg c w e
    let s := through cfg ls r.2
    (r.1 ++ s.1, s.2)
  | .script c loader :: ls, e =>
    let r := leaveScript cfg (stackOf (.script c loader :: ls)) loader e
    let s := through cfg ls r.2
    (r.1 ++ s.1, s.2)

/-- utils.py:242-247 -/
def formatFrame (f : Frame) : Str :=
  p!"  File \"" ++ f.filename ++ p!"\", line " ++ Py.natStr 10 f.line ++ p!", in " ++ f.function ++ p!"\n"
    ++ ((f.context.getD []).map fun c => p!"    " ++ Py.strip c ++ p!"\n").flatten

/-- `script_trace`, utils.py:231-254, without `include_root` -/
def scriptTrace (stack : List Frame) : Str :=
  (p!"Script stack (most recent call last):\n" ++ ((stack.drop 1).map formatFrame).flatten).dropLast

/-- utils.py:266-270: is it the frame of a module that was loaded dynamically? -/
def isDynamic (cfg : Config) (f : Frame) : Bool :=
  match f.name with
  | none => false
  | some n => cfg.dynamic.contains n

/-- utils.py:262-271: the traceback from the last such frame on -/
def lastDynamic (cfg : Config) : List Frame → Option (List Frame)
  | [] => none
  | f :: fs =>
    match lastDynamic cfg fs with
    | some t => some t
    | none => if isDynamic cfg f then some (f :: fs) else none

/-- `print_exception`, utils.py:256-281 -/
def printException (cfg : Config) (e : Err) : List Out :=
  (match e.stack with
    | some stack => if stack.length > 1 then [Out.text (scriptTrace stack)] else []
    | none => [])
  ++ [.traceback e.cause ((lastDynamic cfg e.traceback).getD e.traceback)]

/-- `sys.excepthook`: `install_exception_hook`, utils.py:283-289, is called unless there is `--debug`, main.py:264-265. Without it, the
interpreter prints the whole traceback. -/
def excepthook (cfg : Config) (e : Err) : List Out :=
  if cfg.opts.debug then [.traceback e.cause e.traceback] else printException cfg e

/-- All that is printed when an exception passes these layers and ends the program. -/
def unhandled (cfg : Config) (ls : List Layer) (e : Err) : List Out :=
  let r := through cfg ls e
  r.1 ++ excepthook cfg r.2

end Verif.Failure
