/-
How the arguments of an operation reach it: the decorator in /repo/src/fora/operations/api.py:227-294 and Python's rules for calls.
-/
import Verif.Script.Op

namespace Verif.Script

open Py

/-- Values of arguments, as far as they matter here: `None`, truth values, the operation object that the decorator passes, and others,
of which only the truth is of interest. -/
inductive Arg where
  | none
  | bool (b : Bool)
  | op
  | other (id : Nat) (truth : Bool)
  deriving DecidableEq

/-- `bool(v)` -/
def Arg.truth : Arg → Bool
  | .none => false
  | .bool b => b
  | .op => true
  | .other _ t => t

/-- A parameter of a function, and its default value. -/
structure Param where
  name : Str
  default : Option Arg := Option.none
  deriving DecidableEq

/-- A call: arguments given by position, and by name. -/
structure Args where
  positional : List Arg
  keywords : List (Str × Arg)

/-- The value of a parameter that is not given by position: the one given by name, or the default. A required one that is missing is
a TypeError. -/
def restValue (keywords : List (Str × Arg)) (p : Param) : Except Exn Arg :=
  match keywords.lookup p.name with
  | some v => .ok v
  | Option.none =>
    match p.default with
    | some v => .ok v
    | Option.none => .error .typeError

/-- All parameters that are not given by position. -/
def fillRest (keywords : List (Str × Arg)) : List Param → Except Exn (List (Str × Arg))
  | [] => .ok []
  | p :: ps => do
    let v ← restValue keywords p
    let rest ← fillRest keywords ps
    .ok ((p.name, v) :: rest)

/-- `f(*args, **kwargs)`: the values of the parameters. Too many arguments, names that are not those of parameters, and values given
twice are TypeErrors. (How Python binds arguments; the texts of these errors are omitted.) -/
def bindArgs (params : List Param) (a : Args) : Except Exn (List (Str × Arg)) := do
  let n := a.positional.length
  if n > params.length then .error .typeError
  else if a.keywords.any fun k => !((params.drop n).any fun p => p.name == k.1) then .error .typeError
  else
    let rest ← fillRest a.keywords (params.drop n)
    .ok ((params.zip a.positional).map (fun x => (x.1.name, x.2)) ++ rest)

/-- `op: Operation = Operation.internal_use_only` -/
def opParam : Param := { name := p!"op", default := some (.other 0 true) }

/-- `function(*args, **kwargs, op=op)`, api.py:261: passing `op` twice is a TypeError, too. `params` are the parameters before `op`. -/
def callFunction (params : List Param) (function : List (Str × Arg) → Op (Option OpResult)) (a : Args) : Op (Option OpResult) :=
  if a.keywords.any fun k => k.1 == p!"op" then Op.raise .typeError
  else
    match bindArgs (params ++ [opParam]) { a with keywords := a.keywords ++ [(p!"op", .op)] } with
    | .error e => Op.raise e
    | .ok values => function values

/-- `kwargs.get(key, default)` -/
def Args.get (a : Args) (key : Str) (default : Arg) : Arg := (a.keywords.lookup key).getD default

/-- The function that the decorator makes, api.py:252-294. -/
def decorated (params : List Param) (function : List (Str × Arg) → Op (Option OpResult)) (a : Args) : Op OpResult :=
  operation (a.get p!"check" (.bool true)).truth (callFunction params function a)

/-- The name of the operation object, which is shown in its title: api.py:257. -/
def decoratedName (a : Args) : Arg := a.get p!"name" .none

/-- `name` and `check`, which every operation has at the end. -/
def common : List Param := [{ name := p!"name", default := some .none }, { name := p!"check", default := some (.bool true) }]

private def req (name : Str) : Param := { name }
private def opt (name : Str) (default : Arg := .none) : Param := { name, default := some default }

/-- The parameters of all operations with the decorator: files.py:56-64, 147-155, 233-241, 322-329, 360-367, 401-409, 497-505, 546-554,
606-614, git.py:10-22, apt.py:27-32, pacman.py:26-31, portage.py:29-35, system.py:11-24, 214-220, systemd.py:10-13, 48-54. -/
def operations : List (Str × List Param) :=
  [(p!"files.directory", [req p!"path", opt p!"present" (.bool true), opt p!"touch" (.bool false), opt p!"mode", opt p!"owner", opt p!"group"] ++ common),
   (p!"files.file", [req p!"path", opt p!"present" (.bool true), opt p!"touch" (.bool false), opt p!"mode", opt p!"owner", opt p!"group"] ++ common),
   (p!"files.link", [req p!"path", req p!"target", opt p!"present" (.bool true), opt p!"touch" (.bool false), opt p!"owner", opt p!"group"] ++ common),
   (p!"files.upload_content", [req p!"content", req p!"dest", opt p!"mode", opt p!"owner", opt p!"group"] ++ common),
   (p!"files.upload", [req p!"src", req p!"dest", opt p!"mode", opt p!"owner", opt p!"group"] ++ common),
   (p!"files.upload_dir", [req p!"src", req p!"dest", opt p!"dir_mode", opt p!"file_mode", opt p!"owner", opt p!"group"] ++ common),
   (p!"files.template_content", [req p!"content", req p!"dest", opt p!"context", opt p!"mode", opt p!"owner", opt p!"group"] ++ common),
   (p!"files.template", [req p!"src", req p!"dest", opt p!"context", opt p!"mode", opt p!"owner", opt p!"group"] ++ common),
   (p!"files.line", [req p!"path", req p!"line", opt p!"present" (.bool true), opt p!"regex", opt p!"ignore_whitespace" (.bool true), opt p!"backup" (.bool false)] ++ common),
   (p!"git.repo", [req p!"url", req p!"path", opt p!"branch_or_tag", opt p!"update" (.bool true), opt p!"depth", opt p!"rebase" (.bool true), opt p!"ff_only" (.bool false),
      opt p!"update_submodules" (.bool false), opt p!"recursive_submodules" (.bool false), opt p!"shallow_submodules" (.bool false)] ++ common),
   (p!"apt.package", [req p!"packages", opt p!"present" (.bool true), opt p!"opts"] ++ common),
   (p!"pacman.package", [req p!"packages", opt p!"present" (.bool true), opt p!"opts"] ++ common),
   (p!"portage.package", [req p!"packages", opt p!"present" (.bool true), opt p!"oneshot" (.bool false), opt p!"opts"] ++ common),
   (p!"system.user", [req p!"user", opt p!"present" (.bool true), opt p!"uid", opt p!"group", opt p!"groups", opt p!"append_groups" (.bool false), opt p!"system" (.bool false),
      opt p!"password_hash", opt p!"home", opt p!"shell", opt p!"comment"] ++ common),
   (p!"system.group", [req p!"group", opt p!"present" (.bool true), opt p!"gid", opt p!"system" (.bool false)] ++ common),
   (p!"systemd.daemon_reload", [opt p!"user_mode" (.bool false)] ++ common),
   (p!"systemd.service", [req p!"service", opt p!"state", opt p!"enabled", opt p!"user_mode" (.bool false)] ++ common)]

end Verif.Script
