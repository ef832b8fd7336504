/-
The command line: /repo/src/fora/main.py:192-272, with as much of Python's argparse as is needed for the options declared there.
-/
import Verif.Run.Report

namespace Verif.Run

open Py

/-- What an option stands for. -/
inductive Act where
  | help | version | init | inspect | hosts | dry | verbose | noChanges | diff | debug | noColor
  deriving DecidableEq, Repr

/-- Whether the option has a value. -/
def Act.takesValue : Act → Bool
  | .init | .inspect | .hosts => true
  | _ => false

/-- The options, main.py:216-244; argparse adds the first two. -/
def optionTable : List (Str × Act) :=
  [(p!"-h", .help), (p!"--help", .help), (p!"-V", .version), (p!"--version", .version), (p!"--init", .init), (p!"--inspect-inventory", .inspect),
    (p!"-H", .hosts), (p!"--hosts", .hosts), (p!"--dry", .dry), (p!"--dry-run", .dry), (p!"--pretend", .dry), (p!"-v", .verbose), (p!"--verbose", .verbose),
    (p!"--no-changes", .noChanges), (p!"--diff", .diff), (p!"--debug", .debug), (p!"--no-color", .noColor)]

/-- The choices for `--init`, main.py:223 -/
def initChoices : List Str := [p!"minimal", p!"flat", p!"dotfiles", p!"modular", p!"staging_prod"]

/-- How argparse takes an argument. -/
inductive Arg where
  | operand
  /-- An option, whether its name starts with two dashes, and the value that is part of the argument. -/
  | option (act : Act) (long : Bool) (value : Option Str)
  | unknown
  /-- `--` -/
  | dashes
  deriving DecidableEq, Repr

/-- `_get_option_tuples` of argparse for an argument that begins with two dashes: all options whose name begins like this. -/
def longMatches (name : Str) (value : Option Str) : List Arg :=
  (optionTable.filter fun o => startsWith o.1 name).map fun o => .option o.2 true value

/-- `_get_option_tuples` of argparse for an argument that begins with one dash, followed by `c` and then `rest`. (No option with one
dash has a longer name.) -/
def shortMatches (c : Nat) (rest : Str) : List Arg :=
  match optionTable.lookup [45, c] with
  | some act => [.option act false (some rest)]
  | none => []

/-- `^-\d+$|^-\d*\.\d+$`, for what follows the dash. Simplification: only ASCII digits. -/
def isNumber (s : Str) : Bool :=
  (s != [] && s.all fun c => 48 ≤ c && c ≤ 57)
    || match splitOnce 46 s with
      | (a, some b) => (a.all fun c => 48 ≤ c && c ≤ 57) && b != [] && b.all fun c => 48 ≤ c && c ≤ 57
      | (_, none) => false

/-- The name and the value of an argument `name=value`. -/
def splitValue (s : Str) : Str × Option Str := splitOnce 61 s

/-- `_parse_optional` of argparse. `none`: the argument is the beginning of more than one option. -/
def classify (arg : Str) : Option Arg :=
  match arg with
  | [] => some .operand
  | [_] => some .operand
  | d :: c :: rest =>
    if d ≠ 45 then some .operand
    else
      match optionTable.lookup arg with
      | some act => some (.option act (c == 45) none)
      | none =>
        match (splitValue arg).2, optionTable.lookup (splitValue arg).1 with
        | some v, some act => some (.option act (c == 45) (some v))
        | _, _ =>
          match (if c = 45 then longMatches (splitValue arg).1 (splitValue arg).2 else shortMatches c rest) with
          | [m] => some m
          | _ :: _ :: _ => none
          | [] => if isNumber (c :: rest) || (c :: rest).contains 32 then some .operand else some .unknown

/-- The first loop of `_parse_known_args` of argparse: all arguments are looked at before anything is done. What follows `--` are
operands. -/
def classifyAll : List Str → Option (List (Str × Arg))
  | [] => some []
  | s :: rest =>
    if s = p!"--" then some ((s, .dashes) :: rest.map fun s => (s, .operand))
    else
      match classify s, classifyAll rest with
      | some a, some r => some ((s, a) :: r)
      | _, _ => none

/-- What was read so far. -/
structure Namespace where
  opts : Options := {}
  hosts : Option Str := none
  operands : List Str := []
  /-- There was something that argparse does not know. -/
  extras : Bool := false

/-- How the command line ends. -/
inductive Outcome where
  /-- `die_error`, main.py:247-250: the program ends with a message and the exit code 1. -/
  | usage
  /-- The option `--help` or `--version`: a text is printed, and the program ends with the exit code 0. -/
  | shown
  /-- `init_deploy_structure(layout)`, main.py:205-207, which does not return -/
  | init (layout : Str)
  /-- `show_inventory(inventory)`, main.py:205-207, which does not return -/
  | inspect (inventory : Str)
  /-- `main_run(args)` -/
  | run (opts : Options) (hosts : Option Str) (inventory script : Str)

/-- The action of an option without a value: either the program goes on with new settings, or it ends. -/
def Act.flag (ns : Namespace) : Act → Namespace ⊕ Outcome
  | .help => .inr .shown
  | .version => .inr .shown
  | .dry => .inl { ns with opts := { ns.opts with dry := true } }
  | .verbose => .inl { ns with opts := { ns.opts with verbose := ns.opts.verbose + 1 } }
  | .noChanges => .inl { ns with opts := { ns.opts with changes := false } }
  | .diff => .inl { ns with opts := { ns.opts with diff := true } }
  | .debug => .inl { ns with opts := { ns.opts with debug := true } }
  | .noColor => .inl { ns with opts := { ns.opts with noColor := true } }
  | .init => .inr .usage
  | .inspect => .inr .usage
  | .hosts => .inr .usage

/-- The action of an option with a value. -/
def Act.value (ns : Namespace) (v : Str) : Act → Namespace ⊕ Outcome
  | .hosts => .inl { ns with hosts := some v }
  | .init => if v ∈ initChoices then .inr (.init v) else .inr .usage
  | .inspect => .inr (.inspect v)
  | _ => .inr .usage

/-- Several actions. -/
def Act.flags (ns : Namespace) : List Act → Namespace ⊕ Outcome
  | [] => .inl ns
  | a :: as =>
    match a.flag ns with
    | .inl ns => Act.flags ns as
    | .inr o => .inr o

/-- `consume_optional` of argparse, for options with one dash that have no value: what follows in the argument are other options.
All of them, and the option with a value at the end, if there is one, with the rest of the argument. `none` is an error. (For
nothing after `=`, which is an error, too, some versions of Python raise an exception.) -/
def cluster : Str → Option (List Act × Option (Act × Option Str))
  | [] => none
  | c :: rest =>
    match optionTable.lookup [45, c] with
    | none => none
    | some act =>
      if act.takesValue then some ([], some (act, if rest = [] then none else some rest))
      else if rest = [] then some ([act], none)
      else
        match cluster rest with
        | none => none
        | some (as, l) => some (act :: as, l)

/-- The end of `_parse_known_args` and `parse_args` of argparse, main.py:252-272. -/
def finish (noColorSet tty : Bool) (ns : Namespace) : Outcome :=
  match ns.extras, ns.operands with
  | false, [inventory, script] => .run (effective ns.opts noColorSet tty) ns.hosts inventory script
  | _, _ => .usage

/-- The actions of the options are carried out from left to right (`consume_optional` and `consume_positionals` of argparse).
Simplification: `--` is ignored wherever there may be an operand; some versions of Python complain if no operand follows, or if there
is a second one among the operands. -/
def consume (noColorSet tty : Bool) : Namespace → List (Str × Arg) → Outcome
  | ns, [] => finish noColorSet tty ns
  | ns, (s, .operand) :: rest => consume noColorSet tty { ns with operands := ns.operands ++ [s] } rest
  | ns, (_, .dashes) :: rest => consume noColorSet tty ns rest
  | ns, (_, .unknown) :: rest => consume noColorSet tty { ns with extras := true } rest
  | ns, (_, .option act long v) :: rest =>
    match (if act.takesValue then some ([], some (act, v))
        else match v with
          | none => some ([act], none)
          | some v => if long then none else (cluster v).map fun c => (act :: c.1, c.2)) with
    | none => .usage
    | some (as, none) =>
      match Act.flags ns as with
      | .inr o => o
      | .inl ns => consume noColorSet tty ns rest
    | some (as, some (act, some v)) =>
      match Act.flags ns as with
      | .inr o => o
      | .inl ns =>
        match act.value ns v with
        | .inr o => o
        | .inl ns => consume noColorSet tty ns rest
    | some (as, some (act, none)) =>
      match rest with
      | (v, .operand) :: rest =>
        match Act.flags ns as with
        | .inr o => o
        | .inl ns =>
          match act.value ns v with
          | .inr o => o
          | .inl ns => consume noColorSet tty ns rest
      | _ => .usage

/-- `main(argv)`, main.py:209-272. `noColorSet`: the environment has NO_COLOR; `tty`: the output is a terminal. -/
def mainCmdline (noColorSet tty : Bool) (argv : List Str) : Outcome :=
  match classifyAll argv with
  | none => .usage
  | some args => consume noColorSet tty {} args

end Verif.Run
