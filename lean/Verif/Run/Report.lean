/-
The summary of an operation as text: /repo/src/fora/logger.py:25-42, 68-78, 99-101, 125-135, 174-314.
-/
import Verif.Run.Logger
import Verif.Script.Op

namespace Verif.Run

open Py Script

/-- The options of the command line that the logger reads (`fora.args`). -/
structure Options where
  noColor : Bool := false
  dry : Bool := false
  debug : Bool := false
  verbose : Nat := 0
  changes : Bool := true
  diff : Bool := false

/-- main.py:252-258: what becomes of the options. `noColorSet`: the environment has NO_COLOR; `tty`: the output is a terminal. -/
def effective (o : Options) (noColorSet tty : Bool) : Options :=
  { o with verbose := if o.debug then 99 else o.verbose, noColor := o.noColor || noColorSet || !tty }

/-- `use_color()` when the program runs, logger.py:25-29. -/
def useColor (o : Options) : Bool := !o.noColor

/-- The escape sequence `ESC [ code m`. -/
def ansi (code : Str) : Str := 27 :: 91 :: (code ++ [109])

/-- `col(..)`, logger.py:31-33. -/
def col (o : Options) (code : Str) : Str := if useColor o then ansi code else []

/-- `indent_prefix()`, logger.py:68-78: the loop over `range(level)` (nothing if the level is negative). -/
def colouredPrefix : Nat → Str
  | 0 => []
  | i + 1 => colouredPrefix i ++ (if i % 2 = 0 then ansi p!"90" ++ p!"│" ++ ansi p!"" ++ p!" " else ansi p!"90" ++ p!"╵" ++ ansi p!"" ++ p!" ")

def prefixOf (o : Options) (level : Int) : Str := if useColor o then colouredPrefix level.toNat else indentPrefix level

/-- `print_indented(msg, end=..)`, logger.py:99-101: what is written to the standard output. -/
def printIndented (o : Options) (level : Int) (msg : Str) (terminator : Str := [10]) : Str := prefixOf o level ++ msg ++ terminator

/-- What the logger reads from an operation object: name of the function, description and the name given by the user. -/
structure Title where
  opName : Str
  description : Str
  name : Option Str := none

/-- `name_if_given`, logger.py:127 -/
def nameIfGiven (o : Options) : Option Str → Str
  | some n => p!" " ++ col o p!"90" ++ (p!"(" ++ n ++ p!")") ++ col o p!""
  | none => []

/-- `print_operation_title`, logger.py:125-129. -/
def printTitle (o : Options) (level : Int) (t : Title) (colour : Str) (terminator : Str := [10]) : Str :=
  let dryRunInfo := if o.dry then p!" " ++ col o p!"90" ++ p!"(dry)" ++ col o p!"" else []
  printIndented o level (colour ++ t.opName ++ col o p!"" ++ dryRunInfo ++ p!" " ++ t.description ++ nameIfGiven o t.name) terminator

/-- `print_operation_early`, logger.py:131-135. -/
def printEarly (o : Options) (level : Int) (t : Title) : Str :=
  printTitle o level t (col o p!"1;33") (if o.debug then p!" (early status)\n" else [])

/-- `data.split(b'\n')` -/
def splitNewlines : Bytes → List Bytes
  | [] => [[]]
  | x :: xs =>
    if x = 10 then [] :: splitNewlines xs
    else
      match splitNewlines xs with
      | [] => [[x]]
      | p :: ps => (x :: p) :: ps

/-- `apply_color(line)`, logger.py:229-235. -/
def applyColor (line : Str) : Except Exn Str :=
  match line with
  | [] => .error .indexError
  | c :: _ => .ok (ansi (if c = 43 then p!"32" else if c = 45 then p!"31" else if c = 64 then p!"34" else p!"90") ++ line ++ ansi p!"")

/-- The lines of all applications, or the first exception. -/
def applyAll : List Str → Except Exn (List Str)
  | [] => .ok []
  | l :: ls =>
    match applyColor l with
    | .error e => .error e
    | .ok l =>
      match applyAll ls with
      | .error e => .error e
      | .ok ls => .ok (l :: ls)

/-- `[] if data is None else data.split(b'\n')` -/
def diffInput : Option Bytes → List Bytes
  | none => []
  | some b => splitNewlines b

/-- `diff(filename, old, new, color)`, logger.py:174-242. `udiff` is what `difflib.unified_diff` makes of the lines: an argument of the
model. -/
def diffText (udiff : List Bytes → List Bytes → List Bytes) (filename : Str) (old new : Option Bytes) (color : Bool := true) : Except Exn (List Str) :=
  let difflines := ((udiff (diffInput old) (diffInput new)).drop 2).map decodeEscapeLog
  let action := if old = none then p!"created" else if new = none then p!"deleted" else p!"modified"
  let title := action ++ p!": " ++ filename
  let header := [List.replicate title.length 0x2500, title, List.replicate title.length 0x2500]
  if color then
    match applyAll difflines with
    | .error e => .error e
    | .ok difflines => .ok (header.map (fun line => ansi p!"33" ++ line ++ ansi p!"") ++ difflines)
  else .ok (header ++ difflines)

/-- `v.hex()` -/
def hexText (b : Bytes) : Str := (b.map fun x => [hexDigit (x.toNat / 16), hexDigit (x.toNat % 16)]).flatten

/-- `to_str(v)`, logger.py:246-247. How Python writes lists and dictionaries (`repr`) is an argument. -/
def toStr (repr : Val → Str) : Val → Str
  | .null => p!"None"
  | .bool b => if b then p!"True" else p!"False"
  | .int i => intStr i
  | .str s => s
  | .bytes b => hexText b
  | v => repr v

/-- The loop body of `_operation_state_infos` for a key and its initial and final value, logger.py:251-275. -/
def stateInfo (o : Options) (repr : Val → Str) (k : Str) (initial final : Val) : Option Str :=
  let brief := o.verbose == 0
  let key := if brief then ellipsis k 12 else k
  let strInitial := if brief then ellipsis (toStr repr initial) 9 else toStr repr initial
  let strFinal := if brief then ellipsis (toStr repr final) (if initial.isNull then 9 + 3 + 9 else 9) else toStr repr final
  if initial.eq final then
    if o.verbose ≥ 1 then some (col o p!"90" ++ key ++ p!": " ++ strInitial ++ col o p!"") else none
  else if initial.isNull then some (col o p!"33" ++ key ++ p!": " ++ col o p!"32" ++ strFinal ++ col o p!"")
  else some (col o p!"33" ++ key ++ p!": " ++ col o p!"31" ++ strInitial ++ col o p!"33" ++ p!" → " ++ col o p!"32" ++ strFinal ++ col o p!"")

/-- `_operation_state_infos(result)`, logger.py:245-276: the loop over the items of the final state. -/
def stateInfos (o : Options) (repr : Val → Str) (initial : Script.Dict) : Script.Dict → Except Exn (List Str)
  | [] => .ok []
  | (k, v) :: rest =>
    if v.isNull then stateInfos o repr initial rest
    else
      match initial.get k with
      | none => .error .keyError
      | some u =>
        match stateInfos o repr initial rest with
        | .error e => .error e
        | .ok infos =>
          match stateInfo o repr k u v with
          | some entry => .ok (entry :: infos)
          | none => .ok infos

/-- logger.py:305-309: the lines of all diffs, one after the other. -/
def diffLines (udiff : List Bytes → List Bytes → List Bytes) : List (Str × Option Bytes × Option Bytes) → Except Exn (List Str)
  | [] => .ok []
  | (file, old, new) :: rest =>
    match diffText udiff file old new with
    | .error e => .error e
    | .ok lines =>
      match diffLines udiff rest with
      | .error e => .error e
      | .ok more => .ok (lines ++ more)

/-- logger.py:310-314: the lines of the diffs, with a line at their left. -/
def printDiffLines (o : Options) (level : Int) : List Str → Str
  | [] => []
  | [l] => printIndented o level (col o p!"90" ++ p!"└ " ++ col o p!"" ++ l)
  | l :: ls => printIndented o level (col o p!"90" ++ p!"│ " ++ col o p!"" ++ l) ++ printDiffLines o level ls

/-- `f"{message}"` for a message that may be None. -/
def messageText : Option Str → Str
  | some m => m
  | none => p!"None"

/-- `print_operation`, logger.py:278-314: the text that is printed, and the exception with which it ends, if any. -/
def printOperation (udiff : List Bytes → List Bytes → List Bytes) (repr : Val → Str) (o : Options) (level : Int) (t : Title) (r : Report) : Str × Option Exn :=
  let titleColour := if r.result.success then (if r.result.changed then col o p!"1;32" else col o p!"1;90") else col o p!"1;31"
  let title := p!"\r" ++ printTitle o level t titleColour
  if !r.result.success then
    (title ++ printIndented o level (p!" " ++ col o p!"90" ++ p!"└" ++ col o p!"" ++ p!" " ++ (col o p!"31" ++ messageText r.result.failureMessage ++ col o p!"")), none)
  else if !o.changes then (title, none)
  else
    let nDiffs := if o.diff then r.diffs.length else 0
    let boxChar := if nDiffs = 0 then p!"└" else p!"├"
    match stateInfos o repr r.result.initial r.result.final with
    | .error e => (title, some e)
    | .ok infos =>
      let changes := if infos.isEmpty then []
        else printIndented o level (col o p!"90" ++ boxChar ++ col o p!"" ++ p!" " ++ join (col o p!"90" ++ p!"," ++ col o p!"" ++ p!" ") infos)
      if o.diff then
        match diffLines udiff r.diffs with
        | .error e => (title ++ changes, some e)
        | .ok lines => (title ++ changes ++ printDiffLines o level lines, none)
      else (title ++ changes, none)

end Verif.Run
