/-
Tables and headings: src/fora/utils.py:59-120, as used by `--inspect-inventory` (src/fora/main.py:124-185).
-/
import Verif.Py.Str
import Verif.Py.Exn

namespace Verif.Run

/-- A text that is printed: pieces of text and control sequences, one after the other. -/
abbrev Cell := List Str

/-- `s.startswith("\033[")` -/
def isAnsi (s : Str) : Bool := Py.startsWith s [27, 91]

/-- `len_ignore_leading_ansi`, utils.py:59-61 -/
def pieceLen (s : Str) : Nat := if isAnsi s then 0 else s.length

/-- `ansilen`, utils.py:63-65 -/
def ansilen (ss : Cell) : Nat := (ss.map pieceLen).sum

/-- `ansipad`, utils.py:67-69. The pieces are not joined yet. -/
def ansipad (ss : Cell) (pad : Int) : Cell := ss ++ [List.replicate (pad - ansilen ss).toNat 32]

/-- `max(shutil.get_terminal_size((80, 20)).columns, 80)`, utils.py:78 and 85 -/
def lineWidth (terminal : Nat) : Nat := max terminal 80

/-- `print_fullwith`, utils.py:71-80, with the default `pad` -/
def fullWidth (terminal : Nat) (left right : Cell) : Cell :=
  left ++ [List.replicate (lineWidth terminal - ansilen left - ansilen right : Int).toNat 9472] ++ right

/-- utils.py:90-91 and 93-94: the widths after a row was taken into account. `none` is an `IndexError`. -/
def widen : List Nat → List Cell → Option (List Nat)
  | ws, [] => some ws
  | [], _ :: _ => none
  | w :: ws, c :: cs => (widen ws cs).map (max w (ansilen c) :: ·)

/-- The loop utils.py:92-94 -/
def widenAll : List Nat → List (List Cell) → Option (List Nat)
  | ws, [] => some ws
  | ws, row :: rows =>
    match widen ws row with
    | none => none
    | some ws' => widenAll ws' rows

/-- utils.py:88-94: the width that is needed for each column -/
def neededWidths (header : List Cell) (rows : List (List Cell)) : Option (List Nat) :=
  widenAll (List.replicate header.length 0) (header :: rows)

/-- utils.py:102, for the columns from number `i` on. -/
def colWidths (cols : Nat) (available even : Int) : Nat → List Nat → List Int → List Int
  | i, w :: ws, m :: ms => max m (min (min 40 w) (available - ((cols : Int) - i - 1) * even)) :: colWidths cols available even (i + 1) ws ms
  | _, _, _ => []

/-- The loop utils.py:108-111, over the columns from the back: the width needed, and the width so far -/
def giveRest (rest : Int) : List (Nat × Int) → List Int
  | [] => []
  | (w, cw) :: l => if w > cw then (cw + rest) :: l.map (·.2) else cw :: giveRest rest l

/-- utils.py:96-111. -/
def tableWidths (terminal : Nat) (needed : List Nat) (mins : List Int) : List Int :=
  let cols := needed.length
  let even : Int := (lineWidth terminal / cols : Nat)
  let available : Int := lineWidth terminal - 3 * ((cols : Int) - 1)
  let ws := colWidths cols available even 0 needed mins
  let rest := available - ws.sum
  if rest > 0 then (giveRest rest (needed.zip ws).reverse).reverse else ws

/-- `delim.join(...)` -/
def joinCells (delim : Cell) : List Cell → Cell
  | [] => []
  | [c] => c
  | c :: cs => c ++ delim ++ joinCells delim cs

/-- utils.py:114-119: a line of the table -/
def tableLine (box reset : Str) (widths : List Int) (row : List Cell) : Cell :=
  joinCells [box, p!" │ ", reset] ((row.zip widths).map fun cw => ansipad cw.1 cw.2)

/-- utils.py:118 -/
def tableRule (box reset : Str) (widths : List Int) : Cell :=
  [box] ++ joinCells [p!"─┼─"] (widths.map fun w => [List.replicate w.toNat 9472]) ++ [reset]

/-- `print_table`, utils.py:82-120: the lines that are printed. `box` and `reset` are control sequences, or empty without
colours. -/
def printTable (terminal : Nat) (box reset : Str) (header : List Cell) (rows : List (List Cell)) (mins : Option (List Int)) : Except Exn (List Cell) :=
  match neededWidths header rows with
  | none => .error .indexError
  | some needed =>
    if header.length = 0 then .error .zeroDivisionError
    else
      let mins := mins.getD (List.replicate header.length 0)
      if mins.length < header.length then .error .indexError
      else
        let widths := tableWidths terminal needed mins
        .ok (tableLine box reset widths header :: tableRule box reset widths :: rows.map (tableLine box reset widths))

end Verif.Run
