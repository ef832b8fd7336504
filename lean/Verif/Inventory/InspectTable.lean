/-
The table that `fora --inspect-inventory` prints for a host: src/fora/main.py:155-185.
-/
import Verif.Inventory.Inspect
import Verif.Run.Table

namespace Verif.Inventory

open Run

/-- The colours, main.py:81-89: control sequences, or empty. -/
structure Colours where
  darker : Str
  reset : Str
  yellow : Str
  green : Str
  blue : Str

/-- The pieces of text for one origin of a variable, main.py:157-160 -/
def originPieces (c : Colours) (p : Nat × Actor) : Cell :=
  [c.darker, p!"(" ++ Py.natStr 10 p.1 ++ p!") ", c.reset] ++
    (match p.2 with
      | .group g => [c.yellow, g, c.reset]
      | .host h => [c.green, h, c.reset]) ++ [c.darker, p!", ", c.reset]

/-- `definition_str`, main.py:155-165: what stands in the column `defined by`. -/
def definitionCell (c : Colours) (defs : List (Nat × Actor)) : Cell :=
  let pieces := defs.flatMap (originPieces c)
  pieces.take (pieces.length - 3)

/-- A row of the table, main.py:167-180. The colour of the variable, the name of the type and the text of the value are parameters. -/
def tableRow (c : Colours) (varColour : Row → Str) (typeName : Obj → Str) (valueColour valueText : Obj → Str) (r : Row) : List Cell :=
  [[varColour r, r.attr, c.reset], [c.darker, typeName r.value, c.reset], definitionCell c r.definedBy, [valueColour r.value, valueText r.value, c.reset]]

/-- The heading, main.py:181-184 -/
def tableHeader (c : Colours) : List Cell :=
  [[c.blue, p!"variable", c.reset], [c.blue, p!"type", c.reset], [c.darker, p!"(prec) ", c.reset, c.blue, p!"defined by", c.reset], [c.blue, p!"value", c.reset]]

/-- The table for a host, main.py:145-185 -/
def inspectTable (terminal : Nat) (c : Colours) (varColour : Row → Str) (typeName : Obj → Str) (valueColour valueText : Obj → Str) (order : List Str) (host : Str)
    (h : Host) : Except Exn (List Cell) := do
  let rows ← inspectHost order host h
  printTable terminal c.darker c.reset (tableHeader c) (rows.map (tableRow c varColour typeName valueColour valueText)) (some [24, 0, 12, 0])

end Verif.Inventory
