/-
All that `fora --inspect-inventory` prints about an inventory that could be loaded: src/fora/main.py:124-185.
-/
import Verif.Inventory.InspectTable

namespace Verif.Inventory

open Run

/-- The texts of things that are not modelled: the argument of the program, where modules are (`relpath(...)`, main.py:96-97), the urls of
hosts, and the texts and colours of values and types. -/
structure Texts where
  inventory : Str
  place : Str
  url : Host → Str
  hostPlace : Host → Str
  /-- `f"{type(value)}"` and `f"{value}"`, main.py:140 -/
  globalType : Obj → Str
  globalValue : Obj → Str
  /-- main.py:167-180 and 99-114 -/
  varColour : Row → Str
  typeName : Obj → Str
  valueColour : Obj → Str
  valueText : Obj → Str

/-- A dict comprehension: a key that occurs again replaces the value. -/
def comprehension (l : List (Str × Cell)) : Decls Cell := l.foldl (fun d x => setItem x.1 x.2 d) []

/-- The lines for the groups, main.py:126-129. The pieces of a text that are control sequences are kept apart. -/
def groupLines (c : Colours) (order : List Str) : List Cell :=
  (comprehension (order.zipIdx.map fun p => (p.1, [c.darker, p!"- (" ++ Py.natStr 10 p.2 ++ p!")", c.reset, p!" ", c.yellow, p.1, c.reset]))).map fun kv => p!"  " :: kv.2

/-- The lines for the hosts, main.py:131-134 -/
def hostLines (c : Colours) (t : Texts) (hosts : List (Str × Host)) : List Cell :=
  (comprehension (hosts.map fun h => (h.1, [c.darker, p!"-", c.reset, p!" ", c.green, h.1, c.reset, p!" ", c.darker,
    p!"(" ++ t.url h.2 ++ p!", " ++ t.hostPlace h.2 ++ p!")", c.reset]))).map fun kv => p!"  " :: kv.2

/-- The lines for the variables of the inventory, main.py:136-140 -/
def globalLines (c : Colours) (t : Texts) (vars : Vars) : List Cell :=
  if vars.items.length > 0 then
    [c.blue, p!"variables", c.reset] :: vars.items.map fun kv =>
      [c.green, kv.1, c.reset, p!"\t(type " ++ t.globalType kv.2 ++ p!") = " ++ t.globalValue kv.2]
  else []

/-- The lines for all hosts, main.py:142-185. The colours `bold` are for the headings. -/
def hostSections (terminal : Nat) (c bold : Colours) (t : Texts) (order : List Str) : List (Str × Host) → Except Exn (List Cell)
  | [] => .ok []
  | (name, h) :: hs => do
    let table ← inspectTable terminal c t.varColour t.typeName t.valueColour t.valueText order name h
    let rest ← hostSections terminal c bold t order hs
    .ok ([] :: fullWidth terminal [p!"──────── ", bold.yellow, p!"host", c.reset, p!" ", bold.green, name, c.reset, p!" "] [c.darker, p!" " ++ t.hostPlace h, c.reset]
      :: table ++ rest)

/-- `show_inventory`, main.py:124-185, for an inventory that was loaded: its order of groups, its hosts and its variables. (What is printed
before an exception is not modelled.) `bold` are the colours `col_darker_b`, `col_green_b` and, in the place of yellow, `col_red_b`. -/
def showInventory (terminal : Nat) (c bold : Colours) (t : Texts) (order : List Str) (hosts : List (Str × Host)) (vars : Vars) : Except Exn (List Cell) := do
  let sections ← hostSections terminal c bold t order hosts
  .ok (fullWidth terminal [p!"──────── ", bold.yellow, p!"inventory", c.reset, p!" ", bold.darker, t.inventory, c.reset, p!" "] [c.darker, p!" " ++ t.place, c.reset]
    :: [c.blue, p!"groups", c.reset, p!" ", c.darker, p!"(precedence, low to high)", c.reset] :: groupLines c order
    ++ [c.blue, p!"hosts", c.reset, p!" ", c.darker, p!"(url, module)", c.reset] :: hostLines c t hosts
    ++ globalLines c t vars ++ sections)

end Verif.Inventory
