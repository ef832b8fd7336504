/-
What `fora --inspect-inventory` shows about the variables of a host: src/fora/main.py:66-187.
-/
import Verif.Inventory.Load

namespace Verif.Inventory

/-- `precedence`, main.py:116-122. The result of `index` is an exception if the group is not in the list. -/
def precedence (order : List Str) : Actor → Except Exn Nat
  | .group n =>
    match order.idxOf? n with
    | some i => .ok i
    | none => .error (.valueError p!"is not in list")
  | .host _ => .ok order.length

/-- `host._variable_action_history.get(attr, [VariableActionSnapshot("definition", host, value)])`, main.py:150 and 156. The value
is not used. -/
def shownHistory (host : Str) (h : Host) (a : Str) : List Snapshot :=
  match h.history a with
  | [] => [⟨.definition, .host host, 0⟩]
  | l => l

/-- `last_actor`, main.py:150 -/
def lastActor (host : Str) (h : Host) (a : Str) : Actor :=
  match (shownHistory host h a).getLast? with
  | some s => s.actor
  | none => .host host

/-- The loop main.py:156-162, over the reversed history: who is shown as the origin of the variable. Each of them is shown with its
precedence. -/
def definedBy (order : List Str) : List Snapshot → List (Nat × Actor) → Except Exn (List (Nat × Actor))
  | [], acc => .ok acc
  | s :: rest, acc => do
    let p ← precedence order s.actor
    if s.action = .definition then .ok ((p, s.actor) :: acc) else definedBy order rest ((p, s.actor) :: acc)

/-- A row of the table of variables, before it is formatted. -/
structure Row where
  attr : Str
  value : Obj
  /-- `is_declared_by_wrapper` -/
  declared : Bool
  /-- the precedence of the last actor -/
  last : Nat
  definedBy : List (Nat × Actor)

/-- `is_declared_by_wrapper`, main.py:149, for names that do not start with an underscore -/
def declaredByWrapper (a : Str) : Bool := hostCls.functions.contains a || hostCls.defaults.contains a || hostCls.annotations.contains a

/-- main.py:149-162, for one variable -/
def rowOf (order : List Str) (host : Str) (h : Host) (a : Str) (v : Obj) : Except Exn Row := do
  let last ← precedence order (lastActor host h a)
  let defs ← definedBy order (shownHistory host h a).reverse []
  .ok ⟨a, v, declaredByWrapper a, last, defs⟩

/-- `rowOf` for all variables. (The columns are computed after sorting in the code, which makes no difference but for which of
several exceptions is raised.) -/
def rowsOf (order : List Str) (host : Str) (h : Host) : List (Str × Obj) → Except Exn (List Row)
  | [] => .ok []
  | (a, v) :: l => do
    let r ← rowOf order host h a v
    let rs ← rowsOf order host h l
    .ok (r :: rs)

/-- `s <= t` for strings -/
def strLe : Str → Str → Bool
  | [], _ => true
  | _ :: _, [] => false
  | a :: as, b :: bs => if a = b then strLe as bs else decide (a < b)

/-- The comparison of the keys `(not tup[2], precedence(tup[3]), tup[0])`, main.py:154 -/
def rowLe (r s : Row) : Bool :=
  if r.declared = s.declared then
    if r.last = s.last then strLe r.attr s.attr else decide (r.last < s.last)
  else r.declared

/-- A row is inserted into a sorted list. -/
def insertRow (r : Row) : List Row → List Row
  | [] => [r]
  | s :: l => if rowLe r s then r :: s :: l else s :: insertRow r l

/-- `sorted`, main.py:154. It is stable. -/
def sortRows (l : List Row) : List Row := l.foldr insertRow []

/-- The variables shown, main.py:146-148; there is no script -/
def shownVars (h : Host) : List (Str × Obj) := (varsHierarchical h.wrapper none).items.filter fun kv => !(Py.startsWith kv.1 p!"_" || kv.2.isModule)

/-- The rows of the table for a host, main.py:145-180. The texts for types and values, and the colours, are not modelled. -/
def inspectHost (order : List Str) (host : Str) (h : Host) : Except Exn (List Row) := do
  let rows ← rowsOf order host h (shownVars h)
  .ok (sortRows rows)

end Verif.Inventory
