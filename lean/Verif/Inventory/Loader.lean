/-
Which inventory is loaded: loader.py:19-83.
-/
import Verif.Inventory.Load

namespace Verif.Inventory

/-- What an inventory module defines. -/
structure Defined where
  /-- The variable `hosts`: `none` if there is no such variable, `some none` if it is not a list. -/
  hosts : Option (Option (List (Entry HostDecl)))
  /-- The variable `groups`. (That it is a list, or `None`, is not checked by the code.) -/
  groups : Option (List (Entry GroupDecl))
  sources : Sources

/-- `ImmediateInventory(hosts)`, loader.py:19-42, in its wrapper: no host, group or other file is ever found. `base_dir` is only
called for declarations with a file, of which there are none. The wrapper has no attributes of its own that are exported; the
attribute `hosts` of the object is one of those that belong to the wrapper. -/
def immediateSources (obj hosts : Obj) (classAttr : Str → Obj) : Sources where
  groupFile := fun _ => none
  hostFile := fun _ => none
  file := fun _ => none
  inventory := { cls := inventoryCls, module := some { obj, attrs := ({} : Vars).set p!"hosts" hosts }, classAttr }

/-- How `load_inventory` fails. -/
inductive LoadFailure where
  /-- `FatalError`, which `main` reports to the user as a problem of the inventory -/
  | fatal
  /-- any other exception -/
  | raised (e : Exn)
  deriving DecidableEq, Repr

/-- loader.py:80-83 -/
def valueErrorToFatal {α : Type} : Except Exn α → Except LoadFailure α
  | .ok x => .ok x
  | .error e => .error (if e.isValueError then .fatal else .raised e)

/-- `load_inventory`, loader.py:44-83. `execute` runs the inventory module in a file; `obj` and `hosts` are the objects of an
immediate inventory. -/
def loadInventory (fuel : Nat) (so : SetOrder) (execute : Str → Heap → Except Exn (Heap × Defined)) (obj hosts : Obj) (classAttr : Str → Obj)
    (c : Str → Consts) (heap : Heap) (argument : Str) : Option (Except LoadFailure (Heap × List (Str × Host))) :=
  if Py.endsWith argument p!".py" then
    match execute argument heap with
    | .error e => some (.error (.raised e))
    | .ok (heap, inv) =>
      match inv.hosts with
      | none => some (.error .fatal)
      | some none => some (.error .fatal)
      | some (some hosts) => (load fuel so inv.sources c heap hosts inv.groups).map valueErrorToFatal
  else (load fuel so (immediateSources obj hosts classAttr) c heap [.str argument] none).map valueErrorToFatal

end Verif.Inventory
