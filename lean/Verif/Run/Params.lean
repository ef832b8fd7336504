/-
Script parameters: /repo/src/fora/types.py:436-478.
-/
import Verif.Run.Script

namespace Verif.Run

/-- A class: the names that are annotated, in order, and the attributes it has itself, with the identity of their values. -/
structure Class where
  annotations : List Str
  own : Dict

/-- Some names that every class has as attributes, inherited from `object` or found at `type`. (The value is of no interest.) -/
def inherited : List Str := [p!"mro", p!"__doc__", p!"__name__", p!"__module__", p!"__init__", p!"__dict__", p!"__class__", p!"__eq__", p!"__hash__", p!"__str__", p!"__repr__"]

/-- `getattr(cls, name)`, or `none` if there is no such attribute -/
def Class.attr (cls : Class) (name : Str) : Option Nat :=
  match cls.own.lookup name with
  | some v => some v
  | none => if name ∈ inherited then some 0 else none

/-- `setattr(cls, name, value)` -/
def Class.set (cls : Class) (name : Str) (v : Nat) : Class := { cls with own := (name, v) :: cls.own }

/-- types.py:465-474: the value for one parameter. `given` is `_params` of the calling module, if there is any. -/
def paramValue (given : Option Dict) (cls : Class) (param : Str) : Except Exn Nat :=
  match given.bind fun d => d.lookup param with
  | some v => .ok v
  | none =>
    match cls.attr param with
    | none => .error (.runtimeError (p!"This script requires parameter '" ++ param ++ p!"', but no such parameter was given."))
    | some v => .ok v

/-- The loop types.py:462-476. -/
def setParams (given : Option Dict) : List Str → Class → Except Exn Class
  | [], cls => .ok cls
  | p :: ps, cls => do
    let v ← paramValue given cls p
    setParams given ps (cls.set p v)

/-- `Params(params_cls)`, types.py:436-478 -/
def params (given : Option Dict) (cls : Class) : Except Exn Class := setParams given cls.annotations cls

end Verif.Run
