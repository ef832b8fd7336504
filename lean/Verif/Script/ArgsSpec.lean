/-
What the arguments of a call mean.
-/
import Verif.Script.Args

namespace Verif.Script

open Py

/-- The call can be made: there are not too many arguments, every name is that of a parameter that is not given by position, and what is
required is given. -/
structure Fits (params : List Param) (a : Args) : Prop where
  count : a.positional.length ≤ params.length
  known : ∀ k ∈ a.keywords, ∃ p ∈ params.drop a.positional.length, p.name = k.1
  required : ∀ p ∈ params.drop a.positional.length, p.default = none → ∃ v, (p.name, v) ∈ a.keywords

/-- The value of a parameter: given by position, given by name, or its default value. -/
inductive Value (params : List Param) (a : Args) : Str → Arg → Prop where
  | position {i : Nat} {p : Param} {v : Arg} : params[i]? = some p → a.positional[i]? = some v → Value params a p.name v
  | keyword {name : Str} {v : Arg} : (name, v) ∈ a.keywords → Value params a name v
  | default {p : Param} {v : Arg} : p ∈ params.drop a.positional.length → (∀ v', (p.name, v') ∉ a.keywords) → p.default = some v → Value params a p.name v

/-- Nothing is given twice by name (Python does not accept such calls). -/
def Args.Distinct (a : Args) : Prop := (a.keywords.map (·.1)).Nodup

/-- What the value of `check` promises: a failed result is raised, or it is returned. -/
def Promised (check : Arg) (x : OpResult) : Except Exn OpResult := if check.truth then .error (.operationError (x.failureMessage.getD p!"None")) else .ok x

/-- A call with all arguments by position: the last ones are `name` and `check`. -/
def allByPosition (params : List Param) (name check : Arg) : Args :=
  { positional := List.replicate (params.length - 2) (.other 0 true) ++ [name, check], keywords := [] }

end Verif.Script
