/-
C103: independent parts of a script can be written in any order.
-/
import Verif.Ops.CrowdSpec

namespace Verif.Ops

open Script

/-- A script that consists of these parts, one after the other. It gathers their results. -/
def inOrder {ι α : Type} (parts : ι → Op α) : List ι → Op (List α)
  | [] => Op.pure []
  | i :: order => do
    let a ← parts i
    let rest ← inOrder parts order
    Op.pure (a :: rest)

end Verif.Ops
