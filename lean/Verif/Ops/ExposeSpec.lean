/-
Who can read a file.
-/
import Verif.Ops.HostSpec

namespace Verif.Ops

open Remote

/-- The user with this number, in these groups, may read the file: `access(2)` without capabilities or access control lists.
The superuser may read everything; for anybody else the first class that applies counts: owner, group, others. -/
def CanRead (n : Node) (user : Nat) (groups : List Nat) : Prop :=
  user = 0 ∨ (if user = n.uid then n.perm.testBit 8 = true else if n.gid ∈ groups then n.perm.testBit 5 = true else n.perm.testBit 2 = true)

instance (n : Node) (user : Nat) (groups : List Nat) : Decidable (CanRead n user groups) := by unfold CanRead; infer_instance

/-- A mode that lets nobody but the owner read. -/
def Private (mode : Nat) : Prop := mode.testBit 5 = false ∧ mode.testBit 2 = false

instance (mode : Nat) : Decidable (Private mode) := by unfold Private; infer_instance

end Verif.Ops
