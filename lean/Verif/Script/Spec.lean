/-
Specification vocabulary for scripts and operations.
-/
import Verif.Script.Op
import Verif.Client.Spec

namespace Verif.Script

open Client (Prog)
open Wire (Packet)

/-- The same value: dictionaries are the same if they have the same keys, with the same values. -/
inductive Val.Same : Val → Val → Prop where
  | refl (v : Val) : Val.Same v v
  | dict (a b : Dict) : (∀ k, a.get k = none ↔ b.get k = none) → (∀ k v v', a.get k = some v → b.get k = some v' → Val.Same v v') →
      Val.Same (.dict a) (.dict b)

/-- No dictionary in the value has a key twice (Python dictionaries cannot). -/
inductive Val.Wf : Val → Prop where
  | plain (v : Val) : (∀ d, v ≠ .dict d) → Val.Wf v
  | dict (d : Dict) : (d.map (·.1)).Nodup → (∀ k v, (k, v) ∈ d → Val.Wf v) → Val.Wf (.dict d)

/-- An execution of a program against a host. -/
def exec {α σ : Type} (remote : Packet → σ → Except Exn Packet × σ) (m : Op α) (env : Env) (st : St) (w : σ) : (Except Exn α × St) × σ :=
  (m env st).run remote w

/-- An execution of a program whatever the remote answers: requests and answers, result and final state. -/
def Execution {α : Type} (m : Op α) (env : Env) (st : St) (t : List (Packet × Except Exn Packet)) (r : Except Exn α) (st' : St) : Prop :=
  Prog.Runs (m env st) t (r, st')

end Verif.Script
