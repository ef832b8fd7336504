/-
What a program sends to a host, and what comes back: every run on a host is an execution.
-/
import Verif.Ops.HostSpec
import Verif.Script.Spec
import Verif.Ops.Lemmas

namespace Verif.Ops

open Script Remote
open Client (Prog)
open Wire (Packet)

def recorded {α σ : Type} (remote : Packet → σ → Except Exn Packet × σ) : Prog α → σ → Trace
  | .ret _, _ => []
  | .req p k, s => (p, (remote p s).1) :: recorded remote (k (remote p s).1) (remote p s).2

theorem runs_recorded {α σ : Type} (remote : Packet → σ → Except Exn Packet × σ) :
    ∀ (p : Prog α) (s : σ), Prog.Runs p (recorded remote p s) (p.run remote s).1
  | .ret _, _ => .ret _
  | .req p k, s => .req p k _ _ _ (runs_recorded remote (k (remote p s).1) (remote p s).2)

/-- The requests and answers of an operation that is run on a host. -/
def conversation {α : Type} (sys : Sys) (lost : Nat → Option Bool) (m : Op α) (env : Env) (st : St) (w : World) : Trace :=
  recorded (flaky sys lost) (m env st) (w, 0)

theorem execution_conversation {α : Type} (sys : Sys) (lost : Nat → Option Bool) (m : Op α) (env : Env) (st : St) (w : World) :
    ∃ st', Execution m env st (conversation sys lost m env st w) (perform sys lost m env st w).1 st' :=
  ⟨_, runs_recorded (flaky sys lost) (m env st) (w, 0)⟩

end Verif.Ops
