/-
C101: runs at the same time. Nothing in /repo prevents two people from running the program for the same host at once: each run has its own
connection and its own dispatcher (/repo/src/fora/connectors/tunnel_connector.py:41-71), there are no locks.
-/
import Verif.Ops.HostSpec
import Verif.Ops.ScriptedSpec

namespace Verif.Ops

open Script Remote
open Client (Prog direct)
open Wire (Packet)

/-- What is left to do in a run, when its connection breaks (see `flaky`), and how many requests it has made. -/
structure Process (α : Type) where
  todo : Prog α
  lost : Nat → Option Bool := fun _ => none
  made : Nat := 0

/-- A run that begins. -/
def Process.start {α : Type} (m : Op α) (env : Env) (st : St) (lost : Nat → Option Bool) : Process (Except Exn α × St) :=
  { todo := m env st, lost }

/-- The run makes its next request, unless it is at its end. (Simplification: one request is dealt with at a time, even if
they come from different runs.) -/
def Process.step {α : Type} (sys : Sys) (p : Process α) (w : World) : Process α × World :=
  match p.todo with
  | .ret _ => (p, w)
  | .req request next =>
    let r := flaky sys p.lost request (w, p.made)
    ({ p with todo := next r.1, made := p.made + 1 }, r.2.1)

/-- Two runs, and a schedule that tells whose turn it is: that of the first (`true`) or of the second. -/
def together {α β : Type} (sys : Sys) : List Bool → Process α → Process β → World → Process α × Process β × World
  | [], p, q, w => (p, q, w)
  | true :: s, p, q, w => together sys s (p.step sys w).1 q (p.step sys w).2
  | false :: s, p, q, w => together sys s p (q.step sys w).1 (q.step sys w).2

/-- One run (`none` in the schedule) and any number of others (`some i`). -/
def amid {α β : Type} (sys : Sys) : List (Option Nat) → Process α → (Nat → Process β) → World → Process α × (Nat → Process β) × World
  | [], p, qs, w => (p, qs, w)
  | none :: s, p, qs, w => amid sys s (p.step sys w).1 qs (p.step sys w).2
  | some i :: s, p, qs, w => amid sys s p (fun j => if j = i then ((qs i).step sys w).1 else qs j) ((qs i).step sys w).2

/-- The worlds are the same but for the history of processes. -/
def SameHost (w w' : World) : Prop := ∃ started, w' = { w with started }

/-- What the operating system and the programs on the host do does not depend on the history of processes (`started` is part of the
model only to be able to talk about it). -/
structure NoHistory (sys : Sys) : Prop where
  fault : ∀ w call started, sys.fault { w with started } call = sys.fault w call
  written : ∀ w path started, sys.written { w with started } path = sys.written w path
  exec : ∀ p w started, (sys.exec p { w with started }).1 = (sys.exec p w).1 ∧ SameHost (sys.exec p w).2 (sys.exec p { w with started }).2

/-- On the hosts that `I` describes, the requests that `A` describes and those that `B` describes can be exchanged: they get the same
answers and have the same effects in either order. -/
structure Exchangeable (sys : Sys) (I : World → Prop) (A B : Packet → Prop) : Prop where
  left : ∀ a w, A a → I w → I (direct sys a w).2
  right : ∀ b w, B b → I w → I (direct sys b w).2
  history : ∀ w started, I w → I { w with started }
  answers : ∀ a b w, A a → B b → I w → (direct sys a (direct sys b w).2).1 = (direct sys a w).1 ∧ (direct sys b (direct sys a w).2).1 = (direct sys b w).1
  effects : ∀ a b w, A a → B b → I w → SameHost (direct sys a (direct sys b w).2).2 (direct sys b (direct sys a w).2).2

/-- An answer that is possible: what such a host answers, or the connection breaks. -/
def Possible (sys : Sys) (I : World → Prop) (request : Packet) (answer : Except Exn Packet) : Prop :=
  answer = .error Client.lostConnection ∨ ∃ w, I w ∧ answer = (direct sys request w).1

/-- The requests of the run, whichever possible answers it gets, are as described. -/
def AsksOnly {α : Type} (sys : Sys) (I : World → Prop) (A : Packet → Prop) (m : Op α) (env : Env) (st : St) : Prop :=
  ∀ t r st', Execution m env st t r st' → (∀ request answer, (request, answer) ∈ t → Possible sys I request answer) →
    ∀ request answer, (request, answer) ∈ t → A request

end Verif.Ops
