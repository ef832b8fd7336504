/-
C101: any number of runs at the same time.
-/
import Verif.Ops.BesideSpec

namespace Verif.Ops

open Script Remote
open Client (Prog direct)
open Wire (Packet)

/-- Any number of runs, and a schedule that tells whose turn it is. -/
def crowd {ι α : Type} [DecidableEq ι] (sys : Sys) : List ι → (ι → Process α) → World → (ι → Process α) × World
  | [], ps, w => (ps, w)
  | i :: s, ps, w => crowd sys s (fun j => if j = i then ((ps i).step sys w).1 else ps j) ((ps i).step sys w).2

/-- On the hosts that `I` describes, the requests of different runs can be exchanged: they get the same answers and have the same effects
in either order. -/
structure AllExchangeable {ι : Type} (sys : Sys) (I : World → Prop) (A : ι → Packet → Prop) : Prop where
  keeps : ∀ i a w, A i a → I w → I (direct sys a w).2
  history : ∀ w started, I w → I { w with started }
  answers : ∀ i j, i ≠ j → ∀ a b w, A i a → A j b → I w → (direct sys a (direct sys b w).2).1 = (direct sys a w).1
  effects : ∀ i j, i ≠ j → ∀ a b w, A i a → A j b → I w → SameHost (direct sys a (direct sys b w).2).2 (direct sys b (direct sys a w).2).2

/-- A script, with its settings and the moments when its connection breaks. -/
structure Launch (α : Type) where
  script : Op α
  env : Env
  st : St
  lost : Nat → Option Bool := fun _ => none

def Launch.start {α : Type} (j : Launch α) : Process (Except Exn α × St) := Process.start j.script j.env j.st j.lost

/-- The job alone: its outcome and state, and the host afterwards. -/
def Launch.alone {α : Type} (sys : Sys) (j : Launch α) (w : World) : (Except Exn α × St) × World :=
  let e := exec (flaky sys j.lost) j.script j.env j.st (w, 0)
  (e.1, e.2.1)

/-- The host after these jobs, one after the other. -/
def inTurn {ι α : Type} (sys : Sys) (jobs : ι → Launch α) (order : List ι) (w : World) : World :=
  order.foldl (fun w i => ((jobs i).alone sys w).2) w

/-- Scripts about files and directories at different places. -/
structure Neighbours {ι : Type} (sys : Sys) (tools : Tools) (w : World) (ts : ι → List Task) (env : ι → Env) (st : ι → St) : Prop where
  apart : ∀ i j, i ≠ j → KeepApart (ts i) (ts j)
  beside : ∀ i j, i ≠ j → Neighbour sys tools w (ts i) (ts j) (env i) (st i)

/-- The places of all of them. -/
def Zones {ι : Type} (ts : ι → List Task) (q : Loc) : Prop := ∃ i, Zone (ts i) q

end Verif.Ops
