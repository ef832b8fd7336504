/-
The command line program, as far as it selects hosts and runs the script: /repo/src/fora/main.py:22-64.
-/
import Verif.Run.Script

namespace Verif.Run

/-- `s.split(c)` for a separator of one character -/
def split (c : Nat) : Str → List Str
  | [] => [[]]
  | x :: xs =>
    if x = c then [] :: split c xs
    else
      match split c xs with
      | [] => [[x]]
      | p :: ps => (x :: p) :: ps

/-- main.py:38-45: the loop over the hosts asked for. The error is the message of `die_error`, which ends the process with exit
status 1. -/
def select (loaded : List Str) : List Str → List Str → Except Str (List Str)
  | [], selected => .ok selected
  | h :: hs, selected =>
    if h ∈ selected then select loaded hs selected
    else if h ∈ loaded then select loaded hs (selected ++ [h])
    else .error (p!"Unknown host '" ++ h ++ p!"'")

/-- How the program ends. -/
inductive End where
  /-- `die_error(message)`: status 1 -/
  | died (message : Str)
  /-- with an exception -/
  | raised (e : Exc)
  /-- at the end of `main_run` -/
  | finished

/-- main.py:56-64: the loop over the selected hosts. `run` is one round of it: open the connection, run the script and close it.
The hosts for which a round was started are listed. -/
def runHosts {σ : Type} (run : Str → σ → Except Exc Unit × σ) : List Str → σ → End × List Str × σ
  | [], s => (.finished, [], s)
  | h :: hs, s =>
    match run h s with
    | (.error e, s) => (.raised e, [h], s)
    | (.ok (), s) =>
      let r := runHosts run hs s
      (r.1, h :: r.2.1, r.2.2)

/-- main.py:38: the hosts asked for, before repetitions are removed. -/
def requested (loaded : List Str) : Option Str → List Str
  | some h => split 44 h
  | none => loaded

/-- `main_run`, main.py:22-64, after the inventory has been loaded. `loaded` are the names of the hosts in it, `hosts` is the
option `--hosts`. -/
def mainRun {σ : Type} (loaded : List Str) (hosts : Option Str) (run : Str → σ → Except Exc Unit × σ) (s : σ) : End × List Str × σ :=
  match select loaded (requested loaded hosts) [] with
  | .error m => (.died m, [], s)
  | .ok selected => runHosts run selected s

end Verif.Run
