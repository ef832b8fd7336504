/-
C105: the hosts of a run can be dealt with one at a time, and in any order.
-/
import Verif.Run.ProgramSpec

namespace Verif.Program

open Script Remote Ops

/-- The program is run for one host after the other, with `--hosts h`, until a run does not come to its end. -/
def oneByOne (opts : Env) (targets : Str → Target) (loaded : List Str) (luck : Str → Luck) : List Str → Fleet → Run.End × Fleet
  | [], f => (.finished, f)
  | h :: hs, f =>
    match program opts targets loaded (some h) luck f with
    | (.finished, _, f) => oneByOne opts targets loaded luck hs f
    | (e, _, f) => (e, f)

end Verif.Program
