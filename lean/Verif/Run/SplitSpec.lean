/-
C104: a deploy can be split into several runs.
-/
import Verif.Run.ProgramSpec
import Verif.Ops.MemorySpec

namespace Verif.Program

open Script Remote Ops

/-- The settings that a script begins with on a host as it is: those of the connection (who we are), and its defaults. -/
def beginning (opts : Env) (t : Target) (w : World) : Except Exn (Settings × Settings) :=
  match (exec (Client.direct t.sys) (resolveIdentity t.base) opts { stack := [] } w).1.1 with
  | .error e => .error e
  | .ok base => (exec (Client.direct t.sys) (withDefaults {} fun _ => currentDefaults) { opts with base } { stack := [{}] } w).1.1.map fun s => (base, s)

/-- The same host with another script. -/
def Target.running (t : Target) (script : List (Op OpResult)) : Target := { t with script }

end Verif.Program
