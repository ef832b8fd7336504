/-
The program as a whole: one host after the other is connected to, and the script is run there.
Models /repo/src/fora/main.py:54-64 together with /repo/src/fora/connection.py:26-53 and 242-258 and /repo/src/fora/loader.py:85-147,
by putting together the models of their parts: Run/Main.lean, Client/Lifecycle.lean, Script/Op.lean and Ops/.
-/
import Verif.Run.Main
import Verif.Client.Lifecycle
import Verif.Ops.DeploySpec

namespace Verif.Program

open Script Remote Ops
open Client.Lifecycle (OpenEnv State open' exit)

/-- A host of the inventory: how its machine reacts, the settings of the inventory (`host.inventory.base_remote_settings()`,
inventory_wrapper.py:242-263), and the operations that the script calls for it, one after the other. (Some theorems also allow
for pieces of code with whatever control flow in their place. Simplification: two hosts are two machines.) -/
structure Target where
  sys : Sys
  base : Settings
  script : List (Op OpResult)

/-- What happens to the connection while a host is dealt with: how opening it goes, at which requests it breaks, and whether the
background process has died at the end. -/
structure Luck where
  opening : OpenEnv
  lost : Nat → Option Bool
  dies : Bool

/-- The machines, by the names of the hosts; the results of the scripts that came to their end; the summaries of operations that are
on the screen, each with the host that was dealt with; and the number of background processes that the program has started and that
are running. -/
structure Fleet where
  hosts : Str → World
  results : List (Str × List OpResult) := []
  screen : List (Str × Report) := []
  background : Nat := 0

/-- loader.py:124-132: what `run_script` does on a host. The script starts with a fresh set of defaults. -/
def runCmdline (ops : List (Op OpResult)) : Op (List OpResult) := withDefaults {} fun _ => deploy ops

/-- main.py:57-59: `with open_connection(host): run_script(...)`. `open_connection` (connection.py:242-258) creates a connection with
a new connector (:26-29). Entering it (:31-35) opens the connector and asks for the identity; if that fails, `__exit__` is not
called. `opts` are the options of the command line. (`fora.host` is omitted.) What the script returns, the connection, the host, and
the summaries that were printed. -/
def session (opts : Env) (t : Target) (luck : Luck) (w : World) : Except Exn (List OpResult) × State × World × List Report :=
  match open' luck.opening State.fresh with
  | (.error e, s) => (.error e, s, w, [])
  | (.ok _, s) =>
    let s := { s with hostConnection := true }
    match exec (flaky t.sys luck.lost) (resolveIdentity t.base) opts { stack := [] } (w, 0) with
    | ((.error e, _), (w, _)) => (.error e, s, w, [])
    | ((.ok base, _), (w, k)) =>
      let r := exec (flaky t.sys luck.lost) (runCmdline t.script) { opts with base } { stack := [{}] } (w, k)
      match exit (if luck.dies then { s with running := false } else s) with
      | (.error e, s) => (.error e, s, r.2.1, r.1.2.shown)
      | (.ok _, s) => (r.1.1, s, r.2.1, r.1.2.shown)

/-- main.py:56-64: one round of the loop over the selected hosts. -/
def round (opts : Env) (targets : Str → Target) (luck : Str → Luck) (h : Str) (f : Fleet) : Except Run.Exc Unit × Fleet :=
  let r := session opts (targets h) (luck h) (f.hosts h)
  let f :=
    { f with
      hosts := fun x => if x = h then r.2.2.1 else f.hosts x
      screen := f.screen ++ r.2.2.2.map fun p => (h, p)
      background := f.background + r.2.1.background }
  match r.1 with
  | .error e => (.error { kind := e }, f)
  | .ok rs => (.ok (), { f with results := f.results ++ [(h, rs)] })

/-- `main_run`, main.py:22-64, after the inventory has been loaded: `loaded` are the names of the hosts in it, `select` is the option
`--hosts`. How the program ends, for which hosts it has started, and what it leaves behind. -/
def program (opts : Env) (targets : Str → Target) (loaded : List Str) (select : Option Str) (luck : Str → Luck) (f : Fleet) : Run.End × List Str × Fleet :=
  Run.mainRun loaded select (round opts targets luck) f

end Verif.Program
