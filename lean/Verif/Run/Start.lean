/-
The program from its command line to its end: /repo/src/fora/main.py:22-64 and 209-272.
-/
import Verif.Run.Program
import Verif.Run.Cmdline

namespace Verif.Program

open Script Remote Ops

/-- What the user has written: the hosts of an inventory (`none` if it cannot be loaded) and what a script does on each of them. -/
structure Project where
  inventory : Str → Option (List Str)
  script : Str → Str → Str → Target

/-- How the program ends. -/
inductive Exit where
  /-- during the command line: an error (`die_error`), a text (`--help`), `--init` or `--inspect-inventory` -/
  | cmdline (o : Run.Outcome)
  /-- The inventory cannot be loaded, main.py:31-34. -/
  | inventory
  | run (e : Run.End)

/-- `main(argv)`, main.py:209-272, with `main_run`, main.py:22-64. How it ends, for which hosts the script was started, and what is
left behind. The base settings of each host come from the inventory and the connection, see `session`. -/
def fora (noColorSet tty : Bool) (project : Project) (luck : Str → Luck) (argv : List Str) (f : Fleet) : Exit × List Str × Fleet :=
  match Run.mainCmdline noColorSet tty argv with
  | .run o hosts inventory script =>
    match project.inventory inventory with
    | none => (.inventory, [], f)
    | some loaded =>
      let r := program { base := {}, dry := o.dry, diff := o.diff, changes := o.changes } (project.script inventory script) loaded hosts luck f
      (.run r.1, r.2)
  | o => (.cmdline o, [], f)

end Verif.Program
