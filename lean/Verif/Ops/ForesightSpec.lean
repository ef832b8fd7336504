/-
What dry runs of scripts that manage symbolic links depend on.
-/
import Verif.Ops.DeploySpec

namespace Verif.Ops

open Script Remote

/-- The directory in which commands are run is given by an absolute path and is there. -/
def WorksIn (w : World) (cwd : Option Str) : Prop :=
  ∀ d, cwd = some d → isAbs d = true ∧ ∃ l n, lookup w.fs w.cwd d false = .ok (l, n) ∧ n.kind = .dir

/-- Whether directories can be entered, and whether `readlink` is there and works, does not depend on what else is there. -/
structure SteadyLinks (sys : Sys) (tools : Tools) : Prop where
  chdir : ∀ w w' path, sys.fault w (.chdir path) = sys.fault w' (.chdir path)
  readlink : ∀ p d w w', p.argv.head? = some p!"readlink" → tools.missing { p with cwd := d } w' = tools.missing p w ∧ tools.fault { p with cwd := d } w' 0 = tools.fault p w 0

end Verif.Ops
