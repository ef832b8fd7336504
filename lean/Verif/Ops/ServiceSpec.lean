/-
Specification vocabulary for services: what systemd knows about a unit, and what systemctl does.
-/
import Verif.Ops.System

namespace Verif.Ops

open Script Remote

/-- The values of the property ActiveState. -/
inductive ActiveState where
  | active | activating | reloading | inactive | deactivating | failed | maintenance
deriving DecidableEq

def ActiveState.text : ActiveState → Bytes
  | .active => b!"active"
  | .activating => b!"activating"
  | .reloading => b!"reloading"
  | .inactive => b!"inactive"
  | .deactivating => b!"deactivating"
  | .failed => b!"failed"
  | .maintenance => b!"maintenance"

/-- The unit runs, or is on its way up. -/
def ActiveState.Up : ActiveState → Prop
  | .active | .activating | .reloading => True
  | _ => False

instance : (a : ActiveState) → Decidable a.Up
  | .active | .activating | .reloading => isTrue trivial
  | .inactive | .deactivating | .failed | .maintenance => isFalse id

/-- The values of the property UnitFileState; `missing` if there is no unit file. -/
inductive FileState where
  | enabled | enabledRuntime | linked | linkedRuntime | alias | masked | maskedRuntime | static | disabled | indirect | generated | transient | bad | missing
deriving DecidableEq

def FileState.text : FileState → Bytes
  | .enabled => b!"enabled"
  | .enabledRuntime => b!"enabled-runtime"
  | .linked => b!"linked"
  | .linkedRuntime => b!"linked-runtime"
  | .alias => b!"alias"
  | .masked => b!"masked"
  | .maskedRuntime => b!"masked-runtime"
  | .static => b!"static"
  | .disabled => b!"disabled"
  | .indirect => b!"indirect"
  | .generated => b!"generated"
  | .transient => b!"transient"
  | .bad => b!"bad"
  | .missing => []

/-- What there is to know about the units of the system (`false`) and of the user (`true`). -/
structure UnitStates where
  active : Bool → World → Str → ActiveState
  file : Bool → World → Str → FileState

/-- The command for the units of the system, or of the user. -/
def systemctl (user : Bool) (args : List Str) : List Str := (if user then [p!"systemctl", p!"--user"] else [p!"systemctl"]) ++ args

/-- A host with systemd, and a unit on it of the usual kind: it stays active after it has been started, and can be enabled. `show`
answers truthfully and changes nothing. If an action ends with exit code 0, it was done. The name of the unit stands for itself. (Nothing
is said about other units: those that it depends on are started with it.) -/
structure Systemd (sys : Sys) (U : UnitStates) (unit : Str) : Prop where
  /-- what is known about units does not depend on the history variable of the model -/
  history : ∀ user w s, U.active user { w with started := s } unit = U.active user w unit ∧ U.file user { w with started := s } unit = U.file user w unit
  showActive : ∀ p w out err code w', p.argv = systemctl false [p!"show", p!"--value", p!"--property", p!"ActiveState", p!"--", unit] →
    sys.exec p w = (.done out err code, w') → w' = w ∧ (code = 0 → out = (U.active false w unit).text ++ b!"\n")
  showFile : ∀ p w out err code w', p.argv = systemctl false [p!"show", p!"--value", p!"--property", p!"UnitFileState", p!"--", unit] →
    sys.exec p w = (.done out err code, w') → w' = w ∧ (code = 0 → out = (U.file false w unit).text ++ b!"\n")
  start : ∀ user p w out err w', p.argv = systemctl user [p!"start", p!"--", unit] → sys.exec p w = (.done out err 0, w') →
    (U.active user w' unit = .active ∨ U.active user w' unit = .activating) ∧ U.file user w' unit = U.file user w unit
  restart : ∀ user p w out err w', p.argv = systemctl user [p!"restart", p!"--", unit] → sys.exec p w = (.done out err 0, w') →
    (U.active user w' unit = .active ∨ U.active user w' unit = .activating) ∧ U.file user w' unit = U.file user w unit
  stop : ∀ user p w out err w', p.argv = systemctl user [p!"stop", p!"--", unit] → sys.exec p w = (.done out err 0, w') →
    ¬ (U.active user w' unit).Up ∧ U.file user w' unit = U.file user w unit
  reload : ∀ user p w out err w', p.argv = systemctl user [p!"reload", p!"--", unit] → sys.exec p w = (.done out err 0, w') →
    (U.active user w' unit).Up ∧ U.file user w' unit = U.file user w unit
  enable : ∀ user p w out err w', p.argv = systemctl user [p!"enable", p!"--", unit] → sys.exec p w = (.done out err 0, w') →
    U.file user w' unit = .enabled ∧ U.active user w' unit = U.active user w unit
  disable : ∀ user p w out err w', p.argv = systemctl user [p!"disable", p!"--", unit] → sys.exec p w = (.done out err 0, w') →
    U.file user w' unit ≠ .enabled ∧ U.active user w' unit = U.active user w unit

/-- Whether the unit runs as requested. If nothing is requested, its state is not changed. -/
def RunsAs (state : Option Str) (before after : ActiveState) : Prop :=
  (state = none → after = before) ∧ (state = some p!"started" → after.Up) ∧ (state = some p!"restarted" → after.Up)
    ∧ (state = some p!"reloaded" → after.Up) ∧ (state = some p!"stopped" → ¬ after.Up)

/-- Whether the unit is enabled as requested. -/
def EnabledAs (enabled : Option Bool) (before after : FileState) : Prop :=
  (enabled = none → after = before) ∧ (enabled = some true → after = .enabled) ∧ (enabled = some false → after ≠ .enabled)

end Verif.Ops
