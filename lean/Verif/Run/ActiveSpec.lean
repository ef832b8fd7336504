/-
What a user expects of the modules of an inventory and of scripts with regard to hosts.
-/
import Verif.Run.Active

namespace Verif.Active

/-- The host on which operations work at a place, if there may be operations at all. -/
def Site.active : Site → Option Str
  | .script h => some h
  | _ => none

/-- What `fora.host` is at a place, according to its documentation, __init__.py:33-38: the host whose module is being loaded, or on
which a script is executed. -/
def Site.hostVar : Site → Option Str
  | .script h => some h
  | .host h => some h
  | _ => none

/-- What `fora.group` is at a place, according to its documentation, __init__.py:26-31. -/
def Site.groupVar : Site → Option Str
  | .group _ g => some g
  | _ => none

/-- The code of a module that does not run to its end without calling an operation or a script: sooner or later it calls one and does
not handle that this is refused with the message `m`. -/
inductive Insists (m : Str) : Code → Prop where
  | operate {outcome k} : k (some (.fatal m)) = .raise (.fatal m) → Insists m (.operate outcome k)
  | script {body k} : k (some (.fatal m)) = .raise (.fatal m) → Insists m (.script body k)
  | handled {outcome k} : Insists m (k (some (.fatal m))) → Insists m (.operate outcome k)
  | look {k} : (∀ h g, Insists m (k h g)) → Insists m (.look k)

/-- The names of the hosts whose groups and host modules are executed at a place. -/
def Site.owner : Site → Option Str
  | .group h _ => some h
  | .host h => some h
  | .script h => some h
  | .inventory => none

/-- The message of utils.py:319. -/
def swapMessage : Str :=
  p!"Invalid attempt to call operation before inventory was loaded! Did you maybe swap the inventory and deploy file on the command line?"

/-- What is expected of a step while the inventory is being loaded: it does nothing on any host. A call of an operation is refused. -/
structure Idle (s : Step) : Prop where
  site : s.site.active = none
  operation : s.call = .operation ∨ s.call = .script → s.effect = .refused swapMessage
  direct : ∀ h, s.call = .direct h → s.effect = .nothing
  look : s.call = .look → s.effect = .saw s.site.hostVar s.site.groupVar

/-- What is expected of a step of a script for the host `h`: operations work on this host, and no other host can be reached. -/
structure Busy (h : Str) (s : Step) : Prop where
  site : s.site = .script h
  operation : s.call = .operation → s.effect = .acted h
  script : s.call ≠ .script
  direct : ∀ h', s.call = .direct h' → s.effect = if h' = none ∨ h' = some h then .acted h else .nothing
  look : s.call = .look → s.effect = .saw (some h) none

/-- Code that ends in an exception, whatever becomes of its calls. -/
inductive Fails (r : Raised) : Code → Prop where
  | raise : Fails r (.raise r)
  | operate {outcome k} : (∀ o, Fails r (k o)) → Fails r (.operate outcome k)
  | direct {h outcome k} : (∀ o, Fails r (k o)) → Fails r (.direct h outcome k)
  | look {k} : (∀ h g, Fails r (k h g)) → Fails r (.look k)
  | script {body k} : (∀ o, Fails r (k o)) → Fails r (.script body k)

/-- Code that comes to its end, whatever becomes of its calls. -/
inductive Ends : Code → Prop where
  | done : Ends .done
  | operate {outcome k} : (∀ o, Ends (k o)) → Ends (.operate outcome k)
  | direct {h outcome k} : (∀ o, Ends (k o)) → Ends (.direct h outcome k)
  | look {k} : (∀ h g, Ends (k h g)) → Ends (.look k)
  | script {body k} : (∀ o, Ends (k o)) → Ends (.script body k)

/-- A host that is loaded without an exception. -/
structure Loads (h : HostPlan) : Prop where
  groups : ∀ g ∈ h.groups, ∀ c, g.2 = some c → Ends c
  module : ∀ c, h.module = some c → Ends c

/-- A host of which the first module that does not come to its end raises the exception `r`: the module of one of its groups, or its own. -/
inductive Breaks (r : Raised) (h : HostPlan) : Prop where
  | group (before after : List (Str × Option Code)) (name : Str) (c : Code) : h.groups = before ++ (name, some c) :: after →
      (∀ g ∈ before, ∀ c, g.2 = some c → Ends c) → Fails r c → Breaks r h
  | module (c : Code) : (∀ g ∈ h.groups, ∀ c, g.2 = some c → Ends c) → h.module = some c → Fails r c → Breaks r h

/-- How the program is to end if the module of a group or a host raises an exception: a `ValueError` and a `FatalError` are reported with
their message and nothing else, any other one as it is. -/
inductive Reported : Raised → End → Prop where
  | fatal (m : Str) : Reported (.fatal m) (.died m)
  | value (m : Str) : Reported (.value m) (.died m)
  | other : Reported .other .raised

end Verif.Active
