/-
Where operations may be called: /repo/src/fora/utils.py:316-321 (`check_host_active`), with the global variables of
/repo/src/fora/__init__.py:20-44 and the places that set them, /repo/src/fora/loader.py:44-83,
/repo/src/fora/inventory_wrapper.py:547-676 and /repo/src/fora/main.py:22-64.
-/
import Verif.Run.Main

namespace Verif.Active

/-- An exception, as far as it matters how the program ends. -/
inductive Raised where
  /-- `FatalError(message)` -/
  | fatal (message : Str)
  /-- `ValueError(message)` -/
  | value (message : Str)
  /-- any other one -/
  | other
  deriving DecidableEq, Repr

/-- The code of a module of the user, reduced to what concerns hosts. What a call does on the host is not modelled, only that it is
done there. User code that assigns to the variables of `fora` itself is not modelled. -/
inductive Code where
  | done
  | raise (r : Raised)
  /-- An operation is called. On a host it has the given outcome. The code goes on, or handles the exception. -/
  | operate (outcome : Option Raised) (k : Option Raised → Code)
  /-- `fora.host.connection.run(...)` (`none`), or the same with `fora.inventory.loaded_hosts[h]` (`some h`) -/
  | direct (host : Option Str) (outcome : Option Raised) (k : Option Raised → Code)
  /-- `fora.host` and `fora.group` are looked at; their names. -/
  | look (k : Option Str → Option Str → Code)
  /-- `local.script(...)` with the code of that script -/
  | script (body : Code) (k : Option Raised → Code)

/-- The global variables. -/
structure Globals where
  /-- `fora.inventory`, __init__.py:20: `None`, or `is_initialized()` (inventory_wrapper.py:192-194) -/
  inventory : Option Bool := none
  /-- the keys of `fora.inventory.loaded_hosts` (inventory_wrapper.py:189) -/
  loaded : List Str := []
  /-- `fora.group`, __init__.py:26, by its name -/
  group : Option Str := none
  /-- `fora.host`, __init__.py:33, by its name -/
  host : Option Str := none
  /-- the hosts whose attribute `connection` is not `None` -/
  connected : List Str := []

/-- The module that is being executed: the inventory, a group module for a host, the module of a host, or a script (with all that
it calls) for a host. -/
inductive Site where
  | inventory
  | group (host group : Str)
  | host (host : Str)
  | script (host : Str)
  deriving DecidableEq, Repr

/-- What happens. -/
inductive Effect where
  /-- something is done on a host -/
  | acted (host : Str)
  /-- a call is refused, with a message -/
  | refused (message : Str)
  /-- there is no connection: `AttributeError` -/
  | nothing
  /-- `fora.host` and `fora.group` were seen -/
  | saw (host group : Option Str)
  deriving DecidableEq, Repr

/-- What was tried: to call an operation, to use the connection of a host (`none` is `fora.host`), to look at the variables, or to
call a script. -/
inductive Call where
  | operation
  | direct (host : Option Str)
  | look
  | script
  deriving DecidableEq, Repr

/-- One step: where, what was tried, and what happened. -/
structure Step where
  site : Site
  call : Call
  effect : Effect
  deriving DecidableEq, Repr

abbrev Trace := List Step

/-- utils.py:319 -/
def notLoaded : Str :=
  p!"Invalid attempt to call operation before inventory was loaded! Did you maybe swap the inventory and deploy file on the command line?"

/-- utils.py:321 -/
def notActive : Str := p!"Invalid attempt to call operation while no host is active!"

/-- `check_host_active`, utils.py:316-321. The message of the `FatalError`, if it is raised. -/
def checkHostActive (g : Globals) : Option Str :=
  if g.inventory = none || g.inventory = some false then some notLoaded
  else if g.host = none then some notActive
  else none

/-- `host.connection.run(...)`: `host` may be `None`, and so may the attribute. What happens, and the exception. -/
def use (g : Globals) (host : Option Str) (outcome : Option Raised) : Effect × Option Raised :=
  match host with
  | none => (.nothing, some .other)
  | some h => if h ∈ g.connected then (.acted h, outcome) else (.nothing, some .other)

/-- The call of an operation, operations/api.py:253-292. All operations work on `fora.host.connection`
(operations/files.py:98, operations/system.py:111, …). -/
def operation (g : Globals) (outcome : Option Raised) : Effect × Option Raised :=
  match checkHostActive g with
  | some m => (.refused m, some (.fatal m))
  | none => use g g.host outcome

/-- `fora.host`, or `fora.inventory.loaded_hosts[h]`: there is none if this is `None`, `KeyError` or (without an inventory)
`AttributeError`. -/
def target (g : Globals) : Option Str → Option Str
  | none => g.host
  | some h => if g.inventory ≠ none && decide (h ∈ g.loaded) then some h else none

/-- The execution of code. A script called by a script (local.py:44 and loader.py:85-147) has the same host. -/
def exec (site : Site) (g : Globals) : Code → Option Raised × Trace
  | .done => (none, [])
  | .raise r => (some r, [])
  | .operate outcome k =>
    let e := operation g outcome
    let r := exec site g (k e.2)
    (r.1, ⟨site, .operation, e.1⟩ :: r.2)
  | .direct h outcome k =>
    let e := use g (target g h) outcome
    let r := exec site g (k e.2)
    (r.1, ⟨site, .direct h, e.1⟩ :: r.2)
  | .look k =>
    let r := exec site g (k g.host g.group)
    (r.1, ⟨site, .look, .saw g.host g.group⟩ :: r.2)
  | .script body k =>
    match checkHostActive g with
    | some m =>
      let r := exec site g (k (some (.fatal m)))
      (r.1, ⟨site, .script, .refused m⟩ :: r.2)
    | none =>
      let b := exec site g body
      let r := exec site g (k b.1)
      (r.1, b.2 ++ r.2)

/-- A host as the inventory declares it: its name, its groups in the order in which they are loaded, each with the code of its
module if there is one, and the code of the module of the host, if there is one. -/
structure HostPlan where
  name : Str
  groups : List (Str × Option Code)
  module : Option Code

/-- What the user has written. -/
structure Plan where
  /-- the code of the inventory module; `none` if a url is given instead of a file -/
  inventory : Option Code
  /-- The declared hosts. What is declared may depend on what happened before. `Except`: the declarations are rejected
  (`ValueError`), or there is no list of hosts (`FatalError`), both in loader.py:70-83. -/
  hosts : Trace → Except Str (List HostPlan)
  /-- the script for each host -/
  script : Str → Code

/-- The code of a module, if there is one. -/
def execOption (site : Site) (g : Globals) : Option Code → Option Raised × Trace
  | none => (none, [])
  | some c => exec site g c

/-- inventory_wrapper.py:603-627: `load_group`, as far as `fora.group` is concerned. -/
def loadGroup (host : Str) (g : Globals) (group : Str) (code : Option Code) : Option Raised × Trace :=
  execOption (.group host group) { g with group := some group } code

/-- inventory_wrapper.py:774-781: the groups of a host. `load_group` sets `fora.group` back if there was no exception (:627). -/
def loadGroups (host : Str) (g : Globals) : List (Str × Option Code) → Option Raised × Trace
  | [] => (none, [])
  | (group, code) :: rest =>
    match loadGroup host g group code with
    | (some r, t) => (some r, t)
    | (none, t) =>
      let r := loadGroups host { g with group := none } rest
      (r.1, t ++ r.2)

/-- inventory_wrapper.py:657-675: `load_host`, as far as `fora.host` is concerned. -/
def loadHost (g : Globals) (host : Str) (code : Option Code) : Option Raised × Trace :=
  execOption (.host host) { g with host := some host } code

/-- `instanciate_host`, inventory_wrapper.py:697-823 -/
def instanciateHost (g : Globals) (p : HostPlan) : Option Raised × Trace :=
  match loadGroups p.name g p.groups with
  | (some r, t) => (some r, t)
  | (none, t) =>
    let r := loadHost { g with group := none } p.name p.module
    (r.1, t ++ r.2)

/-- inventory_wrapper.py:574: all hosts. `load_host` sets `fora.host` back if there was no exception (:675). -/
def instanciateHosts (g : Globals) : List HostPlan → Option Raised × Trace
  | [] => (none, [])
  | p :: ps =>
    match instanciateHost g p with
    | (some r, t) => (some r, t)
    | (none, t) =>
      let r := instanciateHosts { g with group := none, host := none } ps
      (r.1, t ++ r.2)

/-- How the program ends. -/
inductive End where
  /-- `die_error(message)` with status 1 -/
  | died (message : Str)
  /-- with an exception -/
  | raised
  | finished
  deriving DecidableEq, Repr

/-- main.py:33-34: a `FatalError` is reported. -/
def reportFatal : Raised → End
  | .fatal m => .died m
  | _ => .raised

/-- loader.py:80-83: a `ValueError` of `wrapper.load()` becomes a `FatalError`. -/
def wrapValue : Raised → Raised
  | .value m => .fatal m
  | r => r

/-- `load_inventory`, loader.py:44-83: the hosts, or the exception; and what happened. -/
def loadInventory (p : Plan) : Except Raised (List Str) × Trace :=
  let g : Globals := { inventory := some false }
  match execOption .inventory g p.inventory with
  | (some r, t) => (.error r, t)
  | (none, t) =>
    match p.hosts t with
    | .error m => (.error (.fatal m), t)
    | .ok hosts =>
      match instanciateHosts g hosts with
      | (some r, t') => (.error (wrapValue r), t ++ t')
      | (none, t') => (.ok (hosts.map (·.name)), t ++ t')

/-- How the connection of a host fares. -/
structure Wire where
  /-- `open_connection(host)` can be entered -/
  opens : Bool := true
  /-- `__exit__` raises no exception -/
  closes : Bool := true

/-- main.py:55-64: the loop over the selected hosts. `__enter__` and `__exit__` of the connection (connection.py:31-40) set the
attribute `connection` of the host. `main_run` handles no exception of this part. -/
def runHosts (script : Str → Code) (wire : Str → Wire) (g : Globals) : List Str → End × Trace
  | [] => (.finished, [])
  | h :: hs =>
    if (wire h).opens then
      match exec (.script h) { g with host := some h, connected := h :: g.connected } (script h) with
      | (some _, t) => (.raised, t)
      | (none, t) =>
        if (wire h).closes then
          let r := runHosts script wire { g with host := none } hs
          (r.1, t ++ r.2)
        else (.raised, t)
    else (.raised, [])

/-- `main_run`, main.py:22-64 -/
def mainRun (p : Plan) (hosts : Option Str) (wire : Str → Wire) : End × Trace :=
  match loadInventory p with
  | (.error r, t) => (reportFatal r, t)
  | (.ok loaded, t) =>
    match Run.select loaded (Run.requested loaded hosts) [] with
    | .error m => (.died m, t)
    | .ok selected =>
      let r := runHosts p.script wire { inventory := some true, loaded } selected
      (r.1, t ++ r.2)

end Verif.Active
