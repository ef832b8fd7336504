/-
The instantiation of hosts: inventory_wrapper.py:547-823.
-/
import Verif.Inventory.Wrapper

namespace Verif.Inventory

/-- The content of all objects. Two objects are equal for Python (`==`) if they have the same content; an object may be changed in
place. `None` has the content 0. A snapshot of an object (`copy(value)`) is its content at that time: a change deeper inside of
the object would change the snapshot, too, and so is none here. -/
abbrev Heap := Nat → Nat

/-- The code of a module. It is run with the global variables it is given and may do anything with these and with any object, or
raise an exception. (What it does to other modules or to fora itself is not modelled.) -/
abbrev Body := Heap → Vars → Except Exn (Heap × Vars)

/-- The files of an inventory. -/
structure Sources where
  /-- The module file that `group_module_file(name)` refers to, if it does and the file exists. -/
  groupFile : Str → Option Body
  /-- The module file that `host_module_file(name)` refers to, if it does and the file exists. -/
  hostFile : Str → Option Body
  /-- The file of this name, relative to the inventory, if it exists. -/
  file : Str → Option Body
  /-- The wrapper of the inventory itself. -/
  inventory : Wrapper

/-- The objects made by fora itself. Only their identity is of interest. -/
structure Consts where
  /-- The module object or namespace for a host's instance of a group. The second argument tells if it is a real module. -/
  groupModule : Str → Nat
  hostModule : Nat
  /-- `HostDeclaration` -/
  declaration : Obj
  /-- `SimpleNamespace()` of `early-explicits` -/
  explicits : Nat
  /-- "This file is managed by fora." -/
  managed : Obj
  /-- The fields of the wrapper of a group or host with this name, and attributes of its class. -/
  field : Str → Str → Obj

/-- Where the module comes from, inventory_wrapper.py:597-598 and 621-626 (groups), 651-652 and 669-674 (hosts). `none` if there is
no file. -/
def moduleFile (src : Sources) (default : Option Body) (file : Option Str) : Except Exn (Option Body) :=
  match file with
  | none => .ok default
  | some f =>
    match src.file f with
    | none => .error (.valueError p!"Module file does not exist but was explicitly specified")
    | some b => .ok (some b)

/-- `load_py_module`, utils.py:127-146, after `pre_exec`: the module is executed. Without a file there is nothing to execute. -/
def Wrapper.execModule (w : Wrapper) (body : Option Body) (heap : Heap) : Except Exn (Heap × Wrapper) :=
  match body, w.module with
  | some b, some m => do
    let (heap, attrs) ← b heap m.attrs
    .ok (heap, { w with module := some { m with attrs } })
  | _, _ => .ok (heap, w)

/-- inventory_wrapper.py:607-612: what the group `all` is given in addition -/
def allVars (src : Sources) (c : Consts) (name : Str) : Vars :=
  if name = p!"all" then (({} : Vars).set p!"fora_managed" c.managed).update src.inventory.exported else {}

/-- `load_group`, inventory_wrapper.py:577-628. The group is declared. -/
def loadGroup (src : Sources) (c : Consts) (decl : GroupDecl) (initializer : Wrapper) (heap : Heap) : Except Exn (Heap × Wrapper) := do
  let body ← moduleFile src (src.groupFile decl.name) decl.file
  let w : Wrapper := { cls := groupCls, attrs := ({} : Vars).set p!"name" (c.field decl.name p!"name"), classAttr := c.field decl.name }
  let w := w.wrapCopying { obj := { id := c.groupModule decl.name, isModule := body.isSome } }
  let w := w.initModule (allVars src c decl.name)
  let w := w.initModule initializer.exported
  w.execModule body heap

/-- The fields of a new `HostWrapper`. -/
def hostFields (c : Consts) (name : Str) : Vars :=
  hostCls.annotations.foldl (fun d a => d.set a (c.field name a)) {}

/-- `load_host`, inventory_wrapper.py:630-676 -/
def loadHost (src : Sources) (c : Consts) (name : Str) (decl : HostDecl) (initializer : Wrapper) (heap : Heap) : Except Exn (Heap × Wrapper) := do
  let body ← moduleFile src (src.hostFile name) decl.file
  let w : Wrapper := { cls := hostCls, attrs := hostFields c name, classAttr := c.field name }
  let w := w.wrapCopying { obj := { id := c.hostModule, isModule := body.isSome } }
  let w := w.initModule initializer.exported
  w.execModule body heap

inductive Action where
  | definition
  | modification
  deriving DecidableEq, Repr

/-- The wrapper of a group or a host, given by its name. (It is the attribute `name` of the wrapper, which "must not be changed" by
the module. Simplification: the wrapper for the variables in the declaration of a host has this attribute overwritten if one of these
variables is called `name`; then the look-up of the ranks fails, or finds those of another group.) -/
inductive Actor where
  | group (name : Str)
  | host (name : Str)
  deriving DecidableEq, Repr

/-- `actor.name` -/
def Actor.name : Actor → Str
  | .group n => n
  | .host n => n

/-- `VariableActionSnapshot`, types.py:45-53. -/
structure Snapshot where
  action : Action
  actor : Actor
  value : Nat
  deriving DecidableEq, Repr

/-- `variable_action_history`: a dict of non-empty lists -/
abbrev History := Str → List Snapshot

/-- What `record_variable_change` changes. -/
structure Record where
  history : History := fun _ => []
  /-- The conflicts: the previous action and actor, the present ones, and the attribute. -/
  conflicts : List (Snapshot × Snapshot × Str) := []

/-- inventory_wrapper.py:755: the content that was recorded last, or `None` -/
def Record.previous (r : Record) (a : Str) : Nat :=
  match (r.history a).getLast? with
  | none => 0
  | some s => s.value

/-- inventory_wrapper.py:756 -/
def Record.wasModified (r : Record) (heap : Heap) (a : Str) (v : Obj) : Bool := r.previous a != heap v.id

/-- inventory_wrapper.py:757 -/
def wasOverwritten (initializer : Option Wrapper) (a : Str) (v : Obj) : Bool :=
  match initializer with
  | none => false
  | some w =>
    match w.get a with
    | none => false
    | some u => u.id != v.id

/-- inventory_wrapper.py:758 -/
def actionOf (modified overwritten : Bool) : Action :=
  if modified && !overwritten then .modification else .definition

/-- inventory_wrapper.py:764-779: the recorded actions that are in conflict with the present one -/
def conflictsWith (order : GroupOrder) (history : List Snapshot) (s : Snapshot) : List Snapshot :=
  history.filter fun prev => decide (order.ranksMax prev.actor.name ≥ order.ranksMin s.actor.name) && !(prev.action == .modification && s.action == .modification)

/-- `record_variable_change`, inventory_wrapper.py:750-783. `check` tells if `record_conflicts_group` is given; it is always the
actor. -/
def Record.change (order : GroupOrder) (heap : Heap) (actor : Actor) (initializer : Option Wrapper) (check : Bool) (r : Record) (a : Str) (v : Obj) : Record :=
  let modified := r.wasModified heap a v
  let overwritten := wasOverwritten initializer a v
  let s : Snapshot := ⟨actionOf modified overwritten, actor, heap v.id⟩
  if initializer.isNone || overwritten || modified then
    { history := fun b => if b = a then r.history a ++ [s] else r.history b
      conflicts := r.conflicts ++ if check && initializer.isSome then (conflictsWith order (r.history a) s).map fun prev => (prev, s, a) else [] }
  else r

/-- `record_variable_change` for all exported variables of a wrapper, e.g. inventory_wrapper.py:803-804 -/
def Record.changes (order : GroupOrder) (heap : Heap) (actor : Actor) (initializer : Option Wrapper) (check : Bool) (vs : Vars) (r : Record) : Record :=
  vs.items.foldl (fun r kv => r.change order heap actor initializer check kv.1 kv.2) r

/-- inventory_wrapper.py:785-796: the group of variables that are known from the declaration -/
def earlyExplicits (c : Consts) (vars : Vars) : Wrapper :=
  { cls := groupCls
    attrs := (({} : Vars).set p!"name" (c.field p!"early-explicits" p!"name")).set p!"host" c.declaration
    module := some { obj := { id := c.explicits }, attrs := vars }
    classAttr := c.field p!"early-explicits" }

/-- inventory_wrapper.py:790-796: the changes recorded for them -/
def earlyRecord (order : GroupOrder) (heap : Heap) (c : Consts) (vars : Vars) : Record :=
  (({} : Record).change order heap (.group p!"early-explicits") none true p!"host" c.declaration).changes order heap (.group p!"early-explicits") none true vars

/-- The state of the loop inventory_wrapper.py:801-807. -/
structure Loading where
  heap : Heap
  initializer : Wrapper
  record : Record

/-- inventory_wrapper.py:801-807, one iteration -/
def loadNext (src : Sources) (c : Consts) (d : Declared) (l : Loading) (group : Str) : Except Exn Loading := do
  match d.groups.lookup group with
  | none => .error .keyError
  | some decl =>
    let (heap, w) ← loadGroup src c decl l.initializer l.heap
    .ok ⟨heap, w, l.record.changes d.order heap (.group group) (some l.initializer) true w.exported⟩

/-- inventory_wrapper.py:801-807 -/
def loadGroups (src : Sources) (c : Consts) (d : Declared) (l : Loading) : List Str → Except Exn Loading
  | [] => .ok l
  | g :: gs => do loadGroups src c d (← loadNext src c d l g) gs

/-- A loaded host. -/
structure Host where
  wrapper : Wrapper
  /-- `_variable_action_history` -/
  history : History

/-- inventory_wrapper.py:728-729: the groups of the host in order -/
def groupsInOrder (d : Declared) (decl : HostDecl) : List Str := d.order.order.filter fun g => decide (g ∈ decl.groups)

/-- The variables of a declaration as a dict. (`vars` is a dict in the first place.) -/
def declVars (decl : HostDecl) : Vars := decl.vars.foldl (fun d kv => d.set kv.1 kv.2) {}

/-- `instanciate_host`, inventory_wrapper.py:697-823 -/
def instanciateHost (src : Sources) (c : Consts) (d : Declared) (heap : Heap) (name : Str) (decl : HostDecl) : Except Exn (Heap × Host) := do
  let vars := declVars decl
  let l ← loadGroups src c d ⟨heap, earlyExplicits c vars, earlyRecord d.order heap c vars⟩ (groupsInOrder d decl)
  if l.record.conflicts.length > 0 then .error (.valueError p!"Conflict in variable assignment from two groups with ambiguous ordering.")
  else
    let (heap, w) ← loadHost src c name decl l.initializer l.heap
    .ok (heap, ⟨w, (l.record.changes d.order heap (.host name) (some l.initializer) false w.exported).history⟩)

/-- inventory_wrapper.py:573 -/
def instanciateHosts (src : Sources) (c : Str → Consts) (d : Declared) : Heap → Decls HostDecl → Except Exn (Heap × List (Str × Host))
  | heap, [] => .ok (heap, [])
  | heap, (name, decl) :: hs => do
    let (heap, h) ← instanciateHost src (c name) d heap name decl
    let (heap, r) ← instanciateHosts src c d heap hs
    .ok (heap, (name, h) :: r)

/-- `load`, inventory_wrapper.py:547-575. `c` are the objects made for each host. -/
def load (fuel : Nat) (so : SetOrder) (src : Sources) (c : Str → Consts) (heap : Heap) (hosts : List (Entry HostDecl)) (groups : Option (List (Entry GroupDecl))) :
    Option (Except Exn (Heap × List (Str × Host))) :=
  (declare fuel so hosts groups).map fun r => do
    let d ← r
    instanciateHosts src c d heap d.hosts

end Verif.Inventory
