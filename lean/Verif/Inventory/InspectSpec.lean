/-
What a user may expect to be told about the origin of a variable.
-/
import Verif.Inventory.LoadSpec
import Verif.Inventory.NamesSpec

namespace Verif.Inventory

/-- A module was loaded, or the declaration of a host was read: who it was, and the objects and variables after that. -/
structure Stage where
  actor : Actor
  heap : Heap
  vars : Vars

/-- A variable that only modules and declarations define: not private, and nothing that fora itself defines for a module. -/
structure Plain (x : Str) : Prop extends Variable x where
  notHost : x ≠ p!"host"
  notHostName : x ∉ hostNames
  notModuleName : x ∉ moduleNames

/-- The value of the variable that a module inherits: that of the module before. (Modules that were imported are not inherited.) The
group `all` also inherits the variables of the inventory. -/
def inherited (src : Sources) (c : Consts) (before : Vars) (actor : Actor) (x : Str) : Option Obj :=
  ((before.get x).filter fun v => !v.isModule).or
    (if actor = .group p!"all" then (src.inventory.exported.get x).or (if x = p!"fora_managed" then some c.managed else none) else none)

/-- The modules are run one after the other, each with the variables left by the one before. -/
inductive Course (src : Sources) (c : Consts) : Heap → Vars → List (Actor × Option Body) → List Stage → Prop
  | nil {heap : Heap} {vars : Vars} : Course src c heap vars [] []
  | cons {heap heap' : Heap} {before vs vs' : Vars} {actor : Actor} {body : Option Body} {rest : List (Actor × Option Body)} {stages : List Stage} :
      (∀ x, Plain x → vs.get x = inherited src c before actor x) → Ran body heap vs heap' vs' → Course src c heap' vs' rest stages →
      Course src c heap before ((actor, body) :: rest) (⟨actor, heap', vs'⟩ :: stages)

/-- What is loaded for a host, in this order: its groups and the module of the host itself. -/
def loads (src : Sources) (d : Declared) (name : Str) (decl : HostDecl) : List (Actor × Option Body) :=
  ((d.order.order.filter fun g => decide (g ∈ decl.groups)).map fun g => (.group g, groupModule src d g)) ++ [(.host name, bodyOf src (src.hostFile name) decl.file)]

/-- Everything that may define a variable of a host: first its declaration, then the modules. -/
def Origins (src : Sources) (c : Consts) (d : Declared) (heap : Heap) (name : Str) (decl : HostDecl) (stages : List Stage) : Prop :=
  ∃ rest, stages = ⟨.group p!"early-explicits", heap, declVars decl⟩ :: rest ∧ Course src c heap (declVars decl) (loads src d name decl) rest

/-- The variable is the same object as before. -/
def sameObject (x : Str) (s t : Stage) : Bool :=
  match s.vars.get x, t.vars.get x with
  | some u, some v => u.id == v.id
  | _, _ => false

/-- The value of the variable is equal to the one before. -/
def sameContent (x : Str) (s t : Stage) : Bool :=
  match s.vars.get x, t.vars.get x with
  | some u, some v => s.heap u.id == t.heap v.id
  | _, _ => false

/-- To whom the value of a variable is due: the one who assigned it last, followed by those who changed the object after that. `who`
are those to whom it was due before, at the stage `prev`. -/
def dueTo (x : Str) : Stage → List Actor → List Stage → List Actor
  | _, who, [] => who
  | prev, who, s :: rest =>
    dueTo x s
      (if (s.vars.get x).isNone then []
       else if !sameObject x prev s then [s.actor]
       else if !sameContent x prev s then who ++ [s.actor]
       else who) rest

/-- To whom the value of a variable is due at the end. -/
def contributors (x : Str) : List Stage → List Actor
  | [] => []
  | s :: rest => dueTo x s (if (s.vars.get x).isNone then [] else [s.actor]) rest

/-- The variable is used in the ordinary way. -/
structure Traceable (x : Str) (stages : List Stage) : Prop where
  /-- it is not used for imported modules -/
  notModule : ∀ s ∈ stages, ∀ v, s.vars.get x = some v → v.isModule = false
  /-- no module deletes it -/
  lasting : stages.Pairwise fun s t => (s.vars.get x).isSome → (t.vars.get x).isSome
  /-- `None` does not change -/
  noneIsNone : stages.Pairwise fun s t => ∀ v, s.vars.get x = some v → t.vars.get x = some v → s.heap v.id = 0 → t.heap v.id = 0
  /-- it is not `None` all of the time, unless it was declared so -/
  notNone : (∃ s ∈ stages, ∃ v, s.vars.get x = some v ∧ s.heap v.id ≠ 0) ∨ (stages.head?.bind fun s => s.vars.get x).isSome

/-- The precedence of a group is its position, that of a host is after all groups. -/
def Position (order : List Str) (p : Nat × Actor) : Prop :=
  match p.2 with
  | .group g => order[p.1]? = some g
  | .host _ => p.1 = order.length

end Verif.Inventory
