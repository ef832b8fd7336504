/-
Which modules are loaded for a host, and what they do.
-/
import Verif.Inventory.Load
import Verif.Inventory.DeclSpec

namespace Verif.Inventory

/-- The code of a module: that of the file given in the declaration, otherwise that of the file with its name, if it exists. -/
def bodyOf (src : Sources) (default : Option Body) (file : Option Str) : Option Body :=
  match file with
  | none => default
  | some f => src.file f

/-- The modules that are loaded for a host, in this order: those of its groups in the order of all groups, and that of the host
itself. `none` if there is no file. -/
def modulesOf (src : Sources) (d : Declared) (name : Str) (decl : HostDecl) : List (Option Body) :=
  ((d.order.order.filter fun g => decide (g ∈ decl.groups)).map fun g => (d.groups.lookup g).bind fun gd => bodyOf src (src.groupFile g) gd.file)
    ++ [bodyOf src (src.hostFile name) decl.file]

/-- The code of a module, if there is any, is run: `heap` and `g` are the objects and the variables before, `heap'` and `g'` after. -/
def Ran (b : Option Body) (heap : Heap) (g : Vars) (heap' : Heap) (g' : Vars) : Prop :=
  match b with
  | none => heap' = heap ∧ g' = g
  | some code => code heap g = .ok (heap', g')

/-- The module sets the variable to this object, whatever the variables are before. -/
def Sets (b : Option Body) (x : Str) (v : Obj) : Prop :=
  ∃ code, b = some code ∧ ∀ heap g heap' g', code heap g = .ok (heap', g') → g'.get x = some v

/-- The module does not touch the variable. -/
def Keeps (b : Option Body) (x : Str) : Prop :=
  ∀ code, b = some code → ∀ heap g heap' g', code heap g = .ok (heap', g') → g'.get x = g.get x

/-- A variable that modules may define: not private, and none of those that fora itself defines for modules. -/
structure Variable (x : Str) : Prop where
  isPublic : Py.startsWith x p!"_" = false
  notName : x ≠ p!"name"
  notModule : x ≠ p!"module"

/-- The module of a group. -/
def groupModule (src : Sources) (d : Declared) (g : Str) : Option Body := (d.groups.lookup g).bind fun gd => bodyOf src (src.groupFile g) gd.file

/-- Each of the groups of a host either does not touch the variable `x`, or sets it to an object of its own, `own g`, that is not
`None`. The variable may also be defined by the inventory and the declaration of the host. -/
structure OwnDefinitions (src : Sources) (d : Declared) (decl : HostDecl) (x : Str) (own : Str → Option Obj) : Prop where
  isVariable : Variable x
  notHost : x ≠ p!"host"
  notManaged : x ≠ p!"fora_managed"
  keeps : ∀ g ∈ decl.groups, own g = none → Keeps (groupModule src d g) x
  sets : ∀ g ∈ decl.groups, ∀ v, own g = some v → Sets (groupModule src d g) x v
  notNone : ∀ g ∈ decl.groups, ∀ v, own g = some v → ∀ code, groupModule src d g = some code →
    ∀ heap vs heap' vs', code heap vs = .ok (heap', vs') → heap' v.id ≠ 0
  notModule : ∀ g ∈ decl.groups, ∀ v, own g = some v → v.isModule = false
  apart : ∀ g g' v v', own g = some v → own g' = some v' → g ≠ g' → v.id ≠ v'.id
  declared : ∀ u, ((x, u) ∈ decl.vars → u.isModule = false ∧ ∀ g v, own g = some v → u.id ≠ v.id)
  inventory : ∀ u, src.inventory.exported.get x = some u → ∀ g v, own g = some v → u.id ≠ v.id

/-- The host `h` was loaded for the declaration `decl`, in an inventory with these hosts and groups. -/
structure LoadedHost (so : SetOrder) (src : Sources) (c : Consts) (es : List (Entry HostDecl)) (groups : Option (List (Entry GroupDecl)))
    (d : Declared) (name : Str) (decl : HostDecl) (h : Host) : Prop where
  declared : Yields (fun fuel => declare fuel so es groups) (.ok d)
  host : (name, decl) ∈ d.hosts
  loaded : ∃ heap heap', instanciateHost src c d heap name decl = .ok (heap', h)

end Verif.Inventory
