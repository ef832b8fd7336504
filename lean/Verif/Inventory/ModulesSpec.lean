/-
Where a user may expect the modules of an inventory to be.
-/
import Verif.Inventory.Modules
import Verif.Inventory.DeclSpec

namespace Verif.Inventory

/-- The path of a directory or file below the inventory: not empty, relative, and without a slash at its end. -/
structure Below (p : Str) : Prop where
  notEmpty : p ≠ []
  relative : p.head? ≠ some 47
  noSlashAtEnd : p.getLast? ≠ some 47

/-- A layout as it is usual: the inventory is in some directory, the directories for groups and hosts are below. -/
structure Layout.Usual (l : Layout) : Prop where
  base : l.base ≠ [] ∧ l.base.getLast? ≠ some 47
  groupsDir : Below l.groupsDir
  hostsDir : Below l.hostsDir

/-- The file for the name in a directory below the inventory. -/
def moduleIn (base dir name : Str) : Str := base ++ p!"/" ++ dir ++ p!"/" ++ name ++ p!".py"

/-- The file that a declaration gives explicitly: relative to the inventory, unless it is an absolute path. -/
def explicitFile (base file : Str) : Str := if file.head? = some 47 then file else base ++ p!"/" ++ file

/-- The file of the module of a declared host. -/
def hostModulePath (l : Layout) (name : Str) (decl : HostDecl) : Str :=
  match decl.file with
  | none => moduleIn l.base l.hostsDir name
  | some f => explicitFile l.base f

/-- The file of the module of a declared group. -/
def groupModulePath (l : Layout) (name : Str) (decl : GroupDecl) : Str :=
  match decl.file with
  | none => moduleIn l.base l.groupsDir name
  | some f => explicitFile l.base f

/-- The files of the modules of the hosts of an inventory and of their groups. -/
inductive ModuleFile (l : Layout) (d : Declared) : Str → Prop
  | host {name : Str} {decl : HostDecl} : (name, decl) ∈ d.hosts → ModuleFile l d (hostModulePath l name decl)
  | group {name g : Str} {decl : HostDecl} {gd : GroupDecl} : (name, decl) ∈ d.hosts → g ∈ decl.groups → (g, gd) ∈ d.groups →
      ModuleFile l d (groupModulePath l g gd)

end Verif.Inventory
