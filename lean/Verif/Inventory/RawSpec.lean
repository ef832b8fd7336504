/-
Declarations of the documented types among declarations of any types.
-/
import Verif.Inventory.Raw
import Verif.Inventory.DeclSpec

namespace Verif.Inventory

/-- A text, or `None`. -/
def optText : Option Str → PyVal
  | none => .none
  | some s => .str s

/-- A list of texts. -/
def texts (l : List Str) : PyVal := .list (l.map .str)

/-- Variables. -/
def variables (l : List (Str × Obj)) : PyVal := .dict (l.map fun v => (.str v.1, .key (.obj v.2)))

/-- A declaration of the documented types. -/
def HostDecl.raw (d : HostDecl) : RawHost :=
  { url := optText d.url, name := optText d.name, file := optText d.file, groups := texts d.groups, vars := variables d.vars }

def GroupDecl.raw (d : GroupDecl) : RawGroup :=
  { name := .str d.name, file := optText d.file, after := texts d.after, before := texts d.before }

/-- The value that a dict gives to a field, or its default value. -/
def Field (items : List (Key × PyVal)) (field : Str) (default v : PyVal) : Prop :=
  items.lookup (.str field) = some v ∨ (∀ i ∈ items, i.1 ≠ .str field) ∧ v = default

/-- The documented fields of hosts and groups. -/
def IsHostField (k : Key) : Prop := k = .str p!"url" ∨ k = .str p!"name" ∨ k = .str p!"file" ∨ k = .str p!"groups" ∨ k = .str p!"vars"

def IsGroupField (k : Key) : Prop := k = .str p!"name" ∨ k = .str p!"file" ∨ k = .str p!"after" ∨ k = .str p!"before"

/-- The dict has documented fields only, and these are the values of all of them. -/
structure HostFields (items : List (Key × PyVal)) (d : RawHost) : Prop where
  known : ∀ i ∈ items, IsHostField i.1
  url : Field items p!"url" .none d.url
  name : Field items p!"name" .none d.name
  file : Field items p!"file" .none d.file
  groups : Field items p!"groups" (.list []) d.groups
  vars : Field items p!"vars" (.dict []) d.vars

/-- A group must have a name. -/
structure GroupFields (items : List (Key × PyVal)) (d : RawGroup) : Prop where
  known : ∀ i ∈ items, IsGroupField i.1
  name : items.lookup (.str p!"name") = some d.name
  file : Field items p!"file" .none d.file
  after : Field items p!"after" (.list []) d.after
  before : Field items p!"before" (.list []) d.before

/-- What an entry declares: a text is the url of a host. -/
inductive DeclaresHost : RawEntry RawHost → RawHost → Prop where
  | decl (d : RawHost) : DeclaresHost (.decl d) d
  | str (s : Str) : DeclaresHost (.val (.str s)) { url := .str s }
  | dict (items : List (Key × PyVal)) (d : RawHost) : HostFields items d → DeclaresHost (.val (.dict items)) d

/-- A text is the name of a group. -/
inductive DeclaresGroup : RawEntry RawGroup → RawGroup → Prop where
  | decl (d : RawGroup) : DeclaresGroup (.decl d) d
  | str (s : Str) : DeclaresGroup (.val (.str s)) { name := .str s }
  | dict (items : List (Key × PyVal)) (d : RawGroup) : GroupFields items d → DeclaresGroup (.val (.dict items)) d

/-- An entry of documented types, as it is modelled in Inventory/Decl.lean. -/
inductive HostEntry : RawEntry RawHost → Entry HostDecl → Prop where
  | decl (d : HostDecl) : HostEntry (.decl d.raw) (.decl d)
  | str (s : Str) : HostEntry (.val (.str s)) (.str s)
  | dict (items : List (Key × PyVal)) (d : HostDecl) : HostFields items d.raw → HostEntry (.val (.dict items)) (.dict (some d))
  | badDict (items : List (Key × PyVal)) : (∃ i ∈ items, ¬ IsHostField i.1) → HostEntry (.val (.dict items)) (.dict none)
  | other (v : PyVal) : (∀ s, v ≠ .str s) → (∀ items, v ≠ .dict items) → HostEntry (.val v) .other

inductive GroupEntry : RawEntry RawGroup → Entry GroupDecl → Prop where
  | decl (d : GroupDecl) : GroupEntry (.decl d.raw) (.decl d)
  | str (s : Str) : GroupEntry (.val (.str s)) (.str s)
  | dict (items : List (Key × PyVal)) (d : GroupDecl) : GroupFields items d.raw → GroupEntry (.val (.dict items)) (.dict (some d))
  | badDict (items : List (Key × PyVal)) : (∃ i ∈ items, ¬ IsGroupField i.1) → GroupEntry (.val (.dict items)) (.dict none)
  | noName (items : List (Key × PyVal)) : (∀ i ∈ items, i.1 ≠ .str p!"name") → GroupEntry (.val (.dict items)) (.dict none)
  | other (v : PyVal) : (∀ s, v ≠ .str s) → (∀ items, v ≠ .dict items) → GroupEntry (.val v) .other

/-- The variable `groups`: absent (or `None`), or a list of entries of documented types. -/
inductive GroupEntries : RawGroups → Option (List (Entry GroupDecl)) → Prop where
  | absent : GroupEntries .absent none
  | list (raws : List (RawEntry RawGroup)) (es : List (Entry GroupDecl)) : Each GroupEntry raws es → GroupEntries (.list raws) (some es)

/-- A processed host of documented types. -/
def hostResult (h : Str × HostDecl) : Key × RawHostDecl :=
  (.str h.1, { url := optText h.2.url, name := optText h.2.name, file := optText h.2.file, groups := h.2.groups.map .str, vars := variables h.2.vars })

def groupResult (g : Str × GroupDecl) : Key × RawGroupDecl :=
  (.str g.1, { name := .str g.2.name, file := optText g.2.file, before := g.2.before.map .str, after := g.2.after.map .str })

/-- The same order of sets. -/
def SameOrder (order : List Key → List Key) (so : SetOrder) : Prop := ∀ l, order (l.map .str) = (so.order l).map .str

/-- Values that cannot be enumerated: `None`, numbers, and other objects. -/
def NotEnumerable (v : PyVal) : Prop := ∃ k, v = .key k ∧ ∀ s, k ≠ .str s

/-- Values that cannot be elements of sets. -/
def NotHashable (v : PyVal) : Prop := ∀ k, v ≠ .key k

/-- What is wrong with the fields of a declaration of a host: a url that is no text, neither a url nor a name, a name or a group that
cannot be a key, groups that cannot be enumerated. -/
def MalformedFields (d : RawHost) : Prop :=
  (NotEnumerable d.url ∧ d.url ≠ .none) ∨ (d.url = .none ∧ d.name = .none) ∨ NotHashable d.name
    ∨ NotEnumerable d.groups ∨ ∃ l v, d.groups = .list l ∧ v ∈ l ∧ NotHashable v

/-- A declaration of a host that is not what the documentation asks for. -/
inductive MalformedHost : RawEntry RawHost → Prop where
  /-- neither a declaration, a text nor a dict -/
  | kind (v : PyVal) : (∀ s, v ≠ .str s) → (∀ items, v ≠ .dict items) → MalformedHost (.val v)
  /-- a key that is not a field -/
  | field (items : List (Key × PyVal)) (k : Key) (v : PyVal) : (k, v) ∈ items → ¬ IsHostField k → MalformedHost (.val (.dict items))
  | fields (e : RawEntry RawHost) (d : RawHost) : DeclaresHost e d → MalformedFields d → MalformedHost e

/-- A declaration of a group that is not what the documentation asks for. -/
inductive MalformedGroup : RawEntry RawGroup → Prop where
  | kind (v : PyVal) : (∀ s, v ≠ .str s) → (∀ items, v ≠ .dict items) → MalformedGroup (.val v)
  | field (items : List (Key × PyVal)) (k : Key) (v : PyVal) : (k, v) ∈ items → ¬ IsGroupField k → MalformedGroup (.val (.dict items))
  | noName (items : List (Key × PyVal)) : (∀ i ∈ items, i.1 ≠ .str p!"name") → MalformedGroup (.val (.dict items))
  | name (e : RawEntry RawGroup) (d : RawGroup) : DeclaresGroup e d → NotHashable d.name → MalformedGroup e
  | relations (e : RawEntry RawGroup) (d : RawGroup) (v : PyVal) : DeclaresGroup e d → v = d.before ∨ v = d.after →
      (NotEnumerable v ∨ ∃ l x, v = .list l ∧ x ∈ l ∧ NotHashable x) → MalformedGroup e

/-- The declaration has the documented types. -/
def Documented (e : RawEntry RawHost) : Prop := ∃ d : HostDecl, DeclaresHost e d.raw

end Verif.Inventory
