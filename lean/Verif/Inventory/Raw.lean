/-
Declarations with values of any types: inventory_wrapper.py:299-439, the way Inventory/Decl.lean models it for values of the types
that the documentation names.
-/
import Verif.Inventory.Decl

namespace Verif.Inventory

/-- A Python value that can be an element of a set: `None`, a text, a number, or any other object that is compared by its
identity. (Tuples and frozen sets are not modelled, and neither is that `True` equals `1`.) -/
inductive Key where
  | none
  | str (s : Str)
  | num (n : Int)
  | obj (o : Obj)
  deriving DecidableEq, Repr

/-- A Python value that may be written in a declaration. -/
inductive PyVal where
  | key (k : Key)
  | list (l : List PyVal)
  | dict (items : List (Key × PyVal))

namespace PyVal

/-- `None` -/
abbrev none : PyVal := .key .none
/-- a text -/
abbrev str (s : Str) : PyVal := .key (.str s)

/-- `hash(v)`: what a dict or a set does with its keys and elements -/
def hash : PyVal → Except Exn Key
  | .key k => .ok k
  | _ => .error .typeError

/-- The elements of a list, all of which must be hashable. -/
def hashAll : List PyVal → Except Exn (List Key)
  | [] => .ok []
  | v :: l => do
    let k ← v.hash
    let ks ← hashAll l
    .ok (k :: ks)

/-- `set(v)`: the elements that are enumerated. A text is enumerated by its characters, a dict by its keys. -/
def elements : PyVal → Except Exn (List Key)
  | .key (.str s) => .ok (s.map fun c => .str [c])
  | .key _ => .error .typeError
  | .list l => hashAll l
  | .dict items => .ok (items.map (·.1))

/-- `v == ':'` -/
def isColon : PyVal → Bool
  | .key k => k = .str [58]
  | _ => false

/-- `':' in v` -/
def hasColon : PyVal → Except Exn Bool
  | .key (.str s) => .ok (hasChar 58 s)
  | .key _ => .error .typeError
  | .list l => .ok (l.any isColon)
  | .dict items => .ok (items.any fun i => i.1 = .str [58])

/-- `str(v)`; the text of anything but texts is given by `text`. -/
def format (text : PyVal → Str) : PyVal → Str
  | .key (.str s) => s
  | v => text v

/-- `items[k]` for a text `k` -/
def get (items : List (Key × PyVal)) (k : Str) (default : PyVal) : PyVal := (items.lookup (.str k)).getD default

end PyVal

/-- `HostDeclaration`, inventory_wrapper.py:15-75, with any values -/
structure RawHost where
  url : PyVal := .none
  name : PyVal := .none
  file : PyVal := .none
  groups : PyVal := .list []
  vars : PyVal := .dict []

/-- `GroupDeclaration`, inventory_wrapper.py:77-104, with any values -/
structure RawGroup where
  name : PyVal
  file : PyVal := .none
  after : PyVal := .list []
  before : PyVal := .list []

/-- An element of `hosts` or `groups`: a declaration, or any other value. -/
inductive RawEntry (δ : Type) where
  | decl (d : δ)
  | val (v : PyVal)

/-- The fields of `HostDeclaration`. -/
def hostKeys : List Str := [p!"url", p!"name", p!"file", p!"groups", p!"vars"]

/-- The fields of `GroupDeclaration`. -/
def groupKeys : List Str := [p!"name", p!"file", p!"after", p!"before"]

/-- `HostDeclaration(**items)`: a `TypeError` for keys that are no fields (or no texts). -/
def makeHost (items : List (Key × PyVal)) : Except Exn RawHost :=
  if ∀ i ∈ items, i.1 ∈ hostKeys.map Key.str then
    .ok { url := PyVal.get items p!"url" .none
          name := PyVal.get items p!"name" .none
          file := PyVal.get items p!"file" .none
          groups := PyVal.get items p!"groups" (.list [])
          vars := PyVal.get items p!"vars" (.dict []) }
  else .error .typeError

/-- `GroupDeclaration(**items)`. The name is required. -/
def makeGroup (items : List (Key × PyVal)) : Except Exn RawGroup :=
  if ∀ i ∈ items, i.1 ∈ groupKeys.map Key.str then
    match items.lookup (.str p!"name") with
    | none => .error .typeError
    | some name =>
      .ok { name
            file := PyVal.get items p!"file" .none
            after := PyVal.get items p!"after" (.list [])
            before := PyVal.get items p!"before" (.list []) }
  else .error .typeError

/-- inventory_wrapper.py:364-374 -/
def RawEntry.host : RawEntry RawHost → Except Exn RawHost
  | .decl d => .ok d
  | .val (.key (.str s)) => .ok { url := .str s }
  | .val (.dict items) => makeHost items
  | .val _ => .error (.valueError p!"Invalid host declaration")

/-- inventory_wrapper.py:414-423 -/
def RawEntry.group : RawEntry RawGroup → Except Exn RawGroup
  | .decl d => .ok d
  | .val (.key (.str s)) => .ok { name := .str s }
  | .val (.dict items) => makeGroup items
  | .val _ => .error (.valueError p!"Invalid group declaration")

/-- `qualify_url`, inventory_wrapper.py:299-322 -/
def rawQualify (text : PyVal → Str) (url : PyVal) : Except Exn PyVal := do
  if ← url.hasColon then .ok url else .ok (.str (p!"ssh://" ++ url.format text))

/-- `extract_hostname`, inventory_wrapper.py:324-351. Only texts can be split. -/
def rawHostname (url : PyVal) : Except Exn PyVal := do
  if ← url.hasColon then
    match url with
    | .key (.str s) => do
      let name ← extractHostname s
      .ok (.str name)
    | _ => .error .attributeError
  else .error (.valueError p!"The given url doesn't include a schema")

/-- inventory_wrapper.py:376-378 -/
def rawUrl (text : PyVal → Str) (d : RawHost) : Except Exn PyVal :=
  match d.url with
  | .key .none => .ok .none
  | url => rawQualify text url

/-- inventory_wrapper.py:380-384 -/
def rawName (d : RawHost) (url : PyVal) : Except Exn PyVal :=
  match d.name with
  | .key .none =>
    match url with
    | .key .none => .error (.valueError p!"Invalid host declaration, must include either a url or a name!")
    | url => rawHostname url
  | name => .ok name

/-- A host that has been processed. -/
structure RawHostDecl where
  url : PyVal
  name : PyVal
  file : PyVal
  groups : List Key
  vars : PyVal

/-- A group that has been processed. -/
structure RawGroupDecl where
  name : Key
  file : PyVal := .none
  before : List Key := []
  after : List Key := []

/-- One iteration of inventory_wrapper.py:364-391. `order` enumerates a set. -/
def rawAddHost (text : PyVal → Str) (order : List Key → List Key) (decls : List (Key × RawHostDecl)) (entry : RawEntry RawHost) :
    Except Exn (List (Key × RawHostDecl)) := do
  let d ← entry.host
  let url ← rawUrl text d
  let name ← rawName d url
  let groups ← d.groups.elements
  let key ← name.hash
  if key ∈ decls.map (·.1) then .error (.valueError p!"Duplicate host")
  else .ok (decls ++ [(key, { url, name, file := d.file, groups := order (groups ++ [.str p!"all"]), vars := d.vars })])

/-- `_preprocess_host_declarations`, inventory_wrapper.py:353-391 -/
def rawHosts (text : PyVal → Str) (order : List Key → List Key) : List (RawEntry RawHost) → List (Key × RawHostDecl) →
    Except Exn (List (Key × RawHostDecl))
  | [], decls => .ok decls
  | e :: es, decls => do rawHosts text order es (← rawAddHost text order decls e)

/-- The variable `groups` of the inventory as it is enumerated by `for group in self.groups`, inventory_wrapper.py:404-414: without it,
the groups that are used by hosts. A text is enumerated by its characters. -/
inductive RawGroups where
  | absent
  | list (l : List (RawEntry RawGroup))
  | str (s : Str)
  | dict (items : List (Key × PyVal))
  | other

def rawDeclaredGroups (order : List Key → List Key) (groups : RawGroups) (hosts : List (Key × RawHostDecl)) :
    Except Exn (List (RawEntry RawGroup)) :=
  match groups with
  | .absent => .ok ((order (hosts.flatMap fun h => h.2.groups)).map fun k => .val (.key k))
  | .list l => .ok l
  | .str s => .ok (s.map fun c => .val (.str [c]))
  | .dict items => .ok (items.map fun i => .val (.key i.1))
  | .other => .error .typeError

/-- One iteration of inventory_wrapper.py:414-431 -/
def rawAddGroup (order : List Key → List Key) (decls : List (Key × RawGroupDecl)) (entry : RawEntry RawGroup) :
    Except Exn (List (Key × RawGroupDecl)) := do
  let d ← entry.group
  let name ← d.name.hash
  if name ∈ decls.map (·.1) then .error (.valueError p!"Duplicate group")
  else do
    let before ← d.before.elements
    let after ← d.after.elements
    .ok (decls ++ [(name, { name, file := d.file, before := order before
                            after := order (after ++ if name ≠ .str p!"all" then [.str p!"all"] else []) })])

/-- inventory_wrapper.py:413-431 -/
def rawAddGroups (order : List Key → List Key) : List (RawEntry RawGroup) → List (Key × RawGroupDecl) → Except Exn (List (Key × RawGroupDecl))
  | [], decls => .ok decls
  | e :: es, decls => do rawAddGroups order es (← rawAddGroup order decls e)

/-- `d[k] = v`, as in Inventory/Decl.lean -/
def rawSetItem {δ : Type} (k : Key) (v : δ) : List (Key × δ) → List (Key × δ)
  | [] => [(k, v)]
  | (k', v') :: r => if k' = k then (k, v) :: r else (k', v') :: rawSetItem k v r

/-- inventory_wrapper.py:433-439 -/
def rawAddBuiltin (decls : List (Key × RawGroupDecl)) : List (Key × RawGroupDecl) :=
  let decls := rawSetItem (.str p!"early-explicits") { name := .str p!"early-explicits" } decls
  if .str p!"all" ∈ decls.map (·.1) then decls
  else decls ++ [(.str p!"all", { name := .str p!"all", after := [.str p!"early-explicits"] })]

/-- `_preprocess_host_declarations` and `_preprocess_group_declarations`, inventory_wrapper.py:353-439, as called by `load`, :561-562. What `load` does
afterwards looks at nothing but their results. -/
def rawPreprocess (text : PyVal → Str) (order : List Key → List Key) (hosts : List (RawEntry RawHost)) (groups : RawGroups) :
    Except Exn (List (Key × RawHostDecl) × List (Key × RawGroupDecl)) := do
  let hs ← rawHosts text order hosts []
  let gs ← rawDeclaredGroups order groups hs
  let gs ← rawAddGroups order gs []
  .ok (hs, rawAddBuiltin gs)

end Verif.Inventory
