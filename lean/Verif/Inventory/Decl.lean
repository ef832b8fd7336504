/-
Host and group declarations: inventory_wrapper.py:15-104 and 353-545.
-/
import Verif.Inventory.Rank
import Verif.Inventory.Url

namespace Verif.Inventory

/-- A Python object that is the value of a variable: its identity (what `is` compares), and whether it is a module
(`isinstance(value, ModuleType)`). The content of an object may change and is kept apart, see `Inventory/Load.lean`. -/
structure Obj where
  id : Nat
  isModule : Bool := false
  deriving DecidableEq, Repr, Inhabited

/-- `HostDeclaration`, inventory_wrapper.py:15-75 -/
structure HostDecl where
  url : Option Str := none
  name : Option Str := none
  file : Option Str := none
  groups : List Str := []
  vars : List (Str × Obj) := []
  deriving DecidableEq, Repr, Inhabited

/-- `GroupDeclaration`, inventory_wrapper.py:77-104 -/
structure GroupDecl where
  name : Str
  file : Option Str := none
  before : List Str := []
  after : List Str := []
  deriving DecidableEq, Repr, Inhabited

/-- What may be written in the list of hosts or groups, inventory_wrapper.py:364-374 and 413-423. A dict is given by the
declaration constructed from it, or `none` if it has a key that is not a field (or lacks a required one). -/
inductive Entry (δ : Type) where
  | decl (d : δ)
  | str (s : Str)
  | dict (d : Option δ)
  | other

/-- inventory_wrapper.py:364-374 -/
def Entry.host : Entry HostDecl → Except Exn HostDecl
  | .decl d => .ok d
  | .str s => .ok { url := some s }
  | .dict (some d) => .ok d
  | .dict none => .error .typeError
  | .other => .error (.valueError p!"Invalid host declaration")

/-- inventory_wrapper.py:413-423 -/
def Entry.group : Entry GroupDecl → Except Exn GroupDecl
  | .decl d => .ok d
  | .str s => .ok { name := s }
  | .dict (some d) => .ok d
  | .dict none => .error .typeError
  | .other => .error (.valueError p!"Invalid group declaration")

/-- The order in which the elements of `set(l)` are enumerated. It depends on the hashes of the strings, which are different in
every run of the program, so that nothing is known about it except that every element is enumerated once. -/
structure SetOrder where
  order : List Str → List Str
  nodup : ∀ l, (order l).Nodup
  mem : ∀ l x, x ∈ order l ↔ x ∈ l

/-- `_host_decls` and `_group_decls` are dicts; here the list of their items. -/
abbrev Decls (δ : Type) := List (Str × δ)

/-- inventory_wrapper.py:376-384: the url is qualified and the name determined -/
def nameHost (d : HostDecl) : Except Exn (Str × HostDecl) :=
  let url := d.url.map qualifyUrl
  match d.name, url with
  | some name, url => .ok (name, { d with url })
  | none, none => .error (.valueError p!"Invalid host declaration, must include either a url or a name!")
  | none, some url => do
    let name ← extractHostname url
    .ok (name, { d with url := some url, name := some name })

/-- One iteration of inventory_wrapper.py:364-391 -/
def addHost (so : SetOrder) (decls : Decls HostDecl) (entry : Entry HostDecl) : Except Exn (Decls HostDecl) := do
  let d ← entry.host
  let (name, d) ← nameHost d
  let d := { d with groups := so.order (d.groups ++ [p!"all"]) }
  if name ∈ decls.map (·.1) then .error (.valueError p!"Duplicate host")
  else .ok (decls ++ [(name, d)])

/-- `_preprocess_host_declarations`, inventory_wrapper.py:353-391 -/
def preprocessHosts (so : SetOrder) : List (Entry HostDecl) → Decls HostDecl → Except Exn (Decls HostDecl)
  | [], decls => .ok decls
  | e :: es, decls => do preprocessHosts so es (← addHost so decls e)

/-- `d[k] = v` for a dict: the position of an existing key is kept. -/
def setItem {δ : Type} (k : Str) (v : δ) : Decls δ → Decls δ
  | [] => [(k, v)]
  | (k', v') :: r => if k' = k then (k, v) :: r else (k', v') :: setItem k v r

/-- inventory_wrapper.py:404-411: without explicit groups, those that are used by hosts -/
def declaredGroups (so : SetOrder) (groups : Option (List (Entry GroupDecl))) (hosts : Decls HostDecl) : List (Entry GroupDecl) :=
  match groups with
  | some gs => gs
  | none => (so.order (hosts.flatMap fun h => h.2.groups)).map .str

/-- One iteration of inventory_wrapper.py:414-431 -/
def addGroup (so : SetOrder) (decls : Decls GroupDecl) (entry : Entry GroupDecl) : Except Exn (Decls GroupDecl) := do
  let d ← entry.group
  if d.name ∈ decls.map (·.1) then .error (.valueError p!"Duplicate group")
  else .ok (decls ++ [(d.name, { d with
    before := so.order d.before
    after := so.order (d.after ++ if d.name ≠ p!"all" then [p!"all"] else []) })])

/-- inventory_wrapper.py:413-431 -/
def addGroups (so : SetOrder) : List (Entry GroupDecl) → Decls GroupDecl → Except Exn (Decls GroupDecl)
  | [], decls => .ok decls
  | e :: es, decls => do addGroups so es (← addGroup so decls e)

/-- inventory_wrapper.py:433-439: the two groups that always exist -/
def addBuiltin (decls : Decls GroupDecl) : Decls GroupDecl :=
  let decls := setItem p!"early-explicits" { name := p!"early-explicits" } decls
  if p!"all" ∈ decls.map (·.1) then decls
  else decls ++ [(p!"all", { name := p!"all", after := [p!"early-explicits"] })]

/-- `_preprocess_group_declarations`, inventory_wrapper.py:393-439 -/
def preprocessGroups (so : SetOrder) (groups : Option (List (Entry GroupDecl))) (hosts : Decls HostDecl) : Except Exn (Decls GroupDecl) := do
  let decls ← addGroups so (declaredGroups so groups hosts) []
  .ok (addBuiltin decls)

/-- `_ensure_used_groups_are_declared`, inventory_wrapper.py:441-461 -/
def ensureDeclared (hosts : Decls HostDecl) (decls : Decls GroupDecl) : Except Exn Unit :=
  if ∀ h ∈ hosts, ∀ g ∈ h.2.groups, g ∈ decls.map (·.1) then
    if ∀ d ∈ decls, (∀ g ∈ d.2.after, g ∈ decls.map (·.1)) ∧ ∀ g ∈ d.2.before, g ∈ decls.map (·.1) then .ok ()
    else .error (.valueError p!"Unknown group used in after set of group")
  else .error (.valueError p!"Unknown group used in declaration of host")

/-- `self._group_decls[k].after.append(name)` -/
def appendAfter (k name : Str) (decls : Decls GroupDecl) : Decls GroupDecl :=
  decls.map fun d => if d.1 = k then (d.1, { d.2 with after := d.2.after ++ [name] }) else d

/-- `self._group_decls[k].before.append(name)` -/
def appendBefore (k name : Str) (decls : Decls GroupDecl) : Decls GroupDecl :=
  decls.map fun d => if d.1 = k then (d.1, { d.2 with before := d.2.before ++ [name] }) else d

/-- inventory_wrapper.py:468-471. The lists `before` that are iterated over do not change meanwhile. -/
def mergeAfter (decls : Decls GroupDecl) : Decls GroupDecl :=
  decls.foldl (fun ds d => d.2.before.foldl (fun ds b => appendAfter b d.2.name ds) ds) decls

/-- inventory_wrapper.py:473-476 -/
def clearBefore (so : SetOrder) (decls : Decls GroupDecl) : Decls GroupDecl :=
  decls.map fun d => (d.1, { d.2 with before := [], after := so.order d.2.after })

/-- inventory_wrapper.py:478-481. The lists `after` that are iterated over do not change meanwhile. -/
def mergeBefore (decls : Decls GroupDecl) : Decls GroupDecl :=
  decls.foldl (fun ds d => d.2.after.foldl (fun ds a => appendBefore a d.2.name ds) ds) decls

/-- inventory_wrapper.py:483-485 -/
def dedupBefore (so : SetOrder) (decls : Decls GroupDecl) : Decls GroupDecl :=
  decls.map fun d => (d.1, { d.2 with before := so.order d.2.before })

/-- `_merge_group_dependencies`, inventory_wrapper.py:463-485 -/
def mergeDependencies (so : SetOrder) (decls : Decls GroupDecl) : Decls GroupDecl :=
  dedupBefore so (mergeBefore (clearBefore so (mergeAfter decls)))

/-- `_detect_self_dependencies`, inventory_wrapper.py:487-498 -/
def detectSelf (decls : Decls GroupDecl) : Except Exn Unit :=
  if ∀ d ∈ decls, d.2.name ∉ d.2.before ∧ d.2.name ∉ d.2.after then .ok ()
  else .error (.valueError p!"Group must not depend on itself")

/-- `self._group_decls[g].before`. (All groups that occur are declared.) -/
def beforeOf (decls : Decls GroupDecl) (g : Str) : List Str := ((decls.lookup g).map (·.before)).getD []

/-- `self._group_decls[g].after` -/
def afterOf (decls : Decls GroupDecl) (g : Str) : List Str := ((decls.lookup g).map (·.after)).getD []

/-- `max(ranks.values())` -/
def maxRank (names : List Str) (ranks : Str → Int) : Int := names.foldl (fun m g => max m (ranks g)) (-1)

/-- The result of `_calculate_topological_order`. -/
structure GroupOrder where
  /-- `_group_ranks_min` -/
  ranksMin : Str → Int
  /-- `_group_ranks_max` -/
  ranksMax : Str → Int
  /-- `_topological_order` -/
  order : List Str

/-- inventory_wrapper.py:523-524: a `CycleError` becomes another `ValueError` -/
def cycleToValueError {β : Type} : Except (RankError Str) β → Except Exn β
  | .ok x => .ok x
  | .error (.cycle _) => .error (.valueError p!"Dependency cycle detected!")
  | .error .keyError => .error .keyError

/-- Insertion of an element before the first one with a key that is not smaller. -/
def insertBy (key : Str → Int) (x : Str) : List Str → List Str
  | [] => [x]
  | y :: l => if key x ≤ key y then x :: y :: l else y :: insertBy key x l

/-- `l.sort(key=key)`: a stable sort; as all stable sorts have the same result, the simplest one is used here. -/
def sortBy (key : Str → Int) : List Str → List Str
  | [] => []
  | x :: l => insertBy key x (sortBy key l)

/-- `_calculate_topological_order`, inventory_wrapper.py:500-545 -/
def topologicalOrder (fuel : Nat) (decls : Decls GroupDecl) : Option (Except Exn GroupOrder) :=
  let names := decls.map (·.1)
  match rankSort fuel names (afterOf decls) (beforeOf decls), rankSort fuel names (beforeOf decls) (afterOf decls) with
  | some t, some b => some do
    let ranksT ← cycleToValueError t
    let ranksB ← cycleToValueError b
    if maxRank names ranksT = maxRank names ranksB then
      .ok { ranksMin := ranksT
            ranksMax := fun g => maxRank names ranksB - ranksB g
            order := sortBy ranksT names }
    else .error .assertionError
  | some (.error e), none => some (cycleToValueError (.error e))
  | _, _ => none

/-- What `load` computes before it instantiates hosts. -/
structure Declared where
  hosts : Decls HostDecl
  groups : Decls GroupDecl
  order : GroupOrder

/-- inventory_wrapper.py:560-570, the first part of `load`. `fuel` bounds the number of iterations of the outer loop of
`rank_sort`. -/
def declare (fuel : Nat) (so : SetOrder) (hosts : List (Entry HostDecl)) (groups : Option (List (Entry GroupDecl))) : Option (Except Exn Declared) :=
  match (do
    let hs ← preprocessHosts so hosts []
    let gs ← preprocessGroups so groups hs
    ensureDeclared hs gs
    let gs := mergeDependencies so gs
    detectSelf gs
    .ok (hs, gs) : Except Exn (Decls HostDecl × Decls GroupDecl)) with
  | .error e => some (.error e)
  | .ok (hs, gs) => (topologicalOrder fuel gs).map fun r => r.map fun order => { hosts := hs, groups := gs, order }

end Verif.Inventory
