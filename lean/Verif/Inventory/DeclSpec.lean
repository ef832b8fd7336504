/-
What the declarations of an inventory mean.
-/
import Verif.Inventory.Decl
import Verif.Inventory.RankSpec

namespace Verif.Inventory

/-- Two lists of the same length, with related elements. -/
inductive Each {α β : Type} (R : α → β → Prop) : List α → List β → Prop
  | nil : Each R [] []
  | cons {a : α} {b : β} {as : List α} {bs : List β} : R a b → Each R as bs → Each R (a :: as) (b :: bs)

/-- The names of all groups of an inventory that declares the groups `ds`: these, and two that always exist. -/
def GroupName (ds : List GroupDecl) (g : Str) : Prop := g ∈ ds.map (·.name) ∨ g = p!"all" ∨ g = p!"early-explicits"

/-- The constraints on the order of groups: those declared, and that every group comes after `all`, if it is not `all` itself.
(The group `early-explicits` always stands for the variables in the declaration of a host; a declaration of it is ignored. It
comes before `all` if that is not declared.) -/
inductive MustPrecede (ds : List GroupDecl) : Str → Str → Prop
  | before {d : GroupDecl} {b : Str} : d ∈ ds → d.name ≠ p!"early-explicits" → b ∈ d.before → MustPrecede ds d.name b
  | after {d : GroupDecl} {a : Str} : d ∈ ds → d.name ≠ p!"early-explicits" → a ∈ d.after → MustPrecede ds a d.name
  | all {d : GroupDecl} : d ∈ ds → d.name ≠ p!"early-explicits" → d.name ≠ p!"all" → MustPrecede ds p!"all" d.name
  | early : p!"all" ∉ ds.map (·.name) → MustPrecede ds p!"early-explicits" p!"all"

/-- `n` constraints in a row. -/
inductive Precedes (ds : List GroupDecl) : Str → Str → Nat → Prop
  | here (g : Str) : Precedes ds g g 0
  | step {a b c : Str} {n : Nat} : Precedes ds a b n → MustPrecede ds b c → Precedes ds a c (n + 1)

/-- The greatest number of constraints in a row that end at `g`. -/
def LongestRow (ds : List GroupDecl) (g : Str) (n : Nat) : Prop :=
  (∃ a, Precedes ds a g n) ∧ ∀ a m, Precedes ds a g m → m ≤ n

/-- The greatest number of constraints in a row that start at `g`. -/
def LongestRest (ds : List GroupDecl) (g : Str) (n : Nat) : Prop :=
  (∃ b, Precedes ds g b n) ∧ ∀ b m, Precedes ds g b m → m ≤ n

/-- The greatest number of constraints in a row. -/
def LongestAll (ds : List GroupDecl) (n : Nat) : Prop :=
  (∃ a b, Precedes ds a b n) ∧ ∀ a b m, Precedes ds a b m → m ≤ n

/-- The declarations of the groups are consistent. -/
structure ValidGroups (ds : List GroupDecl) : Prop where
  /-- no group is declared twice -/
  names : (ds.map (·.name)).Nodup
  /-- all groups mentioned exist -/
  known : ∀ a b, MustPrecede ds a b → GroupName ds a ∧ GroupName ds b
  /-- no group has to be loaded before itself -/
  acyclic : ∀ g n, ¬ Precedes ds g g (n + 1)

/-- The name of the host that is declared by an entry, and its groups. -/
def Names (e : Entry HostDecl) (name : Str) (groups : List Str) : Prop :=
  ∃ d, e.host = .ok d ∧ d.groups = groups ∧
    match d.name with
    | some n => n = name
    | none => ∃ url, d.url = some url ∧ extractHostname (qualifyUrl url) = .ok name

/-- The declarations of hosts are consistent: every host has a name, no two the same, and is only in groups that exist. -/
def ValidHosts (es : List (Entry HostDecl)) (ds : List GroupDecl) : Prop :=
  ∃ hosts : List (Str × List Str), Each (fun e h => Names e h.1 h.2) es hosts ∧ (hosts.map (·.1)).Nodup
    ∧ ∀ h ∈ hosts, ∀ g ∈ h.2, GroupName ds g

/-- `ds` are the groups declared by the inventory: those given, or if none are given, those used by hosts. -/
def DeclaresGroups (es : List (Entry HostDecl)) (groups : Option (List (Entry GroupDecl))) (ds : List GroupDecl) : Prop :=
  match groups with
  | some gs => Each (fun e d => e.group = .ok d) gs ds
  | none => (ds.map (·.name)).Nodup ∧ (∀ d ∈ ds, d = { name := d.name })
    ∧ ∀ g, g ∈ ds.map (·.name) ↔ ∃ e ∈ es, ∃ name groups, Names e name groups ∧ (g ∈ groups ∨ g = p!"all")

/-- The module file that is declared for the group, if any. (None for the groups that always exist, unless `all` is declared.) -/
def GroupFile (ds : List GroupDecl) (g : Str) (file : Option Str) : Prop :=
  (g ≠ p!"early-explicits" ∧ ∃ d ∈ ds, d.name = g ∧ d.file = file) ∨ ((g = p!"early-explicits" ∨ g ∉ ds.map (·.name)) ∧ file = none)

/-- `a` comes before `b` in the list. -/
def InOrder (l : List Str) (a b : Str) : Prop := ∃ xs ys zs, l = xs ++ a :: ys ++ b :: zs

end Verif.Inventory
