/-
Specification vocabulary for accounts: what the tools of shadow-utils do to the databases of users and groups.
-/
import Verif.Remote.Spec
import Verif.Ops.HostSpec

namespace Verif.Ops

open Script Remote

/-- The entry of a group: the first one of that name. -/
def groupNamed (w : World) (name : Str) : Option GrEntry := w.groups.find? (·.name == name)

/-- How the tools for groups behave. Numbers are given to them in decimal digits. What is said about a tool that ends with exit code 0 is that it has done its job; whatever
the exit code, the entries of other groups stay as they are. Nothing is said about other effects (e.g. groupmod also changes the
primary group of users). -/
structure GroupTools (sys : Sys) : Prop where
  add : ∀ p w out err w' (system : Bool) (gid : Option Str) name,
    p.argv = [p!"groupadd"] ++ (if system then [p!"--system"] else []) ++ (match gid with | none => [] | some g => [p!"--gid", g]) ++ [p!"--", name] →
    sys.exec p w = (.done out err 0, w') →
    (∀ e ∈ w.groups, e.name ≠ name) ∧ ∃ g : Nat, (∀ x i, gid = some x → Py.parseInt 10 x = some i → i = g) ∧ w'.groups = w.groups ++ [{ name, gid := g, members := [] }]
  modify : ∀ p w out err w' x gid name, p.argv = [p!"groupmod", p!"--gid", x, p!"--", name] → Py.parseInt 10 x = some gid → sys.exec p w = (.done out err 0, w') →
    ∃ g : Nat, gid = g ∧ w'.groups = w.groups.map fun e => if e.name = name then { e with gid := g } else e
  delete : ∀ p w out err w' name, p.argv = [p!"groupdel", p!"--", name] → sys.exec p w = (.done out err 0, w') →
    w'.groups = w.groups.filter fun e => e.name ≠ name
  others : ∀ p w out err code w' name, (p.argv.head? = some p!"groupadd" ∨ p.argv.head? = some p!"groupmod" ∨ p.argv.head? = some p!"groupdel") →
    p.argv.getLast? = some name → sys.exec p w = (.done out err code, w') → ∀ e : GrEntry, e.name ≠ name → (e ∈ w'.groups ↔ e ∈ w.groups)

/-- What the database has to say about a group that is to be present. `w0` is the host before. -/
def GroupAs (name : Str) (gid : Option Int) (w0 w : World) : Prop :=
  ∃ e, groupNamed w name = some e ∧ (∀ i, gid = some i → i ≠ 0 → (e.gid : Int) = i)
    ∧ ∀ e0, groupNamed w0 name = some e0 → e.members = e0.members ∧ (gid = none → e = e0)

/-- Groups of other names are the same. -/
def OtherGroupsSame (name : Str) (w w' : World) : Prop := ∀ e : GrEntry, e.name ≠ name → (e ∈ w'.groups ↔ e ∈ w.groups)

end Verif.Ops
