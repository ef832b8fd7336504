/-
Specification vocabulary for users: what the databases say about an account, and what the tools of shadow-utils do to them.
-/
import Verif.Ops.AccountSpec
import Verif.Ops.System

namespace Verif.Ops

open Script Remote
open Client (UserEntry)

/-- The entry of a user: the first one of that name. -/
def userNamed (w : World) (name : Str) : Option PwEntry := w.users.find? (·.name == name)

/-- The password hash of a user. -/
def hashOf (w : World) (name : Str) : Option Str := (w.shadow.find? (·.1 == name)).map (·.2)

/-- The group with this gid. -/
def groupWithGid (w : World) (gid : Nat) : Option GrEntry := w.groups.find? (·.gid == gid)

/-- The names of the groups that list the user as a member. -/
def memberOf (w : World) (name : Str) : List Str := (w.groups.filter fun g => g.members.contains name).map (·.name)

/-- Everything that the databases say about an account. An account without a password entry or without a primary group is not
complete. -/
def accountOf (w : World) (name : Str) : Option UserEntry :=
  match userNamed w name, hashOf w name with
  | some e, some h =>
    match groupWithGid w e.gid with
    | some g => some { name, uid := e.uid, group := g.name, gid := e.gid, groups := memberOf w name, passwordHash := some h,
                       gecos := e.gecos, home := e.home, shell := e.shell }
    | none => none
  | _, _ => none

/-- A name that cannot be mistaken for a number and that can be an element of a list separated by commas. -/
def PlainName (x : Str) : Prop := x ≠ [] ∧ 44 ∉ x ∧ Py.parseInt 10 x = none

/-- Groups have different names and gids, and plain names. -/
structure UniqueGroups (w : World) : Prop where
  names : (w.groups.map (·.name)).Nodup
  gids : (w.groups.map (·.gid)).Nodup
  plain : ∀ g ∈ w.groups, PlainName g.name

/-- `φ` changes groups only as to whether `name` is a member: they are members of those with `P`. -/
def Regroups (name : Str) (P : GrEntry → Prop) (φ : GrEntry → GrEntry) : Prop :=
  ∀ g, (φ g).name = g.name ∧ (φ g).gid = g.gid ∧ (∀ m, m ≠ name → (m ∈ (φ g).members ↔ m ∈ g.members)) ∧ (name ∈ (φ g).members ↔ P g)

/-- What does not belong to the account: other users, their passwords, the names and gids of groups not named like the user, and the
other members of those groups. -/
structure OtherAccountsSame (name : Str) (w w' : World) : Prop where
  users : ∀ e : PwEntry, e.name ≠ name → (e ∈ w'.users ↔ e ∈ w.users)
  hashes : ∀ e : Str × Str, e.1 ≠ name → (e ∈ w'.shadow ↔ e ∈ w.shadow)
  groups : ∀ g i, g ≠ name → ((∃ e ∈ w'.groups, e.name = g ∧ e.gid = i) ↔ ∃ e ∈ w.groups, e.name = g ∧ e.gid = i)
  members : ∀ g m, g ≠ name → m ≠ name → ((∃ e ∈ w'.groups, e.name = g ∧ m ∈ e.members) ↔ ∃ e ∈ w.groups, e.name = g ∧ m ∈ e.members)

/-- A call of useradd. -/
structure NewUser where
  name : Str
  system : Bool
  uid : Option Str
  primary : Option Str
  groups : List Str
  comment : Option Str
  home : Str
  shell : Str
  hash : Option Str

def NewUser.argv (u : NewUser) : List Str :=
  [p!"useradd"]
  ++ (if u.system then [p!"--system"] else [])
  ++ (match u.uid with | some i => [p!"--uid", i] | none => [])
  ++ (match u.primary with | some g => [p!"--no-user-group", p!"--gid", g] | none => [p!"--user-group"])
  ++ (if u.groups = [] then [] else [p!"--groups", Py.join p!"," u.groups])
  ++ (match u.comment with | some c => [p!"--comment", c] | none => [])
  ++ [p!"--no-create-home", p!"--home-dir", u.home, p!"--shell", u.shell]
  ++ (match u.hash with | some h => [p!"--password", h] | none => [])
  ++ [p!"--", u.name]

/-- How the tools for users behave. What is said about a tool that ends with exit code 0 is that it has done its job; whatever the
exit code, what belongs to other accounts stays as it is. -/
structure UserTools (sys : Sys) : Prop where
  add : ∀ p w out err w' (u : NewUser), p.argv = u.argv → (∀ g ∈ u.groups, PlainName g) → sys.exec p w = (.done out err 0, w') →
    userNamed w u.name = none ∧ ∃ e φ, userNamed w' u.name = some e ∧ (∀ x i, u.uid = some x → Py.parseInt 10 x = some i → i = e.uid) ∧ e.gecos = u.comment.getD []
      ∧ e.home = u.home ∧ e.shell = u.shell ∧ hashOf w' u.name = some (u.hash.getD p!"!")
      ∧ (∀ x ∈ u.groups, ∃ g ∈ w.groups, g.name = x) ∧ Regroups u.name (fun g => g.name ∈ u.groups ∨ u.name ∈ g.members) φ
      ∧ match u.primary with
        | none => (∀ g ∈ w.groups, g.name ≠ u.name ∧ g.gid ≠ e.gid) ∧ w'.groups = w.groups.map φ ++ [{ name := u.name, gid := e.gid, members := [] }]
        | some x => w'.groups = w.groups.map φ ∧ (Py.parseInt 10 x = none → ∃ g, groupNamed w x = some g ∧ e.gid = g.gid)
  /-- userdel also removes the group of that name, unless it is still needed. -/
  delete : ∀ p w out err w' name, p.argv = [p!"userdel", p!"--", name] → sys.exec p w = (.done out err 0, w') → userNamed w' name = none
  uid : ∀ p w out err w' x uid name, p.argv = [p!"usermod", p!"--uid", x, p!"--", name] → Py.parseInt 10 x = some uid → sys.exec p w = (.done out err 0, w') →
    ∃ e u, userNamed w name = some e ∧ uid = (u : Nat) ∧ userNamed w' name = some { e with uid := u } ∧ w'.shadow = w.shadow ∧ w'.groups = w.groups
  gid : ∀ p w out err w' x name, p.argv = [p!"usermod", p!"--gid", x, p!"--", name] → Py.parseInt 10 x = none → sys.exec p w = (.done out err 0, w') →
    ∃ e g, userNamed w name = some e ∧ groupNamed w x = some g ∧ userNamed w' name = some { e with gid := g.gid } ∧ w'.shadow = w.shadow ∧ w'.groups = w.groups
  groups : ∀ p w out err w' l name, l ≠ [] → p.argv = [p!"usermod", p!"--groups", Py.join p!"," l, p!"--", name] → (∀ x ∈ l, PlainName x) →
    sys.exec p w = (.done out err 0, w') → (∀ x ∈ l, ∃ g ∈ w.groups, g.name = x) ∧ w'.users = w.users ∧ w'.shadow = w.shadow
      ∧ ∃ φ, w'.groups = w.groups.map φ ∧ Regroups name (fun g => g.name ∈ l) φ
  comment : ∀ p w out err w' x name, p.argv = [p!"usermod", p!"--comment", x, p!"--", name] → sys.exec p w = (.done out err 0, w') →
    ∃ e, userNamed w name = some e ∧ userNamed w' name = some { e with gecos := x } ∧ w'.shadow = w.shadow ∧ w'.groups = w.groups
  home : ∀ p w out err w' x name, p.argv = [p!"usermod", p!"--home", x, p!"--", name] → sys.exec p w = (.done out err 0, w') →
    ∃ e, userNamed w name = some e ∧ userNamed w' name = some { e with home := x } ∧ w'.shadow = w.shadow ∧ w'.groups = w.groups
  shell : ∀ p w out err w' x name, p.argv = [p!"usermod", p!"--shell", x, p!"--", name] → sys.exec p w = (.done out err 0, w') →
    ∃ e, userNamed w name = some e ∧ userNamed w' name = some { e with shell := x } ∧ w'.shadow = w.shadow ∧ w'.groups = w.groups
  password : ∀ p w out err w' x name, p.argv = [p!"usermod", p!"--password", x, p!"--", name] → sys.exec p w = (.done out err 0, w') →
    hashOf w' name = some x ∧ w'.users = w.users ∧ w'.groups = w.groups
  others : ∀ p w out err code w' name, (p.argv.head? = some p!"useradd" ∨ p.argv.head? = some p!"usermod" ∨ p.argv.head? = some p!"userdel") →
    p.argv.getLast? = some name → sys.exec p w = (.done out err code, w') → OtherAccountsSame name w w'

/-- The value an attribute should have: the requested one; otherwise the present one; otherwise the default. -/
def ShouldBe {α : Type} (requested : Option α) (before : Option α) (default : α) : α := requested.getD (before.getD default)

/-- What the databases have to say about a user that is to be present. `w0` is the host before. Nothing is said about attributes for
which the request is a value that Python takes for false. -/
def UserAs (a : UserArgs) (w0 w : World) : Prop :=
  ∃ u, accountOf w a.user = some u
    ∧ (∀ i, a.uid = some i → i ≠ 0 → u.uid = i)
    ∧ (∀ u0, accountOf w0 a.user = some u0 → a.uid = none → u.uid = u0.uid)
    ∧ (∀ g, a.group = some g → g ≠ [] → u.group = g)
    ∧ (∀ u0, accountOf w0 a.user = some u0 → a.group = none → u.group = u0.group)
    ∧ (accountOf w0 a.user = none → a.group = none → u.group = a.user)
    ∧ (∀ l, a.groups = some l → l ≠ [] → ∀ x, x ∈ u.groups ↔ x ∈ l ∨ (a.appendGroups = true ∧ ∃ u0, accountOf w0 a.user = some u0 ∧ x ∈ u0.groups))
    ∧ (a.groups = none → ∀ x, x ∈ u.groups ↔ ∃ u0, accountOf w0 a.user = some u0 ∧ x ∈ u0.groups)
    ∧ (a.comment ≠ some [] → u.gecos = ShouldBe a.comment ((accountOf w0 a.user).map (·.gecos)) [])
    ∧ (a.home ≠ some [] → u.home = ShouldBe a.home ((accountOf w0 a.user).map (·.home)) p!"/dev/null")
    ∧ (a.shell ≠ some [] → u.shell = ShouldBe a.shell ((accountOf w0 a.user).map (·.shell)) p!"/sbin/nologin")
    ∧ (a.passwordHash ≠ some [] → u.passwordHash = some (ShouldBe a.passwordHash ((accountOf w0 a.user).bind (·.passwordHash)) p!"!"))

/-- The account is already as requested. -/
structure Fits (a : UserArgs) (u : UserEntry) : Prop where
  uid : ∀ i, a.uid = some i → i ≠ 0 → u.uid = i
  group : ∀ g, a.group = some g → g ≠ [] → u.group = g
  groups : ∀ l, a.groups = some l → l ≠ [] → if a.appendGroups then ∀ x ∈ l, x ∈ u.groups else u.groups.Perm l
  gecos : ∀ x, a.comment = some x → x ≠ [] → u.gecos = x
  home : ∀ x, a.home = some x → x ≠ [] → u.home = x
  shell : ∀ x, a.shell = some x → x ≠ [] → u.shell = x
  hash : ∀ x, a.passwordHash = some x → x ≠ [] → u.passwordHash = some x

/-- The requested groups are given by name. -/
structure PlainUserArgs (a : UserArgs) : Prop where
  user : PlainName a.user
  group : ∀ g, a.group = some g → Py.parseInt 10 g = none
  groups : ∀ l, a.groups = some l → ∀ x ∈ l, PlainName x

end Verif.Ops
