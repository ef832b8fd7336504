/-
Specification vocabulary for the connector API.
-/
import Verif.Client.Connector
import Verif.Remote.Spec

namespace Verif.Client

open Wire (Packet Kind)
open Remote

/-- Every request that the program can ever send, whatever is answered, has the property. -/
inductive Prog.All {α : Type} (P : Packet → Prop) : Prog α → Prop where
  | ret (a : α) : Prog.All P (.ret a)
  | req (p : Packet) (k : Except Exn Packet → Prog α) : P p → (∀ r, Prog.All P (k r)) → Prog.All P (.req p k)

/-- A running dispatcher with empty pipes. -/
def idle (w : World) : Server := { input := [], output := [], status := .next, world := w }

/-- The process that was asked for: its arguments, input, user, group, umask and working directory. -/
structure Requested (w : World) (command : List Str) (input : Option Bytes) (capture : Bool) (user group umask cwd : Option Str)
    (p : Proc) : Prop where
  argv : p.argv = command
  stdin : p.stdin = input
  capture : p.capture = capture
  /-- the dispatcher's user, or the account that was named -/
  uid : match user with
    | none => p.uid = w.uid
    | some u => ∃ e, DenotesUser w u e ∧ p.uid = e.uid
  /-- the group that was named, or the primary group of the user that was named, or the dispatcher's group -/
  gid : match group, user with
    | some g, _ => ∃ e, DenotesGroup w g e ∧ p.gid = e.gid
    | none, some u => ∃ e, DenotesUser w u e ∧ p.gid = e.gid
    | none, none => p.gid = w.gid
  /-- the octal number that was given, or 077 -/
  umask : match umask with
    | none => p.umask = 0o077
    | some m => ∃ i, Py.parseInt 8 m = some i ∧ p.umask = (i % 512).toNat
  /-- the directory that was named, or the dispatcher's -/
  cwd : match cwd with
    | none => p.cwd = w.cwd
    | some c => ∃ n, lookup w.fs w.cwd c true = .ok (p.cwd, n) ∧ n.kind = .dir

/-- The name of a file type in a stat result. -/
def typeName : NodeKind → Str
  | .dir => p!"dir"
  | .chr => p!"chr"
  | .blk => p!"blk"
  | .file _ => p!"file"
  | .fifo => p!"fifo"
  | .link _ => p!"link"
  | .sock => p!"sock"
  | .other => p!"other"

/-- The name shown for the owner: that of the first account with this uid, or the number. -/
def ShowsUser (w : World) (uid : Nat) (s : Str) : Prop :=
  (∃ e, w.users.find? (·.uid == uid) = some e ∧ s = e.name) ∨ (w.users.find? (·.uid == uid) = none ∧ s = Py.natStr 10 uid)

def ShowsGroup (w : World) (gid : Nat) (s : Str) : Prop :=
  (∃ e, w.groups.find? (·.gid == gid) = some e ∧ s = e.name) ∨ (w.groups.find? (·.gid == gid) = none ∧ s = Py.natStr 10 gid)

/-- The requests that only ask. -/
def isQuery : Packet → Bool
  | .checkAlive | .stat .. | .resolveUser _ | .resolveGroup _ | .download _ | .queryUser .. | .queryGroup _ | .getenv _ => true
  | _ => false

end Verif.Client
