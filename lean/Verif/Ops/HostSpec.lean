/-
Specification vocabulary for what operations do to a host: connections that may break, what is left alone, and which values
are in force.
-/
import Verif.Remote.Core
import Verif.Script.Spec
import Verif.Ops.Spec

namespace Verif.Ops

open Script Remote
open Client (Prog direct lostConnection)
open Wire (Packet)

/-- A connection that may break. `lost i` tells what happens to the i-th request: `none`, it is carried out and answered;
`some false`, the connection breaks before the host has seen it; `some true`, it is carried out but the answer is lost. -/
def flaky (sys : Sys) (lost : Nat → Option Bool) (p : Packet) (s : World × Nat) : Except Exn Packet × (World × Nat) :=
  match lost s.2 with
  | none => ((direct sys p s.1).1, ((direct sys p s.1).2, s.2 + 1))
  | some false => (.error lostConnection, (s.1, s.2 + 1))
  | some true => (.error lostConnection, ((direct sys p s.1).2, s.2 + 1))

/-- Runs an operation on a host whose programs are the standard tools, over a connection that may break. The result and
what the host is afterwards. -/
def perform {α : Type} (sys : Sys) (lost : Nat → Option Bool) (m : Op α) (env : Env) (st : St) (w : World) : Except Exn α × World :=
  ((exec (flaky sys lost) m env st (w, 0)).1.1, (exec (flaky sys lost) m env st (w, 0)).2.1)

/-- Files may differ at the places that `p` accepts; everything else is the same (only the history of started processes
is ignored). -/
structure Untouched (p : Loc → Prop) (w w' : World) : Prop where
  fs : ∀ q, ¬ p q → w'.fs q = w.fs q
  rest : w' = { w with fs := w'.fs, started := w'.started }

/-- `stat` of a path that exists does not claim that it is missing. -/
def HonestStat (sys : Sys) : Prop := ∀ w path follow e, sys.fault w (.stat path follow) = some e → e.errno ≠ ENOENT

/-- The settings in force for an operation with the given arguments: the arguments, otherwise the innermost defaults,
otherwise the settings of the connection. -/
def inForce (env : Env) (st : St) (args : Settings) : Settings := (env.base.overlay (st.stack.head?.getD {})).overlay args

/-- Digits 0-7 only, at least one. -/
def OctalText (s : Str) : Prop := s ≠ [] ∧ ∀ c ∈ s, 48 ≤ c ∧ c ≤ 55

/-- Account names as they are in practice: every name belongs to one account, and no name is a number, contains a colon, or
begins like an option. -/
structure PlainAccounts (w : World) : Prop where
  users : (w.users.map (·.name)).Nodup
  groups : (w.groups.map (·.name)).Nodup
  userNames : ∀ e ∈ w.users, e.name ≠ [] ∧ 58 ∉ e.name ∧ (∃ c ∈ e.name, ¬ (48 ≤ c ∧ c ≤ 57)) ∧ e.name.head? ≠ some 45 ∧ e.name.head? ≠ some 43
  groupNames : ∀ e ∈ w.groups, e.name ≠ [] ∧ 58 ∉ e.name ∧ (∃ c ∈ e.name, ¬ (48 ≤ c ∧ c ≤ 57)) ∧ e.name.head? ≠ some 45 ∧ e.name.head? ≠ some 43

/-- In addition every uid and gid belongs to one account. -/
structure NoAliases (w : World) : Prop where
  users : (w.users.map (·.uid)).Nodup
  groups : (w.groups.map (·.gid)).Nodup

/-- The default modes that were configured are written as octal digits. -/
def PlainModes (env : Env) (st : St) : Prop :=
  ∀ m, (inForce env st {}).fileMode = some m ∨ (inForce env st {}).dirMode = some m → OctalText m

/-- Without leading zeros. -/
def CanonicalModes (env : Env) (st : St) : Prop :=
  ∀ m, (inForce env st {}).fileMode = some m ∨ (inForce env st {}).dirMode = some m → ∃ i, m = Py.natStr 8 i

/-- A host as operations usually find it: its programs are the standard tools. -/
structure Ordinary (sys : Sys) (tools : Tools) (w : World) : Prop where
  exec : sys.exec = core tools
  stat : HonestStat sys
  sane : w.Sane
  accounts : PlainAccounts w

/-- The place that a path denotes (itself, if there is a symbolic link). -/
def Denotes (w : World) (path : Str) (l : Loc) : Prop := resolve w.fs w.cwd path false = .ok l

/-- An owner and a group are in force (they always are with the settings of a connection to a host). -/
def OwnersSet (want : Settings) : Prop := want.owner ≠ none ∧ want.group ≠ none

/-- The path does not lead through the place it denotes, or through anything below: whatever is there, it denotes this
place. -/
def Direct (w : World) (path : Str) : Prop :=
  ∀ l fs, resolve w.fs w.cwd path false = .ok l → (∀ q, under l q = false → fs q = w.fs q) → resolve fs w.cwd path false = .ok l

/-- The path, with links followed, does not lead to a directory. -/
def NotToDirectory (w : World) (path : Str) : Prop := ∀ l n, lookup w.fs w.cwd path true = .ok (l, n) → n.kind ≠ .dir

/-- There is a link with this target (as bytes) at the path. -/
def HasTarget (w : World) (path target : Str) : Prop :=
  ∃ l n t, resolve w.fs w.cwd path false = .ok l ∧ w.fs l = some n ∧ n.kind = .link t ∧ Py.encodeEscape t = Py.encodeEscape target

/-- Owner and group are those that are wanted. -/
def OwnedBy (w : World) (want : Settings) (n : Node) : Prop :=
  (∀ u, want.owner = some u → ∃ e, DenotesUser w u e ∧ n.uid = e.uid) ∧ (∀ g, want.group = some g → ∃ e, DenotesGroup w g e ∧ n.gid = e.gid)

/-- The same kind of file with the same content. The target of a symbolic link is a sequence of bytes. -/
def SameKind (a b : NodeKind) : Prop :=
  a = b ∨ ∃ t t', a = .link t ∧ b = .link t' ∧ Py.encodeEscape t = Py.encodeEscape t'

/-- The same kind of file with the same content, permissions and owners; only the times may differ. (The permissions of a
symbolic link mean nothing.) -/
def SameFile (a b : Node) : Prop :=
  SameKind a.kind b.kind ∧ ((∀ t, a.kind ≠ .link t) → a.perm = b.perm) ∧ a.uid = b.uid ∧ a.gid = b.gid

/-- `op` stores content in the file at `path`: an upload or a rendered template. `source` is the content, or the exception
that reading or rendering it raises. -/
inductive Stores (sha512 : Bytes → Bytes) (mode owner group : Option Str) (check : Bool) : Op OpResult → Str → Except Exn Bytes → Prop where
  | content (content : Content) (dest : Str) :
      Stores sha512 mode owner group check (uploadContent sha512 content dest mode owner group check) dest content.encode
  | file (src : Str) (read : Except Exn Bytes) (dest : Str) :
      Stores sha512 mode owner group check (upload sha512 src read dest mode owner group check) (destOf src dest) read
  | templateContent {V : Type} (templ : List (Str × V) → Rendered) (dest : Str) (vars : List (Str × V)) (context : Option (List (Str × V))) (host : V) :
      Stores sha512 mode owner group check (templateContent sha512 templ dest vars context host mode owner group check) dest
        (renderTemplate templ p!"string" vars context host)
  | template {V : Type} (src : Str) (templ : List (Str × V) → Rendered) (dest : Str) (vars : List (Str × V)) (context : Option (List (Str × V))) (host : V) :
      Stores sha512 mode owner group check (template sha512 src (.ok templ) dest vars context host mode owner group check) (destOf src dest)
        (renderTemplate templ (p!"'" ++ src ++ p!"'") vars context host)

/-- Two hosts that differ at most in the times of files and in the processes that have been started. -/
structure Alike (w w' : World) : Prop where
  fs : ∀ q, w.fs q = none ∧ w'.fs q = none ∨ ∃ a b, w.fs q = some a ∧ w'.fs q = some b ∧ SameFile a b
  rest : w' = { w with fs := w'.fs, started := w'.started }

end Verif.Ops
