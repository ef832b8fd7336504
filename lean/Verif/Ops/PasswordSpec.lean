/-
Accounts that differ in nothing but the password hash (C96).
-/
import Verif.Script.Lemmas
import Verif.Run.Report

namespace Verif.Ops

open Script
open Wire (Packet)

/-- The same answer of the host, but for the password hash of an account. -/
inductive SameButHashAnswer : Except Exn Packet → Except Exn Packet → Prop where
  | same (x : Except Exn Packet) : SameButHashAnswer x x
  | entry (name : Str) (uid : Int) (group : Str) (gid : Int) (groups : List Str) (hash hash' : Option Str) (gecos home shell : Str) :
      SameButHashAnswer (.ok (.userEntry name uid group gid groups hash gecos home shell)) (.ok (.userEntry name uid group gid groups hash' gecos home shell))

/-- The same conversation, but for the password hashes that the host reports: in particular all requests are the same. -/
inductive SameButHash : Trace → Trace → Prop where
  | nil : SameButHash [] []
  | cons {x x' : Except Exn Packet} {t t' : Trace} (request : Packet) : SameButHashAnswer x x' → SameButHash t t' →
      SameButHash ((request, x) :: t) ((request, x') :: t')

/-- A state without the password hash. -/
def withoutHash (d : Dict) : Dict := d.filter fun e => e.1 ≠ p!"password_hash"

/-- The same result, but for password hashes in the states. -/
structure SameResult (r r' : OpResult) : Prop where
  success : r.success = r'.success
  changed : r.changed = r'.changed
  failureMessage : r.failureMessage = r'.failureMessage
  initial : withoutHash r.initial = withoutHash r'.initial
  final : withoutHash r.final = withoutHash r'.final

/-- The same end: the same exception, or the same result but for password hashes. -/
inductive SameEnd : Except Exn OpResult → Except Exn OpResult → Prop where
  | error (e : Exn) : SameEnd (.error e) (.error e)
  | ok {r r' : OpResult} : SameResult r r' → SameEnd (.ok r) (.ok r')

/-- The same texts are printed for two lists of summaries, under all settings of the program that satisfy a condition. -/
def SamePrinted (allowed : Run.Options → Prop) (l l' : List Report) : Prop :=
  ∀ (udiff : List Bytes → List Bytes → List Bytes) (repr : Val → Str) (o : Run.Options) (level : Int) (title : Run.Title), allowed o →
    l.map (Run.printOperation udiff repr o level title) = l'.map (Run.printOperation udiff repr o level title)

end Verif.Ops
