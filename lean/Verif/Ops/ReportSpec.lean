/-
Specification vocabulary for what operations print.
-/
import Verif.Ops.LineSpec
import Verif.Ops.PackageSpec
import Verif.Ops.Spec

namespace Verif.Ops

open Script Remote

/-- The summaries that an operation prints when it is run on a host, in their order: what has been printed afterwards and had
not been printed before. -/
def shownBy (sys : Sys) (lost : Nat → Option Bool) (op : Op OpResult) (env : Env) (st : St) (w : World) : List Report :=
  (exec (flaky sys lost) op env st (w, 0)).1.2.shown.drop st.shown.length

/-- A summary describes how the operation ended: it shows the result that is returned, or a failure if an exception is raised; if
that is the OperationError of a failed operation, its message is the one that is shown. -/
def Describes (shown : OpResult) : Except Exn OpResult → Prop
  | .ok r => shown = r
  | .error e => shown.success = false ∧ ∀ m, e = .operationError m → m = shown.failureMessage.getD p!"None"

/-- Operations that consist of other operations. -/
inductive Composite : Op OpResult → Prop where
  | uploadDir (sha512 : Bytes → Bytes) (src : Str) (tree : Tree) (dest : Str) (dirMode fileMode owner group : Option Str) (check : Bool) :
      Composite (uploadDir sha512 src tree dest dirMode fileMode owner group check)

/-- Operations that are another one, chosen by what the host has, and the shell command that looks for it. -/
inductive Generic : Op OpResult → Str → Prop where
  | package (order : List Str → List Str) (packages : List Str) (present check : Bool) :
      Generic (package order packages present check) packageProbe.text
  | service (service : Str) (state : Option Str) (enabled : Option Bool) (check : Bool) :
      Generic (Ops.service service state enabled check) serviceProbe.text

/-- The operation ended because looking for the operation to choose raised an exception (the connection broke, for example, or
there is no bash). -/
def SearchFailed (op : Op OpResult) (env : Env) (st st' : St) (t : List (Wire.Packet × Except Exn Wire.Packet)) (r : Except Exn OpResult) : Prop :=
  ∃ text e, Generic op text ∧ r = .error e ∧ Execution (Connection.run [p!"bash", p!"-c", text]) env st t (.error e) st'

/-- What the path holds: the content of a regular file, or nothing. -/
def Holds (w : World) (path : Str) : Option Bytes → Prop
  | none => NothingAt w path
  | some c => FileAt w path c

end Verif.Ops
