/-
Runs that differ in the options for what is displayed (C84).
-/
import Verif.Ops.Spec
import Verif.Script.Lemmas

namespace Verif.Ops

open Script Remote
open Wire (Packet)

/-- The same state of the program and the same summaries, apart from diffs. -/
structure SameButDiffs (s s' : St) : Prop where
  stack : s.stack = s'.stack
  nested : s.op.hasNested = s'.op.hasNested
  initial : s.op.initial = s'.op.initial
  final : s.op.final = s'.op.final
  shown : s.shown.map (·.result) = s'.shown.map (·.result)

/-- The answer to a download: the content, or that there is no such file. -/
inductive Obtained : Except Exn Packet → Prop where
  | content (c : Bytes) : Obtained (.ok (.downloadResult c))
  | missing (e : Exn) : e.isValueError = true → Obtained (.error e)

/-- The second conversation is the first one without some downloads, which obtained something. -/
inductive WithoutDownloads : Trace → Trace → Prop where
  | nil : WithoutDownloads [] []
  | keep (x : Packet × Except Exn Packet) {t t' : Trace} : WithoutDownloads t t' → WithoutDownloads (x :: t) (x :: t')
  | drop (path : Str) (a : Except Exn Packet) {t t' : Trace} : Obtained a → WithoutDownloads t t' →
      WithoutDownloads ((.download path, a) :: t) t'

/-- A file that `stat` does not find is not found when it is opened either: other errors do not occur then. -/
def MissingIsMissing (sys : Sys) : Prop :=
  ∀ w path e e', osStat sys w path false = .error e → isENOENT e = true → osRead sys w path = .error e' → isENOENT e' = true

end Verif.Ops
