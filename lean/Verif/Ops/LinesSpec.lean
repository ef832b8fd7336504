/-
Several calls of `line` for one file.
-/
import Verif.Ops.LineSpec
import Verif.Ops.ReportSpec
import Verif.Ops.DeploySpec

namespace Verif.Ops

open Script Remote

/-- A call of `files.line` without `regex` and `backup`: a line that should, or should not, be in the file. -/
structure LineCall where
  line : Str
  present : Bool
  ignoreWhitespace : Bool

/-- What is called. -/
def LineCall.op (path : Str) (c : LineCall) : Op OpResult := Ops.line path c.line c.present none c.ignoreWhitespace .no true

/-- The call is about this line. -/
def LineCall.About (c : LineCall) (x : Str) : Prop := SameLine c.ignoreWhitespace x c.line

instance (c : LineCall) (x : Str) : Decidable (c.About x) := by unfold LineCall.About; infer_instance

/-- The line is in the file. (If there is no file, it is not.) -/
def LineCall.There (c : LineCall) (content : Option Bytes) : Prop := ∃ x ∈ textLines (content.getD []), c.About x

/-- The line is text without a line break, is not blank, and has no whitespace around it if it is to be removed irrespective of whitespace
(see C41 and C43 for why). -/
structure LineCall.Proper (c : LineCall) : Prop where
  line : ProperLine c.line
  blank : Py.strip c.line ≠ []
  stripped : c.present = false → c.ignoreWhitespace = true → Py.strip c.line = c.line

/-- No two calls are about the same line, even if whitespace around it is not counted. -/
def Apart (calls : List LineCall) : Prop := calls.Pairwise fun c d => Py.strip c.line ≠ Py.strip d.line

/-- No call removes the line. -/
def Stays (calls : List LineCall) (x : Str) : Bool := calls.all fun c => c.present || !decide (c.About x)

/-- The lines of the file that are not empty. -/
def fullLines (content : Option Bytes) : List Str := (textLines (content.getD [])).filter (· ≠ [])

/-- The file, with all the lines that are to be added, is of a realistic size. -/
def ModestLines (calls : List LineCall) (content : Option Bytes) : Prop :=
  Modest ((content.getD []).length + (calls.map fun c => 4 * c.line.length + 2).sum + 1)

end Verif.Ops
