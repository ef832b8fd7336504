/-
Specification vocabulary for `line`.
-/
import Verif.Ops.HostSpec

namespace Verif.Ops

open Script Remote

/-- The lines of a file. Its bytes are read as UTF-8; a byte that is not part of a valid sequence stands for itself (as one of
the code points U+DC80 to U+DCFF), so that different contents are different texts. Lines end where `str.splitlines` says. -/
def textLines (content : Bytes) : List Str := Py.splitlines (Py.decodeEscape content)

/-- The text consisting of these lines, each ended by a newline character. -/
def unixText (lines : List Str) : Str := lines.flatMap fun l => l ++ [10]

/-- The only line breaks are newline characters. -/
def UnixFile (content : Bytes) : Prop := ∀ c ∈ Py.decodeEscape content, Py.isLineBreak c = true → c = 10

/-- A proper line: text without line break. -/
structure ProperLine (line : Str) : Prop where
  text : Text line
  oneLine : ∀ c ∈ line, Py.isLineBreak c = false

/-- The same line, possibly not counting surrounding whitespace. -/
def SameLine (ignoreWhitespace : Bool) (a b : Str) : Prop :=
  if ignoreWhitespace then Py.strip a = Py.strip b else a = b

instance (ws : Bool) (a b : Str) : Decidable (SameLine ws a b) := by unfold SameLine; infer_instance

/-- The line is in the file. -/
def HasLine (ignoreWhitespace : Bool) (line : Str) (content : Bytes) : Prop :=
  ∃ x ∈ textLines content, SameLine ignoreWhitespace x line

/-- There is a regular file with this content at the path (itself, not behind a symbolic link). -/
def FileAt (w : World) (path : Str) (content : Bytes) : Prop :=
  ∃ l n, lookup w.fs w.cwd path false = .ok (l, n) ∧ n.kind = .file content

/-- There is nothing at the path. -/
def NothingAt (w : World) (path : Str) : Prop := ∀ x, lookup w.fs w.cwd path false ≠ .ok x

/-- The path of the backup. -/
def backupPath (path : Str) (backup : Backup) : Option Str := backup.fileName.map (pathJoin (dirName path))

/-- If there is something at the path of the backup, it is a regular file. -/
def BackupFree (w : World) (path : Str) (backup : Backup) : Prop :=
  ∀ dst, backupPath path backup = some dst → ∀ l n, lookup w.fs w.cwd dst true = .ok (l, n) → ∃ c, n.kind = .file c

end Verif.Ops
