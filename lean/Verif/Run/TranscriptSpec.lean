/-
What should be on the screen after a run.
-/
import Verif.Run.Transcript
import Verif.Run.ReportSpec

namespace Verif.Run.Transcript

open Py Script

/-- A terminal whose lines are long enough: the lines above the cursor, the line where it is, and its column. -/
structure Screen where
  above : List Str := []
  line : Str := []
  column : Nat := 0
  deriving DecidableEq, Repr

/-- A character: line feed goes to the start of the next line, carriage return to the start of this one, others replace what is there. -/
def Screen.put (s : Screen) (c : Nat) : Screen :=
  if c = 10 then ⟨s.above ++ [s.line], [], 0⟩
  else if c = 13 then { s with column := 0 }
  else { s with line := s.line.take s.column ++ c :: s.line.drop (s.column + 1), column := s.column + 1 }

def Screen.puts (s : Screen) (text : Str) : Screen := text.foldl Screen.put s

/-- Exactly these lines are on the screen, and the cursor is below them. -/
def page (lines : List Str) : Screen := { above := lines }

/-- The text shows these lines, and nothing else, whatever colours it has and whatever was on the screen before. -/
def Displays (text : Str) (lines : List Str) : Prop :=
  ∃ plain, Uncoloured text plain ∧ ∀ before, (page before).puts plain = page (before ++ lines)

/-- No line breaks. -/
def OneLine (s : Str) : Prop := 10 ∉ s ∧ 13 ∉ s

/-- Text that can be shown on a line. -/
def Tame (s : Str) : Prop := NoEsc s ∧ OneLine s

structure TitleTame (t : Title) : Prop where
  opName : Tame t.opName
  description : Tame t.description
  name : ∀ n, t.name = some n → Tame n

/-- The texts of a report can be shown on a line, and every key of the final state that has a value is one of the initial state. -/
structure ReportTame (repr : Val → Str) (r : Report) : Prop where
  message : ∀ m, r.result.failureMessage = some m → Tame m
  initial : ∀ k v, (k, v) ∈ r.result.initial → Tame (toStr repr v)
  final : ∀ k v, (k, v) ∈ r.result.final → Tame k ∧ Tame (toStr repr v)
  files : ∀ d ∈ r.diffs, Tame d.1
  keys : ∀ k v, (k, v) ∈ r.result.final → v ≠ .null → (r.result.initial.get k).isSome

/-- All texts of the code can be shown on a line. -/
def Code.Tame (repr : Val → Str) : Code → Prop
  | .done => True
  | .throw => True
  | .operation _ t r _ k => TitleTame t ∧ ReportTame repr r ∧ ∀ b, (k b).Tame repr
  | .nested t parts k => TitleTame t ∧ parts.Tame repr ∧ ∀ b, (k b).Tame repr
  | .script path name body k => Transcript.Tame path ∧ (∀ n, name = some n → Transcript.Tame n) ∧ body.Tame repr ∧ ∀ b, (k b).Tame repr

/-- The line of a script -/
def scriptText (path : Str) : Option Str → Str
  | some name => p!"script " ++ path ++ p!" (" ++ name ++ p!")"
  | none => p!"script " ++ path

/-- Lines at a depth -/
def indented (o : Options) (depth : Nat) (lines : List Str) : List Str := lines.map (pad o depth ++ ·)

/-- The lines for code at a depth, and whether it ends with an exception. Every operation that is called has its summary; the parts of
an operation and the code of a script are below its line, one level deeper; what follows is at the same level again, also if there was an
exception. -/
inductive Lines (udiff : List Bytes → List Bytes → List Bytes) (repr : Val → Str) (o : Options) : Nat → Code → List Str → Bool → Prop where
  | done {depth} : Lines udiff repr o depth .done [] false
  | throw {depth} : Lines udiff repr o depth .throw [] true
  | operation {depth early t r raises k summary rest failed} (hs : Summary udiff repr o t r summary)
      (hrest : Lines udiff repr o depth (k raises) rest failed) :
      Lines udiff repr o depth (.operation early t r raises k) (indented o depth summary ++ rest) failed
  | nested {depth t parts k inner raises rest failed} (hparts : Lines udiff repr o (depth + 1) parts inner raises)
      (hrest : Lines udiff repr o depth (k raises) rest failed) :
      Lines udiff repr o depth (.nested t parts k) ((pad o depth ++ titleText o t) :: (inner ++ rest)) failed
  | script {depth path name body k inner raises rest failed} (hbody : Lines udiff repr o (depth + 1) body inner raises)
      (hrest : Lines udiff repr o depth (k raises) rest failed) :
      Lines udiff repr o depth (.script path name body k) ((pad o depth ++ scriptText path name) :: (inner ++ rest)) failed

/-- The lines for the hosts, one after the other up to the first one that fails, with an empty line between two of them. -/
inductive HostLines (udiff : List Bytes → List Bytes → List Bytes) (repr : Val → Str) (o : Options) (script : Str) : List HostRun → List Str → Bool → Prop where
  | nil : HostLines udiff repr o script [] [] false
  | exited {h : HostRun} {hs n m} (ho : h.opening = .failed (some n) m) :
      HostLines udiff repr o script (h :: hs) [p!"host " ++ h.name ++ p!" via " ++ h.url, p!"ERR", p!" └ command exited with code " ++ intStr n] true
  | refused {h : HostRun} {hs m} (ho : h.opening = .failed none m) :
      HostLines udiff repr o script (h :: hs) [p!"host " ++ h.name ++ p!" via " ++ h.url, p!"ERR", p!" └ " ++ m] true
  | unidentified {h : HostRun} {hs} (ho : h.opening = .unidentified) :
      HostLines udiff repr o script (h :: hs) [p!"host " ++ h.name ++ p!" via " ++ h.url] true
  | failed {h : HostRun} {hs inner raises} (ho : h.opening = .open) (hl : Lines udiff repr o 1 h.code inner raises)
      (hf : raises = true ∨ h.closes = false) :
      HostLines udiff repr o script (h :: hs) ((p!"host " ++ h.name ++ p!" via " ++ h.url) :: (p!"script " ++ script ++ p!" (cmdline)") :: inner) true
  | last {h : HostRun} {inner} (ho : h.opening = .open) (hl : Lines udiff repr o 1 h.code inner false) (hc : h.closes = true) :
      HostLines udiff repr o script [h] ((p!"host " ++ h.name ++ p!" via " ++ h.url) :: (p!"script " ++ script ++ p!" (cmdline)") :: inner) false
  | next {h h' : HostRun} {hs inner rest failed} (ho : h.opening = .open) (hl : Lines udiff repr o 1 h.code inner false) (hc : h.closes = true)
      (hrest : HostLines udiff repr o script (h' :: hs) rest failed) :
      HostLines udiff repr o script (h :: h' :: hs)
        ((p!"host " ++ h.name ++ p!" via " ++ h.url) :: (p!"script " ++ script ++ p!" (cmdline)") :: (inner ++ [] :: rest)) failed

/-- All texts of a host can be shown on a line. -/
structure HostRun.Tame (repr : Val → Str) (h : HostRun) : Prop where
  name : Transcript.Tame h.name
  url : Transcript.Tame h.url
  message : ∀ c m, h.opening = .failed c m → Transcript.Tame m
  code : h.code.Tame repr

end Verif.Run.Transcript
