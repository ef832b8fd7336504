/-
What a user wants to see when something fails.
-/
import Verif.Run.Failure
import Verif.Run.TableSpec
import Verif.Run.LoggerProps

namespace Verif.Failure
open Run (Cell visible HexOf)

/-- The output of a command as text: characters are shown as they are, bytes that belong to no character in hexadecimal. -/
inductive Verbatim : Bytes → Str → Prop where
  | nil : Verbatim [] []
  | char (c : Nat) (e r : Bytes) (s : Str) (he : Py.encodeUtf8 [c] = some e) (hr : Verbatim r s) : Verbatim (e ++ r) (c :: s)
  | byte (b : UInt8) (r : Bytes) (h s : Str) (hb : ∀ c e r', Py.encodeUtf8 [c] = some e → b :: r ≠ e ++ r') (hh : HexOf b.toNat h) (hr : Verbatim r s) :
      Verbatim (b :: r) (p!"\\x" ++ h ++ s)

/-- A line that begins with this text and is filled up with dashes, as wide as the terminal. -/
def Ruled (terminal : Nat) (text : Str) (o : Out) : Prop :=
  ∃ c n, o = .line c ∧ visible c = text ++ List.replicate n 9472 ∧ (visible c).length = max (max terminal 80) text.length

/-- The report about a command that failed: which command it was, its exit code, and all that it has printed. -/
def Block (terminal : Nat) (cmd : Str) (code : Int) (stdout stderr : Bytes) (o : List Out) : Prop :=
  ∃ h1 h2 t1 h3 t2 h4, o = [h1, h2, .text t1, h3, .text t2, h4]
    ∧ Ruled terminal (p!"──────── command " ++ cmd ++ p!" failed with code " ++ Py.intStr code ++ p!" ]") h1
    ∧ Ruled terminal p!"──────── stdout (special characters escaped) " h2 ∧ Verbatim stdout t1
    ∧ Ruled terminal p!"──────── stderr (special characters escaped) " h3 ∧ Verbatim stderr t2
    ∧ Ruled terminal p!"──────── end " h4

/-- The lines about the place from which a script was called. -/
def frameLines (f : Frame) : List Str :=
  (p!"  File \"" ++ f.filename ++ p!"\", line " ++ Py.natStr 10 f.line ++ p!", in " ++ f.function) :: (f.context.getD []).map fun c => p!"    " ++ Py.strip c

/-- The places from which scripts were called, the outermost first. The first one is fora itself, it is not mentioned. -/
def traceText (callers : List Frame) : Str :=
  Py.join p!"\n" (p!"Script stack (most recent call last):" :: (callers.drop 1).flatMap frameLines)

/-- The places from which the scripts were called that the exception leaves, the outermost first. -/
def callers : List Layer → List Frame
  | [] => []
  | .script c _ :: ls => callers ls ++ [c]
  | _ :: ls => callers ls

/-- The scripts are mentioned if one script has called another, except with `--debug`. -/
def traceOut (debug : Bool) (callers : List Frame) : List Out := if debug = false ∧ 2 ≤ callers.length then [.text (traceText callers)] else []

/-- The frames of all layers, the outermost first. -/
def framesOf : List Layer → List Frame
  | [] => []
  | .call f :: ls => framesOf ls ++ [f]
  | .operation _ w :: ls => framesOf ls ++ [w]
  | .script _ l :: ls => framesOf ls ++ l

/-- It is the frame of a module of the user. -/
def OfUser (dynamic : List Str) (f : Frame) : Prop := ∃ n, f.name = some n ∧ n ∈ dynamic

/-- What is shown of a traceback: it begins with the last module of the user. -/
def FromLastUser (dynamic : List Str) (all shown : List Frame) : Prop :=
  (∃ before f after, all = before ++ f :: after ∧ shown = f :: after ∧ OfUser dynamic f ∧ ∀ x ∈ after, ¬ OfUser dynamic x)
  ∨ (shown = all ∧ ∀ x ∈ all, ¬ OfUser dynamic x)

/-- The exception leaves an operation or a script. -/
def Guarded (ls : List Layer) : Prop := ∃ l ∈ ls, ∀ f, l ≠ .call f

/-- Its output was captured, if it is about a command. -/
def Captured : Cause → Prop
  | .process _ _ stdout stderr => stdout.isSome ∧ stderr.isSome
  | _ => True

end Verif.Failure
