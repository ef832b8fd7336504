/-
Specification vocabulary for the states that the result of an operation reports.
-/
import Verif.Ops.HostSpec
import Verif.Ops.LineSpec
import Verif.Ops.UserSpec
import Verif.Ops.ServiceSpec
import Verif.Ops.GitSpec

namespace Verif.Ops

open Script Remote
open Client (ShowsUser ShowsGroup typeName)

/-- An owner as it is reported: nothing if none is asked for, otherwise the name of the account that is meant (which may be
asked for by its number). -/
def OwnerShown (w : World) (asked shown : Option Str) : Prop :=
  (asked = none ∧ shown = none) ∨ ∃ u e, asked = some u ∧ DenotesUser w u e ∧ shown = some e.name

def GroupShown (w : World) (asked shown : Option Str) : Prop :=
  (asked = none ∧ shown = none) ∨ ∃ g e, asked = some g ∧ DenotesGroup w g e ∧ shown = some e.name

/-! ### Files and directories -/

/-- What is reported about a place where nothing is, or nothing is to be. -/
def nothingThere : Dict :=
  [(p!"exists", .bool false), (p!"mode", .null), (p!"owner", .null), (p!"group", .null), (p!"touched", .bool false)]

/-- The report describes what is at the path: nothing, or something of this type with its permission bits in octal digits, and
its owner and group by name. -/
def PathBefore (w : World) (path type : Str) (d : Dict) : Prop :=
  (NothingAt w path ∧ d = nothingThere)
  ∨ ∃ l n owner group, lookup w.fs w.cwd path false = .ok (l, n) ∧ typeName n.kind = type
      ∧ ShowsUser w n.uid owner ∧ ShowsGroup w n.gid group
      ∧ d = [(p!"exists", .bool true), (p!"mode", .str (Py.natStr 8 n.perm)), (p!"owner", .str owner), (p!"group", .str group),
             (p!"touched", .bool false)]

/-- `shown` stands for the same mode as `given`. (Negative numbers are no modes.) -/
def SameMode (given shown : Option Str) : Prop :=
  ∃ m i t, given = some m ∧ Py.parseInt 8 m = some i ∧ shown = some t ∧ (0 ≤ i → Py.parseInt 8 t = some i)

/-- The report describes the settings that are asked for. -/
def PathAfter (w : World) (mode owner group : Option Str) (touch : Bool) (d : Dict) : Prop :=
  ∃ m o g, SameMode mode m ∧ OwnerShown w owner o ∧ GroupShown w group g
    ∧ d = [(p!"exists", .bool true), (p!"mode", .optStr m), (p!"owner", .optStr o), (p!"group", .optStr g), (p!"touched", .bool touch)]

/-! ### Links -/

def noLink : Dict :=
  [(p!"exists", .bool false), (p!"target", .null), (p!"owner", .null), (p!"group", .null), (p!"touched", .bool false)]

/-- The same for links, with their targets. -/
def LinkBefore (w : World) (path : Str) (d : Dict) : Prop :=
  (NothingAt w path ∧ d = noLink)
  ∨ ∃ l n target shown owner group, lookup w.fs w.cwd path false = .ok (l, n) ∧ n.kind = .link target ∧ (Text target → shown = target)
      ∧ ShowsUser w n.uid owner ∧ ShowsGroup w n.gid group
      ∧ d = [(p!"exists", .bool true), (p!"target", .str shown), (p!"owner", .str owner), (p!"group", .str group), (p!"touched", .bool false)]

def LinkAfter (w : World) (target : Str) (owner group : Option Str) (touch : Bool) (d : Dict) : Prop :=
  ∃ o g, OwnerShown w owner o ∧ GroupShown w group g
    ∧ d = [(p!"exists", .bool true), (p!"target", .str target), (p!"owner", .optStr o), (p!"group", .optStr g), (p!"touched", .bool touch)]

/-! ### Content -/

/-- The same for files that are uploaded, with the checksum of the content. -/
def ContentBefore (sys : Sys) (w : World) (path : Str) (d : Dict) : Prop :=
  (NothingAt w path
    ∧ d = [(p!"exists", .bool false), (p!"mode", .null), (p!"owner", .null), (p!"group", .null), (p!"sha512", .null)])
  ∨ ∃ l n content owner group, lookup w.fs w.cwd path false = .ok (l, n) ∧ n.kind = .file content
      ∧ ShowsUser w n.uid owner ∧ ShowsGroup w n.gid group
      ∧ d = [(p!"exists", .bool true), (p!"mode", .str (Py.natStr 8 n.perm)), (p!"owner", .str owner), (p!"group", .str group),
             (p!"sha512", .bytes (sys.sha512 content))]

def ContentAfter (sys : Sys) (w : World) (content : Bytes) (mode owner group : Option Str) (d : Dict) : Prop :=
  ∃ m o g, SameMode mode m ∧ OwnerShown w owner o ∧ GroupShown w group g
    ∧ d = [(p!"exists", .bool true), (p!"mode", .optStr m), (p!"owner", .optStr o), (p!"group", .optStr g),
           (p!"sha512", .bytes (sys.sha512 content))]

/-- The line, or something that the regular expression matches, is in the file. -/
def LineThere (w : World) (path line : Str) (regex : Option Regex) (ignoreWhitespace : Bool) : Prop :=
  ∃ content, FileAt w path content ∧ match regex with
    | none => HasLine ignoreWhitespace line content
    | some r => r.search (Py.decodeEscape content) = true

/-! ### Accounts -/

def noAccount : Dict :=
  [(p!"exists", .bool false), (p!"uid", .null), (p!"group", .null), (p!"groups", .list []), (p!"comment", .null), (p!"home", .null),
   (p!"shell", .null), (p!"password_hash", .null)]

/-- The list is in alphabetical order. -/
def InOrder (l : List Str) : Prop := l.Pairwise fun a b => ¬ b < a

/-- The report describes the account. -/
def UserBefore (w : World) (name : Str) (d : Dict) : Prop :=
  (accountOf w name = none ∧ d = noAccount)
  ∨ ∃ u groups, accountOf w name = some u ∧ groups.Perm u.groups ∧ InOrder groups
      ∧ d = [(p!"exists", .bool true), (p!"uid", .int u.uid), (p!"group", .str u.group), (p!"groups", .list groups),
             (p!"comment", .str u.gecos), (p!"home", .str u.home), (p!"shell", .str u.shell), (p!"password_hash", .optStr u.passwordHash)]

/-- No argument is a value that Python takes for false (for those the present value is kept). -/
def NoFalsyArgs (a : UserArgs) : Prop :=
  a.uid ≠ some 0 ∧ a.group ≠ some [] ∧ a.groups ≠ some [] ∧ a.comment ≠ some [] ∧ a.home ≠ some [] ∧ a.shell ≠ some [] ∧ a.passwordHash ≠ some []

/-- The value that is asked for, otherwise the present one, if there is one. -/
def orElse {α : Type} (requested before : Option α) : Option α :=
  match requested with
  | some x => some x
  | none => before

/-- The report describes the account as it is asked for. -/
def UserAfter (w : World) (a : UserArgs) (d : Dict) : Prop :=
  ∃ groups, InOrder groups
    ∧ (∀ x, x ∈ groups ↔ match a.groups with
        | some l => x ∈ l ∨ (a.appendGroups = true ∧ ∃ u, accountOf w a.user = some u ∧ x ∈ u.groups)
        | none => ∃ u, accountOf w a.user = some u ∧ x ∈ u.groups)
    ∧ d = [(p!"exists", .bool true),
           (p!"uid", .optInt (orElse a.uid ((accountOf w a.user).map (·.uid)))),
           (p!"group", .optStr (orElse a.group ((accountOf w a.user).map (·.group)))),
           (p!"groups", .list groups),
           (p!"comment", .optStr (orElse a.comment ((accountOf w a.user).map (·.gecos)))),
           (p!"home", .str (ShouldBe a.home ((accountOf w a.user).map (·.home)) p!"/dev/null")),
           (p!"shell", .str (ShouldBe a.shell ((accountOf w a.user).map (·.shell)) p!"/sbin/nologin")),
           (p!"password_hash", .optStr (orElse a.passwordHash ((accountOf w a.user).bind (·.passwordHash))))]

end Verif.Ops
