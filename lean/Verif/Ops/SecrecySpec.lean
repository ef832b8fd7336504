/-
Operations that differ in nothing but the content that they store (C96).
-/
import Verif.Ops.DeploySpec
import Verif.Script.Lemmas

namespace Verif.Ops

open Script
open Wire (Packet)

/-- The same request, but for the content of a file that is written. -/
inductive SameRequest : Packet → Packet → Prop where
  | same (p : Packet) : SameRequest p p
  | upload (file : Str) (content content' : Bytes) (mode owner group : Option Str) :
      SameRequest (.upload file content mode owner group) (.upload file content' mode owner group)

/-- The same conversation, but for the content of files that are written: in particular all answers are the same. -/
inductive SameButContents : Trace → Trace → Prop where
  | nil : SameButContents [] []
  | cons {p p' : Packet} {t t' : Trace} (answer : Except Exn Packet) : SameRequest p p' → SameButContents t t' →
      SameButContents ((p, answer) :: t) ((p', answer) :: t')

mutual
/-- The same directory tree, but for the content of its files, which have the same checksums. -/
inductive SameTree (sha512 sha512' : Bytes → Bytes) : Tree → Tree → Prop where
  | file (c c' : Bytes) : sha512 c = sha512' c' → SameTree sha512 sha512' (.file (.ok c)) (.file (.ok c'))
  | unreadable (e : Exn) : SameTree sha512 sha512' (.file (.error e)) (.file (.error e))
  | fileLink (c c' : Bytes) : sha512 c = sha512' c' → SameTree sha512 sha512' (.fileLink (.ok c)) (.fileLink (.ok c'))
  | unreadableLink (e : Exn) : SameTree sha512 sha512' (.fileLink (.error e)) (.fileLink (.error e))
  | dir (entries entries' : List (Str × Tree)) : SameEntries sha512 sha512' entries entries' → SameTree sha512 sha512' (.dir entries) (.dir entries')
  | dirLink : SameTree sha512 sha512' .dirLink .dirLink
  | special : SameTree sha512 sha512' .special .special
/-- The same for the entries of a directory. -/
inductive SameEntries (sha512 sha512' : Bytes → Bytes) : List (Str × Tree) → List (Str × Tree) → Prop where
  | nil : SameEntries sha512 sha512' [] []
  | cons (name : Str) (t t' : Tree) (r r' : List (Str × Tree)) : SameTree sha512 sha512' t t' → SameEntries sha512 sha512' r r' →
      SameEntries sha512 sha512' ((name, t) :: r) ((name, t') :: r')
end

/-- Two operations that are the same, but for the content that they store. All that is the same about the contents is their
checksum; since the function that computes it may be another one, this says nothing about the contents themselves. -/
inductive SameButContent : Op OpResult → Op OpResult → Prop where
  | same (op : Op OpResult) : SameButContent op op
  | uploadContent (sha512 sha512' : Bytes → Bytes) (content content' : Content) (bytes bytes' : Bytes) (dest : Str) (mode owner group : Option Str)
      (check : Bool) : content.encode = .ok bytes → content'.encode = .ok bytes' → sha512 bytes = sha512' bytes' →
      SameButContent (uploadContent sha512 content dest mode owner group check) (uploadContent sha512' content' dest mode owner group check)
  | upload (sha512 sha512' : Bytes → Bytes) (src : Str) (bytes bytes' : Bytes) (dest : Str) (mode owner group : Option Str) (check : Bool) :
      sha512 bytes = sha512' bytes' →
      SameButContent (upload sha512 src (.ok bytes) dest mode owner group check) (upload sha512' src (.ok bytes') dest mode owner group check)
  | uploadDir (sha512 sha512' : Bytes → Bytes) (src : Str) (tree tree' : Tree) (dest : Str) (dirMode fileMode owner group : Option Str) (check : Bool) :
      SameTree sha512 sha512' tree tree' →
      SameButContent (uploadDir sha512 src tree dest dirMode fileMode owner group check) (uploadDir sha512' src tree' dest dirMode fileMode owner group check)
  | templateContent {V V' : Type} (sha512 sha512' : Bytes → Bytes) (templ : List (Str × V) → Rendered) (templ' : List (Str × V') → Rendered) (dest : Str)
      (vars : List (Str × V)) (vars' : List (Str × V')) (context : Option (List (Str × V))) (context' : Option (List (Str × V'))) (host : V) (host' : V')
      (text text' : Str) (bytes bytes' : Bytes) (mode owner group : Option Str) (check : Bool) :
      templ (templateVars vars context host) = .text text → Py.encodeUtf8 text = some bytes →
      templ' (templateVars vars' context' host') = .text text' → Py.encodeUtf8 text' = some bytes' → sha512 bytes = sha512' bytes' →
      SameButContent (templateContent sha512 templ dest vars context host mode owner group check)
        (templateContent sha512' templ' dest vars' context' host' mode owner group check)
  | template {V V' : Type} (sha512 sha512' : Bytes → Bytes) (src : Str) (templ : List (Str × V) → Rendered) (templ' : List (Str × V') → Rendered) (dest : Str)
      (vars : List (Str × V)) (vars' : List (Str × V')) (context : Option (List (Str × V))) (context' : Option (List (Str × V'))) (host : V) (host' : V')
      (text text' : Str) (bytes bytes' : Bytes) (mode owner group : Option Str) (check : Bool) :
      templ (templateVars vars context host) = .text text → Py.encodeUtf8 text = some bytes →
      templ' (templateVars vars' context' host') = .text text' → Py.encodeUtf8 text' = some bytes' → sha512 bytes = sha512' bytes' →
      SameButContent (template sha512 src (.ok templ) dest vars context host mode owner group check)
        (template sha512' src (.ok templ') dest vars' context' host' mode owner group check)

/-- The same script, but for the content that its operations store. -/
inductive SameScript : List (Op OpResult) → List (Op OpResult) → Prop where
  | nil : SameScript [] []
  | cons {op op' : Op OpResult} {ops ops' : List (Op OpResult)} : SameButContent op op' → SameScript ops ops' → SameScript (op :: ops) (op' :: ops')

/-- A request for the password hash of an account. -/
def AsksForHash (p : Packet) : Prop := ∃ user, p = .queryUser user true

end Verif.Ops
