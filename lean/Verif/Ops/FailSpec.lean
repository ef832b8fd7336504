/-
What it means for a request to fail, and what the failure is called.
-/
import Verif.Ops.Spec
import Verif.Script.Lemmas

namespace Verif.Ops

open Script
open Wire (Packet)

/-- The kinds of packets that answer a request. A command is answered by how it ended, or by why it could not be started. -/
inductive Answers : Packet → Packet → Prop where
  | run (command : List Str) (stdin : Option Bytes) (capture : Bool) (user group umask cwd : Option Str) (out err : Option Bytes) (code : Int) :
      Answers (.processRun command stdin capture user group umask cwd) (.processCompleted out err code)
  | unstarted (command : List Str) (stdin : Option Bytes) (capture : Bool) (user group umask cwd : Option Str) (message : Str) :
      Answers (.processRun command stdin capture user group umask cwd) (.processError message)
  | stat (path : Str) (follow hash : Bool) (type : Str) (mode : Int) (owner group : Str) (size mtime ctime : Int) (sum : Option Bytes) :
      Answers (.stat path follow hash) (.statResult type mode owner group size mtime ctime sum)
  | resolveUser (user : Option Str) (name : Str) : Answers (.resolveUser user) (.resolveResult name)
  | resolveGroup (group : Option Str) (name : Str) : Answers (.resolveGroup group) (.resolveResult name)
  | queryUser (user : Str) (wantHash : Bool) (name : Str) (uid : Int) (group : Str) (gid : Int) (groups : List Str) (hash : Option Str)
      (gecos home shell : Str) : Answers (.queryUser user wantHash) (.userEntry name uid group gid groups hash gecos home shell)
  | queryGroup (group name : Str) (gid : Int) (members : List Str) : Answers (.queryGroup group) (.groupEntry name gid members)
  | upload (file : Str) (content : Bytes) (mode owner group : Option Str) : Answers (.upload file content mode owner group) .ok
  | download (file : Str) (content : Bytes) : Answers (.download file) (.downloadResult content)

/-- Questions that have the answer that there is no such thing: it comes as a ValueError. -/
inductive AsksIfThere : Packet → Prop where
  | stat (path : Str) (follow hash : Bool) : AsksIfThere (.stat path follow hash)
  | queryUser (user : Str) (wantHash : Bool) : AsksIfThere (.queryUser user wantHash)
  | queryGroup (group : Str) : AsksIfThere (.queryGroup group)
  | download (file : Str) : AsksIfThere (.download file)

/-- Commands whose exit status is an answer: whether a package is there. -/
inductive StatusIsAnswer : Packet → Prop where
  | pacman (package : Str) (user group umask cwd : Option Str) :
      StatusIsAnswer (.processRun [p!"pacman", p!"-Ql", p!"--", package] none true user group umask cwd)

/-- A request fails, and with which exception: a command that ends with another status than zero, or that cannot be started; an
exception of the host or of the connection, unless it says that what was asked for is not there; and an answer of another kind. -/
inductive Fails : Packet → Except Exn Packet → Exn → Prop where
  | status (command : List Str) (stdin : Option Bytes) (capture : Bool) (user group umask cwd : Option Str) (out err : Option Bytes) (code : Int) :
      code ≠ 0 → ¬ StatusIsAnswer (.processRun command stdin capture user group umask cwd) →
      Fails (.processRun command stdin capture user group umask cwd) (.ok (.processCompleted out err code)) (.calledProcessError code out err)
  | unstarted (command : List Str) (stdin : Option Bytes) (capture : Bool) (user group umask cwd : Option Str) (message : Str) :
      Fails (.processRun command stdin capture user group umask cwd) (.ok (.processError message)) (.valueError message)
  | exception (request : Packet) (e : Exn) : ¬ (AsksIfThere request ∧ e.isValueError = true) → Fails request (.error e) e
  | nonsense (request answer : Packet) : ¬ Answers request answer →
      Fails request (.ok answer) (.ioError p!"Invalid response from remote dispatcher. This is a bug.")

/-- A request succeeds: a command ends with the status zero, and everything else is answered by what was asked for, or by there being no
such thing. -/
inductive Succeeds : Packet → Except Exn Packet → Prop where
  | run (command : List Str) (stdin : Option Bytes) (capture : Bool) (user group umask cwd : Option Str) (out err : Option Bytes) :
      Succeeds (.processRun command stdin capture user group umask cwd) (.ok (.processCompleted out err 0))
  | status (request : Packet) (out err : Option Bytes) (code : Int) : StatusIsAnswer request →
      Succeeds request (.ok (.processCompleted out err code))
  | answered (request answer : Packet) : Answers request answer → (∀ command stdin capture user group umask cwd, request ≠ .processRun command stdin capture user group umask cwd) →
      Succeeds request (.ok answer)
  | missing (request : Packet) (e : Exn) : AsksIfThere request → e.isValueError = true → Succeeds request (.error e)

/-- Nothing that fails passes unnoticed: every request but the last has succeeded, and if the last one has failed, what is raised is that
failure. -/
def Noticed {α : Type} (t : Trace) (r : Except Exn α) : Prop :=
  ∀ (before : Trace) (request : Packet) (answer : Except Exn Packet) (after : Trace), t = before ++ (request, answer) :: after →
    Succeeds request answer ∨ (after = [] ∧ ∃ e, Fails request answer e ∧ r = .error e)

end Verif.Ops
