/-
Specification vocabulary: commands that leave the connection alone.
-/
import Verif.Client.Pipes

namespace Verif.Pipes

open Wire (Packet)
open Remote (Sys World Proc)
open Client (Prog)

/-- A process that a command leaves behind does not touch what it shares with the command: it neither reads a shared
standard input nor prints to a shared standard output, and it does not keep a captured output open forever. -/
def Cmd.Aloof (captured : Bool) : (stdin stdout : Bool) → Cmd → Prop
  | _, _, .exit _ => True
  | i, o, .print _ _ k => o = false ∧ k.Aloof captured i o
  | i, o, .read k => i = false ∧ (k none).Aloof captured i o
  | i, o, .fork i' o' c k => c.Aloof captured (i && i') (o && o') ∧ k.Aloof captured i o
  | _, o, .stay => ¬ (o = true ∧ captured = true)

/-- A command that leaves the connection alone, whatever it reads: it reads its standard input only if it was given one,
prints to its standard output only if it is captured, ends, and leaves only such processes behind that do not touch what
they share with it. -/
def Cmd.Calm (given captured : Bool) : Cmd → Prop
  | .exit _ => True
  | .print err _ k => (err = false → captured = true) ∧ k.Calm given captured
  | .read k => given = true ∧ ∀ x, (k x).Calm given captured
  | .fork i o c k => c.Aloof captured i o ∧ k.Calm given captured
  | .stay => False

/-- A request does not start a command that disturbs the connection. -/
def Undisturbed (life : Life) : Packet → Prop
  | .processRun command stdin capture _ _ _ _ => ∀ (proc : Proc) (w w' : World) (c : Cmd),
      proc.argv = command → proc.stdin = stdin → proc.capture = capture → life proc w = .runs c w' → c.Calm stdin.isSome capture
  | _ => True

/-- The program has come to its end. -/
def State.Finished {α : Type} (s : State α) : Prop := ∃ a, s.client = .ready (.ret a)

/-- Nothing can happen any more. -/
def Stuck {α : Type} (sys : Sys) (life : Life) (cap : Nat) (s : State α) : Prop := ∀ t, ¬ Step sys life cap s t

/-- The connection is idle again: no request and no answer is under way. -/
def State.Quiet {α : Type} (s : State α) : Prop :=
  s.server = .writing [] ∧ s.up = [] ∧ s.down = [] ∧ s.sbuf = [] ∧ s.cbuf = []

/-- A command that comes to read its standard input, whatever is there; before that it only prints to a captured output and
starts processes that do not touch what they share with it. -/
def Cmd.Asks (captured : Bool) : Cmd → Prop
  | .exit _ => False
  | .print err _ k => (err = false → captured = true) ∧ k.Asks captured
  | .read _ => True
  | .fork i o c k => c.Aloof captured i o ∧ k.Asks captured
  | .stay => False

/-- A command that leaves a process behind that never ends and keeps the standard output it shares with the command. Apart
from that it leaves the connection alone. -/
def Cmd.Daemon (given : Bool) : Cmd → Prop
  | .exit _ => False
  | .print _ _ k => k.Daemon given
  | .read k => given = true ∧ ∀ x, (k x).Daemon given
  | .fork i o c k => (c.Aloof true i o ∧ k.Daemon given) ∨ (o = true ∧ c = .stay ∧ k.Calm given true)
  | .stay => False

/-- The first request of the program has not been answered. -/
def State.Waiting {α : Type} (s : State α) (p : Packet) (k : Except Exn Packet → Prog α) : Prop :=
  s.client = .ready (.req p k) ∨ ∃ left, s.client = .busy left p k

end Verif.Pipes
