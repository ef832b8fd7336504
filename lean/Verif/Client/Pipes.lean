/-
The client, the dispatcher and the commands it runs as processes that run at the same time.

`Remote.serveOne` and `Client.tunnel` treat one request as one step. Here the same exchange is taken apart: the client and the
dispatcher write and read pieces of packets through two pipes of limited capacity, commands run step by step, and the
processes that commands leave behind go on while later requests are handled. The operating system chooses who is next.

Simplifications. Programs change the remote host when they are started, not while they run. The pipes that `subprocess`
creates for one command are unlimited: `communicate` empties and fills them at the same time. A process that outlives its
command finds the end of the file when it reads what is left of the input given to that command. Bytes that do not begin a
packet are never read by anybody; the programs would give up with an error.
-/
import Verif.Client.Lemmas

namespace Verif.Pipes

open Wire (Packet encoding)
open Remote (Sys World Proc ExecRes OSErr dispatch)
open Client (Prog unpackResponse)

/-- What a program does: it ends, prints something, asks for the next byte of its standard input (`none` is the end of the
file), starts another process and goes on, or stays around forever without doing anything. `stdin` and `stdout` of `fork`
say whether the new process inherits the standard input and the standard output (and error) of its parent; otherwise it has
`/dev/null` in their place. Nothing in this definition is fora code. -/
inductive Cmd where
  | exit (code : Int)
  | print (err : Bool) (b : Bytes) (k : Cmd)
  | read (k : Option UInt8 → Cmd)
  | fork (stdin stdout : Bool) (child k : Cmd)
  | stay

/-- How starting a program ends. -/
inductive Start where
  | failed (e : OSErr)
  | runs (c : Cmd) (w : World)

/-- The programs of a host. -/
abbrev Life := Proc → World → Start

/-- What a finished program has printed, and its exit code. -/
structure Outcome where
  out : Bytes
  err : Bytes
  code : Int
  deriving DecidableEq, Repr

/-- What a program prints and returns if its standard input consists of the given bytes. A program that stays forever has no
outcome; the value given for it is never used. -/
def Cmd.outcome : Cmd → Bytes → Outcome
  | .exit code, _ => { out := [], err := [], code }
  | .print false b k, i => { k.outcome i with out := b ++ (k.outcome i).out }
  | .print true b k, i => { k.outcome i with err := b ++ (k.outcome i).err }
  | .read k, [] => (k none).outcome []
  | .read k, x :: i => (k (some x)).outcome i
  | .fork _ _ _ k, i => k.outcome i
  | .stay, _ => { out := [], err := [], code := 0 }

/-- The host as the rest of the model sees it: running a command is one step. -/
def living (sys : Sys) (life : Life) : Sys :=
  { sys with
    exec := fun proc w =>
      match life proc w with
      | .failed e => (.failed e, w)
      | .runs c w' =>
        (.done (c.outcome (proc.stdin.getD [])).out (c.outcome (proc.stdin.getD [])).err (c.outcome (proc.stdin.getD [])).code, w') }

/-- Where a process reads from and prints to: `/dev/null`, the pipes made for its command, or the streams of the protocol. -/
inductive Stream where
  | null | own | wire
  deriving DecidableEq

/-- A process that was started by a command. -/
structure Child where
  prog : Cmd
  /-- it shares the standard input of the command -/
  stdin : Bool
  /-- it shares the standard output of the command -/
  stdout : Bool

/-- A command that the dispatcher waits for: `subprocess.run(self.command, input=self.stdin,
capture_output=self.capture_output, ...)` (tunnel_dispatcher.py:408-413). -/
structure Job where
  /-- `input` is not None: the standard input is a pipe with these bytes, otherwise it is that of the dispatcher -/
  given : Bool
  /-- `capture_output`: the output goes into pipes, otherwise it goes where that of the dispatcher goes -/
  captured : Bool
  main : Cmd
  /-- what is left of the input -/
  input : Bytes
  out : Bytes
  err : Bytes
  /-- the processes it has started -/
  kids : List Child

def Job.source (j : Job) (stdin : Bool) : Stream := if stdin then if j.given then .own else .wire else .null
def Job.sink (j : Job) (stdout : Bool) : Stream := if stdout then if j.captured then .own else .wire else .null

/-- What processes read and write. `up` holds what the client wrote and nobody has read, `down` what was written for the
client and not read yet; the others belong to the command that is running. -/
structure Mem where
  up : Bytes
  down : Bytes
  input : Bytes
  out : Bytes
  err : Bytes

/-- One step of a process that reads from `src` and prints to `dst`; pipes hold at most `cap` bytes. What a command prints
to the standard error of the dispatcher appears on the terminal of the user and is not modelled. -/
inductive Moves (cap : Nat) (src dst : Stream) : Mem → Cmd → Mem → Cmd → List Child → Prop where
  | printNull (m e b k) : dst = .null → Moves cap src dst m (.print e b k) m k []
  | printOut (m b k) : dst = .own → Moves cap src dst m (.print false b k) { m with out := m.out ++ b } k []
  | printErr (m b k) : dst = .own → Moves cap src dst m (.print true b k) { m with err := m.err ++ b } k []
  | printTerm (m b k) : dst = .wire → Moves cap src dst m (.print true b k) m k []
  | printWire (m c b k) : dst = .wire → c ≠ [] → m.down.length + c.length ≤ cap →
      Moves cap src dst m (.print false (c ++ b) k) { m with down := m.down ++ c } (.print false b k) []
  | printDone (m k) : dst = .wire → Moves cap src dst m (.print false [] k) m k []
  | readNull (m k) : src = .null → Moves cap src dst m (.read k) m (k none) []
  | readEnd (m k) : src = .own → m.input = [] → Moves cap src dst m (.read k) m (k none) []
  | readOwn (m k x i) : src = .own → m.input = x :: i → Moves cap src dst m (.read k) { m with input := i } (k (some x)) []
  /-- the client keeps its end open: without data the process waits -/
  | readWire (m k x u) : src = .wire → m.up = x :: u → Moves cap src dst m (.read k) { m with up := u } (k (some x)) []
  | fork (m stdin stdout c k) : Moves cap src dst m (.fork stdin stdout c k) m k [⟨c, stdin, stdout⟩]

/-- A child of a child shares what its parent shares. -/
def Child.under (parent c : Child) : Child :=
  { c with stdin := parent.stdin && c.stdin, stdout := parent.stdout && c.stdout }

/-- `TunnelConnector._request` (tunnel_connector.py:85-89) inside a program: between two requests, or busy with one. `left`
is what still has to be written; the answer is read only after that. -/
inductive Caller (α : Type) where
  | ready (prog : Prog α)
  | busy (left : Bytes) (p : Packet) (k : Except Exn Packet → Prog α)

/-- The loop of the dispatcher (tunnel_dispatcher.py:786-798): it writes an answer and then reads the next request, or waits
for a command, or has ended. -/
inductive Loop where
  | writing (left : Bytes)
  | running (j : Job)
  | dead

structure State (α : Type) where
  client : Caller α
  server : Loop
  up : Bytes
  down : Bytes
  /-- read from `up` by the dispatcher but not part of a packet it has received yet; `sys.stdin.buffer` reads ahead -/
  sbuf : Bytes
  /-- the same for the client -/
  cbuf : Bytes
  world : World
  /-- processes left behind by commands that have been answered; what they share are the streams of the protocol -/
  background : List Child

/-- The command that a request starts, if it starts one (tunnel_dispatcher.py:365-413). -/
def launched (sys : Sys) (life : Life) : Packet → World → Option (Proc × Cmd × World)
  | .processRun command stdin capture user group umask cwd, w =>
    match Client.plan sys command stdin capture user group umask cwd w with
    | .ok proc =>
      match life proc { w with started := proc :: w.started } with
      | .runs c w' => some (proc, c, w')
      | .failed _ => none
    | .error _ => none
  | _, _ => none

/-- The command as `subprocess.run` starts it (tunnel_dispatcher.py:408-413). -/
def Job.begin (proc : Proc) (c : Cmd) : Job :=
  { given := proc.stdin.isSome, captured := proc.capture, main := c, input := proc.stdin.getD [], out := [], err := [], kids := [] }

/-- The answer to a command that has ended (tunnel_dispatcher.py:422). -/
def Job.response (j : Job) (code : Int) : Packet :=
  if j.captured then .processCompleted (some j.out) (some j.err) code else .processCompleted none none code

/-- A process that outlives its command: of what it shared, only the streams of the protocol are left. -/
def Job.leave (j : Job) (c : Child) : Child :=
  { c with stdin := c.stdin && !j.given, stdout := c.stdout && !j.captured }

def State.mem {α : Type} (s : State α) (j : Job) : Mem :=
  { up := s.up, down := s.down, input := j.input, out := j.out, err := j.err }

def State.withMem {α : Type} (s : State α) (m : Mem) : State α := { s with up := m.up, down := m.down }

def Job.withMem (j : Job) (m : Mem) : Job := { j with input := m.input, out := m.out, err := m.err }

/-- For processes in the background there is no command any more. -/
def State.outside {α : Type} (s : State α) : Mem := { up := s.up, down := s.down, input := [], out := [], err := [] }

def shared (b : Bool) : Stream := if b then .wire else .null

/-- One step of the whole system. `cap` is the capacity of the two pipes. -/
inductive Step {α : Type} (sys : Sys) (life : Life) (cap : Nat) : State α → State α → Prop where
  /-- `conn.write_packet(packet)` begins (tunnel_connector.py:88) -/
  | submit (s p k) : s.client = .ready (.req p k) → (Wire.writePacket p).2 = none →
      Step sys life cap s { s with client := .busy (encoding p) p k }
  | send (s c left p k) : s.client = .busy (c ++ left) p k → c ≠ [] → s.up.length + c.length ≤ cap →
      Step sys life cap s { s with client := .busy left p k, up := s.up ++ c }
  /-- `td.receive_packet(self.conn, request=packet)` (tunnel_connector.py:89) waits for more -/
  | fetch (s p k c d) : s.client = .busy [] p k → s.down = c ++ d → c ≠ [] →
      Step sys life cap s { s with down := d, cbuf := s.cbuf ++ c }
  /-- ... and is complete -/
  | accept (s p k q r) : s.client = .busy [] p k → s.cbuf = encoding q ++ r → q.Sendable →
      Step sys life cap s { s with client := .ready (k (unpackResponse p q)), cbuf := r }
  /-- `packet = receive_packet(conn)` (tunnel_dispatcher.py:789) waits for more -/
  | take (s c u) : s.server = .writing [] → s.up = c ++ u → c ≠ [] →
      Step sys life cap s { s with up := u, sbuf := s.sbuf ++ c }
  /-- ... is complete, and the request is handled at once -/
  | handle (s p r b w) : s.server = .writing [] → s.sbuf = encoding p ++ r → p.Sendable → launched sys life p s.world = none →
      dispatch sys p s.world = ((b, .next), w) →
      Step sys life cap s { s with server := .writing b, sbuf := r, world := w }
  /-- ... or is the last one -/
  | quit (s p r b e w) : s.server = .writing [] → s.sbuf = encoding p ++ r → p.Sendable → launched sys life p s.world = none →
      dispatch sys p s.world = ((b, e), w) → e ≠ .next →
      Step sys life cap s { s with server := .dead, sbuf := r, world := w, down := s.down ++ b }
  /-- ... or starts a command -/
  | launch (s p r proc c w) : s.server = .writing [] → s.sbuf = encoding p ++ r → p.Sendable →
      launched sys life p s.world = some (proc, c, w) →
      Step sys life cap s { s with server := .running (.begin proc c), sbuf := r, world := w }
  | work (s j m c born) : s.server = .running j → Moves cap (j.source true) (j.sink true) (s.mem j) j.main m c born →
      Step sys life cap s { s.withMem m with server := .running { j.withMem m with main := c, kids := j.kids ++ born } }
  | kid (s j l x r m c born) : s.server = .running j → j.kids = l ++ x :: r →
      Moves cap (j.source x.stdin) (j.sink x.stdout) (s.mem j) x.prog m c born →
      Step sys life cap s
        { s.withMem m with server := .running { j.withMem m with kids := l ++ { x with prog := c } :: r ++ born.map x.under } }
  | kidEnds (s j l x r code) : s.server = .running j → j.kids = l ++ x :: r → x.prog = .exit code →
      Step sys life cap s { s with server := .running { j with kids := l ++ r } }
  /-- `subprocess.run` returns: the command has ended, and nobody keeps the pipes for its output open -/
  | answer (s j code) : s.server = .running j → j.main = .exit code →
      (j.captured = true → ∀ x ∈ j.kids, x.stdout = false) →
      Step sys life cap s
        { s with server := .writing (encoding (j.response code)), background := s.background ++ j.kids.map j.leave }
  | reply (s c left) : s.server = .writing (c ++ left) → c ≠ [] → s.down.length + c.length ≤ cap →
      Step sys life cap s { s with server := .writing left, down := s.down ++ c }
  | back (s l x r m c born) : s.background = l ++ x :: r →
      Moves cap (shared x.stdin) (shared x.stdout) s.outside x.prog m c born →
      Step sys life cap s { s.withMem m with background := l ++ { x with prog := c } :: r ++ born.map x.under }
  | backEnds (s l x r code) : s.background = l ++ x :: r → x.prog = .exit code →
      Step sys life cap s { s with background := l ++ r }

/-- `n` steps, in any order the operating system chooses. -/
inductive Steps {α : Type} (sys : Sys) (life : Life) (cap : Nat) : Nat → State α → State α → Prop where
  | refl (s) : Steps sys life cap 0 s s
  | step (n s t u) : Steps sys life cap n s t → Step sys life cap t u → Steps sys life cap (n + 1) s u

/-- A program is about to begin on an open connection. -/
def initial {α : Type} (prog : Prog α) (w : World) : State α :=
  { client := .ready prog, server := .writing [], up := [], down := [], sbuf := [], cbuf := [], world := w, background := [] }

end Verif.Pipes
