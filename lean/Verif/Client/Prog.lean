/-
Programs that talk to the remote.

A program is a tree: it either returns, or sends a request packet and goes on depending on what comes back: a response
packet or an exception. Everything the controller does between two requests is part of the tree. Quantifying over all
paths of the tree is quantifying over every possible behaviour of the remote.
-/
import Verif.Wire.Packet
import Verif.Remote.Handle

namespace Verif.Client

open Wire (Packet)
open Remote (Sys World Server Step Reply)

/-- A program with result type `α`. -/
inductive Prog (α : Type) where
  | ret (a : α)
  | req (p : Packet) (k : Except Exn Packet → Prog α)

namespace Prog

def bind {α β : Type} : Prog α → (α → Prog β) → Prog β
  | ret a, f => f a
  | req p k, f => req p fun r => bind (k r) f

instance : Monad Prog where
  pure := ret
  bind := bind

/-- The complete executions of a program: the requests sent together with what came back, and the result. -/
inductive Runs {α : Type} : Prog α → List (Packet × Except Exn Packet) → α → Prop where
  | ret (a : α) : Runs (ret a) [] a
  | req (p : Packet) (k : Except Exn Packet → Prog α) (r : Except Exn Packet) (t : List (Packet × Except Exn Packet)) (a : α) :
      Runs (k r) t a → Runs (req p k) ((p, r) :: t) a

/-- Running a program against a remote that is given as a state transformer. -/
def run {α σ : Type} (remote : Packet → σ → Except Exn Packet × σ) : Prog α → σ → α × σ
  | ret a, s => (a, s)
  | req p k, s =>
    let r := remote p s
    run remote (k r.1) r.2

end Prog

/-! ### The remote, seen directly and through the tunnel -/

/-- What `receive_packet(conn, request=p)` makes of a response (tunnel_dispatcher.py:766-770): error packets become
exceptions. -/
def unpackResponse (request : Packet) : Packet → Except Exn Packet
  | .osError errno strerror msg => .error (.remoteOSError errno strerror msg)
  | .invalidField field msg =>
    match request.getattr field with
    | none => .error .attributeError
    | some v => .error (.valueError (Wire.invalidFieldMsg v field msg))
  | q => .ok q

/-- The error a client sees when the dispatcher is gone before it answered (tunnel_dispatcher.py:771-772). -/
def lostConnection : Exn := .ioError p!"Unexpected EOF in data stream"

/-- A specification of what a request does: the handler is executed in the remote world and its answer handed to the
caller. There is no encoding, stream or loop here. A handler that raises anything but an OSError ends the dispatcher. -/
def direct (sys : Sys) (p : Packet) (w : World) : Except Exn Packet × World :=
  match Remote.handle sys p w with
  | (.answer _ q, w') => (unpackResponse p q, w')
  | (.raise (.osError (some n) s m), w') => (.error (.remoteOSError n s m), w')
  | (.raise _, w') => (.error lostConnection, w')
  | (.close, w') => (.error lostConnection, w')

/-- `BrokenPipeError`: writing to a process that has ended. -/
def brokenPipe : Exn := .osError (some 32) p!"Broken pipe" p!"[Errno 32] Broken pipe"

/-- `TunnelConnector._request` (tunnel_connector.py:85-89) together with the dispatcher process at the other end of the
two pipes: the packet is written, the dispatcher handles what is in its input, the client reads the answer. The client is
synchronous: it does not write again before it has read. If serialising fails the bytes written so far stay in the pipe. -/
def tunnel (sys : Sys) (p : Packet) (s : Server) : Except Exn Packet × Server :=
  match Wire.writePacket p with
  | (b, some e) => (.error e, { s with input := s.input ++ b })
  | (b, none) =>
    if s.status = .next then
      let s' := Remote.serveOne sys { s with input := s.input ++ b }
      let r := Wire.receivePacket (some p) s'.output
      (r.1, { s' with output := r.2 })
    else (.error brokenPipe, s)

end Verif.Client
