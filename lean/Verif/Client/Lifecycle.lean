/-
Opening and closing a connection.
Models /repo/src/fora/connectors/tunnel_connector.py:30-83 (`TunnelConnector.__init__`, `open`, `close`) and
/repo/src/fora/connection.py:26-53 (`Connection.__enter__`, `__exit__`, `_resolve_identity`), together with the `with`
statement. Logging is omitted. What the environment does at each step is an argument, so that theorems quantify over it.
-/
import Verif.Client.Prog
import Verif.Client.Connector

namespace Verif.Client.Lifecycle

/-- A connector with the background process it controls, and the host object. -/
structure State where
  /-- `connector.is_open` -/
  isOpen : Bool
  /-- `connector.process is not None` -/
  process : Bool
  /-- the latest process is running -/
  running : Bool
  /-- our end of the pipe to the latest process has not been closed -/
  pipeOpen : Bool
  /-- earlier processes that are still running but that nobody holds a reference to any more -/
  lost : Nat
  /-- `host.connection is not None` -/
  hostConnection : Bool
  deriving DecidableEq, Repr

/-- A connector that was just constructed (tunnel_connector.py:30-35). -/
def State.fresh : State :=
  { isOpen := false, process := false, running := false, pipeOpen := false, lost := 0, hostConnection := false }

/-- The number of background processes that are running. -/
def State.background (s : State) : Nat := s.lost + (if s.running then 1 else 0)

/-- What happens outside while a connection is opened. -/
structure OpenEnv where
  /-- the exception of `self.command()` or `subprocess.Popen`, if any -/
  popen : Option Exn
  /-- outcome of `self._request(PacketCheckAlive())` -/
  alive : Except Exn Wire.Packet
  /-- whether the process has died in the meantime -/
  died : Bool

/-- `open`, tunnel_connector.py:41-71. An exception in the `try` block passes through the `finally` block, which terminates
the process unless `is_open` is set. `terminate` ends the process (trusted). -/
def open' (env : OpenEnv) (s : State) : Except Exn Unit × State :=
  match env.popen with
  | some e => (.error e, s)
  | none =>
    let s := { s with process := true, running := !env.died, pipeOpen := true, lost := s.background }
    match env.alive with
    | .ok .ack => (.ok (), { s with isOpen := true })
    | r =>
      let e := match r with
        | .error e => e
        | .ok _ => unexpectedResponse
      if s.isOpen then (.error e, s)
      else (.error e, { s with running := false, process := false })

/-- Writing to a file object that was closed. -/
def closedFile : Exn := .valueError p!"write to closed file"

/-- `close`, tunnel_connector.py:73-83. Writing to a closed pipe is a ValueError, writing to a pipe whose reader has gone is
a BrokenPipeError. A process whose input is closed ends (trusted: the dispatcher does, see C07, and so does ssh), so that
`wait` returns. -/
def close (s : State) : Except Exn Unit × State :=
  if s.isOpen && !s.pipeOpen then (.error closedFile, s)
  else if s.isOpen && !s.running then (.error brokenPipe, s)
  else if s.process then (.ok (), { s with pipeOpen := false, running := false, process := false })
  else (.ok (), s)

/-- What happens outside while a `with` block is entered. -/
structure EnterEnv where
  opening : OpenEnv
  /-- the exception of `_resolve_identity` (two requests), if any -/
  identity : Option Exn

/-- `__enter__`, connection.py:31-35. -/
def enter (env : EnterEnv) (s : State) : Except Exn Unit × State :=
  match open' env.opening s with
  | (.error e, s) => (.error e, s)
  | (.ok _, s) =>
    let s := { s with hostConnection := true }
    match env.identity with
    | some e => (.error e, s)
    | none => (.ok (), s)

/-- `__exit__`, connection.py:37-40. -/
def exit (s : State) : Except Exn Unit × State := close { s with hostConnection := false }

/-- Things that can happen to the connection inside a block. -/
inductive Act where
  /-- the background process dies -/
  | die
  /-- the block closes the connection itself -/
  | close
  deriving DecidableEq

/-- A block: some things happen (an exception in between ends it), then it ends normally or with an exception. -/
def body : List Act → Option Exn → State → Except Exn Unit × State
  | [], none, s => (.ok (), s)
  | [], some e, s => (.error e, s)
  | .die :: as, o, s => body as o { s with running := false }
  | .close :: as, o, s =>
    match Lifecycle.close s with
    | (.error e, s) => (.error e, s)
    | (.ok _, s) => body as o s

/-- `with connection: block`. `__exit__` is called however the block ended; it returns None, so that an exception of the
block goes on; an exception of `__exit__` itself replaces it. -/
def withBlock (env : EnterEnv) (acts : List Act) (outcome : Option Exn) (s : State) : Except Exn Unit × State :=
  match enter env s with
  | (.error e, s) => (.error e, s)
  | (.ok _, s) =>
    let (r, s) := body acts outcome s
    match exit s with
    | (.error e, s) => (.error e, s)
    | (.ok _, s) => (r, s)

end Verif.Client.Lifecycle
