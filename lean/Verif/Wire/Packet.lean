/-
The packets of the tunnel protocol, their registry, and reading and writing whole packets.
Models /repo/src/fora/connectors/tunnel_dispatcher.py:247-298 (registry, `_read_packet`, `_write_packet`, `@Packet`),
:303-728 (the field declarations of the packet classes) and :729-772 (`receive_packet`).
-/
import Verif.Wire.Codec

namespace Verif.Wire

/-- The packet classes (tunnel_dispatcher.py:303-728). -/
inductive Kind where
  | ok | ack | checkAlive | exit | osError | invalidField | processCompleted | processError | processRun
  | statResult | stat | resolveResult | resolveUser | resolveGroup | upload | downloadResult | download
  | userEntry | queryUser | groupEntry | queryGroup | environVar | getenv
  deriving DecidableEq, Repr

/-- The list `packets` (tunnel_dispatcher.py:250) after the module is loaded: the classes in the order in which the
`@Packet` decorator registered them (:293). -/
def packets : List Kind :=
  [.ok, .ack, .checkAlive, .exit, .osError, .invalidField, .processCompleted, .processError, .processRun,
   .statResult, .stat, .resolveResult, .resolveUser, .resolveGroup, .upload, .downloadResult, .download,
   .userEntry, .queryUser, .groupEntry, .queryGroup, .environVar, .getenv]

/-- `packet_id = u32(len(packets))` at registration (tunnel_dispatcher.py:282): the position in the registry. -/
def Kind.id (k : Kind) : Nat := packets.idxOf k

/-- The `type` argument of the `@Packet` decorator of each class. -/
def Kind.isRequest : Kind → Bool
  | .checkAlive | .exit | .processRun | .stat | .resolveUser | .resolveGroup | .upload | .download
  | .queryUser | .queryGroup | .getenv => true
  | _ => false

/-- `cls._fields` with the annotations of each packet class, in order. Line numbers as in the class declarations:
OSError 327-332, InvalidField 334-338, ProcessCompleted 340-347, ProcessError 349-352, ProcessRun 354-363,
StatResult 424-434, Stat 436-441, ResolveResult 490-493, ResolveUser 495-501, ResolveGroup 520-526,
Upload 545-554, DownloadResult 591-594, Download 596-601, UserEntry 616-636, QueryUser 638-644,
GroupEntry 682-690, QueryGroup 692-696, EnvironVar 713-717, Getenv 719-723. -/
def schema : Kind → List (Str × Ty)
  | .ok | .ack | .checkAlive | .exit => []
  | .osError => [(p!"errno", .i64), (p!"strerror", .str), (p!"msg", .str)]
  | .invalidField => [(p!"field", .str), (p!"error_message", .str)]
  | .processCompleted => [(p!"stdout", .opt .bytes), (p!"stderr", .opt .bytes), (p!"returncode", .i32)]
  | .processError => [(p!"message", .str)]
  | .processRun => [(p!"command", .list .str), (p!"stdin", .opt .bytes), (p!"capture_output", .bool),
      (p!"user", .opt .str), (p!"group", .opt .str), (p!"umask", .opt .str), (p!"cwd", .opt .str)]
  | .statResult => [(p!"type", .str), (p!"mode", .u64), (p!"owner", .str), (p!"group", .str), (p!"size", .u64),
      (p!"mtime", .u64), (p!"ctime", .u64), (p!"sha512sum", .opt .bytes)]
  | .stat => [(p!"path", .str), (p!"follow_links", .bool), (p!"sha512sum", .bool)]
  | .resolveResult => [(p!"value", .str)]
  | .resolveUser => [(p!"user", .opt .str)]
  | .resolveGroup => [(p!"group", .opt .str)]
  | .upload => [(p!"file", .str), (p!"content", .bytes), (p!"mode", .opt .str), (p!"owner", .opt .str),
      (p!"group", .opt .str)]
  | .downloadResult => [(p!"content", .bytes)]
  | .download => [(p!"file", .str)]
  | .userEntry => [(p!"name", .str), (p!"uid", .i64), (p!"group", .str), (p!"gid", .i64), (p!"groups", .list .str),
      (p!"password_hash", .opt .str), (p!"gecos", .str), (p!"home", .str), (p!"shell", .str)]
  | .queryUser => [(p!"user", .str), (p!"query_password_hash", .bool)]
  | .groupEntry => [(p!"name", .str), (p!"gid", .i64), (p!"members", .list .str)]
  | .queryGroup => [(p!"group", .str)]
  | .environVar => [(p!"value", .opt .str)]
  | .getenv => [(p!"key", .str)]

/-- The field values of a packet class, as a nested tuple. -/
@[reducible] def Vals : List (Str × Ty) → Type
  | [] => Unit
  | (_, t) :: ts => Val t × Vals ts

/-- A packet instance with named arguments. -/
inductive Packet where
  | ok | ack | checkAlive | exit
  | osError (errno : Int) (strerror msg : Str)
  | invalidField (field errorMessage : Str)
  | processCompleted (stdout stderr : Option Bytes) (returncode : Int)
  | processError (message : Str)
  | processRun (command : List Str) (stdin : Option Bytes) (captureOutput : Bool) (user group umask cwd : Option Str)
  | statResult (type : Str) (mode : Int) (owner group : Str) (size mtime ctime : Int) (sha512sum : Option Bytes)
  | stat (path : Str) (followLinks sha512sum : Bool)
  | resolveResult (value : Str)
  | resolveUser (user : Option Str)
  | resolveGroup (group : Option Str)
  | upload (file : Str) (content : Bytes) (mode owner group : Option Str)
  | downloadResult (content : Bytes)
  | download (file : Str)
  | userEntry (name : Str) (uid : Int) (group : Str) (gid : Int) (groups : List Str) (passwordHash : Option Str)
      (gecos home shell : Str)
  | queryUser (user : Str) (queryPasswordHash : Bool)
  | groupEntry (name : Str) (gid : Int) (members : List Str)
  | queryGroup (group : Str)
  | environVar (value : Option Str)
  | getenv (key : Str)
  deriving DecidableEq, Repr

/-- `type(packet)`. -/
def Packet.kind : Packet → Kind
  | .ok => .ok | .ack => .ack | .checkAlive => .checkAlive | .exit => .exit
  | .osError .. => .osError | .invalidField .. => .invalidField | .processCompleted .. => .processCompleted
  | .processError .. => .processError | .processRun .. => .processRun | .statResult .. => .statResult
  | .stat .. => .stat | .resolveResult .. => .resolveResult | .resolveUser .. => .resolveUser
  | .resolveGroup .. => .resolveGroup | .upload .. => .upload | .downloadResult .. => .downloadResult
  | .download .. => .download | .userEntry .. => .userEntry | .queryUser .. => .queryUser
  | .groupEntry .. => .groupEntry | .queryGroup .. => .queryGroup | .environVar .. => .environVar
  | .getenv .. => .getenv

/-- `getattr(packet, f) for f in cls._fields`. -/
def Packet.vals : (p : Packet) → Vals (schema p.kind)
  | .ok | .ack | .checkAlive | .exit => ()
  | .osError a b c => (a, b, c, ())
  | .invalidField a b => (a, b, ())
  | .processCompleted a b c => (a, b, c, ())
  | .processError a => (a, ())
  | .processRun a b c d e f g => (a, b, c, d, e, f, g, ())
  | .statResult a b c d e f g h => (a, b, c, d, e, f, g, h, ())
  | .stat a b c => (a, b, c, ())
  | .resolveResult a => (a, ())
  | .resolveUser a => (a, ())
  | .resolveGroup a => (a, ())
  | .upload a b c d e => (a, b, c, d, e, ())
  | .downloadResult a => (a, ())
  | .download a => (a, ())
  | .userEntry a b c d e f g h i => (a, b, c, d, e, f, g, h, i, ())
  | .queryUser a b => (a, b, ())
  | .groupEntry a b c => (a, b, c, ())
  | .queryGroup a => (a, ())
  | .environVar a => (a, ())
  | .getenv a => (a, ())

/-- `cls(**kwargs)`. -/
def Packet.ofVals : (k : Kind) → Vals (schema k) → Packet
  | .ok, _ => .ok
  | .ack, _ => .ack
  | .checkAlive, _ => .checkAlive
  | .exit, _ => .exit
  | .osError, (a, b, c, _) => .osError a b c
  | .invalidField, (a, b, _) => .invalidField a b
  | .processCompleted, (a, b, c, _) => .processCompleted a b c
  | .processError, (a, _) => .processError a
  | .processRun, (a, b, c, d, e, f, g, _) => .processRun a b c d e f g
  | .statResult, (a, b, c, d, e, f, g, h, _) => .statResult a b c d e f g h
  | .stat, (a, b, c, _) => .stat a b c
  | .resolveResult, (a, _) => .resolveResult a
  | .resolveUser, (a, _) => .resolveUser a
  | .resolveGroup, (a, _) => .resolveGroup a
  | .upload, (a, b, c, d, e, _) => .upload a b c d e
  | .downloadResult, (a, _) => .downloadResult a
  | .download, (a, _) => .download a
  | .userEntry, (a, b, c, d, e, f, g, h, i, _) => .userEntry a b c d e f g h i
  | .queryUser, (a, b, _) => .queryUser a b
  | .groupEntry, (a, b, c, _) => .groupEntry a b c
  | .queryGroup, (a, _) => .queryGroup a
  | .environVar, (a, _) => .environVar a
  | .getenv, (a, _) => .getenv a

/-- The fields of a packet, one after the other (tunnel_dispatcher.py:266-268). -/
def serFields : (fs : List (Str × Ty)) → Vals fs → W
  | [], _ => ([], none)
  | (_, t) :: ts, (v, vs) => W.seq (ser t v) (serFields ts vs)

/-- `_write_packet`, tunnel_dispatcher.py:264-269: the id, then the fields. (The final `flush` has no effect on what is
in the stream.) -/
def writePacket (p : Packet) : W :=
  W.seq (packU 4 p.kind.id) (serFields (schema p.kind) p.vals)

/-- `_read_packet`, tunnel_dispatcher.py:257-262. -/
def readFields : (fs : List (Str × Ty)) → R (Vals fs)
  | [], s => (.ok (), s)
  | (_, t) :: ts, s =>
    match deser t s with
    | (.error e, r) => (.error e, r)
    | (.ok v, r) =>
      match readFields ts r with
      | (.error e, r') => (.error e, r')
      | (.ok vs, r') => (.ok (v, vs), r')

/-- The message of the IOError for an unknown id (tunnel_dispatcher.py:757). -/
def invalidIdMsg (n : Int) : Str := p!"Received invalid packet id '" ++ Py.intStr n ++ p!"'"

/-- The packet-reading part of `receive_packet`, tunnel_dispatcher.py:754-765, without the exception mapping. -/
def readPacket : R Packet := fun s =>
  match readU 4 s with
  | (.error e, r) => (.error e, r)
  | (.ok n, r) =>
    match packets[n.toNat]? with
    | none => (.error (.ioError (invalidIdMsg n)), r)
    | some k =>
      match readFields (schema k) r with
      | (.error e, r') => (.error e, r')
      | (.ok vs, r') => (.ok (Packet.ofVals k vs), r')

/-- `f"{getattr(packet, field)}"` for the fields that hold strings. Fields of other types are never named in a
`PacketInvalidField`; they print as `?` here (simplification). `none` is `AttributeError`. (Simplification: attributes of
a NamedTuple that are not fields, such as methods, count as missing.) -/
def fieldText : (fs : List (Str × Ty)) → Vals fs → Str → Option Str
  | [], _, _ => none
  | (n, t) :: ts, (v, vs), name =>
    if n = name then
      some (match t, v with
        | .str, v => v
        | .opt .str, some v => v
        | .opt _, none => p!"None"
        | _, _ => p!"?")
    else fieldText ts vs name

/-- `getattr(request, field)` as text (tunnel_dispatcher.py:769). -/
def Packet.getattr (p : Packet) (field : Str) : Option Str := fieldText (schema p.kind) p.vals field

/-- The message of the ValueError raised for a `PacketInvalidField` (tunnel_dispatcher.py:769). -/
def invalidFieldMsg (value field message : Str) : Str :=
  p!"Invalid value '" ++ value ++ p!"' given for field '" ++ field ++ p!"': " ++ message

/-- `receive_packet(conn, request)`, tunnel_dispatcher.py:729-772. `request = none` is the server's call, where
`getattr(None, field)` raises `AttributeError`. Logging is omitted. -/
def receivePacket (request : Option Packet) : R Packet := fun s =>
  match readPacket s with
  | (.error .structError, r) => (.error (.ioError p!"Unexpected EOF in data stream"), r)
  | (.error e, r) => (.error e, r)
  | (.ok (.osError errno strerror msg), r) => (.error (.remoteOSError errno strerror msg), r)
  | (.ok (.invalidField field msg), r) =>
    match request.bind (·.getattr field) with
    | none => (.error .attributeError, r)
    | some v => (.error (.valueError (invalidFieldMsg v field msg)), r)
  | (.ok p, r) => (.ok p, r)

end Verif.Wire
