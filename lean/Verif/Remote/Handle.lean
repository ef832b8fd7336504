/-
The dispatcher: request handlers and main loop.
Models /repo/src/fora/connectors/tunnel_dispatcher.py:73-151 (argument resolution), the `handle` methods :316-728, and
`_main` :774-798.
-/
import Verif.Remote.World
import Verif.Wire.Packet

namespace Verif.Remote

open Wire (Packet)

/-- `_resolve_oct`, tunnel_dispatcher.py:73-91. -/
def resolveOct (value : Str) : Except Exn Int :=
  match Py.parseInt 8 value with
  | some i => .ok i
  | none => .error (.valueError (p!"Invalid value '" ++ value ++ p!"': Must be in octal format."))

/-- `_resolve_user`, tunnel_dispatcher.py:93-121. The inner `except ValueError` also catches the ValueError raised for an
unknown uid, so both failures end with the second message. A NUL character makes `getpwnam` raise a ValueError, which
passes through. -/
def resolveUser (w : World) (user : Str) : Except Exn (Nat × Nat) :=
  match getpwnam w user with
  | .ok pw => .ok (pw.uid, pw.gid)
  | .error .keyError =>
    match Py.parseInt 10 user with
    | none => .error (.valueError (p!"The user with the name '" ++ user ++ p!"' does not exist."))
    | some uid =>
      match getpwuid w uid with
      | .ok pw => .ok (pw.uid, pw.gid)
      | .error _ => .error (.valueError (p!"The user with the name '" ++ user ++ p!"' does not exist."))
  | .error e => .error e

/-- `_resolve_group`, tunnel_dispatcher.py:123-151. -/
def resolveGroup (w : World) (group : Str) : Except Exn Nat :=
  match getgrnam w group with
  | .ok gr => .ok gr.gid
  | .error .keyError =>
    match Py.parseInt 10 group with
    | none => .error (.valueError (p!"The group with the name '" ++ group ++ p!"' does not exist."))
    | some gid =>
      match getgrgid w gid with
      | .ok gr => .ok gr.gid
      | .error _ => .error (.valueError (p!"The group with the name '" ++ group ++ p!"' does not exist."))
  | .error e => .error e

/-- How a handler ends: it writes one packet, it writes nothing and asks the loop to stop, or it raises. `raw` is what a
process it started wrote directly into the protocol stream before that. -/
inductive Reply where
  | answer (raw : Bytes) (p : Packet)
  | close
  | raise (e : Exn)
  deriving DecidableEq

/-- `str(e)` of the ValueErrors that handlers catch. -/
def valueErrorText : Exn → Str
  | .valueError m => m
  | _ => []

/-- `conn.write_packet(PacketInvalidField(field, str(e)))`. -/
def invalid (field : Str) (e : Exn) : Reply := .answer [] (.invalidField field (valueErrorText e))

/-- Resolves an optional argument; `none` stays `none`. -/
def optional {α β} (f : α → Except Exn β) : Option α → Except Exn (Option β)
  | none => .ok none
  | some a => match f a with
    | .ok b => .ok (some b)
    | .error e => .error e

/-- The message `subprocess` reports for any exception in `preexec_fn`. -/
def preexecMsg : Str := p!"Exception occurred in preexec_fn."

/-- `setresgid`/`setresuid` to one id: root may become anybody, others only stay who they are. -/
def maySetId (w : World) (current new : Nat) : Bool := w.uid == 0 || current == new

/-- `os.chdir(path)` by a process whose working directory is `from_`: the new working directory. -/
def osChdir (sys : Sys) (w : World) (from_ : Loc) (path : Str) : Except Exn Loc :=
  match guardCall sys w path (.chdir path) with
  | .error e => .error e
  | .ok _ =>
    match lookup w.fs from_ path true with
    | .error n => .error (osErr n path).exn
    | .ok (l, n) => if n.kind = .dir then .ok l else .error (osErr ENOTDIR path).exn

/-- The child side of `subprocess.run(..., cwd=cwd, preexec_fn=child_preexec)` up to `execve`:
first `chdir(cwd)` by subprocess (an OSError there is raised in the parent), then `child_preexec`
(tunnel_dispatcher.py:397-407): umask, gid, uid and once more `chdir(cwd)`, where any exception becomes a
SubprocessError. Note that a relative `cwd` is entered twice. -/
def startChild (sys : Sys) (w : World) (cwd : Option Str) (umask : Int) (uid gid : Option Nat) :
    Except Exn (Nat × Nat × Nat × Loc) :=
  match optional (osChdir sys w w.cwd) cwd with
  | .error e => .error e
  | .ok d =>
    if !fitsCInt umask then .error (.subprocessError preexecMsg)
    else if gid.any (fun g => !maySetId w w.gid g) then .error (.subprocessError preexecMsg)
    else if uid.any (fun u => !maySetId w w.uid u) then .error (.subprocessError preexecMsg)
    else
      match cwd with
      | none => .ok ((umask % 512).toNat, uid.getD w.uid, gid.getD w.gid, w.cwd)
      | some p =>
        match osChdir sys w (d.getD w.cwd) p with
        | .error _ => .error (.subprocessError preexecMsg)
        | .ok d' => .ok ((umask % 512).toNat, uid.getD w.uid, gid.getD w.gid, d')

/-- The group to use: the one given, otherwise the primary group of the user given (tunnel_dispatcher.py:378-391, 569-577). -/
def pickGid (g : Option Nat) (ug : Option (Nat × Nat)) : Option Nat :=
  match g with
  | some g => some g
  | none => ug.map (·.2)

/-- `PacketProcessRun.handle`, tunnel_dispatcher.py:365-422. Supplementary groups are those of the dispatcher: nothing in
the code changes them. Without `capture_output` the process writes into the dispatcher's own stdout, and the captured
values are `None`. -/
def handleRun (sys : Sys) (command : List Str) (stdin : Option Bytes) (capture : Bool) (user group umask cwd : Option Str)
    (w : World) : Reply × World :=
  match optional resolveOct umask with
  | .error e => (invalid p!"umask" e, w)
  | .ok umaskOct =>
    match optional (resolveUser w) user with
    | .error e => (invalid p!"user" e, w)
    | .ok ug =>
      match optional (resolveGroup w) group with
      | .error e => (invalid p!"group" e, w)
      | .ok g =>
        if cwd.any (fun c => !osIsdir sys w c) then
          (.answer [] (.invalidField p!"cwd" p!"The directory does not exist"), w)
        else
          match command with
          | [] => (.raise .indexError, w)
          | arg0 :: args =>
            if (arg0 :: args).any hasNul then (.raise nulError, w)
            else
              let uid := ug.map (·.1)
              let gid := pickGid g ug
              match startChild sys w cwd (umaskOct.getD 0o077) uid gid with
              | .error (.subprocessError m) => (.answer [] (.processError m), w)
              | .error e => (.raise e, w)
              | .ok (um, u, gi, dir) =>
                let proc : Proc := { argv := arg0 :: args, stdin := stdin, capture := capture, uid := u, gid := gi,
                                     supp := w.supp, umask := um, cwd := dir }
                match sys.exec proc { w with started := proc :: w.started } with
                | (.failed e, _) => (.raise e.exn, w)
                | (.done out err code, w') =>
                  if capture then (.answer [] (.processCompleted (some out) (some err) code), w')
                  else (.answer out (.processCompleted none none code), w')

/-- The chain of `S_IS*` tests, tunnel_dispatcher.py:453-460. `stMode / 4096` is the file type part of `st_mode`. -/
def ftype (stMode : Nat) : Str :=
  if stMode / 4096 = 4 then p!"dir"
  else if stMode / 4096 = 2 then p!"chr"
  else if stMode / 4096 = 6 then p!"blk"
  else if stMode / 4096 = 8 then p!"file"
  else if stMode / 4096 = 1 then p!"fifo"
  else if stMode / 4096 = 10 then p!"link"
  else if stMode / 4096 = 12 then p!"sock"
  else p!"other"

/-- `getpwuid(uid).pw_name`, or the number if there is no such user (tunnel_dispatcher.py:462-465). -/
def ownerName (w : World) (uid : Nat) : Str :=
  match getpwuid w uid with
  | .ok pw => pw.name
  | .error _ => Py.natStr 10 uid

/-- The same for groups (tunnel_dispatcher.py:467-470). -/
def groupName (w : World) (gid : Nat) : Str :=
  match getgrgid w gid with
  | .ok gr => gr.name
  | .error _ => Py.natStr 10 gid

/-- `e.errno == ENOENT` for an OSError. -/
def isENOENT : Exn → Bool
  | .osError (some n) _ _ => n == ENOENT
  | _ => false

/-- `str(e)` of an OSError. -/
def osErrorText : Exn → Str
  | .osError _ _ m => m
  | _ => []

/-- `PacketStat.handle`, tunnel_dispatcher.py:443-488. -/
def handleStat (sys : Sys) (path : Str) (follow sha : Bool) (w : World) : Reply × World :=
  match osStat sys w path follow with
  | .error e =>
    if isENOENT e then (.answer [] (.invalidField p!"path" (osErrorText e)), w) else (.raise e, w)
  | .ok s =>
    let ft := ftype s.stMode
    match (if sha && ft == p!"file" then optional (osRead sys w) (some path) else .ok none) with
    | .error e => (.raise e, w)
    | .ok sum =>
      (.answer [] (.statResult ft (s.stMode % 4096 : Nat) (ownerName w s.uid) (groupName w s.gid) (s.size : Nat)
        s.mtime s.ctime (sum.map sys.sha512)), w)

/-- `PacketResolveUser.handle`, tunnel_dispatcher.py:503-518. -/
def handleResolveUser (user : Option Str) (w : World) : Reply × World :=
  let user := user.getD (Py.natStr 10 w.uid)
  match getpwnam w user with
  | .ok pw => (.answer [] (.resolveResult pw.name), w)
  | .error .keyError =>
    match Py.parseInt 10 user with
    | none => (.answer [] (.invalidField p!"user" p!"The user does not exist"), w)
    | some uid =>
      match getpwuid w uid with
      | .ok pw => (.answer [] (.resolveResult pw.name), w)
      | .error _ => (.answer [] (.invalidField p!"user" p!"The user does not exist"), w)
  | .error e => (.raise e, w)

/-- `PacketResolveGroup.handle`, tunnel_dispatcher.py:528-543. -/
def handleResolveGroup (group : Option Str) (w : World) : Reply × World :=
  let group := group.getD (Py.natStr 10 w.gid)
  match getgrnam w group with
  | .ok gr => (.answer [] (.resolveResult gr.name), w)
  | .error .keyError =>
    match Py.parseInt 10 group with
    | none => (.answer [] (.invalidField p!"group" p!"The group does not exist"), w)
    | some gid =>
      match getgrgid w gid with
      | .ok gr => (.answer [] (.resolveResult gr.name), w)
      | .error _ => (.answer [] (.invalidField p!"group" p!"The group does not exist"), w)
  | .error e => (.raise e, w)

/-- The part of `PacketUpload.handle` after validation, tunnel_dispatcher.py:582-589. `uid or 0` is `uid` or, if it is
`None`, 0. -/
def doUpload (sys : Sys) (file : Str) (content : Bytes) (mode : Option Int) (uid gid : Option Nat) (w : World) :
    Reply × World :=
  match osWrite sys w file content with
  | (.error e, w1) => (.raise e, w1)
  | (.ok _, w1) =>
    match (match mode with
        | none => ((.ok () : Except Exn PUnit), w1)
        | some m => osChmod sys w1 file m) with
    | (.error e, w2) => (.raise e, w2)
    | (.ok _, w2) =>
      match (if uid.isSome || gid.isSome then osChown sys w2 file (uid.getD 0) (gid.getD 0) else (.ok (), w2)) with
      | (.error e, w3) => (.raise e, w3)
      | (.ok _, w3) => (.answer [] .ok, w3)

/-- `PacketUpload.handle`, tunnel_dispatcher.py:556-589. -/
def handleUpload (sys : Sys) (file : Str) (content : Bytes) (mode owner group : Option Str) (w : World) : Reply × World :=
  match optional resolveOct mode with
  | .error e => (invalid p!"mode" e, w)
  | .ok modeOct =>
    match optional (resolveUser w) owner with
    | .error e => (invalid p!"owner" e, w)
    | .ok ug =>
      match optional (resolveGroup w) group with
      | .error e => (invalid p!"group" e, w)
      | .ok g =>
        doUpload sys file content modeOct (ug.map (·.1)) (pickGid g ug) w

/-- `PacketDownload.handle`, tunnel_dispatcher.py:603-614. -/
def handleDownload (sys : Sys) (file : Str) (w : World) : Reply × World :=
  match osRead sys w file with
  | .error e => if isENOENT e then (.answer [] (.invalidField p!"file" (osErrorText e)), w) else (.raise e, w)
  | .ok c => (.answer [] (.downloadResult c), w)

/-- The part of `PacketQueryUser.handle` after the user was found, tunnel_dispatcher.py:658-680. -/
def userEntry (pw : PwEntry) (hash : Bool) (w : World) : Reply × World :=
  match (if hash then optional (getspnam w) (some pw.name) else .ok none) with
  | .error .keyError => (.answer [] (.invalidField p!"user" p!"The user has no shadow entry, or it is inaccessible."), w)
  | .error e => (.raise e, w)
  | .ok h =>
    let groups := (w.groups.filter fun g => g.members.contains pw.name).map (·.name)
    match getgrgid w pw.gid with
    | .error _ => (.answer [] (.invalidField p!"user" p!"The user's primary group doesn't exist"), w)
    | .ok g => (.answer [] (.userEntry pw.name pw.uid g.name pw.gid groups h pw.gecos pw.home pw.shell), w)

/-- `PacketQueryUser.handle`, tunnel_dispatcher.py:646-680. -/
def handleQueryUser (user : Str) (hash : Bool) (w : World) : Reply × World :=
  match getpwnam w user with
  | .ok pw => userEntry pw hash w
  | .error .keyError =>
    match Py.parseInt 10 user with
    | none => (.answer [] (.invalidField p!"user" p!"The user does not exist"), w)
    | some uid =>
      match getpwuid w uid with
      | .ok pw => userEntry pw hash w
      | .error _ => (.answer [] (.invalidField p!"user" p!"The user does not exist"), w)
  | .error e => (.raise e, w)

/-- `PacketQueryGroup.handle`, tunnel_dispatcher.py:698-711. -/
def handleQueryGroup (group : Str) (w : World) : Reply × World :=
  match getgrnam w group with
  | .ok gr => (.answer [] (.groupEntry gr.name gr.gid gr.members), w)
  | .error .keyError =>
    match Py.parseInt 10 group with
    | none => (.answer [] (.invalidField p!"group" p!"The group does not exist"), w)
    | some gid =>
      match getgrgid w gid with
      | .ok gr => (.answer [] (.groupEntry gr.name gr.gid gr.members), w)
      | .error _ => (.answer [] (.invalidField p!"group" p!"The group does not exist"), w)
  | .error e => (.raise e, w)

/-- `PacketGetenv.handle`, tunnel_dispatcher.py:725-727: `os.getenv(key)`. -/
def handleGetenv (key : Str) (w : World) : Reply × World :=
  (.answer [] (.environVar ((w.env.find? (·.1 == key)).map (·.2))), w)

/-- `packet.handle(conn)` (tunnel_dispatcher.py:796). The `handle` of a response packet is `_handle_response_packet`
(:253), a function without parameters that is called with two arguments: a TypeError. -/
def handle (sys : Sys) (p : Packet) (w : World) : Reply × World :=
  match p with
  | .checkAlive => (.answer [] .ack, w)
  | .exit => (.close, w)
  | .processRun command stdin capture user group umask cwd => handleRun sys command stdin capture user group umask cwd w
  | .stat path follow sha => handleStat sys path follow sha w
  | .resolveUser user => handleResolveUser user w
  | .resolveGroup group => handleResolveGroup group w
  | .upload file content mode owner group => handleUpload sys file content mode owner group w
  | .download file => handleDownload sys file w
  | .queryUser user hash => handleQueryUser user hash w
  | .queryGroup group => handleQueryGroup group w
  | .getenv key => handleGetenv key w
  | _ => (.raise .typeError, w)

/-- How one iteration of the loop in `_main` ends. -/
inductive Step where
  /-- go on with the next packet -/
  | next
  /-- PacketExit was received: the loop ends normally -/
  | closed
  /-- `receive_packet` raised IOError: `sys.exit(3)` -/
  | aborted
  /-- an exception nobody catches ends the process -/
  | crashed (e : Exn)
  deriving DecidableEq

/-- `conn.write_packet(p)` inside the loop: bytes written and, if `p` cannot be serialised, the crash. -/
def respond (raw : Bytes) (p : Packet) : Bytes × Step :=
  match Wire.writePacket p with
  | (b, none) => (raw ++ b, .next)
  | (b, some e) => (raw ++ b, .crashed e)

/-- Handling one packet: `packet.handle(conn)` with the `except OSError` of the loop (tunnel_dispatcher.py:795-798).
`i64(e.errno)` of an OSError without number is `None`, which cannot be packed. Returns what is written to the stream. -/
def dispatch (sys : Sys) (p : Packet) (w : World) : (Bytes × Step) × World :=
  match handle sys p w with
  | (.answer raw q, w') => (respond raw q, w')
  | (.close, w') => (([], .closed), w')
  | (.raise (.osError (some n) s m), w') => (respond [] (.osError n s m), w')
  | (.raise e, w') => (([], .crashed e), w')

/-- The state of the dispatcher process: unread input, output so far, and whether and how it ended. -/
structure Server where
  input : Bytes
  output : Bytes
  status : Step
  world : World

/-- One iteration of the loop in `_main`, tunnel_dispatcher.py:786-798, on the bytes that are available. -/
def serveOne (sys : Sys) (s : Server) : Server :=
  match Wire.receivePacket none s.input with
  | (.error e, rest) =>
    if e.isOSError then { s with input := rest, status := .aborted } else { s with input := rest, status := .crashed e }
  | (.ok p, rest) =>
    let r := dispatch sys p s.world
    { input := rest, output := s.output ++ r.1.1, status := r.1.2, world := r.2 }

/-- `_main`'s loop for at most `n` iterations. It goes on as long as the status is `next`. -/
def serve (sys : Sys) : Nat → Server → Server
  | 0, s => s
  | n + 1, s => if s.status = .next then serve sys n (serveOne sys s) else s

end Verif.Remote
