/-
The connector API on top of `_request`.
Models /repo/src/fora/connectors/tunnel_connector.py:12-24, 91-219 and the result types of
/repo/src/fora/connectors/connector.py:11-77. Every function is a program (see Prog.lean) with a Python result or
exception. (Opening and closing is modelled in Lifecycle.lean.)
-/
import Verif.Client.Prog

namespace Verif.Client

open Wire (Packet Kind)

/-- `CompletedRemoteCommand`, connector.py:11-21. -/
structure Completed where
  stdout : Option Bytes
  stderr : Option Bytes
  returncode : Int
  deriving DecidableEq, Repr

/-- `StatResult`, connector.py:23-45. -/
structure StatResult where
  type : Str
  mode : Str
  owner : Str
  group : Str
  size : Int
  mtime : Int
  ctime : Int
  sha512sum : Option Bytes
  deriving DecidableEq, Repr

/-- `UserEntry`, connector.py:47-67. -/
structure UserEntry where
  name : Str
  uid : Int
  group : Str
  gid : Int
  groups : List Str
  passwordHash : Option Str
  gecos : Str
  home : Str
  shell : Str
  deriving DecidableEq, Repr

/-- `GroupEntry`, connector.py:69-77. -/
structure GroupEntry where
  name : Str
  gid : Int
  members : List Str
  deriving DecidableEq, Repr

/-- The `IOError` of `_expect_response_packet` (tunnel_connector.py:12-24). The class name in the message is omitted. -/
def unexpectedResponse : Exn := .ioError p!"Invalid response from remote dispatcher. This is a bug."

/-- `oct(mode)[2:]` for the unsigned mode of a stat result (connector.py:39). -/
def octStr (mode : Int) : Str :=
  match mode with
  | .ofNat n => Py.natStr 8 n
  -- `oct(-5)[2:]` cuts `-0` and leaves `o5`
  | .negSucc n => 111 :: Py.natStr 8 (n + 1)

namespace Connector

/-- `run`, tunnel_connector.py:91-126. -/
def run (command : List Str) (input : Option Bytes := none) (captureOutput : Bool := true) (check : Bool := true)
    (user group umask cwd : Option Str := none) : Prog (Except Exn Completed) :=
  .req (.processRun command input captureOutput user group umask cwd) fun r =>
    .ret <| match r with
      | .error e => .error e
      | .ok (.processError message) => .error (.valueError message)
      | .ok (.processCompleted stdout stderr returncode) =>
        if check && returncode != 0 then .error (.calledProcessError returncode stdout stderr)
        else .ok { stdout, stderr, returncode }
      | .ok _ => .error unexpectedResponse

/-- `stat`, tunnel_connector.py:128-150. Any ValueError means that the file does not exist. -/
def stat (path : Str) (followLinks sha512sum : Bool := false) : Prog (Except Exn (Option StatResult)) :=
  .req (.stat path followLinks sha512sum) fun r =>
    .ret <| match r with
      | .error e => if e.isValueError then .ok none else .error e
      | .ok (.statResult type mode owner group size mtime ctime sha512sum) =>
        .ok (some { type, mode := octStr mode, owner, group, size, mtime, ctime, sha512sum })
      | .ok _ => .error unexpectedResponse

/-- `resolve_user`, tunnel_connector.py:152-157. -/
def resolveUser (user : Option Str) : Prog (Except Exn Str) :=
  .req (.resolveUser user) fun r =>
    .ret <| match r with
      | .error e => .error e
      | .ok (.resolveResult v) => .ok v
      | .ok _ => .error unexpectedResponse

/-- `resolve_group`, tunnel_connector.py:159-164. -/
def resolveGroup (group : Option Str) : Prog (Except Exn Str) :=
  .req (.resolveGroup group) fun r =>
    .ret <| match r with
      | .error e => .error e
      | .ok (.resolveResult v) => .ok v
      | .ok _ => .error unexpectedResponse

/-- `query_user`, tunnel_connector.py:166-180. -/
def queryUser (user : Str) (queryPasswordHash : Bool := false) : Prog (Except Exn UserEntry) :=
  .req (.queryUser user queryPasswordHash) fun r =>
    .ret <| match r with
      | .error e => .error e
      | .ok (.userEntry name uid group gid groups passwordHash gecos home shell) =>
        .ok { name, uid, group, gid, groups, passwordHash, gecos, home, shell }
      | .ok _ => .error unexpectedResponse

/-- `query_group`, tunnel_connector.py:182-190. -/
def queryGroup (group : Str) : Prog (Except Exn GroupEntry) :=
  .req (.queryGroup group) fun r =>
    .ret <| match r with
      | .error e => .error e
      | .ok (.groupEntry name gid members) => .ok { name, gid, members }
      | .ok _ => .error unexpectedResponse

/-- `getenv`, tunnel_connector.py:192-197. -/
def getenv (key : Str) : Prog (Except Exn (Option Str)) :=
  .req (.getenv key) fun r =>
    .ret <| match r with
      | .error e => .error e
      | .ok (.environVar value) => .ok value
      | .ok _ => .error unexpectedResponse

/-- `upload`, tunnel_connector.py:199-212. -/
def upload (file : Str) (content : Bytes) (mode owner group : Option Str := none) : Prog (Except Exn Unit) :=
  .req (.upload file content mode owner group) fun r =>
    .ret <| match r with
      | .error e => .error e
      | .ok .ok => .ok ()
      | .ok _ => .error unexpectedResponse

/-- `download`, tunnel_connector.py:214-219. -/
def download (file : Str) : Prog (Except Exn Bytes) :=
  .req (.download file) fun r =>
    .ret <| match r with
      | .error e => .error e
      | .ok (.downloadResult content) => .ok content
      | .ok _ => .error unexpectedResponse

end Connector
end Verif.Client
