/-
Urls of hosts: inventory_wrapper.py, types.py, connectors/ssh.py and connectors/local.py.
-/
import Verif.Py.Exn

namespace Verif.Inventory

/-- `':' in url` etc. for a single character -/
def hasChar (c : Nat) (s : Str) : Bool := s.contains c

/-- `InventoryWrapper.qualify_url`, inventory_wrapper.py:299-322 -/
def qualifyUrl (url : Str) : Str := if hasChar 58 url then url else p!"ssh://" ++ url

/-- `s[s.find(c) + 1:]` if the character occurs, else `s` -/
def afterFirst (c : Nat) (s : Str) : Str :=
  match Py.splitOnce c s with
  | (_, some rest) => rest
  | (_, none) => s

/-- `SshConnector.extract_hostname`, connectors/ssh.py:54-73. `len(cls.schema) + 3` is 6. -/
def sshHostname (url : Str) : Except Exn Str :=
  if Py.startsWith url p!"ssh:" then .ok (Py.splitOnce 58 (afterFirst 64 (url.drop 6))).1
  else .error (.valueError p!"Cannot extract hostname from url without matching schema")

/-- `LocalConnector.extract_hostname`, connectors/local.py:37-42. `len(cls.schema) + 1` is 6. -/
def localHostname (url : Str) : Except Exn Str :=
  if Py.startsWith url p!"local:" then .ok (if url.drop 6 ≠ [] then url.drop 6 else p!"localhost")
  else .error (.valueError p!"Cannot extract hostname from url without matching schema")

/-- The connectors registered by `@connector(schema=...)`, connectors/connector.py:405-419, with both modules of the package
imported (connectors/ssh.py:13, connectors/local.py:12). User-defined connectors are not modelled. -/
inductive ConnectorClass where
  | ssh
  | «local»
  deriving DecidableEq, Repr

/-- `Connector.registered_connectors` -/
def registeredConnector (schema : Str) : Option ConnectorClass :=
  if schema = p!"ssh" then some .ssh else if schema = p!"local" then some .local else none

/-- `url.split(':')[0]` -/
def urlSchema (url : Str) : Str := (Py.splitOnce 58 url).1

/-- `InventoryWrapper.extract_hostname`, inventory_wrapper.py:324-351 -/
def extractHostname (url : Str) : Except Exn Str :=
  if hasChar 58 url then
    match registeredConnector (urlSchema url) with
    | none => .error (.valueError p!"Invalid url schema")
    | some .ssh => sshHostname url
    | some .local => localHostname url
  else .error (.valueError p!"The given url doesn't include a schema")

/-- The attributes of a host that `SshConnector.__init__` looks at, connectors/ssh.py:20-29. -/
structure SshHost where
  /-- `host.ssh_opts`, `[]` if there is no such attribute -/
  opts : List Str := []
  /-- `host.ssh_host`, if there is such an attribute -/
  host : Option Str := none
  /-- `host.ssh_port`, as formatted by an f-string -/
  port : Option Str := none

/-- `SshConnector.__init__`, connectors/ssh.py:17-29: the attribute `url`. -/
def sshUrl (url : Option Str) (host : SshHost) : Except Exn Str :=
  match url with
  | some url =>
    if Py.startsWith url p!"ssh:" then
      if Py.startsWith url p!"ssh://" then .ok url else .ok (p!"ssh://" ++ url.drop 4)
    else fromHost
  | none => fromHost
where
  /-- connectors/ssh.py:29 -/
  fromHost : Except Exn Str :=
    match host.host, host.port with
    | some h, some p => .ok (p!"ssh://" ++ h ++ p!":" ++ p)
    | _, _ => .error .attributeError

/-- `SshConnector.command`, connectors/ssh.py:31-52. `dispatcher` is the text of the last argument, which starts the dispatcher
on the host; it does not depend on the host. -/
def sshCommand (dispatcher : Str) (url : Option Str) (host : SshHost) : Except Exn (List Str) := do
  let url ← sshUrl url host
  .ok ([p!"ssh"] ++ host.opts ++ [url, dispatcher])

/-- `HostWrapper.create_connector`, types.py:256-284, for a host without explicit connector: the class that is used. The
exception is a `FatalError`. -/
def connectorOf (url : Option Str) : Except Exn ConnectorClass :=
  match url with
  | none => .error (.runtimeError p!"Url is None, but no explicit connector was specified")
  | some url =>
    if hasChar 58 url then
      match registeredConnector (urlSchema url) with
      | none => .error (.runtimeError p!"No connector found for schema")
      | some c => .ok c
    else .error (.runtimeError p!"Url doesn't include a schema and no connector was specified explicitly")

end Verif.Inventory
