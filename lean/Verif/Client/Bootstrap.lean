/-
How the dispatcher is started on a host: /repo/src/fora/connectors/ssh.py:31-52, /repo/src/fora/connectors/local.py:26-38 and the
begin of `_main` in /repo/src/fora/connectors/tunnel_dispatcher.py:774-783.
-/
import Verif.Inventory.Url

namespace Verif.Client.Bootstrap

/-- The character for six bits in `base64.b64encode`. -/
def char64 (n : Nat) : UInt8 :=
  UInt8.ofNat (if n < 26 then 65 + n else if n < 52 then 97 + (n - 26) else if n < 62 then 48 + (n - 52) else if n = 62 then 43 else 47)

/-- `base64.b64encode` -/
def encode64 : Bytes → Bytes
  | [] => []
  | [a] => [char64 (a.toNat / 4), char64 (a.toNat % 4 * 16), 61, 61]
  | [a, b] => [char64 (a.toNat / 4), char64 (a.toNat % 4 * 16 + b.toNat / 16), char64 (b.toNat % 16 * 4), 61]
  | a :: b :: c :: r =>
    char64 (a.toNat / 4) :: char64 (a.toNat % 4 * 16 + b.toNat / 16) :: char64 (b.toNat % 16 * 4 + c.toNat / 64) :: char64 (c.toNat % 64) :: encode64 r

/-- `.decode('ascii')`, for the output of `b64encode`, which is ASCII. -/
def ascii (b : Bytes) : Str := b.map (·.toNat)

/-- The program that decompresses the dispatcher on the host, ssh.py:50. -/
def decompressor : Str := p!"import zlib,sys;sys.stdout.buffer.write(zlib.decompress(sys.stdin.buffer.read()))"

/-- The last argument of the command, ssh.py:41-50. `source` is the content of the file of the dispatcher, `compress` is
`zlib.compress(.., 9)`, `debug` is `fora.args.debug`. -/
def remoteCommand (compress : Bytes → Bytes) (source : Bytes) (debug : Bool) : Str :=
  let tunnelDispatcher := ascii (encode64 (compress source))
  let paramDebug := if debug then p!"--debug" else []
  p!"env python3 -c \"$(echo '" ++ tunnelDispatcher ++ p!"' | base64 -d | python -c '" ++ decompressor ++ p!"')\" " ++ paramDebug

/-- `SshConnector.command`, ssh.py:31-52. -/
def sshCommand (compress : Bytes → Bytes) (source : Bytes) (debug : Bool) (url : Option Str) (host : Inventory.SshHost) : Except Exn (List Str) :=
  Inventory.sshCommand (remoteCommand compress source debug) url host

/-- `LocalConnector.command`, local.py:26-38. `path` is the real path of the file of the dispatcher. -/
def localCommand (path : Str) (debug : Bool) : List Str := [p!"python3", path] ++ if debug then [p!"--debug"] else []

/-- The variable `debug` of the dispatcher, tunnel_dispatcher.py:781: `len(sys.argv) > 1 and sys.argv[1] == "--debug"`. -/
def debugWanted (sysArgv : List Bytes) : Bool := sysArgv.length > 1 && sysArgv[1]? == some b!"--debug"

end Verif.Client.Bootstrap
