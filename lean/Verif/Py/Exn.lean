/-
The Python exceptions that occur in the modelled code.
-/
import Verif.Py.Str

namespace Verif

/-- An exception value. Only the data the code looks at is kept. `IOError` is an alias of `OSError` in Python 3. -/
inductive Exn where
  /-- `ValueError(msg)` -/
  | valueError (msg : Str)
  /-- `UnicodeEncodeError` / `UnicodeDecodeError`, subclasses of `ValueError` -/
  | unicodeError
  /-- `OSError` / `IOError` raised on this side. `errno` is `None` for an error raised with only a message. -/
  | osError (errno : Option Int) (strerror msg : Str)
  /-- `RemoteOSError`, tunnel_dispatcher.py:42-47 -/
  | remoteOSError (errno : Int) (strerror msg : Str)
  /-- `struct.error` -/
  | structError
  | keyError
  | indexError
  | attributeError
  | typeError
  | overflowError
  | zeroDivisionError
  | assertionError
  | runtimeError (msg : Str)
  | notImplemented
  /-- `subprocess.SubprocessError` other than `CalledProcessError` -/
  | subprocessError (msg : Str)
  /-- `subprocess.CalledProcessError` -/
  | calledProcessError (returncode : Int) (stdout stderr : Option Bytes)
  /-- `OperationError(msg)`, operations/api.py:16-17 -/
  | operationError (msg : Str)
  /-- any other exception raised by user code (a script, a template, an inventory module), identified by a number -/
  | other (n : Nat)
  deriving DecidableEq, Repr, Inhabited

namespace Exn

/-- `isinstance(e, ValueError)` -/
def isValueError : Exn → Bool
  | valueError _ | unicodeError => true
  | _ => false

/-- `isinstance(e, OSError)` (equivalently `IOError`) -/
def isOSError : Exn → Bool
  | osError .. => true
  | _ => false

/-- An `IOError` raised with just a message. -/
abbrev ioError (msg : Str) : Exn := osError none [] msg

end Exn
end Verif
