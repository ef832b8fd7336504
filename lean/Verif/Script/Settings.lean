/-
Remote execution settings.
Models /repo/src/fora/remote_settings.py:25-64 and the mode handling of /repo/src/fora/types.py:405-406.
-/
import Verif.Client.Connector

namespace Verif.Script

/-- `RemoteSettings`, remote_settings.py:25-38. -/
structure Settings where
  asUser : Option Str := none
  asGroup : Option Str := none
  owner : Option Str := none
  group : Option Str := none
  fileMode : Option Str := none
  dirMode : Option Str := none
  umask : Option Str := none
  cwd : Option Str := none
  deriving DecidableEq, Repr

/-- `a if b is None else b` -/
def pick (a b : Option Str) : Option Str :=
  match b with
  | none => a
  | some x => some x

/-- `self.overlay(settings)`, remote_settings.py:41-64. -/
def Settings.overlay (self settings : Settings) : Settings :=
  { asUser := pick self.asUser settings.asUser
    asGroup := pick self.asGroup settings.asGroup
    owner := pick self.owner settings.owner
    group := pick self.group settings.group
    fileMode := pick self.fileMode settings.fileMode
    dirMode := pick self.dirMode settings.dirMode
    umask := pick self.umask settings.umask
    cwd := pick self.cwd settings.cwd }

/-- The message of the `ValueError` of `int(s, 8)`. (`repr(s)` is simplified.) -/
def badLiteral (s : Str) : Exn := .valueError (p!"invalid literal for int() with base 8: '" ++ s ++ p!"'")

/-- `canonicalize_mode`, types.py:404-405: `None if mode is None else oct(int(mode, 8))[2:]`. -/
def canonicalizeMode : Option Str → Except Exn (Option Str)
  | none => .ok none
  | some m =>
    match Py.parseInt 8 m with
    | none => .error (badLiteral m)
    | some i => .ok (some (Client.octStr i))

/-- The `RemoteSettings(...)` of `defaults`, types.py:407-415. -/
def canonicalize (s : Settings) : Except Exn Settings :=
  match canonicalizeMode s.fileMode with
  | .error e => .error e
  | .ok fileMode =>
    match canonicalizeMode s.dirMode with
    | .error e => .error e
    | .ok dirMode =>
      match canonicalizeMode s.umask with
      | .error e => .error e
      | .ok umask => .ok { s with fileMode, dirMode, umask }

end Verif.Script
