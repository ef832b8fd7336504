/-
What is logged: /repo/src/fora/logger.py.
-/
import Verif.Py.Utf8

namespace Verif.Run
open Py

/-- `s[:k]`, Python's slice -/
def sliceTo (s : Str) (k : Int) : Str := if 0 ≤ k then s.take k.toNat else s.take ((s.length : Int) + k).toNat

/-- `ellipsis(s, width)`, logger.py:44-62. 0x2026 is the character `…`. -/
def ellipsis (s : Str) (width : Int) : Str := if (s.length : Int) > width then sliceTo s (width - 1) ++ [0x2026] else s

/-- `indent_prefix()`, logger.py:68-78, without colour. (A negative level gives an empty string.) -/
def indentPrefix (level : Int) : Str := (List.replicate level.toNat p!"  ").flatten

/-- `c.isprintable()`, only for code points up to 0xff: everything but the control characters 0x00-0x1f, 0x7f-0x9f, the no-break
space 0xa0 and the soft hyphen 0xad. -/
def isPrintable (c : Nat) : Bool := (0x20 ≤ c && c ≤ 0x7e) || (0xa1 ≤ c && c != 0xad)

/-- `escape_char(c)`, logger.py:163-171 -/
def escapeChar (c : Nat) : Str :=
  if c = 0 then p!"\\0"
  else if c = 10 then p!"\\n"
  else if c = 13 then p!"\\r"
  else if c = 9 then p!"\\t"
  else if !isPrintable c && c ≤ 0xff then p!"\\x" ++ [hexDigit (c / 16), hexDigit (c % 16)]
  else [c]

/-- `decode_escape(data)`, logger.py:138-172, with the default encoding. -/
def decodeEscapeLog (data : Bytes) : Str := ((decodeBackslash data).map escapeChar).flatten

end Verif.Run
