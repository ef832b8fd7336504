/-
UTF-8 as Python implements it: `str.encode("utf-8")`, `bytes.decode("utf-8")` (strict) and the
`errors="surrogateescape"` variants. This file models Python, not fora.
-/
import Verif.Py.Str

namespace Verif.Py

/-- Lone surrogates, which strict UTF-8 refuses. -/
def isSurrogate (c : Nat) : Bool := 0xD800 ≤ c && c ≤ 0xDFFF

/-- Strict UTF-8 encoding of one code point; `none` is `UnicodeEncodeError`. -/
def encodeChar (c : Nat) : Option Bytes :=
  if c < 0x80 then some [UInt8.ofNat c]
  else if c < 0x800 then some [UInt8.ofNat (0xC0 + c / 64), UInt8.ofNat (0x80 + c % 64)]
  else if c < 0x10000 then
    if isSurrogate c then none
    else some [UInt8.ofNat (0xE0 + c / 4096), UInt8.ofNat (0x80 + c / 64 % 64), UInt8.ofNat (0x80 + c % 64)]
  else if c < 0x110000 then
    some [UInt8.ofNat (0xF0 + c / 262144), UInt8.ofNat (0x80 + c / 4096 % 64),
          UInt8.ofNat (0x80 + c / 64 % 64), UInt8.ofNat (0x80 + c % 64)]
  else none

/-- `s.encode("utf-8")`; `none` is `UnicodeEncodeError`. -/
def encodeUtf8 : Str → Option Bytes
  | [] => some []
  | c :: cs =>
    match encodeChar c with
    | none => none
    | some b => (encodeUtf8 cs).map (b ++ ·)

/-- Is `n` a continuation byte in `[lo, hi]`? -/
def inRange (lo hi n : Nat) : Bool := lo ≤ n && n ≤ hi

/-- Smallest second byte of a three-byte sequence (excludes over-long forms). -/
def lo3 (n0 : Nat) : Nat := if n0 = 0xE0 then 0xA0 else 0x80
/-- Largest second byte of a three-byte sequence (excludes surrogates). -/
def hi3 (n0 : Nat) : Nat := if n0 = 0xED then 0x9F else 0xBF
/-- Smallest second byte of a four-byte sequence (excludes over-long forms). -/
def lo4 (n0 : Nat) : Nat := if n0 = 0xF0 then 0x90 else 0x80
/-- Largest second byte of a four-byte sequence (excludes values above 0x10FFFF). -/
def hi4 (n0 : Nat) : Nat := if n0 = 0xF4 then 0x8F else 0xBF

/-- Decodes one code point from the front; `none` if the bytes do not start with a well-formed sequence
(over-long forms, surrogates and values above 0x10FFFF are ill-formed) or are empty. -/
def decodeChar : Bytes → Option (Nat × Bytes)
  | [] => none
  | b0 :: r0 =>
    let n0 := b0.toNat
    if n0 < 0x80 then some (n0, r0)
    else if n0 < 0xC2 then none
    else if n0 < 0xE0 then
      match r0 with
      | b1 :: r1 => if inRange 0x80 0xBF b1.toNat then some ((n0 - 0xC0) * 64 + (b1.toNat - 0x80), r1) else none
      | [] => none
    else if n0 < 0xF0 then
      match r0 with
      | b1 :: b2 :: r2 =>
        if inRange (lo3 n0) (hi3 n0) b1.toNat && inRange 0x80 0xBF b2.toNat then
          some ((n0 - 0xE0) * 4096 + (b1.toNat - 0x80) * 64 + (b2.toNat - 0x80), r2)
        else none
      | _ => none
    else if n0 < 0xF5 then
      match r0 with
      | b1 :: b2 :: b3 :: r3 =>
        if inRange (lo4 n0) (hi4 n0) b1.toNat && inRange 0x80 0xBF b2.toNat && inRange 0x80 0xBF b3.toNat then
          some ((n0 - 0xF0) * 262144 + (b1.toNat - 0x80) * 4096 + (b2.toNat - 0x80) * 64 + (b3.toNat - 0x80), r3)
        else none
      | _ => none
    else none

/-- Worker of `decodeUtf8`; the first argument is fuel. -/
def decodeUtf8Aux : Nat → Bytes → Option Str
  | _, [] => some []
  | 0, _ :: _ => none
  | f + 1, b :: bs =>
    match decodeChar (b :: bs) with
    | none => none
    | some (c, r) => (decodeUtf8Aux f r).map (c :: ·)

/-- `b.decode("utf-8")`; `none` is `UnicodeDecodeError`. -/
def decodeUtf8 (b : Bytes) : Option Str := decodeUtf8Aux b.length b

/-- Worker of `decodeEscape`; the first argument is fuel. -/
def decodeEscapeAux : Nat → Bytes → Str
  | _, [] => []
  | 0, _ :: _ => []
  | f + 1, b :: bs =>
    match decodeChar (b :: bs) with
    | none => (0xDC00 + b.toNat) :: decodeEscapeAux f bs
    | some (c, r) => c :: decodeEscapeAux f r

/-- `b.decode("utf-8", errors="surrogateescape")`: never fails; each undecodable byte `b` becomes the
surrogate `0xDC00 + b`. CPython hands a whole ill-formed run of up to three bytes to the error handler; as the
bytes after the first one of such a run are continuation bytes, escaping byte by byte gives the same result. -/
def decodeEscape (b : Bytes) : Str := decodeEscapeAux b.length b

/-- One code point of `encodeEscape`. -/
def encodeEscapeChar (c : Nat) : Option Bytes :=
  if 0xDC80 ≤ c ∧ c ≤ 0xDCFF then some [UInt8.ofNat (c - 0xDC00)] else encodeChar c

/-- `s.encode("utf-8", errors="surrogateescape")`; `none` is `UnicodeEncodeError`. -/
def encodeEscape : Str → Option Bytes
  | [] => some []
  | c :: cs =>
    match encodeEscapeChar c with
    | none => none
    | some b => (encodeEscape cs).map (b ++ ·)

/-- Worker of `decodeIgnore`; the first argument is fuel. -/
def decodeIgnoreAux : Nat → Bytes → Str
  | 0, _ => []
  | _ + 1, [] => []
  | f + 1, b :: r =>
    match decodeChar (b :: r) with
    | some (c, r') => c :: decodeIgnoreAux f r'
    | none => decodeIgnoreAux f r

/-- `bytes.decode("utf-8", errors="ignore")`. (CPython skips a maximal invalid sequence at once; its other bytes are
continuation bytes, which are skipped one by one here, with the same result.) -/
def decodeIgnore (b : Bytes) : Str := decodeIgnoreAux b.length b

/-- A hexadecimal digit in lower case. -/
def hexDigit (n : Nat) : Nat := if n < 10 then 48 + n else 87 + n

/-- Worker of `decodeBackslash`; the first argument is fuel. -/
def decodeBackslashAux : Nat → Bytes → Str
  | 0, _ => []
  | _ + 1, [] => []
  | f + 1, b :: r =>
    match decodeChar (b :: r) with
    | some (c, r') => c :: decodeBackslashAux f r'
    | none => p!"\\x" ++ [hexDigit (b.toNat / 16), hexDigit (b.toNat % 16)] ++ decodeBackslashAux f r

/-- `bytes.decode("utf-8", errors="backslashreplace")`. -/
def decodeBackslash (b : Bytes) : Str := decodeBackslashAux b.length b

end Verif.Py
