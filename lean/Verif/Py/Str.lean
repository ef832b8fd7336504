/-
Python strings and the built-in string functions that fora relies on.

This file models *Python*, not fora: it is the vocabulary the rest of the model is written in.
A Python `str` is a sequence of code points, which may include lone surrogates
(`bytes.decode(errors="surrogateescape")` creates them), so neither Lean's `String` nor `Char` fits.
-/

namespace Verif

/-- A Python `str`: the list of its code points. Lone surrogates (0xD800-0xDFFF) are allowed.
Python guarantees code points below 0x110000; the functions below treat anything above as unencodable. -/
abbrev Str := List Nat

/-- A Python `bytes`. -/
abbrev Bytes := List UInt8

open Lean in
/-- `p!"abc"` is the literal `[97, 98, 99] : Str`. Expanded at elaboration time, so that closed terms
built from it evaluate in the kernel. -/
macro:max "p!" s:str : term => do
  let cs : Array (TSyntax `term) := (s.getString.toList.map fun c => (Syntax.mkNumLit (toString c.toNat) : TSyntax `term)).toArray
  `(([$[$cs],*] : Str))

open Lean in
/-- `b!"abc"` is the literal byte string (for ASCII text). -/
macro:max "b!" s:str : term => do
  let cs : Array (TSyntax `term) := (s.getString.toList.map fun c => (Syntax.mkNumLit (toString c.toNat) : TSyntax `term)).toArray
  `(([$[$cs],*] : Bytes))

namespace Py

/-- `str.isspace` for one code point (Unicode 14): what `str.strip()` removes. -/
def isSpace (c : Nat) : Bool :=
  (9 ≤ c && c ≤ 13) || (28 ≤ c && c ≤ 32) || c == 0x85 || c == 0xA0 || c == 0x1680
  || (0x2000 ≤ c && c ≤ 0x200A) || c == 0x2028 || c == 0x2029 || c == 0x202F || c == 0x205F || c == 0x3000

/-- `str.strip()` without argument. -/
def strip (s : Str) : Str :=
  ((s.dropWhile isSpace).reverse.dropWhile isSpace).reverse

/-- The code points at which `str.splitlines()` breaks. -/
def isLineBreak (c : Nat) : Bool :=
  c == 10 || c == 11 || c == 12 || c == 13 || c == 0x1C || c == 0x1D || c == 0x1E
  || c == 0x85 || c == 0x2028 || c == 0x2029

/-- Worker of `splitlines`; `acc` is the current line, reversed. -/
def splitlinesAux : Str → Str → List Str
  | [], acc => if acc = [] then [] else [acc.reverse]
  | c :: cs, acc =>
    if isLineBreak c then
      match c, cs with
      | 13, 10 :: cs' => acc.reverse :: splitlinesAux cs' []
      | _, cs => acc.reverse :: splitlinesAux cs []
    else splitlinesAux cs (c :: acc)

/-- `str.splitlines()` with `keepends=False`; `"\r\n"` is one line break. -/
def splitlines (s : Str) : List Str := splitlinesAux s []

/-- `sep.join(parts)`. -/
def join (sep : Str) : List Str → Str
  | [] => []
  | [x] => x
  | x :: y :: r => x ++ sep ++ join sep (y :: r)

/-- `s.startswith(prefix)`. -/
def startsWith (s pre : Str) : Bool := pre.isPrefixOf s

/-- `s.endswith(suffix)`. -/
def endsWith (s suf : Str) : Bool := suf.isSuffixOf s

/-- `s.split(c, 1)` for a one-character separator: the part before the first `c` and, if `c` occurs, the part after it. -/
def splitOnce (c : Nat) : Str → Str × Option Str
  | [] => ([], none)
  | x :: xs =>
    if x = c then ([], some xs)
    else
      let r := splitOnce c xs
      (x :: r.1, r.2)

/-- First code points of the blocks of Unicode decimal digits (category Nd, Unicode 14). Each block holds
the ten digits in order. `int()` accepts all of them. -/
def digitZeros : List Nat :=
  [48, 1632, 1776, 1984, 2406, 2534, 2662, 2790, 2918, 3046, 3174, 3302, 3430, 3558, 3664, 3792, 3872, 4160,
   4240, 6112, 6160, 6470, 6608, 6784, 6800, 6992, 7088, 7232, 7248, 42528, 43216, 43264, 43472, 43504, 43600,
   44016, 65296, 66720, 68912, 69734, 69872, 69942, 70096, 70384, 70736, 70864, 71248, 71360, 71472, 71904,
   72016, 72784, 73040, 73120, 92768, 92864, 93008, 120782, 120792, 120802, 120812, 120822, 123200, 123632,
   125264, 130032]

/-- The decimal value of a digit character. -/
def digitVal (c : Nat) : Option Nat :=
  (digitZeros.find? fun z => z ≤ c && c < z + 10).map fun z => c - z

/-- Digits with single underscores between them, as `int()` accepts them. `prev` tells whether the previous
character was a digit. -/
def parseDigits (base : Nat) : Str → Nat → Bool → Option Nat
  | [], acc, prev => if prev then some acc else none
  | c :: cs, acc, prev =>
    if c = 95 then (if prev then parseDigits base cs acc false else none)
    else match digitVal c with
      | none => none
      | some d => if d < base then parseDigits base cs (acc * base + d) true else none

/-- The unsigned part of `int(s, base)` for `base` 8 or 10: an optional `0o`/`0O` prefix (base 8 only), after which
one underscore is allowed, and digits. -/
def parseNat (base : Nat) (s : Str) : Option Nat :=
  if base = 8 then
    match s with
    | 48 :: 111 :: r => parseDigits base (match r with | 95 :: r' => r' | r => r) 0 false
    | 48 :: 79 :: r => parseDigits base (match r with | 95 :: r' => r' | r => r) 0 false
    | s => parseDigits base s 0 false
  else parseDigits base s 0 false

/-- `int(s, base)` for `base` 8 or 10; `none` is `ValueError`. Surrounding white space and a sign are accepted.
Simplification: CPython's limit on the number of digits (4300, added in 3.11) is not modelled. -/
def parseInt (base : Nat) (s : Str) : Option Int :=
  match strip s with
  | 45 :: r => (parseNat base r).map fun n => -(n : Int)
  | 43 :: r => (parseNat base r).map fun n => (n : Int)
  | r => (parseNat base r).map fun n => (n : Int)

/-- Digits of `n` in base `b`, least significant first. The first argument is fuel. -/
def digitsAux (b : Nat) : Nat → Nat → List Nat
  | 0, _ => []
  | f + 1, n => if n < b then [n] else n % b :: digitsAux b f (n / b)

/-- The digits of `n` in base `b` as a string, as `str(n)` (`b = 10`) and `oct(n)[2:]` (`b = 8`) print them. -/
def natStr (b n : Nat) : Str := ((digitsAux b (n + 1) n).map (· + 48)).reverse

/-- `str(i)` for an integer. -/
def intStr : Int → Str
  | .ofNat n => natStr 10 n
  | .negSucc n => 45 :: natStr 10 (n + 1)

end Py
end Verif
