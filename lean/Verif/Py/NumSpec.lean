/-
What a number looks like, as `int(text, base)` accepts it.
-/
import Verif.Py.Str

namespace Verif.Py

/-- The character is a decimal digit with this value. -/
def IsDigit (c d : Nat) : Prop := d < 10 ∧ ∃ z ∈ digitZeros, c = z + d

/-- One digit or more, with at most one underscore between two digits, and the number that they denote. -/
inductive Digits (base : Nat) : Str → Nat → Prop where
  | one {c d : Nat} (h : IsDigit c d) (hb : d < base) : Digits base [c] d
  | more {s : Str} {n c d : Nat} (hs : Digits base s n) (h : IsDigit c d) (hb : d < base) : Digits base (s ++ [c]) (n * base + d)
  | under {s : Str} {n c d : Nat} (hs : Digits base s n) (h : IsDigit c d) (hb : d < base) : Digits base (s ++ [95, c]) (n * base + d)

/-- White space, a sign, for octal numbers the prefix `0o` and an underscore, all of which may be missing, then digits, then white
space. -/
def IsNumber (base : Nat) (text : Str) (i : Int) : Prop :=
  ∃ pre sign lead body post n, text = pre ++ sign ++ lead ++ body ++ post ∧ (∀ c ∈ pre ++ post, isSpace c = true) ∧ sign ∈ [[], p!"+", p!"-"]
    ∧ (lead = [] ∨ base = 8 ∧ lead ∈ [p!"0o", p!"0O", p!"0o_", p!"0O_"]) ∧ Digits base body n ∧ i = if sign = p!"-" then -(n : Int) else n

end Verif.Py
