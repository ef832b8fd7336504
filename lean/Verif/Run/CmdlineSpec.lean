/-
What a command line means.
-/
import Verif.Run.Cmdline

namespace Verif.Run

/-- What a user may ask for. The options `--help`, `--version`, `--init` and `--inspect-inventory` are not among these: with them the
program does not run a script. -/
inductive Wish where
  | dry | verbose | noChanges | diff | debug | noColor
  | hosts (v : Str)
  | operand (v : Str)
  deriving DecidableEq

/-- The names of the wishes without a value. -/
def wishNames : List (Str × Wish) :=
  [(p!"--dry", .dry), (p!"--dry-run", .dry), (p!"--pretend", .dry), (p!"--verbose", .verbose), (p!"--no-changes", .noChanges), (p!"--diff", .diff),
    (p!"--debug", .debug), (p!"--no-color", .noColor)]

/-- All names that begin with two dashes. -/
def longNames : List Str := wishNames.map (·.1) ++ [p!"--hosts", p!"--help", p!"--version", p!"--init", p!"--inspect-inventory"]

/-- A name of an option, or a beginning of it that no other name has. -/
def Stands (s name : Str) : Prop := p!"--" <+: s ∧ s ≠ p!"--" ∧ s <+: name ∧ ∀ n ∈ longNames, s <+: n → n = name ∨ s = name

/-- Only digits, and at least one of them. -/
def Digits (s : Str) : Prop := s ≠ [] ∧ ∀ c ∈ s, 48 ≤ c ∧ c ≤ 57

/-- A number without a sign, such as `10`, `1.5` or `.5`. -/
def Numeral (s : Str) : Prop := Digits s ∨ ∃ a b, s = a ++ p!"." ++ b ∧ (∀ c ∈ a, 48 ≤ c ∧ c ≤ 57) ∧ Digits b

/-- What comes before the first `=`. -/
def beforeEq (s : Str) : Str := s.takeWhile (· != 61)

/-- The argument is no option: if it begins with two dashes, no name of an option begins with it, up to an equals sign, and if it
begins with one, the character after that is not the name of an option. -/
def NoOption (s : Str) : Prop :=
  (p!"--" <+: s → ∀ n ∈ longNames, ¬ beforeEq s <+: n) ∧ ∀ c ∈ p!"hVHv", ¬ [45, c] <+: s

/-- An argument that is not an option: it does not begin with a dash, or is only a dash, or a negative number, or something with a
space that is no option. -/
def Operand (s : Str) : Prop := s.head? ≠ some 45 ∨ s = p!"-" ∨ ∃ r, s = 45 :: r ∧ NoOption s ∧ (Numeral r ∨ 32 ∈ r)

/-- A dash and a number of times `v`, such as `-vvv`. An equals sign after the first one, as in `-v=vv`, makes no difference. -/
def manyV (n : Nat) (eq : Bool) : Str := if eq then p!"-v=" ++ List.replicate (n - 1) 118 else p!"-" ++ List.replicate n 118

/-- The meaning of a command line that asks for a script to be run. -/
inductive Means : List Str → List Wish → Prop
  | nil : Means [] []
  /-- An operand. -/
  | operand {s : Str} {r : List Str} {ws : List Wish} : Operand s → Means r ws → Means (s :: r) (.operand s :: ws)
  /-- `--name`, for an option without a value -/
  | flag {s name : Str} {w : Wish} {r : List Str} {ws : List Wish} : (name, w) ∈ wishNames → Stands s name → Means r ws → Means (s :: r) (w :: ws)
  /-- `--hosts v` -/
  | hosts {s v : Str} {r : List Str} {ws : List Wish} : Stands s p!"--hosts" → Operand v → Means r ws → Means (s :: v :: r) (.hosts v :: ws)
  /-- `--hosts=v` -/
  | hostsEq {s v : Str} {r : List Str} {ws : List Wish} : Stands s p!"--hosts" → Means r ws → Means ((s ++ p!"=" ++ v) :: r) (.hosts v :: ws)
  /-- `-v`, `-vv` and so on -/
  | short {n : Nat} {eq : Bool} {r : List Str} {ws : List Wish} : 1 ≤ n → (eq = true → 2 ≤ n) → Means r ws →
      Means (manyV n eq :: r) (List.replicate n .verbose ++ ws)
  /-- `-H v`, `-vH v` and so on -/
  | shortHosts {n : Nat} {eq : Bool} {v : Str} {r : List Str} {ws : List Wish} : (eq = true → 1 ≤ n) → Operand v → Means r ws →
      Means ((manyV n eq ++ p!"H") :: v :: r) (List.replicate n .verbose ++ .hosts v :: ws)
  /-- `-Hv`, `-vHv` and so on -/
  | shortValue {n : Nat} {eq : Bool} {v : Str} {r : List Str} {ws : List Wish} : (eq = true → 1 ≤ n) → v ≠ [] → (n = 0 → v.head? ≠ some 61) → Means r ws →
      Means ((manyV n eq ++ p!"H" ++ v) :: r) (List.replicate n .verbose ++ .hosts v :: ws)
  /-- `-H=v` -/
  | shortEq {v : Str} {r : List Str} {ws : List Wish} : Means r ws → Means ((p!"-H=" ++ v) :: r) (.hosts v :: ws)
  /-- After `--` there are only operands. -/
  | dashes {r : List Str} : Means (p!"--" :: r) (r.map .operand)

/-- The argument is the beginning of the names of several options, and none of them itself. -/
def Ambiguous (s : Str) : Prop :=
  p!"--" <+: s ∧ beforeEq s ∉ longNames ∧ ∃ n ∈ longNames, ∃ m ∈ longNames, n ≠ m ∧ beforeEq s <+: n ∧ beforeEq s <+: m

/-- The arguments up to `--`. -/
def beforeDashes (argv : List Str) : List Str := argv.takeWhile (· != p!"--")

/-- The arguments begin with an option of this name and this value. -/
def Given (name v : Str) (argv : List Str) : Prop := ∃ s r, Stands s name ∧ (argv = s :: v :: r ∧ Operand v ∨ argv = (s ++ p!"=" ++ v) :: r)

/-- The layouts that there are. -/
def layouts : List Str := [p!"minimal", p!"flat", p!"dotfiles", p!"modular", p!"staging_prod"]

/-- The operands that are asked for, in order. -/
def operandsOf (ws : List Wish) : List Str := ws.filterMap fun w => match w with | .operand v => some v | _ => none

/-- The hosts that are asked for: the last one counts. -/
def hostsOf (ws : List Wish) : Option Str := (ws.filterMap fun w => match w with | .hosts v => some v | _ => none).getLast?

/-- The options that the wishes stand for. Without a terminal, or with NO_COLOR in the environment, there is no colour. -/
def optionsOf (noColorSet tty : Bool) (ws : List Wish) : Options where
  dry := decide (.dry ∈ ws)
  verbose := if .debug ∈ ws then 99 else ws.count .verbose
  changes := decide (.noChanges ∉ ws)
  diff := decide (.diff ∈ ws)
  debug := decide (.debug ∈ ws)
  noColor := decide (.noColor ∈ ws) || noColorSet || !tty

end Verif.Run
