/-
What a login shell does with a command line: a part of the shell command language of POSIX (IEEE Std 1003.1, XCU chapter 2), and the
tools that fora expects on a host before its dispatcher runs there. This is a specification of the environment, not of code in
/repo. Command lines that need more of the language have no meaning here (`none`).
-/
import Verif.Py.Utf8

namespace Verif.Shell

/-- A part of a word: some text, or the output of a script, `"$(script)"`. -/
inductive Part where
  | text (s : Str)
  | output (script : Str)
deriving DecidableEq

/-- A word, or the operator `|`. -/
inductive Token where
  | word (parts : List Part)
  | pipe
deriving DecidableEq

/-- Where the shell is while it reads a command line. `inner` is for the script of a command substitution: whether it is inside of
single quotes, how many parentheses are open, and what was read. -/
inductive Mode where
  | bare
  | single
  | double
  | dollar
  | inner (quoted : Bool) (parens : Nat) (script : Str)

/-- Characters that have no special meaning outside of quotes: letters, digits, and `%+,-./:@_`. -/
def plainChar (c : Nat) : Bool :=
  (48 ≤ c && c ≤ 57) || (65 ≤ c && c ≤ 90) || (97 ≤ c && c ≤ 122) || p!"%+,-./:@_".contains c

/-- Something is added to the word that is read. -/
def addPart (word : Option (List Part)) (p : Part) : Option (List Part) := some (word.getD [] ++ [p])

/-- The end of a word, if there is one. -/
def endWord (word : Option (List Part)) (ts : List Token) : List Token :=
  match word with
  | some ps => .word ps :: ts
  | none => ts

/-- XCU 2.2, 2.3: the tokens of a command line. Inside of single quotes all characters stand for themselves, inside of double quotes
only `$(` has a meaning here; in the script of a command substitution, parentheses inside of single quotes are not counted. -/
def tokens : Mode → Option (List Part) → Str → Option (List Token)
  | .bare, word, [] => some (endWord word [])
  | _, _, [] => none
  | .bare, word, c :: s =>
    if c = 32 then (tokens .bare none s).map (endWord word)
    else if c = 124 then (tokens .bare none s).map fun ts => endWord word (.pipe :: ts)
    else if c = 39 then tokens .single (some (word.getD [])) s
    else if c = 34 then tokens .double (some (word.getD [])) s
    else if plainChar c then tokens .bare (addPart word (.text [c])) s
    else none
  | .single, word, c :: s => if c = 39 then tokens .bare word s else tokens .single (addPart word (.text [c])) s
  | .double, word, c :: s =>
    if c = 34 then tokens .bare word s
    else if c = 36 then tokens .dollar word s
    else if c = 92 ∨ c = 96 then none
    else tokens .double (addPart word (.text [c])) s
  | .dollar, word, c :: s => if c = 40 then tokens (.inner false 0 []) word s else none
  | .inner true n script, word, c :: s => tokens (.inner (c != 39) n (script ++ [c])) word s
  | .inner false n script, word, c :: s =>
    if c = 41 then
      match n with
      | 0 => tokens .double (addPart word (.output script)) s
      | n + 1 => tokens (.inner false n (script ++ [c])) word s
    else if c = 40 then tokens (.inner false (n + 1) (script ++ [c])) word s
    else if c = 39 then tokens (.inner true n (script ++ [c])) word s
    else if c = 34 ∨ c = 92 ∨ c = 96 ∨ c = 35 then none
    else tokens (.inner false n (script ++ [c])) word s

/-- XCU 2.9.2: the commands of a pipeline, each with its words. There is at least one word in each. -/
def commands : List Token → Option (List (List (List Part)))
  | [] => none
  | [.word w] => some [[w]]
  | .pipe :: _ => none
  | .word w :: .pipe :: ts => (commands ts).map ([w] :: ·)
  | .word w :: ts =>
    match commands ts with
    | some (c :: cs) => some ((w :: c) :: cs)
    | _ => none

/-- The programs of a host: what one prints, given its arguments and its input. `none` if there is no such program. -/
structure Host where
  run : List Bytes → Bytes → Option Bytes

/-- XCU 2.6.3: the output of a script without the newlines at its end. (NUL bytes are dropped by all common shells.) -/
def substituted (b : Bytes) : Bytes := ((b.filter (· != 0)).reverse.dropWhile (· == 10)).reverse

/-- What a word stands for. `out` is the output of a script. -/
def expand (out : Str → Option Bytes) : List Part → Option Bytes
  | [] => some []
  | .text s :: ps => do return (← Py.encodeUtf8 s) ++ (← expand out ps)
  | .output script :: ps => do return substituted (← out script) ++ (← expand out ps)

/-- What all words of a command stand for. -/
def expandAll (out : Str → Option Bytes) : List (List Part) → Option (List Bytes)
  | [] => some []
  | w :: ws => do return (← expand out w) :: (← expandAll out ws)

/-- What all commands of a pipeline stand for. -/
def expandCommands (out : Str → Option Bytes) : List (List (List Part)) → Option (List (List Bytes))
  | [] => some []
  | c :: cs => do return (← expandAll out c) :: (← expandCommands out cs)

/-- XCU 2.9.2: each command gets the output of the one before it. A command that does not exist prints nothing. -/
def piped (h : Host) : List (List Bytes) → Bytes → Bytes
  | [], input => input
  | argv :: rest, input => piped h rest ((h.run argv input).getD [])

/-- What a script prints, with at most the given depth of command substitutions. The first command is one that does not read. -/
def printed (h : Host) : Nat → Str → Option Bytes
  | 0, _ => none
  | depth + 1, script => do
    let cs ← expandCommands (printed h depth) (← commands (← tokens .bare none script))
    return piped h cs []

/-- The arguments of the command that a shell executes for a command line that consists of one command. -/
def executed (h : Host) (commandLine : Str) : Option (List Bytes) := do
  match ← commands (← tokens .bare none commandLine) with
  | [command] => expandAll (printed h commandLine.length) command
  | _ => none

/-! ### Base64 (RFC 4648, section 4) -/

/-- The value of a character. -/
def sextet (c : UInt8) : Option Nat :=
  let n := c.toNat
  if 65 ≤ n ∧ n ≤ 90 then some (n - 65)
  else if 97 ≤ n ∧ n ≤ 122 then some (n - 97 + 26)
  else if 48 ≤ n ∧ n ≤ 57 then some (n - 48 + 52)
  else if n = 43 then some 62
  else if n = 47 then some 63
  else none

/-- The bytes that groups of four characters stand for. The last group may end with one or two `=`. -/
def decodeGroups : Bytes → Option Bytes
  | [] => some []
  | a :: b :: c :: d :: r => do
    let x ← sextet a
    let y ← sextet b
    if c = 61 ∧ d = 61 ∧ r = [] then return [UInt8.ofNat (x * 4 + y / 16)]
    let z ← sextet c
    if d = 61 ∧ r = [] then return [UInt8.ofNat (x * 4 + y / 16), UInt8.ofNat (y % 16 * 16 + z / 4)]
    let w ← sextet d
    return UInt8.ofNat (x * 4 + y / 16) :: UInt8.ofNat (y % 16 * 16 + z / 4) :: UInt8.ofNat (z % 4 * 64 + w) :: (← decodeGroups r)
  | _ => none

/-- Line breaks are ignored. -/
def decode64 (b : Bytes) : Option Bytes := decodeGroups (b.filter (· != 10))

end Verif.Shell
