/-
What is expected of a host before the dispatcher runs there, and of the interpreter that runs it.
-/
import Verif.Client.Shell
import Verif.Client.Bootstrap

namespace Verif.Client.Bootstrap

open Shell

/-- The host has the tools that are needed: `echo` prints its argument (what it does with options and backslashes differs between
systems), `base64 -d` decodes, and `python` is an interpreter that executes the given program, which decompresses its input. -/
structure Equipped (h : Host) (decompress : Bytes → Option Bytes) : Prop where
  echo : ∀ text input, 92 ∉ text → text.head? ≠ some 45 → h.run [b!"echo", text] input = some (text ++ [10])
  base64 : ∀ input out, decode64 input = some out → h.run [b!"base64", b!"-d"] input = some out
  python : ∀ input out, decompress input = some out →
    h.run [b!"python", b!"-c", b!"import zlib,sys;sys.stdout.buffer.write(zlib.decompress(sys.stdin.buffer.read()))"] input = some out

/-- A text without the newlines at its end. -/
def WithoutLastNewlines (text short : Bytes) : Prop := (∃ n, text = short ++ List.replicate n 10) ∧ short.getLast? ≠ some 10

/-- A program of the interpreter `python3`. -/
inductive Program where
  /-- given on the command line -/
  | text (source : Bytes)
  /-- in a file -/
  | file (path : Bytes)
deriving DecidableEq

/-- What `python3 arguments` executes, and `sys.argv` there (Python documentation, "Command line and environment"). Other options are
left out. -/
def interpreter : List Bytes → Option (Program × List Bytes)
  | [] => none
  | a :: rest =>
    if a = b!"-c" then
      match rest with
      | [] => none
      | source :: rest => some (.text source, b!"-c" :: rest)
    else if a.head? = some 45 then none
    else some (.file a, a :: rest)

/-- The program that a process executes, and `sys.argv`: `python3 arguments`, or `env python3 arguments`. -/
def pythonProcess : List Bytes → Option (Program × List Bytes)
  | name :: rest =>
    if name = b!"python3" then interpreter rest
    else if name = b!"env" ∧ rest.head? = some b!"python3" then interpreter rest.tail
    else none
  | [] => none

end Verif.Client.Bootstrap
