/-
What the summary of an operation should say, as text without colours.
-/
import Verif.Run.Report

namespace Verif.Run

open Py Script

/-- What a terminal shows of a text with colours: `ESC [ digits and semicolons m` only sets the colour. -/
inductive Uncoloured : Str → Str → Prop where
  | nil : Uncoloured [] []
  | code (ps : Str) {r s : Str} (hps : ∀ c ∈ ps, c = 59 ∨ 48 ≤ c ∧ c ≤ 57) : Uncoloured r s → Uncoloured (27 :: 91 :: (ps ++ 109 :: r)) s
  | char (c : Nat) {r s : Str} (hc : c ≠ 27) : Uncoloured r s → Uncoloured (c :: r) (c :: s)

/-- No escape character. -/
def NoEsc (s : Str) : Prop := 27 ∉ s

/-- `s` as it is, if it has at most `n` characters or all of it was asked for, and otherwise its beginning and an ellipsis, `n` characters
together. -/
def Cut (brief : Bool) (n : Nat) (s out : Str) : Prop :=
  if brief = true ∧ n < s.length then out = s.take (n - 1) ++ p!"…" else out = s

/-- How a change of the value of `key` is shown. -/
inductive ChangeText (brief : Bool) (repr : Val → Str) (key : Str) : Val → Val → Str → Prop where
  | set {v : Val} {k' v' : Str} (hk : Cut brief 12 key k') (hv : Cut brief 21 (toStr repr v) v') : ChangeText brief repr key .null v (k' ++ p!": " ++ v')
  | changed {u v : Val} {k' u' v' : Str} (hu0 : u ≠ .null) (hk : Cut brief 12 key k') (hu : Cut brief 9 (toStr repr u) u') (hv : Cut brief 9 (toStr repr v) v') :
      ChangeText brief repr key u v (k' ++ p!": " ++ u' ++ p!" → " ++ v')

/-- What is shown of the final state, key by key: changed values that are not None, and unchanged ones if the output is verbose. -/
inductive StateTexts (verbose : Nat) (repr : Val → Str) (initial : Script.Dict) : Script.Dict → List Str → Prop where
  | nil : StateTexts verbose repr initial [] []
  | unset {k : Str} {f : Script.Dict} {ts : List Str} : StateTexts verbose repr initial f ts → StateTexts verbose repr initial ((k, .null) :: f) ts
  | unchanged {k : Str} {u v : Val} {f : Script.Dict} {ts : List Str} (hv : v ≠ .null) (hu : initial.get k = some u) (he : u.eq v = true)
      (hverb : verbose = 0) : StateTexts verbose repr initial f ts → StateTexts verbose repr initial ((k, v) :: f) ts
  | still {k : Str} {u v : Val} {f : Script.Dict} {ts : List Str} (hv : v ≠ .null) (hu : initial.get k = some u) (he : u.eq v = true)
      (hverb : verbose ≠ 0) : StateTexts verbose repr initial f ts → StateTexts verbose repr initial ((k, v) :: f) ((k ++ p!": " ++ toStr repr u) :: ts)
  | changed {k t : Str} {u v : Val} {f : Script.Dict} {ts : List Str} (hv : v ≠ .null) (hu : initial.get k = some u) (he : u.eq v = false)
      (ht : ChangeText (verbose == 0) repr k u v t) : StateTexts verbose repr initial f ts → StateTexts verbose repr initial ((k, v) :: f) (t :: ts)

/-- What happened to a file. -/
def actionOf : Option Bytes → Option Bytes → Str
  | none, _ => p!"created"
  | some _, none => p!"deleted"
  | some _, some _ => p!"modified"

/-- The lines of all diffs: for each of them a title between two bars of its length, and the lines of the diff, made printable. -/
inductive DiffTexts (udiff : List Bytes → List Bytes → List Bytes) : List (Str × Option Bytes × Option Bytes) → List Str → Prop where
  | nil : DiffTexts udiff [] []
  | cons {file : Str} {old new : Option Bytes} {rest : List (Str × Option Bytes × Option Bytes)} {title : Str} {more : List Str}
      (ht : title = actionOf old new ++ p!": " ++ file) : DiffTexts udiff rest more →
      DiffTexts udiff ((file, old, new) :: rest)
        ([List.replicate title.length 0x2500, title, List.replicate title.length 0x2500]
          ++ ((udiff (diffInput old) (diffInput new)).drop 2).map decodeEscapeLog ++ more)

/-- A line at the left of some lines, which ends at the last one. -/
def framed : List Str → List Str
  | [] => []
  | [l] => [p!"└ " ++ l]
  | l :: ls => (p!"│ " ++ l) :: framed ls

def nameText : Option Str → Str
  | some n => p!" (" ++ n ++ p!")"
  | none => []

/-- The title: `op description`, where `(dry)` says that nothing is done, and a name that the user gave follows in parentheses. -/
def titleText (o : Options) (t : Title) : Str :=
  t.opName ++ (if o.dry then p!" (dry)" else []) ++ p!" " ++ t.description ++ nameText t.name

/-- The lines of a summary: the title, and the message of a failure, or the changes that are asked for. -/
inductive Summary (udiff : List Bytes → List Bytes → List Bytes) (repr : Val → Str) (o : Options) (t : Title) (r : Report) : List Str → Prop where
  | failed (h : r.result.success = false) : Summary udiff repr o t r [titleText o t, p!" └ " ++ messageText r.result.failureMessage]
  | quiet (h : r.result.success = true) (hc : o.changes = false) : Summary udiff repr o t r [titleText o t]
  | changes (h : r.result.success = true) (hc : o.changes = true) {ts ds : List Str} (hts : StateTexts o.verbose repr r.result.initial r.result.final ts)
      (hds : if o.diff then DiffTexts udiff r.diffs ds else ds = []) :
      Summary udiff repr o t r (titleText o t :: ((if ts = [] then [] else [(if ds = [] then p!"└ " else p!"├ ") ++ join p!", " ts]) ++ framed ds))

/-- The indentation. -/
def pad (o : Options) (level : Nat) : Str :=
  if o.noColor then List.replicate (2 * level) 32 else ((List.range level).map fun i => if i % 2 = 0 then p!"│ " else p!"╵ ").flatten

/-- Lines with an indentation, from the start of the line where the cursor is. -/
def layout (o : Options) (level : Nat) (lines : List Str) : Str := 13 :: (lines.map fun l => pad o level ++ l ++ [10]).flatten

/-- No text that is given to the logger has escape characters. -/
structure NoEscapes (repr : Val → Str) (t : Title) (r : Report) : Prop where
  opName : NoEsc t.opName
  description : NoEsc t.description
  name : ∀ n, t.name = some n → NoEsc n
  message : ∀ m, r.result.failureMessage = some m → NoEsc m
  initial : ∀ k v, (k, v) ∈ r.result.initial → NoEsc (toStr repr v)
  final : ∀ k v, (k, v) ∈ r.result.final → NoEsc k ∧ NoEsc (toStr repr v)
  files : ∀ d ∈ r.diffs, NoEsc d.1

end Verif.Run
