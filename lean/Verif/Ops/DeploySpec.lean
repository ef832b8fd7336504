/-
Scripts that are a sequence of operations.
-/
import Verif.Ops.MirrorSpec

namespace Verif.Ops

open Script Remote

/-- A script that calls one operation after the other, as the deploys in example_deploys.py:20-237 do. It is executed by
`run_script`, loader.py:85-147. An exception of an operation ends it. (Simplification: what a script does between two
operations has no effect on the host, and it does not change defaults.) -/
def deploy : List (Op OpResult) → Op (List OpResult)
  | [] => Op.pure []
  | op :: ops => do
    let r ← op
    let rs ← deploy ops
    Op.pure (r :: rs)

/-- What `directory`, `file` and `link` are about. -/
inductive Entry where
  | dir | file | link

/-- What an operation is asked for: a directory; a file with the given content (an exception if that cannot be read or rendered);
a file, whatever is in it; a symbolic link; or that such a thing is not there. What is there has a mode, an owner and a group,
unless they are left to the defaults. -/
inductive Wish where
  | dir (mode owner group : Option Str)
  | file (source : Except Exn Bytes) (mode owner group : Option Str)
  | plain (mode owner group : Option Str)
  | link (target : Str) (owner group : Option Str)
  | absent (what : Entry)

/-- A directory is asked for. -/
def Wish.isDir : Wish → Bool
  | .dir .. => true
  | _ => false

/-- It is asked that nothing is there. -/
def Wish.isAbsent : Wish → Bool
  | .absent _ => true
  | _ => false

/-- A symbolic link is asked for, or that one is removed. -/
def Wish.isLink : Wish → Bool
  | .link .. | .absent .link => true
  | _ => false

/-- An operation and what it is asked for, where. -/
structure Task where
  op : Op OpResult
  names : List Str
  wish : Wish

/-- The operation is the one to call for this: `directory`, `file`, `link`, or one of those that store content, and it is not told
to ignore errors. -/
inductive Task.Proper (sha512 : Bytes → Bytes) : Task → Prop where
  | directory (names : List Str) (mode owner group : Option Str) :
      Task.Proper sha512 ⟨directory (pathOf names) true false mode owner group true, names, .dir mode owner group⟩
  | store {op : Op OpResult} {names : List Str} {source : Except Exn Bytes} {mode owner group : Option Str}
      (h : Stores sha512 mode owner group true op (pathOf names) source) (hsize : ∀ bytes, source = .ok bytes → Modest bytes.length) :
      Task.Proper sha512 ⟨op, names, .file source mode owner group⟩
  | file (names : List Str) (mode owner group : Option Str) :
      Task.Proper sha512 ⟨file (pathOf names) true false mode owner group true, names, .plain mode owner group⟩
  | link (names : List Str) (target : Str) (owner group : Option Str) (h : Plain target) :
      Task.Proper sha512 ⟨link (pathOf names) target true false owner group true, names, .link target owner group⟩
  | noDirectory (names : List Str) (mode owner group : Option Str) :
      Task.Proper sha512 ⟨Ops.directory (pathOf names) false false mode owner group true, names, .absent .dir⟩
  | noFile (names : List Str) (mode owner group : Option Str) :
      Task.Proper sha512 ⟨Ops.file (pathOf names) false false mode owner group true, names, .absent .file⟩
  | noLink (names : List Str) (target : Str) (owner group : Option Str) (h : Plain target) :
      Task.Proper sha512 ⟨Ops.link (pathOf names) target false false owner group true, names, .absent .link⟩

/-- The places that the task may change: a directory is removed with everything in it. -/
def Task.Covers (t : Task) (q : Loc) : Prop := q = t.names ∨ t.wish = .absent .dir ∧ ∃ s, q = t.names ++ s

/-- The settings that the wish asks for. -/
def Wish.settings (env : Env) (st : St) : Wish → Settings
  | .dir mode owner group => inForce env st { dirMode := mode, owner, group }
  | .file _ mode owner group => inForce env st { fileMode := mode, owner, group }
  | .plain mode owner group => inForce env st { fileMode := mode, owner, group }
  | .link _ owner group => inForce env st { owner, group }
  | .absent _ => inForce env st {}

/-- What is at this place is what was asked for. -/
def Wish.Granted (sys : Sys) (env : Env) (st : St) (w w' : World) (l : Loc) (x : Wish) : Prop :=
  match x with
  | .dir .. => ∃ n, w'.fs l = some n ∧ IsDirectory w (x.settings env st) n
  | .file source .. => ∃ bytes n, source = .ok bytes ∧ w'.fs l = some n ∧ IsFile sys w (x.settings env st) bytes n
  | .plain .. => ∃ c n, w'.fs l = some n ∧ n.kind = .file c ∧ IsFile sys w (x.settings env st) c n
      ∧ (∀ m, w.fs l = some m → m.kind = .file c) ∧ (w.fs l = none → c = [])
  | .link target .. => ∃ n t, w'.fs l = some n ∧ n.kind = .link t ∧ Py.encodeEscape t = Py.encodeEscape target ∧ OwnedBy w (x.settings env st) n
  | .absent what => w'.fs l = none ∧ (what = .dir → ∀ s, w'.fs (l ++ s) = none)

/-- The path leads to this place; if nothing is to be there, it is missing. -/
def Task.Reached (w : World) (t : Task) : Prop :=
  match t.wish with
  | .absent _ => lookup w.fs w.cwd (pathOf t.names) false = .error ENOENT
  | _ => Denotes w (pathOf t.names) t.names

/-- A script with these tasks: their paths are absolute and different, and no directory on the way to them is a symbolic link
(otherwise two paths could denote one place). If one path is on the way to another, a directory is asked for there. Where a link is
asked for there is nothing, or a link with this target. -/
structure Tasks (sys : Sys) (w : World) (ts : List Task) : Prop where
  proper : ∀ t ∈ ts, t.Proper sys.sha512
  names : ∀ t ∈ ts, ∀ n ∈ t.names, FileName n
  distinct : (ts.map (·.names)).Nodup
  plain : ∀ t ∈ ts, ∀ p s, t.names = p ++ s → s ≠ [] → ∀ n target, w.fs p = some n → n.kind ≠ .link target
  apart : ∀ t ∈ ts, ∀ d ∈ ts, ∀ s, d.names = t.names ++ s → s ≠ [] → t.wish.isDir = true
  links : ∀ t ∈ ts, ∀ target owner group, t.wish = .link target owner group → ∀ n, w.fs t.names = some n →
    ∃ s, n.kind = .link s ∧ Py.encodeEscape s = Py.encodeEscape target
  rooted : (∃ t ∈ ts, t.wish.isAbsent = true) → Rooted w

/-- The owner and the group are set for everything that is asked for. -/
def AllOwned (env : Env) (st : St) (ts : List Task) : Prop := ∀ t ∈ ts, t.wish.isAbsent = false → OwnersSet (t.wish.settings env st)

/-- Neither setuid nor setgid is asked for, nor to be found on the directories that are asked for, nor inherited by them. -/
def NoSetIdsAsked (env : Env) (st : St) (w : World) (ts : List Task) : Prop :=
  ∀ t ∈ ts, match t.wish with
    | .dir .. => (∀ m (i : Nat), (t.wish.settings env st).dirMode = some m → Py.parseInt 8 m = some (i : Int) → i < 0o10000 ∧ i &&& 0o6000 = 0)
        ∧ (∀ n, w.fs t.names = some n → n.kind = .dir → n.perm &&& 0o6000 = 0)
        ∧ (w.fs t.names = none → ∀ p, w.fs t.names.dropLast = some p → p.kind = .dir → p.perm &&& 0o2000 = 0)
    | .file .. | .plain .. => ∀ m (i : Nat), (t.wish.settings env st).fileMode = some m → Py.parseInt 8 m = some (i : Int) → i < 0o10000 ∧ i &&& 0o6000 = 0
    | _ => True

end Verif.Ops
