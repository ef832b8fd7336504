/-
C106: how many requests an operation may make.
-/
import Verif.Ops.Spec

namespace Verif.Ops

open Script

/-- However the host answers, and whether or not the connection breaks: there are at most `requests` requests, and at most `changes` of
them do more than look. -/
def Limited (requests changes : Nat) {α : Type} (m : Op α) : Prop :=
  ∀ env st t r st', Execution m env st t r st' →
    t.length ≤ requests ∧ ∀ s, List.Sublist s t → (∀ request answer, (request, answer) ∈ s → ¬ ReadOnly request) → s.length ≤ changes

mutual
/-- The number of directories in a source tree, with the topmost one. Symbolic links to directories are mirrored as directories. -/
def Tree.directories : Tree → Nat
  | .dir entries => 1 + Tree.directoriesIn entries
  | .dirLink => 1
  | _ => 0
def Tree.directoriesIn : List (Str × Tree) → Nat
  | [] => 0
  | (_, t) :: r => t.directories + Tree.directoriesIn r
end

mutual
/-- The number of files in a source tree that are uploaded. -/
def Tree.files : Tree → Nat
  | .dir entries => Tree.filesIn entries
  | .file _ | .fileLink _ => 1
  | _ => 0
def Tree.filesIn : List (Str × Tree) → Nat
  | [] => 0
  | (_, t) :: r => t.files + Tree.filesIn r
end

/-- How many requests an operation makes at most, and how many of them are for changes. Nothing but the arguments matters. -/
inductive Effort : Nat → Nat → Op OpResult → Prop where
  | directory (path : Str) (touch : Bool) (mode owner group : Option Str) (check : Bool) :
      Effort 9 3 (directory path true touch mode owner group check)
  | noDirectory (path : Str) (touch : Bool) (mode owner group : Option Str) (check : Bool) :
      Effort 7 1 (directory path false touch mode owner group check)
  | file (path : Str) (touch : Bool) (mode owner group : Option Str) (check : Bool) :
      Effort 9 3 (file path true touch mode owner group check)
  | noFile (path : Str) (touch : Bool) (mode owner group : Option Str) (check : Bool) :
      Effort 7 1 (file path false touch mode owner group check)
  | link (path target : Str) (touch : Bool) (owner group : Option Str) (check : Bool) :
      Effort 10 3 (link path target true touch owner group check)
  | noLink (path target : Str) (touch : Bool) (owner group : Option Str) (check : Bool) :
      Effort 8 1 (link path target false touch owner group check)
  | uploadContent (sha512 : Bytes → Bytes) (content : Content) (dest : Str) (mode owner group : Option Str) (check : Bool) :
      Effort 9 2 (uploadContent sha512 content dest mode owner group check)
  | upload (sha512 : Bytes → Bytes) (src : Str) (read : Except Exn Bytes) (dest : Str) (mode owner group : Option Str) (check : Bool) :
      Effort 9 2 (upload sha512 src read dest mode owner group check)
  | uploadDir (sha512 : Bytes → Bytes) (src : Str) (tree : Tree) (dest : Str) (dirMode fileMode owner group : Option Str) (check : Bool) :
      Effort (9 * tree.directories + 9 * tree.files) (3 * tree.directories + 2 * tree.files)
        (uploadDir sha512 src tree dest dirMode fileMode owner group check)
  | templateContent {V : Type} (sha512 : Bytes → Bytes) (templ : List (Str × V) → Rendered) (dest : Str) (vars : List (Str × V))
      (context : Option (List (Str × V))) (host : V) (mode owner group : Option Str) (check : Bool) :
      Effort 9 2 (templateContent sha512 templ dest vars context host mode owner group check)
  | template {V : Type} (sha512 : Bytes → Bytes) (src : Str) (templ : Except Exn (List (Str × V) → Rendered)) (dest : Str)
      (vars : List (Str × V)) (context : Option (List (Str × V))) (host : V) (mode owner group : Option Str) (check : Bool) :
      Effort 9 2 (template sha512 src templ dest vars context host mode owner group check)
  | line (path text : Str) (present : Bool) (regex : Option Regex) (ignoreWhitespace : Bool) (backup : Backup) (check : Bool) :
      Effort 9 2 (Ops.line path text present regex ignoreWhitespace backup check)
  | user (args : UserArgs) (check : Bool) (h : args.present = true) : Effort 8 7 (user args check)
  | noUser (args : UserArgs) (check : Bool) (h : args.present = false) : Effort 2 1 (user args check)
  | group (name : Str) (present : Bool) (gid : Option Int) (system check : Bool) : Effort 2 1 (group name present gid system check)
  /-- the order is one of the elements of a set -/
  | apt (order : List Str → List Str) (opts packages : List Str) (present check : Bool) (ho : ∀ l, (order l).Perm l) :
      Effort (2 * packages.length) packages.length (packageWith order (apt opts) packages present check)
  | pacman (order : List Str → List Str) (opts packages : List Str) (present check : Bool) (ho : ∀ l, (order l).Perm l) :
      Effort (2 * packages.length) packages.length (packageWith order (pacman opts) packages present check)
  | portage (order : List Str → List Str) (opts : List Str) (oneshot : Bool) (packages : List Str) (present check : Bool) (ho : ∀ l, (order l).Perm l) :
      Effort (2 * packages.length) packages.length (packageWith order (portage opts oneshot) packages present check)
  | package (order : List Str → List Str) (packages : List Str) (present check : Bool) (ho : ∀ l, (order l).Perm l) :
      Effort (2 * packages.length + 1) packages.length (package order packages present check)
  | daemonReload (userMode check : Bool) : Effort 1 1 (daemonReload userMode check)
  | systemdService (service : Str) (state : Option Str) (enabled : Option Bool) (userMode check : Bool) :
      Effort 4 2 (systemdService service state enabled userMode check)
  | service (service : Str) (state : Option Str) (enabled : Option Bool) (check : Bool) : Effort 5 2 (Ops.service service state enabled check)
  | repo (args : RepoArgs) (check : Bool) : Effort 7 2 (repo args check)

/-- The requests of a list of operations together. -/
inductive Efforts : Nat → Nat → List (Op OpResult) → Prop where
  | nil : Efforts 0 0 []
  | cons {n c n' c' : Nat} {op : Op OpResult} {ops : List (Op OpResult)} : Effort n c op → Efforts n' c' ops → Efforts (n + n') (c + c') (op :: ops)

end Verif.Ops
