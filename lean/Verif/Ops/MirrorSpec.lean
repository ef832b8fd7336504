/-
What it means that a directory tree is mirrored on a host (`upload_dir`).
-/
import Verif.Ops.HostSpec

namespace Verif.Ops

open Script Remote

/-- Following `rel` from the top of a directory tree leads to `t`. Symbolic links are not followed. -/
inductive Tree.At : Tree → List Str → Tree → Prop where
  | here (t : Tree) : Tree.At t [] t
  | inside {entries : List (Str × Tree)} {name : Str} {sub t : Tree} {rel : List Str} (hmem : (name, sub) ∈ entries) (hat : Tree.At sub rel t) :
      Tree.At (.dir entries) (name :: rel) t

/-- A file name. -/
structure FileName (n : Str) : Prop where
  nonempty : n ≠ []
  slash : 47 ∉ n
  dot : n ≠ p!"."
  dotdot : n ≠ p!".."

/-- What every real directory tree satisfies: the entries of a directory have proper and distinct names. -/
def Tree.Proper (t : Tree) : Prop :=
  ∀ rel entries, t.At rel (.dir entries) → (entries.map (·.1)).Nodup ∧ ∀ e ∈ entries, FileName e.1

/-- No file in it is larger than what a host can store. -/
def Tree.Storable (t : Tree) : Prop := ∀ rel bytes, t.At rel (.file (.ok bytes)) ∨ t.At rel (.fileLink (.ok bytes)) → Modest bytes.length

/-- The absolute path with these components. -/
def pathOf (names : List Str) : Str := 47 :: Py.join p!"/" names

/-- `upload_dir(src, dest)` is documented to create the directory with these components: `dest` itself, or if `dest` ends with
a slash, a directory in it that is named like `src`. -/
inductive Lands (src : Str) : Str → List Str → Prop where
  | renamed {names : List Str} (hne : names ≠ []) (hn : ∀ n ∈ names, FileName n) : Lands src (pathOf names) names
  | child {names : List Str} {name dir : Str} (hn : ∀ n ∈ names, FileName n) (hname : FileName name)
      (hsrc : src = name ∨ src = dir ++ p!"/" ++ name) :
      Lands src (if names = [] then p!"/" else pathOf names ++ p!"/") (names ++ [name])

/-- A directory with this owner, group and mode. -/
def IsDirectory (w : World) (want : Settings) (n : Node) : Prop :=
  n.kind = .dir ∧ OwnedBy w want n ∧ ∃ m i, want.dirMode = some m ∧ Py.parseInt 8 m = some ((i : Nat) : Int)
    ∧ n.perm ||| 0o6000 = i ||| 0o6000 ∧ n.perm &&& i = i

/-- A file with this content (which is compared by checksum), owner, group and mode. -/
def IsFile (sys : Sys) (w : World) (want : Settings) (bytes : Bytes) (n : Node) : Prop :=
  (∃ c, n.kind = .file c ∧ sys.sha512 c = sys.sha512 bytes) ∧ OwnedBy w want n ∧ ∃ m i, want.fileMode = some m ∧ Py.parseInt 8 m = some ((i : Nat) : Int)
    ∧ n.perm &&& 0o1777 = i % 4096 &&& 0o1777 ∧ n.perm &&& i % 4096 = n.perm

/-- What is at a place of the host corresponds to what is in the source tree. -/
def Mirrored (sys : Sys) (dirWant fileWant : Settings) (w w' : World) (l : Loc) : Tree → Prop
  | .dir _ | .dirLink => ∃ n, w'.fs l = some n ∧ IsDirectory w dirWant n
  | .file c | .fileLink c => ∃ bytes n, c = .ok bytes ∧ w'.fs l = some n ∧ IsFile sys w fileWant bytes n
  | .special => w'.fs l = w.fs l

/-- Something that `upload_dir` transfers. -/
def Tree.Transferred : Tree → Prop
  | .special => False
  | _ => True

/-- Looking at files fails, if at all, whatever else is there. -/
def SteadyLooks (sys : Sys) : Prop :=
  ∀ w w' path follow, sys.fault w (.stat path follow) = sys.fault w' (.stat path follow) ∧ sys.fault w (.openRead path) = sys.fault w' (.openRead path)
    ∧ sys.fault w (.read path) = sys.fault w' (.read path)

/-- What a file system is: everything is in a directory. -/
def Rooted (w : World) : Prop := ∀ l name n, w.fs (l ++ [name]) = some n → ∃ p, w.fs l = some p ∧ p.kind = .dir

end Verif.Ops
