/-
Scripts that also upload directory trees.
-/
import Verif.Ops.ForesightSpec

namespace Verif.Ops

open Script Remote

/-- A call in a script: a single operation, or `upload_dir(src, dest)` where `src` is a directory with these entries and the directory
with the components `names` is to be created. -/
inductive Call where
  | one (t : Task)
  | tree (src dest : Str) (entries : List (Str × Tree)) (names : List Str) (dirMode fileMode owner group : Option Str)

/-- What is called. -/
def Call.op (sha512 : Bytes → Bytes) : Call → Op OpResult
  | .one t => t.op
  | .tree src dest entries _ dirMode fileMode owner group => uploadDir sha512 src (.dir entries) dest dirMode fileMode owner group true

mutual
/-- What is asked for if a directory tree is to be mirrored: a directory for every directory and every link to one, a file for every
file and every link to one, all of them where they are in the tree; nothing for anything else. -/
def treeTasks (sha512 : Bytes → Bytes) (dirMode fileMode owner group : Option Str) (names : List Str) : Tree → List Task
  | .dir entries => ⟨directory (pathOf names) true false dirMode owner group true, names, .dir dirMode owner group⟩
      :: entriesTasks sha512 dirMode fileMode owner group names entries
  | .dirLink => [⟨directory (pathOf names) true false dirMode owner group true, names, .dir dirMode owner group⟩]
  | .file c | .fileLink c => [⟨upload sha512 (baseName (pathOf names)) c (pathOf names) fileMode owner group true, names, .file c fileMode owner group⟩]
  | .special => []
def entriesTasks (sha512 : Bytes → Bytes) (dirMode fileMode owner group : Option Str) (names : List Str) : List (Str × Tree) → List Task
  | [] => []
  | (n, t) :: r => treeTasks sha512 dirMode fileMode owner group (names ++ [n]) t ++ entriesTasks sha512 dirMode fileMode owner group names r
end

/-- What a call asks for, as single operations. -/
def Call.tasks (sha512 : Bytes → Bytes) : Call → List Task
  | .one t => [t]
  | .tree _ _ entries names dirMode fileMode owner group => treeTasks sha512 dirMode fileMode owner group names (.dir entries)

/-- The tree is one that can exist, and `names` is where the call puts it. -/
def Call.Fits : Call → Prop
  | .one _ => True
  | .tree src dest entries names .. => Tree.Proper (.dir entries) ∧ Lands src dest names

end Verif.Ops
