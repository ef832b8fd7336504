/-
What an interrupted `git.repo` leaves behind: specification.
-/
import Verif.Ops.GitSpec

namespace Verif.Ops

open Script Remote

/-- A command of git that fails leaves the clone as it was: a failing `git clone` removes what it has created, and a failing `git pull`
does not move the branch. -/
structure GitFailures (sys : Sys) (G : Repositories) (path url : Str) : Prop where
  clone : ∀ depth branch p w out err code w', p.argv = [p!"git", p!"clone"] ++ opt p!"--depth" depth ++ opt p!"--branch" branch ++ [p!"--", url, path] →
    sys.exec p w = (.done out err code, w') → code ≠ 0 → G.clone w' path = G.clone w path
  pull : ∀ depth rebase ffOnly p w out err code w',
    p.argv = [p!"git", p!"-C", path, p!"pull"] ++ opt p!"--depth" depth ++ flag p!"--rebase" rebase ++ flag p!"--ff-only" ffOnly →
    sys.exec p w = (.done out err code, w') → code ≠ 0 → G.clone w' path = G.clone w path
  submodules : ∀ depth recursive p w out err code w',
    p.argv = [p!"git", p!"-C", path, p!"submodule", p!"update", p!"--init"] ++ opt p!"--depth" depth ++ flag p!"--recursive" recursive →
    sys.exec p w = (.done out err code, w') → code ≠ 0 → G.clone w' path = G.clone w path

/-- If there is a clone at the path, it is one of the url, with the branch that is asked for, and without commits of its own. -/
def Usable (G : Repositories) (a : RepoArgs) (w : World) : Prop :=
  ∀ c, G.clone w a.path = some c → c.origin = a.url ∧ Follows G c a.url (requested a) ∧ c.ahead = false

/-- `ready` says that the submodules of the clone at the path are checked out. The command that does this ends with exit code 0 only if it
did. -/
def SubmoduleHost (sys : Sys) (ready : World → Prop) (path : Str) : Prop :=
  ∀ depth recursive p w out err w',
    p.argv = [p!"git", p!"-C", path, p!"submodule", p!"update", p!"--init"] ++ opt p!"--depth" depth ++ flag p!"--recursive" recursive →
    sys.exec p w = (.done out err 0, w') → ready w'

end Verif.Ops
