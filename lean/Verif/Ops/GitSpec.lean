/-
Specification vocabulary for git: what there is to know about a clone and its upstream repository, and what git does.
-/
import Verif.Ops.System

namespace Verif.Ops

open Script Remote
open Wire (Packet)

/-- A name in an upstream repository. -/
structure Upstream where
  /-- the object id that `git ls-remote` prints -/
  object : Str
  /-- the commit it stands for; for an annotated tag this is not the object itself -/
  commit : Str
  branch : Bool
deriving DecidableEq

/-- A clone. -/
structure Clone where
  /-- the commit that is checked out -/
  commit : Str
  /-- the url of the remote `origin` -/
  origin : Str
  /-- the name at `origin` that the checked out branch follows; nothing if no branch is checked out -/
  follows : Option Str
  /-- there are commits that `origin` does not have -/
  ahead : Bool
deriving DecidableEq

/-- What there is to know about clones on the host, and about the repositories elsewhere (which do not change meanwhile). -/
structure Repositories where
  clone : World → Str → Option Clone
  upstream : Str → Str → Option Upstream

/-- Printable ASCII characters without white space, at least one. -/
def Word (s : Str) : Prop := s ≠ [] ∧ ∀ c ∈ s, 33 ≤ c ∧ c ≤ 126

instance (s : Str) : Decidable (Word s) := inferInstanceAs (Decidable (_ ∧ _))

/-- ASCII text as bytes. -/
def ascii (s : Str) : Bytes := s.map UInt8.ofNat

/-- An option with an argument, if there is one. -/
def opt (name : Str) (value : Option Str) : List Str := (value.map fun v => [name, v]).getD []

/-- A flag, if it is set. -/
def flag (name : Str) (on : Bool) : List Str := if on then [name] else []

/-- There is a directory at the path. -/
def IsDir (w : World) (path : Str) : Prop := ∃ l n, lookup w.fs w.cwd path false = .ok (l, n) ∧ n.kind = .dir

/-- A host with git, for one place and one url. The commands that ask answer truthfully and change nothing. A command that ends with exit
code 0 did what it is for. -/
structure GitHost (sys : Sys) (G : Repositories) (path url : Str) : Prop where
  /-- what is known does not depend on the history variable of the model -/
  history : ∀ w s, G.clone { w with started := s } path = G.clone w path
  /-- a clone is a directory with a directory `.git` in it -/
  directory : ∀ w c, G.clone w path = some c → IsDir w path ∧ IsDir w (pathJoin path p!".git")
  words : ∀ w c, G.clone w path = some c → Word c.commit ∧ Word c.origin
  objects : ∀ ref u, G.upstream url ref = some u → Word u.object
  branches : ∀ ref u, G.upstream url ref = some u → u.branch = true → u.object = u.commit
  revParse : ∀ p w out err code w', p.argv = [p!"git", p!"-C", path, p!"rev-parse", p!"HEAD"] → sys.exec p w = (.done out err code, w') →
    w' = w ∧ (code = 0 → ∃ c, G.clone w path = some c ∧ out = ascii c.commit ++ b!"\n")
  config : ∀ p w out err code w', p.argv = [p!"git", p!"-C", path, p!"config", p!"--get", p!"remote.origin.url"] →
    sys.exec p w = (.done out err code, w') → w' = w ∧ (code = 0 → ∃ c, G.clone w path = some c ∧ out = ascii c.origin ++ b!"\n")
  lsRemote : ∀ ref p w out err code w', p.argv = [p!"git", p!"ls-remote", p!"--exit-code", p!"--", url, ref] →
    sys.exec p w = (.done out err code, w') →
    w' = w ∧ (code = 0 → ∃ u rest, G.upstream url ref = some u ∧ out = ascii u.object ++ b!"\t" ++ rest)
  /-- A fresh clone. Without `--branch`, the branch that `HEAD` stands for is checked out. -/
  freshClone : ∀ depth branch p w out err w', p.argv = [p!"git", p!"clone"] ++ opt p!"--depth" depth ++ opt p!"--branch" branch ++ [p!"--", url, path] →
    sys.exec p w = (.done out err 0, w') →
    ∃ u c, G.upstream url (branch.getD p!"HEAD") = some u ∧ G.clone w' path = some c ∧ c.origin = url ∧ c.commit = u.commit ∧ c.ahead = false
      ∧ (u.branch = true → ∃ b, c.follows = some b ∧ G.upstream url b = some u) ∧ (u.branch = false → c.follows = none)
  /-- Without a branch that is checked out, there is nothing to pull. -/
  pull : ∀ depth rebase ffOnly p w out err w',
    p.argv = [p!"git", p!"-C", path, p!"pull"] ++ opt p!"--depth" depth ++ flag p!"--rebase" rebase ++ flag p!"--ff-only" ffOnly →
    sys.exec p w = (.done out err 0, w') →
    ∃ c c' b u, G.clone w path = some c ∧ c.follows = some b ∧ G.upstream c.origin b = some u
      ∧ G.clone w' path = some c' ∧ c'.origin = c.origin ∧ c'.follows = c.follows ∧ (c.ahead = false → c'.commit = u.commit ∧ c'.ahead = false)
  /-- Submodules are repositories of their own. -/
  submodules : ∀ depth recursive p w out err w',
    p.argv = [p!"git", p!"-C", path, p!"submodule", p!"update", p!"--init"] ++ opt p!"--depth" depth ++ flag p!"--recursive" recursive →
    sys.exec p w = (.done out err 0, w') → G.clone w' path = G.clone w path

/-- What is asked for: the branch or tag, otherwise what `HEAD` stands for upstream. -/
def requested (a : RepoArgs) : Str := a.branchOrTag.getD p!"HEAD"

/-- The branch that is checked out follows the one that is asked for. -/
def Follows (G : Repositories) (c : Clone) (url ref : Str) : Prop := ∃ b, c.follows = some b ∧ G.upstream url b = G.upstream url ref

/-- The host answered that there is something at the path. -/
def SaidExists (t : List (Packet × Except Exn Packet)) (path : Str) : Prop :=
  ∃ follow sha type mode owner group size mtime ctime sum,
    (Packet.stat path follow sha, Except.ok (Packet.statResult type mode owner group size mtime ctime sum)) ∈ t

/-- The commands that only ask. -/
def OnlyAsks (a : RepoArgs) (argv : List Str) : Prop :=
  argv = [p!"git", p!"-C", a.path, p!"rev-parse", p!"HEAD"] ∨ argv = [p!"git", p!"-C", a.path, p!"config", p!"--get", p!"remote.origin.url"]
  ∨ ∃ ref, argv = [p!"git", p!"ls-remote", p!"--exit-code", p!"--", a.url, ref]

/-- git answered that this is the url of the remote `origin` of the clone at the path. -/
def SaidOrigin (t : List (Packet × Except Exn Packet)) (path origin : Str) : Prop :=
  ∃ stdin capture user group umask cwd out err,
    (Packet.processRun [p!"git", p!"-C", path, p!"config", p!"--get", p!"remote.origin.url"] stdin capture user group umask cwd,
      Except.ok (Packet.processCompleted out err 0)) ∈ t ∧ outputText out = origin

end Verif.Ops
