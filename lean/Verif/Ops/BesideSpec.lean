/-
C101: scripts about different files, at the same time.
-/
import Verif.Ops.TogetherSpec
import Verif.Ops.DeploySpec

namespace Verif.Ops

open Script Remote

/-- The places that a script may change. -/
def Zone (ts : List Task) (q : Loc) : Prop := ∃ t ∈ ts, t.Covers q

/-- No path of one script is on the way to a path of the other. -/
def KeepApart (ts ts' : List Task) : Prop := ∀ t ∈ ts, ∀ t' ∈ ts', ¬ t.names <+: t'.names ∧ ¬ t'.names <+: t.names

/-- Nothing at this place, or on the way to it, is a symbolic link. -/
def NoLinks (w : World) (names : List Str) : Prop := ∀ p s, names = p ++ s → ∀ n target, w.fs p = some n → n.kind ≠ .link target

/-- A working directory that is in force somewhere in the script. -/
def WorkDir (env : Env) (st : St) (d : Str) : Prop := env.base.cwd = some d ∨ ∃ s ∈ st.stack, s.cwd = some d

/-- Working directories are given by absolute paths. No symbolic links are on the way, and no script is about a place there. -/
def Lodged (w : World) (ts : List Task) (env : Env) (st : St) : Prop :=
  ∀ d, WorkDir env st d → ∃ names, d = pathOf names ∧ (∀ n ∈ names, FileName n) ∧ NoLinks w names ∧ ∀ p, p <+: names → ¬ Zone ts p

/-- No mode, owner or group in the defaults begins with a dash. -/
def PlainDefaults (env : Env) (st : St) : Prop :=
  ∀ s, s = env.base ∨ s ∈ st.stack → ∀ x, (s.owner = some x ∨ s.group = some x ∨ s.fileMode = some x ∨ s.dirMode = some x) → x.head? ≠ some 45

/-- The path that a call is about. -/
def callPath : Remote.Call → Str
  | .stat path _ | .openRead path | .read path | .openWrite path | .write path | .chmod path | .chown path | .chdir path => path

/-- What the environment decides (permissions, I/O errors, missing programs) about these paths does not depend on what is at those places. (It
may depend on what is at the paths, and on the way to them.) -/
structure Unmoved (sys : Sys) (tools : Tools) (paths : Str → Prop) (places : Loc → Prop) : Prop where
  call : ∀ w w', Untouched places w w' → ∀ c : Remote.Call, paths (callPath c) → sys.fault w' c = sys.fault w c
  written : ∀ w w', Untouched places w w' → ∀ path, paths path → sys.written w' path = sys.written w path
  missing : ∀ w w', Untouched places w w' → ∀ p path, p.argv.getLast? = some path → paths path → tools.missing p w' = tools.missing p w
  fault : ∀ w w', Untouched places w w' → ∀ p path, p.argv.getLast? = some path → paths path → tools.fault p w' = tools.fault p w
  kept : ∀ w w', Untouched places w w' → ∀ p path, p.argv.getLast? = some path → paths path → tools.kept p w' = tools.kept p w
  says : ∀ w w', Untouched places w w' → ∀ p path, p.argv.getLast? = some path → paths path → tools.says p w' = tools.says p w
  ownerSpec : ∀ w w', Untouched places w w' → ∀ s, tools.ownerSpec s w' = tools.ownerSpec s w

/-- The paths that a script is about, and its working directories. -/
def Paths (ts : List Task) (env : Env) (st : St) (path : Str) : Prop := (∃ t ∈ ts, path = pathOf t.names) ∨ WorkDir env st path

/-- A script about files and directories, in a real run, and another one at the same time. -/
structure Neighbour (sys : Sys) (tools : Tools) (w : World) (ts others : List Task) (env : Env) (st : St) : Prop where
  tasks : Tasks sys w ts
  noLinkTasks : ∀ t ∈ ts, t.wish.isLink = false
  noLinks : ∀ t ∈ ts, NoLinks w t.names
  modes : PlainModes env st
  defaults : PlainDefaults env st
  lodged : Lodged w others env st
  wet : env.dry = false
  unmoved : Unmoved sys tools (Paths ts env st) (Zone others)

end Verif.Ops
