/-
A small host with git, used to show that the hypotheses of the theorems are met, and for counterexamples. There is one place for a clone,
`/app`, and there are two upstream repositories, `https://u` and `https://v`.
-/
import Verif.Ops.GitSpec
import Verif.Ops.Example

namespace Verif.Ops.Example

open Script Remote

def app : Str := p!"/app"
def urlU : Str := p!"https://u"
def urlV : Str := p!"https://v"

/-- What is upstream. `v1` is an annotated tag. -/
def upstreamOf (url ref : Str) : Option Upstream :=
  if url = urlU then
    if ref = p!"HEAD" ∨ ref = p!"master" then some ⟨p!"c2", p!"c2", true⟩
    else if ref = p!"dev" then some ⟨p!"e1", p!"e1", true⟩
    else if ref = p!"v1" then some ⟨p!"7a", p!"c1", false⟩
    else none
  else if url = urlV then
    if ref = p!"HEAD" ∨ ref = p!"master" then some ⟨p!"d1", p!"d1", true⟩ else none
  else none

/-- The states that a clone can be in. -/
def clones : List Clone :=
  [⟨p!"c1", urlU, some p!"master", false⟩, ⟨p!"c2", urlU, some p!"master", false⟩, ⟨p!"e1", urlU, some p!"dev", false⟩, ⟨p!"c1", urlU, none, false⟩,
   ⟨p!"d1", urlV, some p!"master", false⟩, ⟨p!"c2", urlV, some p!"master", false⟩]

def dirAt (w : World) (path : Str) : Bool := match lookup w.fs w.cwd path false with
  | .ok (_, n) => decide (n.kind = .dir)
  | .error _ => false

/-- The file `.git/HEAD` has as many bytes as there are states before the current one. -/
def cloneAt (w : World) (path : Str) : Option Clone :=
  if path = app ∧ dirAt w path = true ∧ dirAt w (pathJoin path p!".git") = true then
    match w.fs [p!"app", p!".git", p!"HEAD"] with
    | some n => match n.kind with
      | .file content => clones[content.length]?
      | _ => none
    | none => none
  else none

def repositories : Repositories where
  clone := cloneAt
  upstream := upstreamOf

/-- Leaves a clone in this state, or fails. -/
def putClone (c : Clone) (w : World) : ExecRes × World :=
  let w' := ((w.set [p!"app"] (some (Remote.Example.dirNode 0o755))).set [p!"app", p!".git"] (some (Remote.Example.dirNode 0o755))).set
    [p!"app", p!".git", p!"HEAD"] (some { Remote.Example.dirNode 0o644 with kind := .file (List.replicate (clones.idxOf c) 0) })
  if cloneAt w' app = some c then (.done [] [] 0, w') else (.done [] [] 128, w)

def branchArg : List Str → Option Str
  | [o, v, _, _, _] => if o = p!"--branch" then some v else none
  | [_, _, _, b, _, _, _] => some b
  | _ => none

def gitClone (branch : Option Str) (w : World) : ExecRes × World :=
  match upstreamOf urlU (branch.getD p!"HEAD") with
  | none => (.done [] [] 128, w)
  | some u => putClone ⟨u.commit, urlU, if u.branch then some (if branch = some p!"dev" then p!"dev" else p!"master") else none, false⟩ w

def gitPull (w : World) : ExecRes × World :=
  match cloneAt w app with
  | none => (.done [] [] 128, w)
  | some c => match c.follows with
    | none => (.done [] [] 1, w)
    | some b => match upstreamOf c.origin b with
      | none => (.done [] [] 1, w)
      | some u => putClone { c with commit := u.commit, ahead := false } w

/-- Submodules are kept below `.git/modules`. -/
def gitSubmodules (w : World) : ExecRes × World :=
  let w' := w.set [p!"app", p!".git", p!"modules"] (some (Remote.Example.dirNode 0o755))
  if cloneAt w' app = cloneAt w app then (.done [] [] 0, w') else (.done [] [] 1, w)

def gitExec (p : Proc) (w : World) : ExecRes × World :=
  match p.argv with
  | _ :: sub :: rest =>
    if sub = p!"clone" then gitClone (branchArg rest) w
    else if sub = p!"ls-remote" then
      match upstreamOf urlU (rest[3]?.getD []) with
      | none => (.done [] [] 2, w)
      | some u => (.done (ascii u.object ++ b!"\t" ++ b!"refs\n") [] 0, w)
    else if rest[1]? = some p!"rev-parse" then
      match cloneAt w app with
      | none => (.done [] [] 128, w)
      | some c => (.done (ascii c.commit ++ b!"\n") [] 0, w)
    else if rest[1]? = some p!"config" then
      match cloneAt w app with
      | none => (.done [] [] 128, w)
      | some c => (.done (ascii c.origin ++ b!"\n") [] 0, w)
    else if rest[1]? = some p!"pull" then gitPull w
    else if rest[1]? = some p!"submodule" then gitSubmodules w
    else (.done [] [] 0, w)
  | _ => (.done [] [] 127, w)

def gitSys : Sys := { sys with exec := gitExec }

theorem putClone_done {c : Clone} {w w' : World} {out err : Bytes} (h : putClone c w = (.done out err 0, w')) : cloneAt w' app = some c := by
  unfold putClone at h
  dsimp only at h
  split at h
  · cases h; assumption
  · cases h

theorem cloneAt_dir {w : World} {path : Str} {c : Clone} (h : cloneAt w path = some c) :
    IsDir w path ∧ IsDir w (pathJoin path p!".git") ∧ c ∈ clones := by
  unfold cloneAt at h
  split at h
  · rename_i hd
    have key : ∀ q, dirAt w q = true → IsDir w q := by
      intro q hq
      unfold dirAt at hq
      split at hq
      · next l n hl => exact ⟨l, n, hl, by simpa using hq⟩
      · cases hq
    refine ⟨key _ hd.2.1, key _ hd.2.2, ?_⟩
    split at h
    · split at h
      · exact List.mem_of_getElem? h
      · cases h
    · cases h
  · cases h

theorem upstream_cases {url ref : Str} {u : Upstream} (h : upstreamOf url ref = some u) : Word u.object ∧ (u.branch = true → u.object = u.commit) := by
  unfold upstreamOf at h
  split at h
  · split at h
    · cases h; decide
    · split at h
      · cases h; decide
      · split at h
        · cases h; decide
        · cases h
  · split at h
    · split at h
      · cases h; decide
      · cases h
    · cases h

theorem gitHost : GitHost gitSys repositories app urlU where
  history := fun _ _ => rfl
  directory := fun w c h => ⟨(cloneAt_dir h).1, (cloneAt_dir h).2.1⟩
  words := by
    intro w c h
    have : ∀ c ∈ clones, Word c.commit ∧ Word c.origin := by decide
    exact this c (cloneAt_dir h).2.2
  objects := fun ref _ h => (upstream_cases (url := urlU) (ref := ref) h).1
  branches := fun ref _ h => (upstream_cases (url := urlU) (ref := ref) h).2
  revParse := by
    intro p w out err code w' hp h
    have h : gitExec p w = _ := h
    unfold gitExec at h
    rw [hp] at h
    have h : (match cloneAt w app with
      | none => (ExecRes.done [] [] 128, w)
      | some c => (.done (ascii c.commit ++ b!"\n") [] 0, w)) = _ := h
    split at h
    · cases h; exact ⟨rfl, fun h => by cases h⟩
    · next c hc => cases h; exact ⟨rfl, fun _ => ⟨c, hc, rfl⟩⟩
  config := by
    intro p w out err code w' hp h
    have h : gitExec p w = _ := h
    unfold gitExec at h
    rw [hp] at h
    have h : (match cloneAt w app with
      | none => (ExecRes.done [] [] 128, w)
      | some c => (.done (ascii c.origin ++ b!"\n") [] 0, w)) = _ := h
    split at h
    · cases h; exact ⟨rfl, fun h => by cases h⟩
    · next c hc => cases h; exact ⟨rfl, fun _ => ⟨c, hc, rfl⟩⟩
  lsRemote := by
    intro ref p w out err code w' hp h
    have h : gitExec p w = _ := h
    unfold gitExec at h
    rw [hp] at h
    have h : (match upstreamOf urlU ref with
      | none => (ExecRes.done [] [] 2, w)
      | some u => (.done (ascii u.object ++ b!"\t" ++ b!"refs\n") [] 0, w)) = _ := h
    split at h
    · cases h; exact ⟨rfl, fun h => by cases h⟩
    · next u hu => cases h; exact ⟨rfl, fun _ => ⟨u, _, hu, rfl⟩⟩
  freshClone := by
    intro depth branch p w out err w' hp h
    have h : gitExec p w = _ := h
    unfold gitExec at h
    rw [hp] at h
    have h : gitClone branch w = (.done out err 0, w') := by cases depth <;> cases branch <;> exact h
    unfold gitClone at h
    split at h
    · cases h
    · next u hu =>
      refine ⟨u, _, hu, putClone_done h, rfl, rfl, rfl, fun hb => ⟨_, by rw [if_pos hb], ?_⟩, fun hb => by simp [hb]⟩
      show upstreamOf urlU _ = some u
      cases branch with
      | none => cases hu; rfl
      | some b =>
        by_cases hdev : b = p!"dev"
        · subst hdev; exact hu
        · have h1 : ¬ (some b = some p!"dev") := by simpa using hdev
          rw [if_neg h1]
          have hu : upstreamOf urlU b = some u := hu
          unfold upstreamOf at hu
          rw [if_pos rfl] at hu
          split at hu
          · cases hu; rfl
          · split at hu
            · cases hu; cases hb
            · cases hu
  pull := by
    intro depth rebase ffOnly p w out err w' hp h
    have h : gitExec p w = _ := h
    unfold gitExec at h
    rw [hp] at h
    have h : gitPull w = _ := h
    unfold gitPull at h
    split at h
    · cases h
    · next c hc =>
      split at h
      · cases h
      · next b hb =>
        split at h
        · cases h
        · next u hu => exact ⟨c, _, b, u, hc, hb, hu, putClone_done h, rfl, rfl, fun _ => ⟨rfl, rfl⟩⟩
  submodules := by
    intro depth recursive p w out err w' hp h
    have h : gitExec p w = _ := h
    unfold gitExec at h
    rw [hp] at h
    have h : gitSubmodules w = _ := h
    unfold gitSubmodules at h
    dsimp only at h
    split at h
    · next hc => cases h; exact hc
    · cases h

/-- The host with a clone in one of the states. -/
def cloned (c : Clone) : World := (putClone c host).2

/-- What an operation reports, and what is there afterwards. -/
def gitAfter (dry : Bool) (a : RepoArgs) (w : World) : Option (Bool × Bool) × Option Clone :=
  (match (perform gitSys always (repo a false) { env with dry := dry } st w).1 with
    | .ok r => some (r.success, r.changed)
    | .error _ => none,
   cloneAt (perform gitSys always (repo a false) { env with dry := dry } st w).2 app)

end Verif.Ops.Example
