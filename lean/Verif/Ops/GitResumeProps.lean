/-
C99: an interrupted checkout is completed by the next run.
-/
import Verif.Ops.GitResumeLemmas
import Verif.Ops.GitProps

namespace Verif.Ops

open Script Remote

/-! ### C99 -/

/-- C99, the commit. However often the operation was interrupted before, and wherever (requests or answers lost, commands that fail), if it
reports success once, the commit that is upstream is checked out from the given url, and another run has no effect. What is missing:
tags, and clones of which another branch is checked out, or that have commits of their own (see C54). -/
theorem C99_commit_partial (sys : Sys) (G : Repositories) (a : RepoArgs) (T : GitHost sys G a.path a.url) (F : GitFailures sys G a.path a.url)
    (hstat : HonestStat sys) (href : a.branchOrTag ≠ some []) (hupd : a.update = true) (check : Bool) (env : Env) (hdry : env.dry = false) (st : St) (w : World)
    (u : Upstream) (hu : G.upstream a.url (requested a) = some u) (hub : u.branch = true) (hold : Usable G a w)
    (interrupted : List (Nat → Option Bool)) (lost lost' : Nat → Option Bool) (r : OpResult) :
    let run := fun l w => perform sys l (repo a check) env st w
    let before := interrupted.foldl (fun w l => (run l w).2) w
    (run lost before).1 = .ok r → r.success = true →
      (∃ c, G.clone (run lost before).2 a.path = some c ∧ c.origin = a.url ∧ c.commit = u.commit)
      ∧ Untouched (fun _ => False) (run lost before).2 (run lost' (run lost before).2).2 := by
  intro run before h hs
  have hk := usable_kept T F hu hub
  have hready : SubmoduleHost sys (fun _ => True) a.path := fun _ _ _ _ _ _ _ _ _ => trivial
  have hkeep : ∀ l w, Usable G a w → Usable G a (run l w).2 := fun l w hw =>
    post_world ((repo_ready (lost := l) (env := env) (st := st) (check := check) hk hready hw).mono (fun _ _ _ h => h.1) fun _ h => h) (fun _ _ _ h => h)
  have hb : Usable G a before := by
    show Usable G a (interrupted.foldl (fun w l => (run l w).2) w)
    clear h before
    induction interrupted generalizing w with
    | nil => exact hold
    | cons l ls ih => exact ih (run l w).2 (hkeep l w hold)
  obtain ⟨c, h1, h2, -⟩ := C54_up_to_date_partial sys G a T hstat href check env hdry st before u hu
    (fun c hc => ⟨hupd, hub, (hb c hc).2.1, (hb c hc).2.2⟩) lost r h hs
  refine ⟨⟨c, h1, (hkeep lost before hb c h1).1, h2⟩, ?_⟩
  exact (C54_idempotent_partial sys G a T hstat href check env hdry st before u hu hub (fun c hc => ⟨hupd, (hb c hc).2.1, (hb c hc).2.2⟩) lost r h hs
    _ rfl env st lost').1

/-- C99, the submodules: if the operation reports that something was changed, the submodules are checked out. What is missing: if nothing
is to be changed otherwise, they need not be (see `C99_submodules_refuted`). -/
theorem C99_submodules_partial (sys : Sys) (ready : World → Prop) (a : RepoArgs) (S : SubmoduleHost sys ready a.path) (hsub : a.updateSubmodules = true)
    (check : Bool) (env : Env) (hdry : env.dry = false) (st : St) (w : World) (lost : Nat → Option Bool) (r : OpResult)
    (hr : (perform sys lost (repo a check) env st w).1 = .ok r) (hs : r.success = true) (hc : r.changed = true) :
    ready (perform sys lost (repo a check) env st w).2 :=
  (post_ok (repo_ready (I := fun _ => True) (fun _ _ _ _ _ _ _ _ _ _ _ => trivial) S trivial) hr).2 hs hc hdry hsub

/-! ### Cases that meet the hypotheses, and a counterexample -/

namespace Example

theorem putClone_failed {c : Clone} {w w' : World} {out err : Bytes} {code : Int} (h : putClone c w = (.done out err code, w')) (hc : code ≠ 0) : w' = w := by
  unfold putClone at h
  dsimp only at h
  split at h
  · cases h; exact absurd rfl hc
  · cases h; rfl

theorem gitFailures : GitFailures gitSys repositories app urlU where
  clone := by
    intro depth branch p w out err code w' hp h hc
    have h : gitExec p w = _ := h
    unfold gitExec at h
    rw [hp] at h
    have h : gitClone branch w = (.done out err code, w') := by cases depth <;> cases branch <;> exact h
    unfold gitClone at h
    split at h
    · cases h; rfl
    · rw [putClone_failed h hc]
  pull := by
    intro depth rebase ffOnly p w out err code w' hp h hc
    have h : gitExec p w = _ := h
    unfold gitExec at h
    rw [hp] at h
    have h : gitPull w = _ := h
    unfold gitPull at h
    split at h
    · cases h; rfl
    · split at h
      · cases h; rfl
      · split at h
        · cases h; rfl
        · rw [putClone_failed h hc]
  submodules := by
    intro depth recursive p w out err code w' hp h hc
    have h : gitExec p w = _ := h
    unfold gitExec at h
    rw [hp] at h
    have h : gitSubmodules w = _ := h
    unfold gitSubmodules at h
    dsimp only at h
    split at h
    · cases h; exact absurd rfl hc
    · cases h; rfl

/-- The submodules are there. -/
def modules (w : World) : Bool := (w.fs [p!"app", p!".git", p!"modules"]).isSome

theorem submoduleHost : SubmoduleHost gitSys (fun w => modules w = true) app := by
  intro depth recursive p w out err w' hp h
  have h : gitExec p w = _ := h
  unfold gitExec at h
  rw [hp] at h
  have h : gitSubmodules w = _ := h
  unfold gitSubmodules at h
  dsimp only at h
  split at h
  · cases h
    simp [modules, World.set, setNode]
  · cases h

/-- Nothing is at the path, or an old clone with the right branch: this can be used. -/
example : Usable repositories (request urlU none) host ∧ Usable repositories (request urlU none) (cloned oldClone) := by
  have h1 : cloneAt host app = none := by decide +kernel
  have h2 : cloneAt (cloned oldClone) app = some oldClone := by decide +kernel
  constructor
  · intro c hc
    have : cloneAt host app = some c := hc
    rw [h1] at this; cases this
  · intro c hc
    have : cloneAt (cloned oldClone) app = some c := hc
    rw [h2] at this; cases this
    exact ⟨rfl, ⟨p!"master", rfl, rfl⟩, rfl⟩

/-- What an operation reports, and what is there afterwards, if the connection breaks as given. -/
def gitOver (lost : Nat → Option Bool) (a : RepoArgs) (w : World) : Option (Bool × Bool) × Option Clone × Bool :=
  (match (perform gitSys lost (repo a true) env st w).1 with
    | .ok r => some (r.success, r.changed)
    | .error _ => none,
   cloneAt (perform gitSys lost (repo a true) env st w).2 app, modules (perform gitSys lost (repo a true) env st w).2)

def withModules : RepoArgs := { request urlU none with updateSubmodules := true }

/-- The connection breaks when the clone was made, and the next run finds it; or before, and the next run makes it. -/
example : gitOver (breaks 2 true) (request urlU none) host = (none, some newClone, false)
    ∧ gitOver always (request urlU none) (perform gitSys (breaks 2 true) (repo (request urlU none) true) env st host).2 = (some (true, false), some newClone, false)
    ∧ gitOver (breaks 2 false) (request urlU none) host = (none, none, false)
    ∧ gitOver always (request urlU none) (perform gitSys (breaks 2 false) (repo (request urlU none) true) env st host).2 = (some (true, true), some newClone, false) := by
  decide +kernel

/-- Without interruption, the submodules are checked out, too. -/
example : gitOver always withModules host = (some (true, true), some newClone, true)
    ∧ gitOver always withModules (cloned oldClone) = (some (true, true), some newClone, true) := by decide +kernel

end Example

/-- C99, the part that is false: after success with `update_submodules=True`, the submodules are checked out. If the connection breaks
between the clone and the command for submodules, all further runs report success, and that nothing was changed, but the submodules
are never checked out. The same happens if there already was a clone without them. -/
theorem C99_submodules_refuted :
    let interrupted := (perform Example.gitSys (Example.breaks 3 false) (repo Example.withModules true) Example.env Example.st Example.host).2
    Example.gitOver (Example.breaks 3 false) Example.withModules Example.host = (none, some Example.newClone, false)
    ∧ Example.gitOver Example.always Example.withModules interrupted = (some (true, false), some Example.newClone, false)
    ∧ Example.gitOver Example.always Example.withModules (Example.cloned Example.newClone) = (some (true, false), some Example.newClone, false) := by
  decide +kernel

end Verif.Ops
