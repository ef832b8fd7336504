/-
C54: git repositories.
-/
import Verif.Ops.GitTraceLemmas
import Verif.Ops.GitExample
import Verif.Ops.RepeatProps
import Verif.Ops.FrameProps
import Verif.Ops.Record

namespace Verif.Ops

open Script Remote
open Wire (Packet)

/-- C54: a command that can change something is run in a place that exists only after git has answered that the url of its origin is the
given one, and never in a dry run. -/
theorem C54_right_origin (a : RepoArgs) (check : Bool) (env : Env) (st st' : St) (t : Trace) (r : Except Exn OpResult)
    (h : Execution (repo a check) env st t r st') (before after : Trace) (command : List Str) (stdin : Option Bytes) (capture : Bool)
    (user group umask cwd : Option Str) (answer : Except Exn Packet)
    (ht : t = before ++ (Packet.processRun command stdin capture user group umask cwd, answer) :: after) (hc : ¬ OnlyAsks a command) :
    env.dry = false ∧ (SaidExists before a.path → SaidOrigin before a.path a.url) := by
  obtain ⟨hs, _⟩ := repo_steps t r st' h
  rw [ht] at hs
  rcases (steps_at hs command rfl).1 with h | h
  · exact absurd h hc
  · exact h

/-- C54: if git answers that the origin is another one, the operation fails. -/
theorem C54_other_origin_fails (a : RepoArgs) (check : Bool) (env : Env) (st st' : St) (t : Trace) (r : Except Exn OpResult)
    (h : Execution (repo a check) env st t r st') (origin : Str) (ho : SaidOrigin t a.path origin) (hne : origin ≠ a.url) :
    ∀ res, r = .ok res → res.success = false := (repo_steps t r st' h).2 origin ho hne

/-- C54: with `update=False`, upstream is not contacted if the place exists: the only command is the one that asks for the current commit. -/
theorem C54_no_update_offline (a : RepoArgs) (hup : a.update = false) (check : Bool) (env : Env) (st st' : St) (t : Trace)
    (r : Except Exn OpResult) (h : Execution (repo a check) env st t r st') (before after : Trace) (command : List Str) (stdin : Option Bytes)
    (capture : Bool) (user group umask cwd : Option Str) (answer : Except Exn Packet)
    (ht : t = before ++ (Packet.processRun command stdin capture user group umask cwd, answer) :: after) (hex : SaidExists before a.path) :
    command = [p!"git", p!"-C", a.path, p!"rev-parse", p!"HEAD"] := by
  obtain ⟨hs, _⟩ := repo_steps t r st' h
  rw [ht] at hs
  exact (steps_at hs command rfl).2 hup hex

/-- C54: a clone of another url stays as it is, whatever happens. Success is only reported where nothing was to be updated. -/
theorem C54_other_origin_untouched (sys : Sys) (G : Repositories) (a : RepoArgs) (T : GitHost sys G a.path a.url) (hstat : HonestStat sys) (check : Bool)
    (env : Env) (st : St) (w : World) (c : Clone) (hc : G.clone w a.path = some c) (ho : c.origin ≠ a.url) (lost : Nat → Option Bool) :
    Untouched (fun _ => False) w (perform sys lost (repo a check) env st w).2
    ∧ ∀ r, (perform sys lost (repo a check) env st w).1 = .ok r → r.success = true →
      a.update = false ∨ env.dry = true ∨ ∃ u, G.upstream a.url (if a.branchOrTag = some [] then p!"HEAD" else requested a) = some u ∧ u.object = c.commit := by
  have hp := repo_post (lost := lost) (env := env) (st := st) (w := w) T hstat (check := check)
  refine ⟨untouched_same (post_world (hp.mono (fun _ _ _ h => (h.2.2.2 c hc).1 ho) fun _ h => (h.2 c hc).1 ho) fun _ _ _ h => h), ?_⟩
  intro r hr hs
  obtain ⟨_, h, _⟩ := post_ok hp hr
  rcases h with h | h | h | h | h | h
  · rw [h.1] at hs; cases hs
  · exact .inl h.2.1
  · obtain ⟨c', u, _, _, h1, h2, h3, _⟩ := h
    rw [hc] at h1
    cases h1
    exact .inr (.inr ⟨u, h2, h3.symm⟩)
  · obtain ⟨u, _, h, _⟩ := h
    exact .inr (.inl h)
  · obtain ⟨u, c', _, _, h, _⟩ := h
    rw [hc] at h; cases h
  · obtain ⟨u, c1, c', b, v, _, _, _, h1, h2, _⟩ := h
    rw [hc] at h1
    cases h1
    exact absurd h2 ho

/-- C54: an existing clone stays as it is with `update=False`. -/
theorem C54_no_update_untouched (sys : Sys) (G : Repositories) (a : RepoArgs) (T : GitHost sys G a.path a.url) (hstat : HonestStat sys)
    (hup : a.update = false) (check : Bool) (env : Env) (st : St) (w : World) (c : Clone) (hc : G.clone w a.path = some c) (lost : Nat → Option Bool) :
    Untouched (fun _ => False) w (perform sys lost (repo a check) env st w).2
    ∧ ∀ r, (perform sys lost (repo a check) env st w).1 = .ok r → r.changed = false := by
  have hp := repo_post (lost := lost) (env := env) (st := st) (w := w) T hstat (check := check)
  refine ⟨untouched_same (post_world (hp.mono (fun _ _ _ h => (h.2.2.2 c hc).2.1 hup) fun _ h => (h.2 c hc).2.1 hup) fun _ _ _ h => h), ?_⟩
  intro r hr
  obtain ⟨_, h, _⟩ := post_ok hp hr
  rcases h with h | h | h | h | h | h
  · exact h.2.1
  · exact h.2.2.2.1
  · obtain ⟨c', u, h⟩ := h; exact h.2.2.2.2.2.1
  · obtain ⟨u, _, _, _, h, _⟩ := h
    rw [(h c hc).1] at hup; cases hup
  · obtain ⟨u, c', _, _, h, _⟩ := h
    rw [hc] at h; cases h
  · obtain ⟨u, c1, c', b, v, _, _, h, _⟩ := h
    rw [h] at hup; cases hup

/-- C54: a dry run changes nothing. -/
theorem C54_dry_run (sys : Sys) (G : Repositories) (a : RepoArgs) (T : GitHost sys G a.path a.url) (hstat : HonestStat sys) (check : Bool)
    (env : Env) (hdry : env.dry = true) (st : St) (w : World) (lost : Nat → Option Bool) :
    Untouched (fun _ => False) w (perform sys lost (repo a check) env st w).2 :=
  untouched_same (post_world ((repo_post T hstat).mono (fun _ _ _ h => h.2.2.1 hdry) fun _ h => h.1 hdry) fun _ _ _ h => h)

/-- C54: after success, the commit that is checked out is the one that was asked for. What is missing, for clones that already exist:
the checked out branch has to be the one that is asked for (see `C54_other_branch_refuted`), without further commits; and tags (see
`C54_tag_refuted`). A fresh clone has the given origin. -/
theorem C54_up_to_date_partial (sys : Sys) (G : Repositories) (a : RepoArgs) (T : GitHost sys G a.path a.url) (hstat : HonestStat sys)
    (href : a.branchOrTag ≠ some []) (check : Bool) (env : Env) (hdry : env.dry = false) (st : St) (w : World) (u : Upstream)
    (hu : G.upstream a.url (requested a) = some u)
    (hold : ∀ c, G.clone w a.path = some c → a.update = true ∧ u.branch = true ∧ Follows G c a.url (requested a) ∧ c.ahead = false)
    (lost : Nat → Option Bool) (r : OpResult) (hr : (perform sys lost (repo a check) env st w).1 = .ok r) (hs : r.success = true) :
    ∃ c, G.clone (perform sys lost (repo a check) env st w).2 a.path = some c ∧ c.commit = u.commit
      ∧ (G.clone w a.path = none → c.origin = a.url) := by
  have hp := repo_post (lost := lost) (env := env) (st := st) (w := w) T hstat (check := check)
  obtain ⟨_, h, _⟩ := post_ok hp hr
  have hro : refOf a = requested a := by unfold refOf; rw [if_neg href]
  rw [hro] at h
  generalize (perform sys lost (repo a check) env st w).2 = w' at h
  rcases h with h | h | h | h | h | h
  · rw [h.1] at hs; cases hs
  · obtain ⟨_, h1, ⟨c, h2⟩, _⟩ := h
    rw [(hold c h2).1] at h1; cases h1
  · obtain ⟨c, u', _, _, h1, h2, h3, _, h4⟩ := h
    rw [hu] at h2
    cases h2
    refine ⟨c, (by rw [same_clone T h4, h1]), ?_, fun h => by rw [h1] at h; cases h⟩
    rw [h3]
    exact T.branches _ _ hu (hold c h1).2.1
  · obtain ⟨u', _, h, _⟩ := h
    rw [hdry] at h; cases h
  · obtain ⟨u', c', _, _, h1, h2, _, h3, h4⟩ := h
    rw [hu] at h2
    cases h2
    obtain ⟨k1, k2, _⟩ := h4 href
    exact ⟨c', h3, k2, fun _ => k1⟩
  · obtain ⟨u', c, c', b, v, _, _, _, h1, h2, h3, _, _, h4, h5, h6, h7, h8, h9⟩ := h
    obtain ⟨_, _, ⟨b', hb, hb'⟩, ha⟩ := hold c h1
    rw [h4] at hb
    cases hb
    rw [h5, hu] at hb'
    cases hb'
    exact ⟨c', h6, (h9 ha).1, fun h => by rw [h1] at h; cases h⟩

/-- C54: doing it again right after success, with a branch, has no effect and reports no change. -/
theorem C54_idempotent_partial (sys : Sys) (G : Repositories) (a : RepoArgs) (T : GitHost sys G a.path a.url) (hstat : HonestStat sys)
    (href : a.branchOrTag ≠ some []) (check : Bool) (env : Env) (hdry : env.dry = false) (st : St) (w : World) (u : Upstream)
    (hu : G.upstream a.url (requested a) = some u) (hub : u.branch = true)
    (hold : ∀ c, G.clone w a.path = some c → a.update = true ∧ Follows G c a.url (requested a) ∧ c.ahead = false)
    (lost : Nat → Option Bool) (r : OpResult) (hr : (perform sys lost (repo a check) env st w).1 = .ok r) (hs : r.success = true)
    (w' : World) (hw : w' = (perform sys lost (repo a check) env st w).2) (env' : Env) (st' : St) (lost' : Nat → Option Bool) :
    Untouched (fun _ => False) w' (perform sys lost' (repo a check) env' st' w').2
    ∧ ∀ r', (perform sys lost' (repo a check) env' st' w').1 = .ok r' → r'.changed = false := by
  obtain ⟨c, h1, h2, _⟩ := C54_up_to_date_partial sys G a T hstat href check env hdry st w u hu
    (fun c hc => ⟨(hold c hc).1, hub, (hold c hc).2.1, (hold c hc).2.2⟩) lost r hr hs
  rw [← hw] at h1
  have hro : refOf a = requested a := by unfold refOf; rw [if_neg href]
  have hu' : G.upstream a.url (refOf a) = some u := by rw [hro]; exact hu
  have heq : c.commit = u.object := by rw [h2]; exact (T.branches _ _ hu hub).symm
  have hp := repo_post (lost := lost') (env := env') (st := st') (w := w') T hstat (check := check)
  refine ⟨untouched_same (post_world (hp.mono (fun _ _ _ h => (h.2.2.2 c h1).2.2 u hu' heq) fun _ h => (h.2 c h1).2.2 u hu' heq) fun _ _ _ h => h), ?_⟩
  intro r' hr'
  obtain ⟨_, h, _⟩ := post_ok hp hr'
  rcases h with h | h | h | h | h | h
  · exact h.2.1
  · exact h.2.2.2.1
  · obtain ⟨c', u', h⟩ := h; exact h.2.2.2.2.2.1
  · obtain ⟨u', _, _, h3, h, _⟩ := h
    rw [hu'] at h3
    cases h3
    exact absurd heq (h c h1).2
  · obtain ⟨u', c', _, _, h, _⟩ := h
    rw [h1] at h; cases h
  · obtain ⟨u', c1, c', b, v, _, _, _, h3, _, h4, h5, _⟩ := h
    rw [h1] at h3
    cases h3
    rw [hu'] at h4
    cases h4
    exact absurd heq h5

/-! ### Cases that meet the hypotheses -/

namespace Example

def request (url : Str) (branch : Option Str) : RepoArgs := { url := url, path := app, branchOrTag := branch }

def oldClone : Clone := ⟨p!"c1", urlU, some p!"master", false⟩
def newClone : Clone := ⟨p!"c2", urlU, some p!"master", false⟩
def otherClone : Clone := ⟨p!"d1", urlV, some p!"master", false⟩

example : cloneAt (cloned oldClone) app = some oldClone ∧ cloneAt (cloned otherClone) app = some otherClone ∧ cloneAt host app = none := by decide +kernel

/-- A fresh clone, an update, nothing to do, and a clone of another url. -/
example : gitAfter false (request urlU none) host = (some (true, true), some newClone) := by decide +kernel
example : gitAfter false (request urlU none) (cloned oldClone) = (some (true, true), some newClone) := by decide +kernel
example : gitAfter false (request urlU (some p!"master")) (cloned newClone) = (some (true, false), some newClone) := by decide +kernel
example : gitAfter false (request urlU none) (cloned otherClone) = (some (false, false), some otherClone) := by decide +kernel
example : gitAfter true (request urlU none) (cloned oldClone) = (some (true, true), some oldClone) := by decide +kernel

example : Follows repositories oldClone urlU (requested (request urlU none)) := ⟨p!"master", rfl, rfl⟩
example : repositories.upstream urlU (requested (request urlU none)) = some ⟨p!"c2", p!"c2", true⟩ := rfl
/-- Executions with such answers: an update, and a clone of another url. -/
def talk (a : RepoArgs) (w : World) : Trace := conversation gitSys always (repo a false) env st w

example : (commandsOf (talk (request urlU none) (cloned oldClone))).filterMap id
    = [[p!"git", p!"-C", app, p!"rev-parse", p!"HEAD"], [p!"git", p!"ls-remote", p!"--exit-code", p!"--", urlU, p!"HEAD"],
       [p!"git", p!"-C", app, p!"config", p!"--get", p!"remote.origin.url"], [p!"git", p!"-C", app, p!"pull", p!"--rebase"]] := by decide +kernel
example : (commandsOf (talk (request urlU none) (cloned otherClone))).filterMap id
    = [[p!"git", p!"-C", app, p!"rev-parse", p!"HEAD"], [p!"git", p!"ls-remote", p!"--exit-code", p!"--", urlU, p!"HEAD"],
       [p!"git", p!"-C", app, p!"config", p!"--get", p!"remote.origin.url"]] := by decide +kernel
example : (commandsOf (talk { request urlU none with update := false } (cloned oldClone))).filterMap id
    = [[p!"git", p!"-C", app, p!"rev-parse", p!"HEAD"]] := by decide +kernel
example : (commandsOf (talk { request urlU (some p!"dev") with depth := some 1, updateSubmodules := true } host)).filterMap id
    = [[p!"git", p!"ls-remote", p!"--exit-code", p!"--", urlU, p!"dev"],
       [p!"git", p!"clone", p!"--depth", p!"1", p!"--branch", p!"dev", p!"--", urlU, app], [p!"git", p!"-C", app, p!"submodule", p!"update", p!"--init"]] := by
  decide +kernel

example : HonestStat gitSys := by intro w p f e h; cases h

end Example

/-! ### What is false -/

/-- C54, the part that is false: the branch that is checked out is never switched. If another one is asked for, success (and a change) is
reported every time, and the commit that is checked out stays another one. -/
theorem C54_other_branch_refuted :
    Example.gitAfter false (Example.request Example.urlU (some p!"dev")) (Example.cloned Example.newClone) = (some (true, true), some Example.newClone)
    ∧ Example.upstreamOf Example.urlU p!"dev" = some ⟨p!"e1", p!"e1", true⟩ := by decide +kernel

/-- C54, the part that is false: after a clone with an annotated tag, the same operation fails. It compares the commit with the id of the
tag, and there is no branch to pull. -/
theorem C54_tag_refuted :
    let c : Clone := ⟨p!"c1", Example.urlU, none, false⟩
    Example.gitAfter false (Example.request Example.urlU (some p!"v1")) Example.host = (some (true, true), some c)
    ∧ Example.gitAfter false (Example.request Example.urlU (some p!"v1")) (Example.cloned c) = (none, some c) := by decide +kernel

/-- C54, the part that is false: a clone of another url is not noticed in a dry run (which reports success, where the real run fails), and
not if it happens to be at the same commit. -/
theorem C54_other_origin_unnoticed_refuted :
    (Example.gitAfter true (Example.request Example.urlU none) (Example.cloned Example.otherClone)).1 = some (true, true)
    ∧ (Example.gitAfter false (Example.request Example.urlU none) (Example.cloned Example.otherClone)).1 = some (false, false)
    ∧ (Example.gitAfter false (Example.request Example.urlU none) (Example.cloned ⟨p!"c2", Example.urlV, some p!"master", false⟩)).1 = some (true, false) := by
  decide +kernel

end Verif.Ops
