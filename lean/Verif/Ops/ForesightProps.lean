/-
Why dry runs of scripts do not always predict the real run (C30).
-/
import Verif.Ops.DeployProps
import Verif.Ops.UserProps
import Verif.Ops.ForesightLemmas

namespace Verif.Ops

open Script Remote
open Client (direct)

/-- C30 for scripts that also manage symbolic links. If the real run of a script comes to its end, then its dry run on the same host
reports the same results and prints the same summaries; nothing changes on the host (`readlink` is run to find the targets of links).
Assumed: an ordinary host with a proper file system, whose faults when looking at something do not depend on what else is there; with
links, the same for `readlink`, and that the directory in which it is run is there. Missing: scripts of other operations, for which the
statement is false, see `C30_scripts_refuted`. -/
theorem C30_linked_scripts_partial (sys : Sys) (tools : Tools) (lost : Nat → Option Bool) (env : Env) (st : St) (w : World)
    (hord : Ordinary sys tools w) (hroot : Rooted w) (hlooks : SteadyLooks sys) (hm : PlainModes env st)
    (ts : List Task) (hts : Tasks sys w ts)
    (hlinks : (∃ t ∈ ts, t.wish.isLink = true) → SteadyLinks sys tools ∧ ∀ c rest, st.stack = c :: rest → WorksIn w (env.base.overlay c).cwd)
    (rs : List OpResult) (st' : St) (s : World × Nat)
    (h : exec (flaky sys lost) (deploy (ts.map (·.op))) { env with dry := false } st (w, 0) = ((.ok rs, st'), s)) :
    ∃ started, exec (direct sys) (deploy (ts.map (·.op))) { env with dry := true } st w = ((.ok rs, st'), { w with started }) := by
  have hc : ts ≠ [] → ∃ c rest, st.stack = c :: rest ∧ CwdFine sys w (env.base.overlay c).cwd := by
    intro hne
    cases ts with
    | nil => exact absurd rfl hne
    | cons t ts =>
      rw [List.map_cons, deploy] at h
      obtain ⟨r, st2, s2, h1, h2⟩ := exec_bind_ok.mp h
      have hp := hts.proper t (by simp)
      cases hp with
      | directory => exact directory_cwd h1
      | noDirectory => exact directory_cwd h1
      | store hop _ => exact store_cwd hop h1
      | file => exact file_cwd h1
      | noFile => exact file_cwd h1
      | link => exact link_cwd h1
      | noLink => exact link_cwd h1
  by_cases hne : ts = []
  · subst hne
    rw [List.map_nil, deploy] at h ⊢
    cases h
    exact ⟨w.started, rfl⟩
  · obtain ⟨c, rest, hs, hcwd⟩ := hc hne
    refine deploy_foresees (tools := tools) (st := st) (done := fun _ => False) (l := w.started) hts hm hlooks hroot (fun c' rest' h' => ?_) hlinks ts rfl (.start hord) (fun _ _ => rfl) (fun _ h => h)
      hts.distinct (fun _ h => h.elim) h
    rw [hs] at h'
    cases h'
    exact hcwd

namespace Example

/-- The hypotheses about links are met on the example host. -/
example : SteadyLinks sys tools ∧ ∀ c rest, st.stack = c :: rest → WorksIn host (env.base.overlay c).cwd := by
  refine ⟨⟨fun _ _ _ => rfl, fun _ _ _ _ _ => ⟨rfl, rfl⟩⟩, fun c rest h => ?_⟩
  cases h
  rintro d hd
  cases hd
  refine ⟨rfl, [p!"tmp"], Remote.Example.dirNode 0o1777, rfl, rfl⟩

/-- The dry run of the script with links predicts all changes, and nothing has changed but the history of processes. -/
example : changes (exec (direct sys) (deploy (allTasks.map (·.op))) { env with dry := true } st host).1.1 = some [true, true, true, true, true, true, true]
    ∧ (exec (direct sys) (deploy (allTasks.map (·.op))) { env with dry := true } st host).2.started.map (·.argv) = [[p!"readlink", p!"-n", p!"/dangling"]] := by
  decide +kernel

end Example

/-- The full statement of C30 for scripts: if the real run of a script of operations comes to its end and every operation
succeeds, then the dry run on the same host comes to its end with the same results. -/
def C30_Statement_scripts : Prop :=
  ∀ (sys : Sys) (env : Env) (st : St) (w : World) (opts : List Str) (ops : List (Op OpResult)), (∀ op ∈ ops, Operation opts op) →
    ∀ rs st' w', exec (direct sys) (deploy ops) { env with dry := false } st w = ((.ok rs, st'), w') → (∀ r ∈ rs, r.success = true) →
    ∃ st'' w'', exec (direct sys) (deploy ops) { env with dry := true } st w = ((.ok rs, st''), w'')

namespace Example

/-- The example host with the tools for users and files. -/
def bothSys : Sys :=
  { sys with exec := fun p w => if p.argv.head? = some p!"useradd" then userExec p w else sys.exec p w }

/-- A script that makes an account and a directory for it. -/
def newAccount : List (Op OpResult) :=
  [user bob true,
   directory p!"/tmp/bob" true false none (some p!"bob") none true]

end Example

/-- The full statement of C30 is false of the code for scripts. An operation looks up the owner it is given even in a dry run;
if an earlier operation of the script is about to create this account, the dry run ends with a ValueError. -/
theorem C30_scripts_refuted : ¬ C30_Statement_scripts := by
  intro h
  have hreal : ∃ rs st' w', exec (direct Example.bothSys) (deploy Example.newAccount) { Example.env with dry := false } Example.st Example.fullHost
      = ((.ok rs, st'), w') ∧ (∀ r ∈ rs, r.success = true) := by
    have h1 : ((exec (direct Example.bothSys) (deploy Example.newAccount) { Example.env with dry := false } Example.st Example.fullHost).1.1.toOption.map
        (·.map (·.success))) = some [true, true] := by decide +kernel
    cases he : exec (direct Example.bothSys) (deploy Example.newAccount) { Example.env with dry := false } Example.st Example.fullHost with
    | mk a w' =>
      obtain ⟨r, st'⟩ := a
      rw [he] at h1
      cases r with
      | error e => cases h1
      | ok rs =>
        refine ⟨rs, st', w', rfl, ?_⟩
        have h2 : rs.map (·.success) = [true, true] := Option.some.inj h1
        intro r hr
        have : r.success ∈ rs.map (·.success) := List.mem_map_of_mem hr
        rw [h2] at this
        simpa using this
  obtain ⟨rs, st', w', h1, h2⟩ := hreal
  obtain ⟨st'', w'', h3⟩ := h Example.bothSys Example.env Example.st Example.fullHost [] Example.newAccount (by
    intro op hop
    simp only [Example.newAccount, List.mem_cons, List.not_mem_nil, or_false] at hop
    rcases hop with rfl | rfl
    · exact .user _ _
    · exact .directory _ _ _ _ _ _ _) rs st' w' h1 h2
  have h4 : (exec (direct Example.bothSys) (deploy Example.newAccount) { Example.env with dry := true } Example.st Example.fullHost).1.1.toOption.isSome = false := by
    decide +kernel
  rw [h3] at h4
  cases h4

end Verif.Ops
