/-
Options for what is displayed do not change what a run of the whole program does (C84).
-/
import Verif.Ops.DisplayScriptProps
import Verif.Run.ProgramProps

namespace Verif.Program

open Script Remote Ops
open Client (direct)
open Client.Lifecycle (open' exit State)

section
variable {opts opts' : Env} {t : Target} {lk : Luck} {w : World}

theorem plainScript_deploy : ∀ {ops : List (Op OpResult)}, (∀ op ∈ ops, PlainScript op) → PlainScript (deploy ops)
  | [], _ => .look _ fun _ _ _ _ _ _ _ => ⟨.ret (.ok []), rfl, rfl⟩
  | op :: ops, h => by
    rw [deploy]
    exact .andThen _ _ (h op (by simp)) fun r => .andThen _ _ (plainScript_deploy fun o ho => h o (by simp [ho])) fun rs =>
      .look _ fun _ _ _ _ _ _ _ => ⟨.ret (.ok (r :: rs)), rfl, rfl⟩

theorem plainScript_identity (base : Settings) : PlainScript (resolveIdentity base) :=
  .andThen _ _ (.look _ fun _ _ _ _ _ _ _ => ⟨_, rfl, rfl⟩) fun user => .andThen _ _ (.look _ fun _ _ _ _ _ _ _ => ⟨_, rfl, rfl⟩) fun group =>
    .look _ fun _ _ _ _ _ _ _ => ⟨.ret (.ok { base with asUser := some user, asGroup := some group, owner := some user, group := some group }), rfl, rfl⟩

theorem exec_lucky {α : Type} (hl : ∀ k, lk.lost k = none) (m : Op α) (env : Env) (st : St) (w : World) (k : Nat) :
    ∃ k', exec (flaky t.sys lk.lost) m env st (w, k) = ((exec (direct t.sys) m env st w).1, ((exec (direct t.sys) m env st w).2, k')) :=
  exec_unbroken hl rfl

/-- One host. -/
theorem session_display (hm : MissingIsMissing t.sys) (hops : ∀ op ∈ t.script, PlainScript op) (hl : ∀ k, lk.lost k = none) (hd : Display opts opts') :
    (session opts t lk w).1 = (session opts' t lk w).1 ∧ (session opts t lk w).2.1 = (session opts' t lk w).2.1 ∧ (session opts t lk w).2.2.1 = (session opts' t lk w).2.2.1
    ∧ (session opts t lk w).2.2.2.map (·.result) = (session opts' t lk w).2.2.2.map (·.result) := by
  unfold session
  cases open' lk.opening State.fresh with
  | mk r s =>
    cases r with
    | error e => exact ⟨rfl, rfl, rfl, rfl⟩
    | ok _ =>
      dsimp only
      obtain ⟨k1, e1⟩ := exec_lucky (t := t) hl (resolveIdentity t.base) opts { stack := [] } w 0
      obtain ⟨k2, e2⟩ := exec_lucky (t := t) hl (resolveIdentity t.base) opts' { stack := [] } w 0
      obtain ⟨a1, a2, a3⟩ := unswayed_script hm (plainScript_identity t.base) opts opts' hd { stack := [] } { stack := [] } ⟨rfl, rfl, rfl, rfl, rfl⟩ w
      rw [e1, e2]
      clear e1 e2
      generalize exec (direct t.sys) (resolveIdentity t.base) opts { stack := [] } w = x at a1 a2 a3
      generalize exec (direct t.sys) (resolveIdentity t.base) opts' { stack := [] } w = y at a1 a2 a3
      obtain ⟨⟨r, st1⟩, v⟩ := x
      obtain ⟨⟨r', st2⟩, v'⟩ := y
      dsimp only at a1 a2 a3
      subst a1 a3
      cases r with
      | error e => exact ⟨rfl, rfl, rfl, rfl⟩
      | ok base =>
        dsimp only
        obtain ⟨k3, e3⟩ := exec_lucky (t := t) hl (runCmdline t.script) { opts with base } { stack := [{}] } v k1
        obtain ⟨k4, e4⟩ := exec_lucky (t := t) hl (runCmdline t.script) { opts' with base } { stack := [{}] } v k2
        obtain ⟨b1, b2, b3⟩ := unswayed_script hm (.defaults {} _ fun _ => plainScript_deploy hops) { opts with base } { opts' with base } ⟨rfl, hd.dry, hd.diff⟩ { stack := [{}] } { stack := [{}] }
          ⟨rfl, rfl, rfl, rfl, rfl⟩ v
        change (exec (direct t.sys) (runCmdline t.script) { opts with base } { stack := [{}] } v).1.1 = (exec (direct t.sys) (runCmdline t.script) { opts' with base } { stack := [{}] } v).1.1 at b1
        change SameButDiffs (exec (direct t.sys) (runCmdline t.script) { opts with base } { stack := [{}] } v).1.2 (exec (direct t.sys) (runCmdline t.script) { opts' with base } { stack := [{}] } v).1.2 at b2
        change (exec (direct t.sys) (runCmdline t.script) { opts with base } { stack := [{}] } v).2 = (exec (direct t.sys) (runCmdline t.script) { opts' with base } { stack := [{}] } v).2 at b3
        rw [e3, e4]
        dsimp only
        rw [b1, b3]
        split
        · exact ⟨rfl, rfl, rfl, b2.shown⟩
        · exact ⟨rfl, rfl, rfl, b2.shown⟩

/-- The same fleets, but for what was displayed. -/
structure SameFleet (f f' : Fleet) : Prop where
  hosts : f.hosts = f'.hosts
  results : f.results = f'.results
  background : f.background = f'.background
  screen : (f.screen.map fun x => (x.1, x.2.result)) = f'.screen.map fun x => (x.1, x.2.result)

theorem SameFleet.trans {a b c : Fleet} (h : SameFleet a b) (h' : SameFleet b c) : SameFleet a c :=
  ⟨h.hosts.trans h'.hosts, h.results.trans h'.results, h.background.trans h'.background, h.screen.trans h'.screen⟩

theorem SameFleet.symm {a b : Fleet} (h : SameFleet a b) : SameFleet b a := ⟨h.hosts.symm, h.results.symm, h.background.symm, h.screen.symm⟩

theorem round_display {targets : Str → Target} {luck : Str → Luck} (hm : ∀ h, MissingIsMissing (targets h).sys) (hops : ∀ h, ∀ op ∈ (targets h).script, PlainScript op)
    (hl : ∀ h k, (luck h).lost k = none) (hd : Display opts opts') (h : Str) {f f' : Fleet} (hf : SameFleet f f') :
    (round opts targets luck h f).1 = (round opts' targets luck h f').1 ∧ SameFleet (round opts targets luck h f).2 (round opts' targets luck h f').2 := by
  obtain ⟨s1, s2, s3, s4⟩ := session_display (w := f.hosts h) (hm h) (hops h) (hl h) hd
  unfold round
  dsimp only
  rw [← hf.hosts]
  generalize session opts (targets h) (luck h) (f.hosts h) = x at s1 s2 s3 s4
  generalize session opts' (targets h) (luck h) (f.hosts h) = y at s1 s2 s3 s4
  obtain ⟨r, b, v, l⟩ := x
  obtain ⟨r', b', v', l'⟩ := y
  dsimp only at s1 s2 s3 s4
  subst s1 s2 s3
  have hs : ((f.screen ++ l.map fun p => (h, p)).map fun x => (x.1, x.2.result)) = (f'.screen ++ l'.map fun p => (h, p)).map fun x => (x.1, x.2.result) := by
    rw [List.map_append, List.map_append, hf.screen, List.map_map, List.map_map]
    have : ∀ l : List Report, l.map ((fun x : Str × Report => (x.1, x.2.result)) ∘ fun p => (h, p)) = (l.map (·.result)).map fun r => (h, r) := by
      intro l
      rw [List.map_map]
      rfl
    rw [this, this, s4]
  cases r with
  | error e => exact ⟨rfl, rfl, hf.results, by rw [hf.background], hs⟩
  | ok rs => exact ⟨rfl, rfl, by rw [hf.results], by rw [hf.background], hs⟩

theorem runHosts_display {targets : Str → Target} {luck : Str → Luck} (hm : ∀ h, MissingIsMissing (targets h).sys) (hops : ∀ h, ∀ op ∈ (targets h).script, PlainScript op)
    (hl : ∀ h k, (luck h).lost k = none) (hd : Display opts opts') :
    ∀ (hs : List Str) {f f' : Fleet}, SameFleet f f' →
      (Run.runHosts (round opts targets luck) hs f).1 = (Run.runHosts (round opts' targets luck) hs f').1
      ∧ (Run.runHosts (round opts targets luck) hs f).2.1 = (Run.runHosts (round opts' targets luck) hs f').2.1
      ∧ SameFleet (Run.runHosts (round opts targets luck) hs f).2.2 (Run.runHosts (round opts' targets luck) hs f').2.2
  | [], _, _, hf => ⟨rfl, rfl, hf⟩
  | h :: hs, f, f', hf => by
    obtain ⟨h1, h2⟩ := round_display hm hops hl hd h hf
    simp only [Run.runHosts]
    generalize round opts targets luck h f = x at h1 h2
    generalize round opts' targets luck h f' = y at h1 h2
    obtain ⟨r, g⟩ := x
    obtain ⟨r', g'⟩ := y
    dsimp only at h1 h2
    subst h1
    cases r with
    | error e => exact ⟨rfl, rfl, h2⟩
    | ok _ =>
      obtain ⟨i1, i2, i3⟩ := runHosts_display hm hops hl hd hs h2
      exact ⟨i1, by dsimp only; rw [i2], i3⟩

end

/-- C84, the whole program. Whatever is to be displayed, a run of the program over the hosts of an inventory ends in the same way (the end of the run, and so the exit status),
starts with the same hosts, leaves every host in the same state, has the same results, and prints the same summaries for the same hosts in the same
order apart from the diffs. This is so in dry runs as in real ones, for scripts with any control flow that do not look at these options themselves, if the connections do not break in between. -/
theorem C84_program (opts : Env) (targets : Str → Target) (loaded : List Str) (select : Option Str) (luck : Str → Luck) (f : Fleet)
    (hm : ∀ h, MissingIsMissing (targets h).sys) (hops : ∀ h, ∀ op ∈ (targets h).script, PlainScript op) (hl : ∀ h k, (luck h).lost k = none)
    (diff diff' changes changes' : Bool) :
    let with1 := program { opts with diff := diff, changes := changes } targets loaded select luck f
    let with2 := program { opts with diff := diff', changes := changes' } targets loaded select luck f
    with1.1 = with2.1 ∧ with1.2.1 = with2.2.1 ∧ with1.2.2.hosts = with2.2.2.hosts ∧ with1.2.2.results = with2.2.2.results
    ∧ (with1.2.2.screen.map fun x => (x.1, x.2.result)) = with2.2.2.screen.map fun x => (x.1, x.2.result) := by
  have key : ∀ d c, _ := fun d c => fun hs : List Str => runHosts_display (f := f) (f' := f) hm hops hl
    (opts := { opts with diff := d, changes := c }) (opts' := { opts with diff := false, changes := true }) ⟨rfl, rfl, rfl⟩ hs ⟨rfl, rfl, rfl, rfl⟩
  unfold program Run.mainRun
  split
  · exact ⟨rfl, rfl, rfl, rfl, rfl⟩
  · rename_i selected _
    obtain ⟨a1, a2, a3⟩ := key diff changes selected
    obtain ⟨b1, b2, b3⟩ := key diff' changes' selected
    have h := a3.trans b3.symm
    exact ⟨a1.trans b1.symm, a2.trans b2.symm, h.hosts, h.results, h.screen⟩

/-- The hypotheses are met by the example of C88, and with --diff there are diffs: the file of the directory tree is new. -/
example : (∀ op ∈ Example.target.script, PlainScript op) ∧ MissingIsMissing Example.target.sys ∧ (∀ k, Example.fine.lost k = none) := by
  refine ⟨?_, Ops.Example.missing_sys, fun _ => rfl⟩
  intro op hop
  simp only [Example.target, Ops.Example.treeCalls, Ops.Call.op, List.map_cons, List.map_nil, List.mem_cons, List.not_mem_nil, or_false] at hop
  rcases hop with rfl | rfl | rfl | rfl
  · exact .operation _ _ (.directory ..)
  · exact .operation _ _ (.uploadDir ..)
  · exact .operation _ _ (.link ..)
  · exact .operation _ _ (.directory ..)

example : let run := fun diff => program { base := {}, diff } (fun _ => Example.target) [p!"a", p!"b"] none (fun _ => Example.fine) Example.fleet
    ((run true).2.2.screen.map (·.2.diffs.length)).sum > 0 ∧ ((run false).2.2.screen.map (·.2.diffs.length)).sum = 0 ∧ (run true).2.1 = [p!"a", p!"b"] :=
  ⟨by decide +kernel, by decide +kernel, by decide +kernel⟩

end Verif.Program
