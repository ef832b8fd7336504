/-
C105: the hosts of a run can be dealt with one at a time, and in any order.
-/
import Verif.Run.EachSpec
import Verif.Run.SplitProps

namespace Verif.Program

open Script Remote Ops

variable {opts : Env} {targets : Str → Target} {luck : Str → Luck} {loaded : List Str}

theorem program_one {h : Str} (hl : h ∈ loaded) (hc : 44 ∉ h) (f : Fleet) :
    program opts targets loaded (some h) luck f = Run.runHosts (round opts targets luck) [h] f := by
  unfold program Run.mainRun Run.requested
  dsimp only
  rw [Run.split_nocomma 44 h hc]
  simp [Run.select, hl]

theorem program_selected {select : Option Str} {wanted : List Str} (hw : Run.Wanted loaded select wanted) (hl : ∀ h ∈ wanted, h ∈ loaded) (hn : wanted.Nodup) (f : Fleet) :
    program opts targets loaded select luck f = Run.runHosts (round opts targets luck) wanted f := by
  unfold program Run.mainRun
  rw [← Run.wanted_iff.mp hw]
  have hsp := Run.select_spec (loaded := loaded) (hs := wanted) Run.firstOccurrences_nil
  cases hs : Run.select loaded wanted [] with
  | ok r =>
    have h1 := (hsp.1 hs).1
    rw [List.nil_append] at h1
    rw [Run.firstOccurrences_self hn h1]
  | error m =>
    obtain ⟨h, hh, hno, _⟩ := hsp.2 hs
    exact absurd (hl h hh) hno

theorem oneByOne_eq : ∀ (hs : List Str) (f : Fleet), (∀ h ∈ hs, h ∈ loaded) → (∀ h ∈ hs, 44 ∉ h) →
    oneByOne opts targets loaded luck hs f = ((Run.runHosts (round opts targets luck) hs f).1, (Run.runHosts (round opts targets luck) hs f).2.2)
  | [], _, _, _ => rfl
  | h :: hs, f, hl, hc => by
    unfold oneByOne
    rw [program_one (hl h (by simp)) (hc h (by simp))]
    unfold Run.runHosts
    cases hr : round opts targets luck h f with
    | mk x g =>
      cases x with
      | error e => rfl
      | ok u =>
        dsimp only [Run.runHosts]
        exact oneByOne_eq hs g (fun x hx => hl x (by simp [hx])) fun x hx => hc x (by simp [hx])

/-- C105: running the program for several hosts is the same as running it for one after the other, with `--hosts h`, until such a run
fails: it ends in the same way, leaves the same on every host, has the same results and prints the same, whatever the scripts are and
wherever connections break. (The hosts are in the inventory, are named once, and their names have no commas.) -/
theorem C105_one_by_one (opts : Env) (targets : Str → Target) (loaded : List Str) (select : Option Str) (luck : Str → Luck) (f : Fleet) (wanted : List Str)
    (hw : Run.Wanted loaded select wanted) (hl : ∀ h ∈ wanted, h ∈ loaded) (hn : wanted.Nodup) (hc : ∀ h ∈ wanted, 44 ∉ h) :
    let r := program opts targets loaded select luck f
    oneByOne opts targets loaded luck wanted f = (r.1, r.2.2) := by
  intro r
  rw [oneByOne_eq wanted f hl hc]
  show _ = ((program opts targets loaded select luck f).1, (program opts targets loaded select luck f).2.2)
  rw [program_selected hw hl hn]

/-- C105: the order in which the hosts are named does not matter. Two runs for the same hosts in different orders both come to their
end, or neither does. If they do, they leave the same on every host, and have the same results and print the same summaries for each host, except that the
hosts come in a different order. -/
theorem C105_any_order (opts : Env) (targets : Str → Target) (loaded : List Str) (select1 select2 : Option Str) (luck : Str → Luck) (f : Fleet) (wanted1 wanted2 : List Str)
    (hw1 : Run.Wanted loaded select1 wanted1) (hw2 : Run.Wanted loaded select2 wanted2) (hl : ∀ h ∈ wanted1, h ∈ loaded) (hn : wanted1.Nodup)
    (hp : wanted1.Perm wanted2) :
    let r1 := program opts targets loaded select1 luck f
    let r2 := program opts targets loaded select2 luck f
    (r1.1 = .finished ↔ r2.1 = .finished)
    ∧ (r1.1 = .finished → r1.2.2.hosts = r2.2.2.hosts
      ∧ (∃ results : Str → List OpResult, r1.2.2.results = f.results ++ wanted1.map (fun h => (h, results h))
        ∧ r2.2.2.results = f.results ++ wanted2.map (fun h => (h, results h)))
      ∧ ∃ printed : Str → List Report, r1.2.2.screen = f.screen ++ wanted1.flatMap (fun h => (printed h).map fun p => (h, p))
        ∧ r2.2.2.screen = f.screen ++ wanted2.flatMap (fun h => (printed h).map fun p => (h, p))) := by
  have hn2 : wanted2.Nodup := hp.nodup_iff.mp hn
  have e1 := program_selected (opts := opts) (targets := targets) (luck := luck) hw1 hl hn f
  have e2 := program_selected (opts := opts) (targets := targets) (luck := luck) hw2 (fun h hh => hl h (hp.mem_iff.mpr hh)) hn2 f
  rw [e1, e2]
  intro r1 r2
  have o1 : Outcome opts targets luck f wanted1 r1 := runHosts_outcome wanted1 f hn
  have o2 : Outcome opts targets luck f wanted2 r2 := runHosts_outcome wanted2 f hn2
  have hiff : r1.1 = .finished ↔ r2.1 = .finished := by
    rw [show r1.1 = .finished ↔ _ from runHosts_finished wanted1 f targets luck hn, show r2.1 = .finished ↔ _ from runHosts_finished wanted2 f targets luck hn2]
    exact ⟨fun h x hx => h x (hp.mem_iff.mpr hx), fun h x hx => h x (hp.mem_iff.mp hx)⟩
  refine ⟨hiff, fun hf1 => ?_⟩
  have hf2 := hiff.mp hf1
  clear_value r1 r2
  obtain ⟨g1, ra, k1, l1, m1⟩ := o1.finished hf1
  obtain ⟨g2, rb, k2, l2, m2⟩ := o2.finished hf2
  refine ⟨funext fun h => ?_, ⟨fun h => returned (session opts (targets h) (luck h) (f.hosts h)).1, ?_, ?_⟩,
    fun h => (session opts (targets h) (luck h) (f.hosts h)).2.2.2, ?_, ?_⟩
  · by_cases hh : h ∈ wanted1
    · rw [o1.reached h (by rw [g1]; exact hh), o2.reached h (by rw [g2]; exact hp.mem_iff.mp hh)]
    · rw [o1.others h (by rw [g1]; exact hh), o2.others h (by rw [g2]; exact fun hc => hh (hp.mem_iff.mpr hc))]
  · have := results_of (opts := opts) (targets := targets) (luck := luck) (hosts := f.hosts) ra m1
    rw [k1] at this
    rw [l1, ← this]
  · have := results_of (opts := opts) (targets := targets) (luck := luck) (hosts := f.hosts) rb m2
    rw [k2] at this
    rw [l2, ← this]
  · rw [o1.screen, g1]
  · rw [o2.screen, g2]

/-! ### An example -/

namespace Example

/-- The hypotheses are met for `--hosts a,b` and `--hosts b,a`, and for both hosts without that option. -/
example : Run.Wanted [p!"a", p!"b"] (some p!"b,a") [p!"b", p!"a"] ∧ Run.Wanted [p!"a", p!"b"] none [p!"a", p!"b"] ∧ [p!"a", p!"b"].Perm [p!"b", p!"a"]
    ∧ [p!"a", p!"b"].Nodup ∧ ∀ h ∈ [p!"a", p!"b"], 44 ∉ h :=
  ⟨⟨rfl, by simp, by decide⟩, rfl, .swap _ _ _, by decide, by decide⟩

/-- The two orders for the example deploy; and one by one if the connection to b breaks: a is dealt with, b partly. -/
example : seen (run false none (fun _ => fine) fleet) = (true, [p!"a", p!"b"], [(p!"a", [true, true, true, true]), (p!"b", [true, true, true, true])])
    ∧ seen (run false (some p!"b,a") (fun _ => fine) fleet) = (true, [p!"b", p!"a"], [(p!"b", [true, true, true, true]), (p!"a", [true, true, true, true])])
    ∧ (let r := oneByOne { base := {} } (fun _ => target) [p!"a", p!"b"] (fun h => if h = p!"b" then { fine with lost := Ops.Example.breaks 20 true } else fine) [p!"a", p!"b"] fleet
      (match r.1 with | .finished => true | _ => false, r.2.results.map (·.1))) = (false, [p!"a"]) :=
  ⟨by decide +kernel, by decide +kernel, by decide +kernel⟩

end Example

end Verif.Program
