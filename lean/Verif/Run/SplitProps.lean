/-
C104: a deploy can be split into several runs.
-/
import Verif.Run.SplitLemmas
import Verif.Run.ProgramProps

namespace Verif.Program

open Script Remote Ops
open Ops.Example (host)

/-- Which hosts a run is about does not depend on the script or on the state of the hosts. -/
theorem same_selection (loaded : List Str) (select : Option Str) :
    (∃ hs : List Str, hs.Nodup ∧ ∀ opts targets luck f, program opts targets loaded select luck f = Run.runHosts (round opts targets luck) hs f)
    ∨ (∃ m, ∀ opts targets luck f, program opts targets loaded select luck f = (.died m, [], f)) := by
  unfold program Run.mainRun
  cases hs : Run.select loaded (Run.requested loaded select) [] with
  | error m => exact .inr ⟨m, fun _ _ _ _ => rfl⟩
  | ok selected =>
    have hsel := (Run.select_spec (loaded := loaded) (hs := Run.requested loaded select) Run.firstOccurrences_nil).1 hs
    exact .inl ⟨selected, hsel.1.once, fun _ _ _ _ => rfl⟩

/-- A run leaves a host as it was, or as a session leaves it. -/
theorem hosts_after (opts : Env) (targets : Str → Target) (loaded : List Str) (select : Option Str) (luck : Str → Luck) (f : Fleet) (h : Str) :
    (program opts targets loaded select luck f).2.2.hosts h = f.hosts h
    ∨ (program opts targets loaded select luck f).2.2.hosts h = (session opts (targets h) (luck h) (f.hosts h)).2.2.1 := by
  rcases program_outcome (opts := opts) (targets := targets) (luck := luck) (f := f) (loaded := loaded) (select := select) with ⟨hs, _, ho⟩ | ⟨m, hm⟩
  · by_cases hin : h ∈ (program opts targets loaded select luck f).2.1
    · exact .inr (ho.reached h hin)
    · exact .inl (ho.others h hin)
  · rw [hm]
    exact .inl rfl

/-- C104: let a deploy be written in two parts, `a` and `b` (for each host). Running the program with the first part, and then again with
the second part, is as good as running it once with both, provided that the connections work and that a script that starts after the first run
starts with the settings that it had before. The joined run comes to its end if and only if both of the two runs do. Then every host is
left in the same state; each host has the results of the first part followed by those of the second; and for each host the same summaries
are printed in the same order. -/
theorem C104_split (opts : Env) (targets : Str → Target) (a b : Str → List (Op OpResult)) (loaded : List Str) (select : Option Str)
    (luckJoined luckA luckB : Str → Luck) (f : Fleet) (hj : ∀ h, Working (luckJoined h)) (ha : ∀ h, Working (luckA h)) (hb : ∀ h, Working (luckB h))
    (hpa : ∀ h, ∀ op ∈ a h, PureScript op) (hpb : ∀ h, ∀ op ∈ b h, PureScript op)
    (hbeg : ∀ h, beginning opts (targets h) ((program opts (fun h => (targets h).running (a h)) loaded select luckA f).2.2.hosts h)
      = beginning opts (targets h) (f.hosts h)) :
    let first := program opts (fun h => (targets h).running (a h)) loaded select luckA f
    let second := program opts (fun h => (targets h).running (b h)) loaded select luckB first.2.2
    let joined := program opts (fun h => (targets h).running (a h ++ b h)) loaded select luckJoined f
    (joined.1 = .finished ↔ first.1 = .finished ∧ second.1 = .finished)
    ∧ (joined.1 = .finished →
      joined.2.2.hosts = second.2.2.hosts
      ∧ (∃ ra rb, ra.map (·.1) = rb.map (·.1) ∧ first.2.2.results = f.results ++ ra ∧ second.2.2.results = first.2.2.results ++ rb
        ∧ joined.2.2.results = f.results ++ List.zipWith (fun x y => (x.1, x.2 ++ y.2)) ra rb)
      ∧ ∃ (hs : List Str) (pa pb : Str → List Report),
        first.2.2.screen = f.screen ++ hs.flatMap (fun h => (pa h).map fun p => (h, p))
        ∧ second.2.2.screen = first.2.2.screen ++ hs.flatMap (fun h => (pb h).map fun p => (h, p))
        ∧ joined.2.2.screen = f.screen ++ hs.flatMap (fun h => (pa h ++ pb h).map fun p => (h, p))) := by
  intro first second joined
  rcases same_selection loaded select with ⟨hs, hnd, hall⟩ | ⟨m, hall⟩
  · have e1 : first = Run.runHosts (round opts (fun h => (targets h).running (a h)) luckA) hs f := hall ..
    have e2 : second = Run.runHosts (round opts (fun h => (targets h).running (b h)) luckB) hs first.2.2 := hall ..
    have e3 : joined = Run.runHosts (round opts (fun h => (targets h).running (a h ++ b h)) luckJoined) hs f := hall ..
    have hbeg' : ∀ h, beginning opts (targets h) (first.2.2.hosts h) = beginning opts (targets h) (f.hosts h) := hbeg
    clear hbeg hall
    clear_value second first joined
    have o1 : Outcome opts (fun h => (targets h).running (a h)) luckA f hs first := by rw [e1]; exact runHosts_outcome hs f hnd
    have o2 : Outcome opts (fun h => (targets h).running (b h)) luckB first.2.2 hs second := by rw [e2]; exact runHosts_outcome hs _ hnd
    have o3 : Outcome opts (fun h => (targets h).running (a h ++ b h)) luckJoined f hs joined := by rw [e3]; exact runHosts_outcome hs f hnd
    have f1 := runHosts_finished (opts := opts) hs f (fun h => (targets h).running (a h)) luckA hnd
    have f2 := runHosts_finished (opts := opts) hs first.2.2 (fun h => (targets h).running (b h)) luckB hnd
    have f3 := runHosts_finished (opts := opts) hs f (fun h => (targets h).running (a h ++ b h)) luckJoined hnd
    rw [← e1] at f1
    rw [← e2] at f2
    rw [← e3] at f3
    -- as long as the first run came to its end, what happens on each host
    have hsplit : first.1 = .finished → ∀ h ∈ hs, ∃ ra, (session opts ((targets h).running (a h)) (luckA h) (f.hosts h)).1 = .ok ra
        ∧ (session opts ((targets h).running (a h ++ b h)) (luckJoined h) (f.hosts h)).1
            = (session opts ((targets h).running (b h)) (luckB h) (first.2.2.hosts h)).1.map (ra ++ ·)
        ∧ (session opts ((targets h).running (a h ++ b h)) (luckJoined h) (f.hosts h)).2.2
            = ((session opts ((targets h).running (b h)) (luckB h) (first.2.2.hosts h)).2.2.1,
              (session opts ((targets h).running (a h)) (luckA h) (f.hosts h)).2.2.2 ++ (session opts ((targets h).running (b h)) (luckB h) (first.2.2.hosts h)).2.2.2) := by
      intro hfin h hh
      obtain ⟨ra, hra⟩ := f1.mp hfin h hh
      have hr : first.2.2.hosts h = (session opts ((targets h).running (a h)) (luckA h) (f.hosts h)).2.2.1 :=
        o1.reached h (by rw [(o1.finished hfin).1]; exact hh)
      have hs := session_split (opts := opts) (t := targets h) (w := f.hosts h) (hj h) (ha h) (hb h) (hpa h) (hpb h) (by rw [← hr]; exact hbeg' h)
      rw [hra] at hs
      rw [hr]
      exact ⟨ra, hra, hs⟩
    have hfin : joined.1 = .finished → first.1 = .finished := by
      intro hfin
      have hst := runHosts_stopped (opts := opts) hs f (fun h => (targets h).running (a h)) luckA hnd
      rw [← e1] at hst
      rcases hst with h | ⟨h, hin, hh, e, he⟩
      · exact h
      · have hs := session_split (opts := opts) (t := targets h) (w := f.hosts h) (hj h) (ha h) (hb h) (hpa h) (hpb h)
          (by rw [← o1.reached h hin]; exact hbeg' h)
        rw [he] at hs
        obtain ⟨rs, hj'⟩ := f3.mp hfin h hh
        have := hs.1
        rw [hj'] at this
        cases this
    refine ⟨⟨fun hjf => ⟨hfin hjf, f2.mpr fun h hh => ?_⟩, fun ⟨h1, h2⟩ => f3.mpr fun h hh => ?_⟩, fun hjf => ?_⟩
    · obtain ⟨ra, _, h2, _⟩ := hsplit (hfin hjf) h hh
      obtain ⟨rs, hrs⟩ := f3.mp hjf h hh
      rw [hrs] at h2
      cases hx : (session opts ((targets h).running (b h)) (luckB h) (first.2.2.hosts h)).1 with
      | ok r => exact ⟨r, rfl⟩
      | error e => rw [hx] at h2; cases h2
    · obtain ⟨ra, _, h3, _⟩ := hsplit h1 h hh
      obtain ⟨rb, hrb⟩ := f2.mp h2 h hh
      rw [h3, hrb]
      exact ⟨_, rfl⟩
    · have hff := hfin hjf
      have hsf : second.1 = .finished := f2.mpr fun h hh => by
        obtain ⟨ra, _, h2, _⟩ := hsplit hff h hh
        obtain ⟨rs, hrs⟩ := f3.mp hjf h hh
        rw [hrs] at h2
        cases hx : (session opts ((targets h).running (b h)) (luckB h) (first.2.2.hosts h)).1 with
        | ok r => exact ⟨r, rfl⟩
        | error e => rw [hx] at h2; cases h2
      obtain ⟨g1, ra, k1, l1, m1⟩ := o1.finished hff
      obtain ⟨g2, rb, k2, l2, m2⟩ := o2.finished hsf
      obtain ⟨g3, rj, k3, l3, m3⟩ := o3.finished hjf
      refine ⟨funext fun h => ?_, ⟨ra, rb, k1.trans k2.symm, l1, l2, ?_⟩, hs, fun h => (session opts ((targets h).running (a h)) (luckA h) (f.hosts h)).2.2.2,
        fun h => (session opts ((targets h).running (b h)) (luckB h) (first.2.2.hosts h)).2.2.2, ?_, ?_, ?_⟩
      · by_cases hh : h ∈ hs
        · rw [o3.reached h (by rw [g3]; exact hh), o2.reached h (by rw [g2]; exact hh)]
          obtain ⟨_, _, _, h4⟩ := hsplit hff h hh
          rw [h4]
        · rw [o3.others h (by rw [g3]; exact hh), o2.others h (by rw [g2]; exact hh), o1.others h (by rw [g1]; exact hh)]
      · have p1 := results_of (opts := opts) (targets := fun h => (targets h).running (a h)) (luck := luckA) (hosts := f.hosts) ra m1
        have p2 := results_of (opts := opts) (targets := fun h => (targets h).running (b h)) (luck := luckB) (hosts := first.2.2.hosts) rb m2
        have p3 := results_of (opts := opts) (targets := fun h => (targets h).running (a h ++ b h)) (luck := luckJoined) (hosts := f.hosts) rj m3
        rw [k1] at p1
        rw [k2] at p2
        rw [k3] at p3
        rw [l3, p1, p2, p3]
        refine congrArg (f.results ++ ·) (zip_results _ _ _ hs fun h hh => ?_)
        obtain ⟨ra, h1, h2, _⟩ := hsplit hff h hh
        obtain ⟨rs, hrs⟩ := f2.mp hsf h hh
        rw [h2, h1, hrs]
        rfl
      · rw [o1.screen, g1]
      · rw [o2.screen, g2]
      · rw [o3.screen, g3]
        refine congrArg (f.screen ++ ·) (congrArg List.flatten (List.map_congr_left fun h hh => ?_))
        obtain ⟨_, _, _, h4⟩ := hsplit hff h hh
        dsimp only
        rw [h4]
  · have e1 : first = (.died m, [], f) := hall ..
    have e3 : joined = (.died m, [], f) := hall ..
    rw [e1, e3]
    exact ⟨⟨nofun, fun h => nomatch h.1⟩, nofun⟩

/-! ### An example -/

namespace Example

/-- The example deploy (a directory with a tree in it, a link to it, and no `/home`), in two parts. -/
def part1 : List (Op OpResult) := (Ops.Example.treeCalls.take 2).map (Ops.Call.op target.sys.sha512)
def part2 : List (Op OpResult) := (Ops.Example.treeCalls.drop 2).map (Ops.Call.op target.sys.sha512)

def runPart (script : List (Op OpResult)) (f : Fleet) : Run.End × List Str × Fleet :=
  program { base := {} } (fun _ => target.running script) [p!"a", p!"b"] none (fun _ => fine) f

theorem parts_pure : (∀ op ∈ part1, PureScript op) ∧ (∀ op ∈ part2, PureScript op) := by
  constructor <;> intro op hop
  · simp only [part1, Ops.Example.treeCalls, Ops.Call.op, List.take_succ_cons, List.take_zero, List.map_cons, List.map_nil, List.mem_cons, List.not_mem_nil, or_false] at hop
    rcases hop with rfl | rfl
    · exact .operation _ _ (.directory ..)
    · exact .operation _ _ (.uploadDir ..)
  · simp only [part2, Ops.Example.treeCalls, Ops.Call.op, List.drop_succ_cons, List.drop_zero, List.map_cons, List.map_nil, List.mem_cons, List.not_mem_nil, or_false] at hop
    rcases hop with rfl | rfl
    · exact .operation _ _ (.link ..)
    · exact .operation _ _ (.directory ..)

/-- The settings with which a script begins, as a value that can be compared. -/
theorem begins : ∀ w, (beginning { base := {} } target w).toOption = some (settings, settings) → beginning { base := {} } target w = .ok (settings, settings) := by
  intro w h
  cases hx : beginning { base := {} } target w with
  | error e => rw [hx] at h; cases h
  | ok p => rw [hx] at h; cases h; rfl

theorem begins_before : beginning { base := {} } target host = .ok (settings, settings) := begins _ (by decide +kernel)

theorem begins_after : beginning { base := {} } target (session { base := {} } (target.running part1) fine host).2.2.1 = .ok (settings, settings) := begins _ (by decide +kernel)

theorem same_beginning (h : Str) : beginning { base := {} } target ((runPart part1 fleet).2.2.hosts h) = beginning { base := {} } target (fleet.hosts h) := by
  have hf : fleet.hosts h = host := rfl
  have ha := hosts_after { base := {} } (fun _ => target.running part1) [p!"a", p!"b"] none (fun _ => fine) fleet h
  rw [hf] at ha ⊢
  unfold runPart
  rcases ha with ha | ha
  · rw [ha]
  · rw [ha, begins_before]
    exact begins_after

/-- The hypotheses are met. The first run makes two changes on each host, the second one two more; one run of both parts makes all four. -/
example : (∀ h : Str, Working ((fun _ => fine : Str → Luck) h)) ∧ (∀ op ∈ part1, PureScript op) ∧ (∀ op ∈ part2, PureScript op)
    ∧ seen (runPart part1 fleet) = (true, [p!"a", p!"b"], [(p!"a", [true, true]), (p!"b", [true, true])])
    ∧ seen (runPart part2 { (runPart part1 fleet).2.2 with results := [] }) = (true, [p!"a", p!"b"], [(p!"a", [true, true]), (p!"b", [true, true])])
    ∧ seen (runPart (part1 ++ part2) fleet) = (true, [p!"a", p!"b"], [(p!"a", [true, true, true, true]), (p!"b", [true, true, true, true])]) :=
  ⟨fun _ => working, parts_pure.1, parts_pure.2, by decide +kernel, by decide +kernel, by decide +kernel⟩

end Example

end Verif.Program
