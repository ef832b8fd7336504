/-
C101: any number of runs at the same time.
-/
import Verif.Ops.CrowdLemmas

namespace Verif.Ops

open Script Remote
open Client (Prog direct)
open Wire (Packet)

/-- C101 (partially): any number of runs that do not get in each other's way. Scripts are run on the same host at the same time, in real runs. If on hosts of this
kind every request of one can be exchanged with every request of another, then with every schedule and however the connections break: a run
that has come to its end had the outcome and the screen that it has when it is run alone; and when all have come to their ends, the host is the one that results when they are
run one after the other, in whatever order. -/
theorem C101_many_partial {ι α : Type} [DecidableEq ι] (sys : Sys) (hn : NoHistory sys) (I : World → Prop) (A : ι → Packet → Prop) (hx : AllExchangeable sys I A)
    (runs : ι → Launch α) (hA : ∀ i, AsksOnly sys I (A i) (runs i).script (runs i).env (runs i).st) (w : World) (hi : I w) (schedule : List ι) :
    let now := crowd sys schedule (fun i => (runs i).start) w
    (∀ i r, (now.1 i).todo = .ret r → ((runs i).alone sys w).1 = r)
    ∧ ∀ order : List ι, order.Nodup → (∀ i ∈ schedule, i ∈ order) → (∀ i ∈ order, ∃ r, (now.1 i).todo = .ret r) → SameHost (inTurn sys runs order w) now.2 := by
  intro now
  have hs : ∀ i, ((runs i).start).Asks sys I (A i) := fun i => asks_start (hA i)
  refine ⟨fun i r hr => ?_, fun order hd hall hend => ?_⟩
  · have h := crowd_alone hn hx schedule (fun i => (runs i).start) w hs hi i
    change ((now.1 i).run sys now.2).1 = _ at h
    simp only [Process.run, hr, Prog.run] at h
    exact h.symm
  · have h := crowd_serial hn hx order hd schedule (fun i => (runs i).start) w hs hi hall
    rw [finish_start] at h
    change SameHost _ (finish sys now.1 order now.2) at h
    rw [finish_ended order now.2 hend] at h
    exact h

/-- C101 (partially): any number of scripts about different files. They create, fill and remove files and directories, on the same host at the same time, in real runs.
No path of one is a path of another or on the way to one, or to the working directory of another, and there are no symbolic links on
the way. Then with every schedule, and however the connections break: a run that has come to its end had the outcome, the results and the screen that it has when it is run
alone. When all have come to their ends, the host is the one that results when they are run one after the other, in whatever order; nothing but the places of the
scripts that were run was touched; and what a script that succeeded asked for is there. -/
theorem C101_many_files_partial {ι : Type} [DecidableEq ι] (htwo : ∀ i : ι, ∃ j, i ≠ j) (sys : Sys) (tools : Tools) (w : World) (hord : Ordinary sys tools w)
    (hn : NoHistory sys) (ts : ι → List Task) (env : ι → Env) (st : ι → St) (h : Neighbours sys tools w ts env st) (losts : ι → Nat → Option Bool) (schedule : List ι) :
    let runs : ι → Launch (List OpResult) := fun i => { script := deploy ((ts i).map (·.op)), env := env i, st := st i, lost := losts i }
    let now := crowd sys schedule (fun i => (runs i).start) w
    (∀ i r, (now.1 i).todo = .ret r → ((runs i).alone sys w).1 = r)
    ∧ ∀ all : List ι, all.Nodup → (∀ i ∈ schedule, i ∈ all) → (∀ i ∈ all, ∃ r, (now.1 i).todo = .ret r) →
      (∀ order : List ι, order.Perm all → SameHost (inTurn sys runs order w) now.2)
      ∧ Untouched (fun q => ∃ i ∈ all, Zone (ts i) q) w now.2
      ∧ ∀ i ∈ all, ∀ rs s, (now.1 i).todo = .ret (.ok rs, s) → ∀ t ∈ ts i, t.wish.Granted sys (env i) (st i) w now.2 t.names ∧ t.Reached now.2 := by
  intro runs now
  have hx := exchangeable_many hord h htwo
  have hA : ∀ i, AsksOnly sys (Within (Zones ts) w) (Asking (ts i) (env i) (st i)) (runs i).script (runs i).env (runs i).st := fun i => by
    obtain ⟨j, hij⟩ := htwo i
    have hb := h.beside i j hij
    exact asksOnly_deploy (fun _ hi => within_accounts hi hord.accounts) hb.defaults hb.tasks.proper hb.noLinkTasks
  obtain ⟨h1, h2⟩ := C101_many_partial sys hn _ _ hx runs hA w .refl schedule
  refine ⟨h1, fun all hd hs hend => ?_⟩
  have hser : ∀ order : List ι, order.Perm all → SameHost (inTurn sys runs order w) now.2 := fun order ho =>
    h2 order (ho.nodup_iff.mpr hd) (fun i hi => ho.mem_iff.mpr (hs i hi)) fun i hi => hend i (ho.mem_iff.mp hi)
  have htasks : Tasks sys w (all.flatMap ts) := tasks_all h htwo ⟨nofun, nofun, .nil, nofun, nofun, nofun, (fun ⟨_, h, _⟩ => nomatch h)⟩ all hd
  have hin : ∀ i ∈ all, ∀ t ∈ ts i, t ∈ all.flatMap ts := fun i hi t ht => List.mem_flatMap.mpr ⟨i, hi, ht⟩
  refine ⟨hser, ?_, fun i hi rs s hr t ht => ?_⟩
  · obtain ⟨_, _, hu⟩ := inTurn_going (losts := losts) h htwo all hord htasks hin
    exact untouched_sameHost hu (hser all (.refl _))
  · obtain ⟨j, hij⟩ := htwo i
    have hb := h.beside i j hij
    have hok : (perform sys (losts i) (deploy ((ts i).map (·.op))) (env i) (st i) w).1 = .ok rs := by
      have := h1 i _ hr
      exact congrArg Prod.fst this
    obtain ⟨hu, hg⟩ := C83_deploy_complete sys tools (losts i) (env i) (st i) w hord hb.modes hb.wet (ts i) hb.tasks
    refine ⟨?_, ?_⟩
    · have hperm : (i :: all.erase i).Perm all := (List.perm_cons_erase hi).symm
      obtain ⟨g1, g2⟩ := job_going (lost := losts i) hord htasks (hin i hi) hb.tasks.distinct hb.modes hb.wet
      obtain ⟨_, _, hu'⟩ := inTurn_going (losts := losts) h htwo (all.erase i) g1 g2 fun k hk => hin k (List.mem_of_mem_erase hk)
      obtain ⟨l, hl⟩ := hser _ hperm
      rw [hl]
      refine ((hg rs hok).2 t ht).1.elsewhere fun q hq => hu'.fs q ?_
      rintro ⟨k, hk, hz⟩
      have hki : i ≠ k := by
        rintro rfl
        exact (List.Nodup.not_mem_erase hd) hk
      exact zones_disjoint (h.apart i k hki) ⟨t, ht, hq⟩ hz
    · have hperm : (all.erase i ++ [i]).Perm all := List.perm_append_comm.trans (List.perm_cons_erase hi).symm
      obtain ⟨g1, g2, _⟩ := inTurn_going (losts := losts) h htwo (all.erase i) hord htasks fun k hk => hin k (List.mem_of_mem_erase hk)
      have hout := finish_outcome hn hx (fun k => asks_start (hA k) (lost := losts k)) (i := i) (all.erase i) w (List.Nodup.not_mem_erase hd) .refl
      have hfs := finish_start (sys := sys) runs (all.erase i) w
      change finish sys (fun k => Process.start (runs k).script (runs k).env (runs k).st (losts k)) (all.erase i) w = _ at hfs
      rw [hfs] at hout
      have hok' : (perform sys (losts i) (deploy ((ts i).map (·.op))) (env i) (st i) (inTurn sys runs (all.erase i) w)).1 = .ok rs := by
        have h0 := h1 i _ hr
        exact congrArg Prod.fst (hout.trans h0)
      obtain ⟨_, hg'⟩ := C83_deploy_complete sys tools (losts i) (env i) (st i) _ g1 hb.modes hb.wet (ts i) (g2.sub (hin i hi) hb.tasks.distinct)
      have hlast := hser _ hperm
      unfold inTurn at hlast
      rw [List.foldl_append] at hlast
      exact reached_sameHost ((hg' rs hok').2 t ht).2 hlast

/-! ### A concrete case -/

namespace Example

/-- Three scripts: the first creates a directory and two files in it, the second replaces `/etc/motd`, and the third removes `/home`. -/
def three : Fin 3 → List Task
  | 0 => here
  | 1 => [siteTasks[2]]
  | 2 => [siteTasks[4]]

theorem three_in : ∀ i, ∀ t ∈ three i, t ∈ siteTasks := by
  intro i
  match i with
  | 0 => exact here_in
  | 1 => simp [three, siteTasks]
  | 2 => simp [three, siteTasks]

theorem three_apart : ∀ i j, i ≠ j → KeepApart (three i) (three j) := by
  have : ∀ i j, i ≠ j → ∀ t ∈ three i, ∀ t' ∈ three j, t.names.isPrefixOf t'.names = false ∧ t'.names.isPrefixOf t.names = false := by decide +kernel
  intro i j hij t ht t' ht'
  obtain ⟨h1, h2⟩ := this i j hij t ht t' ht'
  exact ⟨(fun h => by rw [List.isPrefixOf_iff_prefix.mpr h] at h1; cases h1), (fun h => by rw [List.isPrefixOf_iff_prefix.mpr h] at h2; cases h2)⟩

theorem three_neighbours : Neighbours sys tools host three (fun _ => env) (fun _ => st) :=
  ⟨three_apart, fun i j _ => ⟨some_tasks (three_in i) ((by decide +kernel : ∀ i, ((three i).map (·.names)).Nodup) i),
    (by decide : ∀ i, ∀ t ∈ three i, t.wish.isLink = false) i, fun t ht => no_links_site t (three_in i t ht), plainModes, plainDefaults,
    lodged (three_in j), rfl, unmoved _ _⟩⟩

/-- The three at the same time. -/
def crowded := crowd sys ((List.range 60).flatMap fun _ => [0, 2, 1, 2])
  (fun i => Process.start (deploy ((three i).map (·.op))) env st always) host

end Example

/-- The hypotheses of `C101_many_files_partial` (and so those of `C101_many_partial`) are met, see also `Example.ordinary` and `Example.noHistory`;
all three come to their ends. -/
example : (∀ i : Fin 3, ∃ j, i ≠ j) ∧ Neighbours Example.sys Example.tools Example.host Example.three (fun _ => Example.env) (fun _ => Example.st)
    ∧ Example.ended (Example.crowded.1 0) = some [true, true, true] ∧ Example.ended (Example.crowded.1 1) = some [true] ∧ Example.ended (Example.crowded.1 2) = some [true]
    ∧ (Example.crowded.2.fs [p!"etc", p!"motd"]).map (·.kind) = some (.file [104, 111])
    ∧ (Example.crowded.2.fs [p!"etc", p!"site", p!"conf"]).map (·.kind) = some (.file [120, 61, 49])
    ∧ (Example.crowded.2.fs [p!"home"]).isNone = true :=
  ⟨by decide, Example.three_neighbours, by decide +kernel, by decide +kernel, by decide +kernel, by decide +kernel, by decide +kernel, by decide +kernel⟩

end Verif.Ops
