/-
Lemmas for C101, any number of runs.
-/
import Verif.Ops.CrowdSpec
import Verif.Ops.TogetherLemmas
import Verif.Ops.BesideProps

namespace Verif.Ops

open Script Remote
open Client (Prog direct)
open Wire (Packet)

section
variable {ι α : Type} [DecidableEq ι] {sys : Sys} {I : World → Prop} {A : ι → Packet → Prop}

theorem AllExchangeable.pair (h : AllExchangeable sys I A) {i j : ι} (hij : i ≠ j) : Exchangeable sys I (A i) (A j) :=
  ⟨h.keeps i, h.keeps j, h.history, fun a b w ha hb hi => ⟨h.answers i j hij a b w ha hb hi, h.answers j i hij.symm b a w hb ha hi⟩, h.effects i j hij⟩

theorem all_keeps (hx : AllExchangeable sys I A) {i : ι} {p : Process α} (hp : p.Asks sys I (A i)) {w : World} (hi : I w) : I (p.step sys w).2 := by
  obtain ⟨todo, lost, made⟩ := p
  cases todo with
  | ret a => exact hi
  | req q c =>
    rcases step_cases (sys := sys) (q := q) (c := c) (lost := lost) (made := made) with ⟨g, h⟩ | ⟨e, h⟩
    · rw [h]; exact hx.keeps i q w hp.head hi
    · rw [h]; exact hi

theorem all_run_keeps (hx : AllExchangeable sys I A) {i : ι} : ∀ (todo : Prog α) (lost : Nat → Option Bool) (made : Nat) (w : World),
    Process.Asks sys I (A i) { todo, lost, made } → I w → I (Process.run sys { todo, lost, made } w).2
  | .ret a, _, _, w, _, hi => hi
  | .req q c, lost, made, w, hp, hi => by
    rw [← Process.run_step (sys := sys) (p := { todo := .req q c, lost, made }) (w := w)]
    have hs := hp.step hi
    have hk := all_keeps hx hp hi
    rcases step_cases (sys := sys) (q := q) (c := c) (lost := lost) (made := made) with ⟨g, h⟩ | ⟨e, h⟩ <;> rw [h] at hs hk ⊢ <;>
      exact all_run_keeps hx _ lost (made + 1) _ hs hk

/-- The runs after one step of one of them. -/
def stepped (sys : Sys) (ps : ι → Process α) (i : ι) (w : World) : ι → Process α := fun j => if j = i then ((ps i).step sys w).1 else ps j

theorem stepped_asks {ps : ι → Process α} (h : ∀ i, (ps i).Asks sys I (A i)) {w : World} (hi : I w) (i : ι) : ∀ j, (stepped sys ps i w j).Asks sys I (A j) := by
  intro j
  unfold stepped
  by_cases hj : j = i
  · rw [if_pos hj]; subst hj; exact (h j).step hi
  · rw [if_neg hj]; exact h j

/-- Each run is where it would be, as if it were alone. -/
theorem crowd_alone (hn : NoHistory sys) (hx : AllExchangeable sys I A) : ∀ (s : List ι) (ps : ι → Process α) (w : World), (∀ i, (ps i).Asks sys I (A i)) → I w →
    ∀ i, (((crowd sys s ps w).1 i).run sys (crowd sys s ps w).2).1 = ((ps i).run sys w).1
  | [], ps, w, _, _, i => rfl
  | j :: s, ps, w, h, hi, i => by
    have := crowd_alone hn hx s (stepped sys ps j w) ((ps j).step sys w).2 (stepped_asks h hi j) (all_keeps hx (h j) hi) i
    refine Eq.trans this ?_
    unfold stepped
    by_cases hj : i = j
    · rw [if_pos hj]; subst hj; rw [Process.run_step]
    · rw [if_neg hj]; exact (step_after hn (hx.pair hj) (h i) (h j) hi).1

/-- A run that was made before is not noticed. -/
theorem run_run (hn : NoHistory sys) (hx : AllExchangeable sys I A) {i j : ι} (hij : i ≠ j) {p : Process α} (hp : p.Asks sys I (A i)) :
    ∀ (todo : Prog α) (lost : Nat → Option Bool) (made : Nat) (w : World), Process.Asks sys I (A j) { todo, lost, made } → I w →
    (p.run sys (Process.run sys { todo, lost, made } w).2).1 = (p.run sys w).1
  | .ret a, _, _, w, _, _ => rfl
  | .req q c, lost, made, w, hq, hi => by
    rw [← Process.run_step (sys := sys) (p := { todo := .req q c, lost, made }) (w := w)]
    have hs := hq.step hi
    have hk := all_keeps hx hq hi
    have h1 := (step_after hn (hx.pair hij) hp hq hi).1
    rcases step_cases (sys := sys) (q := q) (c := c) (lost := lost) (made := made) with ⟨g, h⟩ | ⟨e, h⟩ <;> rw [h] at hs hk h1 ⊢ <;>
      exact (run_run hn hx hij hp _ lost (made + 1) _ hs hk).trans h1

/-- The host after the rest of these runs, one after the other. -/
def finish (sys : Sys) (ps : ι → Process α) : List ι → World → World
  | [], w => w
  | i :: order, w => finish sys ps order ((ps i).run sys w).2

theorem finish_same (hn : NoHistory sys) (ps : ι → Process α) : ∀ (order : List ι) {w w' : World}, SameHost w w' → SameHost (finish sys ps order w) (finish sys ps order w')
  | [], _, _, h => h
  | i :: order, _, _, h => finish_same hn ps order ((ps i).run_same hn h).2

theorem finish_congr {ps qs : ι → Process α} : ∀ (order : List ι) (w : World), (∀ i ∈ order, ps i = qs i) → finish sys ps order w = finish sys qs order w
  | [], _, _ => rfl
  | i :: order, w, h => by
    unfold finish
    rw [h i List.mem_cons_self]
    exact finish_congr order _ fun j hj => h j (List.mem_cons_of_mem _ hj)

theorem finish_outcome (hn : NoHistory sys) (hx : AllExchangeable sys I A) {ps : ι → Process α} (h : ∀ i, (ps i).Asks sys I (A i)) {i : ι} :
    ∀ (order : List ι) (w : World), i ∉ order → I w → ((ps i).run sys (finish sys ps order w)).1 = ((ps i).run sys w).1
  | [], _, _, _ => rfl
  | j :: order, w, hm, hi => by
    obtain ⟨hij, hm⟩ : i ≠ j ∧ i ∉ order := by simpa using hm
    unfold finish
    exact (finish_outcome hn hx h order _ hm (all_run_keeps hx _ _ _ _ (h j) hi)).trans (run_run hn hx hij (h i) _ _ _ w (h j) hi)

/-- A step of one run, before the rest of all of them. -/
theorem finish_step (hn : NoHistory sys) (hx : AllExchangeable sys I A) {ps : ι → Process α} (h : ∀ i, (ps i).Asks sys I (A i)) {j : ι} :
    ∀ (order : List ι) (w : World), order.Nodup → j ∈ order → I w → SameHost (finish sys ps order w) (finish sys (stepped sys ps j w) order ((ps j).step sys w).2)
  | [], _, _, hj, _ => absurd hj List.not_mem_nil
  | i :: order, w, hd, hj, hi => by
    obtain ⟨hni, hd⟩ := List.nodup_cons.mp hd
    unfold finish
    by_cases hij : i = j
    · subst hij
      rw [finish_congr (ps := stepped sys ps i w) (qs := ps) order _ fun k hk => by
        unfold stepped; rw [if_neg]; rintro rfl; exact hni hk]
      have : stepped sys ps i w i = ((ps i).step sys w).1 := by unfold stepped; rw [if_pos rfl]
      rw [this, Process.run_step]
      exact .refl _
    · have hj : j ∈ order := (List.mem_cons.mp hj).resolve_left fun h => hij h.symm
      obtain ⟨_, h2, h3⟩ := step_after hn (hx.pair hij) (h i) (h j) hi
      have ih := finish_step hn hx h order ((ps i).run sys w).2 hd hj (all_run_keeps hx _ _ _ _ (h i) hi)
      have hs : stepped sys ps j ((ps i).run sys w).2 = stepped sys ps j w := by unfold stepped; rw [h2]
      rw [hs] at ih
      have hsi : stepped sys ps j w i = ps i := by unfold stepped; rw [if_neg hij]
      rw [hsi]
      exact ih.trans (finish_same hn _ order h3)

/-- Whatever the schedule, the host will be the one that results when the runs are made one after the other, in any order. -/
theorem crowd_serial (hn : NoHistory sys) (hx : AllExchangeable sys I A) (order : List ι) (hd : order.Nodup) : ∀ (s : List ι) (ps : ι → Process α) (w : World),
    (∀ i, (ps i).Asks sys I (A i)) → I w → (∀ i ∈ s, i ∈ order) →
    SameHost (finish sys ps order w) (finish sys (crowd sys s ps w).1 order (crowd sys s ps w).2)
  | [], ps, w, _, _, _ => .refl _
  | j :: s, ps, w, h, hi, hs =>
    (finish_step hn hx h order w hd (hs j List.mem_cons_self) hi).trans
      (crowd_serial hn hx order hd s (stepped sys ps j w) _ (stepped_asks h hi j) (all_keeps hx (h j) hi) fun i hi => hs i (List.mem_cons_of_mem _ hi))

theorem untouched_trans {C D : Loc → Prop} {u v w : World} (h1 : Untouched C u v) (h2 : Untouched D v w) : Untouched (fun q => C q ∨ D q) u w :=
  ⟨fun q hq => (h2.fs q fun h => hq (.inr h)).trans (h1.fs q fun h => hq (.inl h)), by rw [h2.rest, h1.rest]⟩

theorem untouched_sameHost {C : Loc → Prop} {u v w : World} (h : Untouched C u v) (hs : SameHost v w) : Untouched C u w := by
  obtain ⟨l, rfl⟩ := hs
  exact ⟨h.fs, by rw [h.rest]⟩

theorem finish_ended {ps : ι → Process α} : ∀ (order : List ι) (w : World), (∀ i ∈ order, ∃ r, (ps i).todo = .ret r) → finish sys ps order w = w
  | [], _, _ => rfl
  | i :: order, w, h => by
    unfold finish
    obtain ⟨r, hr⟩ := h i List.mem_cons_self
    have : ((ps i).run sys w).2 = w := by unfold Process.run; rw [hr]; rfl
    rw [this]
    exact finish_ended order w fun j hj => h j (List.mem_cons_of_mem _ hj)

theorem finish_start (jobs : ι → Launch α) : ∀ (order : List ι) (w : World), finish sys (fun i => (jobs i).start) order w = inTurn sys jobs order w
  | [], _ => rfl
  | i :: order, w => by
    unfold finish inTurn
    rw [List.foldl_cons]
    exact finish_start jobs order _

end

section
variable {ι : Type} [DecidableEq ι] {sys : Sys} {tools : Tools} {w : World}

variable {ts : ι → List Task} {env : ι → Env} {st : ι → St}

theorem exchangeable_many (hord : Ordinary sys tools w) (h : Neighbours sys tools w ts env st) (htwo : ∀ i : ι, ∃ j, i ≠ j) :
    AllExchangeable sys (Within (Zones ts) w) (fun i => Asking (ts i) (env i) (st i)) := by
  have hm : ∀ i j, i ≠ j → Minds sys tools (Zone (ts j)) w (ts i) (env i) (st i) := fun i j hij => (h.beside i j hij).minds hord (h.apart i j hij)
  refine ⟨fun i a v ha hi => ?_, fun v _ hi => hi.trans .history, fun i j hij a b v ha hb hi => ?_, fun i j hij a b v ha hb hi => ?_⟩
  · obtain ⟨j, hij⟩ := htwo i
    exact hi.trans ((((hm i j hij).within hi).effect ha).mono fun q hq => ⟨i, hq⟩)
  · have hx := exchangeable_files (h.apart i j hij) ((hm i j hij).within hi) ((hm j i hij.symm).within hi)
    exact (hx.answers a b v ha hb .refl).1
  · have hx := exchangeable_files (h.apart i j hij) ((hm i j hij).within hi) ((hm j i hij.symm).within hi)
    exact hx.effects a b v ha hb .refl

theorem within_accounts {C : Loc → Prop} {w v : World} (h : Within C w v) (hp : PlainAccounts w) : PlainAccounts v := by
  obtain ⟨h1, h2, h3, h4⟩ := hp
  have hu := h.untouched.users
  have hg := h.untouched.groups
  exact ⟨by rw [hu]; exact h1, by rw [hg]; exact h2, by rw [hu]; exact h3, by rw [hg]; exact h4⟩

theorem keepApart_all {l : List Task} {is : List ι} (h : ∀ i ∈ is, KeepApart l (ts i)) : KeepApart l (is.flatMap ts) := by
  intro t ht t' ht'
  obtain ⟨i, hi, ht'⟩ := List.mem_flatMap.mp ht'
  exact h i hi t ht t' ht'

theorem tasks_all (h : Neighbours sys tools w ts env st) (htwo : ∀ i : ι, ∃ j, i ≠ j) (hr : Tasks sys w ([] : List Task)) : ∀ (is : List ι), is.Nodup → Tasks sys w (is.flatMap ts)
  | [], _ => hr
  | i :: is, hd => by
    obtain ⟨hni, hd⟩ := List.nodup_cons.mp hd
    obtain ⟨j, hij⟩ := htwo i
    rw [List.flatMap_cons]
    exact tasks_both (h.beside i j hij).tasks (tasks_all h htwo hr is hd) (keepApart_all fun k hk => h.apart i k fun e => hni (e ▸ hk))

theorem Tasks.sub {l l' : List Task} (h : Tasks sys w l) (hs : ∀ t ∈ l', t ∈ l) (hd : (l'.map (·.names)).Nodup) : Tasks sys w l' :=
  ⟨fun t ht => h.proper t (hs t ht), fun t ht => h.names t (hs t ht), hd, fun t ht => h.plain t (hs t ht), fun t ht d hd => h.apart t (hs t ht) d (hs d hd),
    fun t ht => h.links t (hs t ht), fun ⟨t, ht, ha⟩ => h.rooted ⟨t, hs t ht, ha⟩⟩

/-- A run of one of the scripts, when some of the others may have been run. -/
theorem job_going {all : List Task} {l : List Task} {e : Env} {s : St} {v : World} {lost : Nat → Option Bool} (hord : Ordinary sys tools v) (hall : Tasks sys v all)
    (hs : ∀ t ∈ l, t ∈ all) (hd : (l.map (·.names)).Nodup) (hm : PlainModes e s) (hw : e.dry = false) :
    Ordinary sys tools (perform sys lost (deploy (l.map (·.op))) e s v).2 ∧ Tasks sys (perform sys lost (deploy (l.map (·.op))) e s v).2 all := by
  have hpost := deploy_post (lost := lost) (tools := tools) hall hm hw l rfl (.start hord) hs hd (fun _ h => h.elim)
  have hg : Going sys tools e s all v (fun _ => False) (perform sys lost (deploy (l.map (·.op))) e s v).2 := post_world hpost fun _ _ _ h => h.2.forget
  exact ⟨hg.ordinary, hg.tasks hall⟩

/-- Some of them, one after the other. -/
theorem inTurn_going {all : List Task} {losts : ι → Nat → Option Bool} (h : Neighbours sys tools w ts env st) (htwo : ∀ i : ι, ∃ j, i ≠ j) :
    ∀ (order : List ι) {v : World}, Ordinary sys tools v → Tasks sys v all → (∀ i ∈ order, ∀ t ∈ ts i, t ∈ all) →
    let runs : ι → Launch (List OpResult) := fun i => { script := deploy ((ts i).map (·.op)), env := env i, st := st i, lost := losts i }
    Ordinary sys tools (inTurn sys runs order v) ∧ Tasks sys (inTurn sys runs order v) all ∧ Untouched (fun q => ∃ i ∈ order, Zone (ts i) q) v (inTurn sys runs order v)
  | [], v, hord, hall, _ => ⟨hord, hall, ⟨fun _ _ => rfl, rfl⟩⟩
  | i :: order, v, hord, hall, hs => by
    intro runs
    obtain ⟨j, hij⟩ := htwo i
    have hb := h.beside i j hij
    have hsub := hs i List.mem_cons_self
    obtain ⟨h1, h2⟩ := job_going (lost := losts i) hord hall hsub hb.tasks.distinct hb.modes hb.wet
    obtain ⟨hu, _⟩ := C83_deploy_complete sys tools (losts i) (env i) (st i) v hord hb.modes hb.wet (ts i) (hall.sub hsub hb.tasks.distinct)
    obtain ⟨g1, g2, g3⟩ := inTurn_going (losts := losts) h htwo order h1 h2 fun k hk => hs k (List.mem_cons_of_mem _ hk)
    have hu2 := untouched_trans hu g3
    refine ⟨g1, g2, ⟨fun q hq => hu2.fs q ?_, hu2.rest⟩⟩
    rintro (hz | ⟨k, hk, hz⟩)
    · exact hq ⟨i, List.mem_cons_self, hz⟩
    · exact hq ⟨k, List.mem_cons_of_mem _ hk, hz⟩

end

end Verif.Ops
