/-
C88: what a run of the program does to the hosts of an inventory.
-/
import Verif.Run.ProgramLemmas
import Verif.Ops.MirrorDryProps

namespace Verif.Program

open Script Remote Ops

/-- C88, containment. For arbitrary scripts, connections and machines: hosts for which the program has not started are left alone, and
what happens to the others is what would happen if the program were run for each of them alone. -/
theorem C88_independent (opts : Env) (targets : Str → Target) (loaded : List Str) (select : Option Str) (luck : Str → Luck) (f : Fleet) :
    let r := program opts targets loaded select luck f
    (∀ h, h ∉ r.2.1 → r.2.2.hosts h = f.hosts h)
    ∧ ∀ h ∈ r.2.1, r.2.2.hosts h = (program opts targets [h] none luck f).2.2.hosts h := by
  intro r
  rcases program_outcome (opts := opts) (targets := targets) (luck := luck) (f := f) (loaded := loaded) (select := select) with ⟨hs, _, ho⟩ | ⟨m, hm⟩
  · refine ⟨ho.others, fun h hh => ?_⟩
    rw [ho.reached h hh]
    have h1 := runHosts_outcome (opts := opts) (targets := targets) (luck := luck) [h] f (by simp)
    have h2 : program opts targets [h] none luck f = Run.runHosts (round opts targets luck) [h] f := by
      unfold program Run.mainRun Run.requested Run.select
      simp [Run.select]
    rw [h2]
    refine (h1.reached h ?_).symm
    unfold Run.runHosts
    split <;> simp
  · have : r = (.died m, [], f) := hm
    rw [this]
    exact ⟨fun _ _ => rfl, nofun⟩

/-- C88, connections. Whenever a host is connected to, no background process of an earlier host is left, and none is left if the
program comes to its end. If it ends with an exception there is at most one (see C19 for how this happens). -/
theorem C88_connections (opts : Env) (targets : Str → Target) (loaded : List Str) (select : Option Str) (luck : Str → Luck) (f : Fleet) :
    (∀ before s, Run.Completed (round opts targets luck) f before s → s.background = f.background)
    ∧ ((program opts targets loaded select luck f).1 = .finished → (program opts targets loaded select luck f).2.2.background = f.background)
    ∧ (program opts targets loaded select luck f).2.2.background ≤ f.background + 1 := by
  have key : ∀ hs, ((Run.runHosts (round opts targets luck) hs f).1 = .finished → (Run.runHosts (round opts targets luck) hs f).2.2.background = f.background)
      ∧ (Run.runHosts (round opts targets luck) hs f).2.2.background ≤ f.background + 1 := by
    intro hs
    rcases Run.runHosts_spec (round opts targets luck) hs f with ⟨h1, _, _⟩ | ⟨before, h, after, s1, e, _, h1, h2, h3, _⟩
    · have := completed_background h1
      exact ⟨fun _ => this, by omega⟩
    · refine ⟨(fun hf => by rw [h3] at hf; cases hf), ?_⟩
      have hb := completed_background h1
      have : (Run.runHosts (round opts targets luck) hs f).2.2 = (round opts targets luck h s1).2 := by rw [h2]
      rw [this, ← hb]
      have hs := (session_background (opts := opts) (t := targets h) (lk := luck h) (w := s1.hosts h)).1
      unfold round
      dsimp only
      split
      · exact Nat.add_le_add_left hs _
      · exact Nat.add_le_add_left hs _
  refine ⟨fun _ _ h => completed_background h, ?_⟩
  unfold program Run.mainRun
  split
  · exact ⟨nofun, by simp⟩
  · exact key _

/-- C88, connections, the other direction. If the connection to a host was opened and its background process runs, but the identity of
the user cannot be found out (e.g. since the connection breaks at once), then the program ends there, the remaining hosts are not
started with, and that process is left: `__exit__` is not called for a context that was not entered. -/
theorem C88_left_behind (opts : Env) (targets : Str → Target) (loaded : List Str) (select : Option Str) (luck : Str → Luck) (f s : Fleet)
    (before after : List Str) (h : Str) (hsel : Run.select loaded (Run.requested loaded select) [] = .ok (before ++ h :: after))
    (hbefore : Run.Completed (round opts targets luck) f before s)
    (hopen : (luck h).opening.popen = none ∧ (luck h).opening.alive = .ok .ack ∧ (luck h).opening.died = false)
    (e : Exn) (hid : (exec (flaky (targets h).sys (luck h).lost) (resolveIdentity (targets h).base) opts { stack := [] } (s.hosts h, 0)).1.1 = .error e) :
    (program opts targets loaded select luck f).1 = .raised { kind := e }
    ∧ (program opts targets loaded select luck f).2.1 = before ++ [h]
    ∧ (program opts targets loaded select luck f).2.2.background = f.background + 1 := by
  have hr : (round opts targets luck h s).1 = .error { kind := e } ∧ (round opts targets luck h s).2.background = s.background + 1 := by
    obtain ⟨h1, h2, h3⟩ := hopen
    have hs : (session opts (targets h) (luck h) (s.hosts h)).1 = .error e ∧ (session opts (targets h) (luck h) (s.hosts h)).2.1.background = 1 := by
      unfold session
      simp only [Client.Lifecycle.open', h1, h2, h3]
      generalize exec (flaky (targets h).sys (luck h).lost) (resolveIdentity (targets h).base) opts { stack := [] } (s.hosts h, 0) = x at hid ⊢
      obtain ⟨⟨r, st⟩, w, k⟩ := x
      dsimp only at hid
      subst hid
      exact ⟨rfl, rfl⟩
    unfold round
    simp only [hs.1, hs.2]
    exact ⟨trivial, trivial⟩
  have hrun : ∀ (f : Fleet) (before : List Str), Run.Completed (round opts targets luck) f before s →
      Run.runHosts (round opts targets luck) (before ++ h :: after) f = (.raised { kind := e }, before ++ [h], (round opts targets luck h s).2) := by
    clear hsel hbefore
    intro f before hc
    induction hc with
    | none =>
      simp only [List.nil_append, Run.runHosts]
      rw [show round opts targets luck h _ = (.error { kind := e }, (round opts targets luck h _).2) from Prod.ext hr.1 rfl]
    | next hx _ ih =>
      simp only [List.cons_append, Run.runHosts, hx, ih hid hr]
  unfold program Run.mainRun
  rw [hsel]
  simp only [hrun f before hbefore]
  exact ⟨trivial, trivial, by rw [hr.2, completed_background hbefore]⟩

/-- C88, dry runs. With `--dry`, no host is changed by any script, whatever its control flow, if it acts on the host through operations,
however the program ends. (Only the history of started processes is longer.) Assumed: programs that are for looking change nothing. -/
theorem C88_dry_run (opts : Env) (targets : Str → Target) (loaded : List Str) (select : Option Str) (luck : Str → Luck) (f : Fleet)
    (hl : ∀ h, ∀ p w, LooksOnly p.argv → ((targets h).sys.exec p w).2 = w) (hops : ∀ h, ∀ op ∈ (targets h).script, Scripted op)
    (hdry : opts.dry = true) (h : Str) :
    let w' := (program opts targets loaded select luck f).2.2.hosts h
    w' = { f.hosts h with started := w'.started } := by
  rcases program_outcome (opts := opts) (targets := targets) (luck := luck) (f := f) (loaded := loaded) (select := select) with ⟨hs, _, ho⟩ | ⟨m, hm⟩
  · by_cases hh : h ∈ (program opts targets loaded select luck f).2.1
    · rw [ho.reached h hh]
      exact session_same (hl h) (.inl ⟨hdry, hops h⟩)
    · rw [ho.others h hh]
  · rw [hm]

/-- C100, for runs of the whole program over the hosts of an inventory, however they end and wherever connections break, with scripts of
whatever control flow. What was on the screen before stays; summaries are added for no other hosts than those that were started with,
host by host in this order. If all summaries that were added for a host say that an operation has succeeded without a change, or if
there are none, that host is exactly as before. Assumed: programs that only look do not change the hosts. -/
theorem C100_run_screen (opts : Env) (targets : Str → Target) (loaded : List Str) (select : Option Str) (luck : Str → Luck) (f : Fleet)
    (hl : ∀ h, ∀ p w, LooksOnly p.argv → ((targets h).sys.exec p w).2 = w) (hops : ∀ h, ∀ op ∈ (targets h).script, Scripted op) :
    let r := program opts targets loaded select luck f
    ∃ new : Str → List Report, r.2.2.screen = f.screen ++ r.2.1.flatMap (fun h => (new h).map fun p => (h, p))
      ∧ ∀ h, (∀ p, (h, p) ∈ r.2.2.screen.drop f.screen.length → Report.Unchanged p) →
          r.2.2.hosts h = { f.hosts h with started := (r.2.2.hosts h).started } := by
  intro r
  rcases program_outcome (opts := opts) (targets := targets) (luck := luck) (f := f) (loaded := loaded) (select := select) with ⟨hs, _, ho⟩ | ⟨m, hm⟩
  · refine ⟨_, ho.screen, fun h hall => ?_⟩
    by_cases hh : h ∈ r.2.1
    · rw [ho.reached h hh]
      refine session_shown (hl h) (hops h) fun p hp => hall p ?_
      rw [ho.screen, List.drop_left]
      exact List.mem_flatMap.mpr ⟨h, hh, List.mem_map.mpr ⟨p, hp, rfl⟩⟩
    · rw [ho.others h hh]
  · have : r = (.died m, [], f) := hm
    rw [this]
    exact ⟨fun _ => [], by simp, fun _ _ => rfl⟩

/-- C88, reports. If the program comes to its end, it has a result for every operation on every host that was asked for, and a host
for which no result reports a change is exactly as before. Assumed as for dry runs. -/
theorem C88_reports (opts : Env) (targets : Str → Target) (loaded : List Str) (select : Option Str) (luck : Str → Luck) (f : Fleet)
    (hl : ∀ h, ∀ p w, LooksOnly p.argv → ((targets h).sys.exec p w).2 = w) (hops : ∀ h, ∀ op ∈ (targets h).script, ∃ o, Operation o op)
    (wanted : List Str) (hw : Run.Wanted loaded select wanted) (hf : (program opts targets loaded select luck f).1 = .finished) :
    ∃ results, (program opts targets loaded select luck f).2.2.results = f.results ++ results
      ∧ (∀ h, h ∈ results.map (·.1) ↔ h ∈ wanted) ∧ (results.map (·.1)).Nodup
      ∧ ∀ h rs, (h, rs) ∈ results → rs.length = (targets h).script.length
          ∧ ((∀ r ∈ rs, r.changed = false) →
              let w' := (program opts targets loaded select luck f).2.2.hosts h
              w' = { f.hosts h with started := w'.started }) := by
  rcases program_outcome (opts := opts) (targets := targets) (luck := luck) (f := f) (loaded := loaded) (select := select) with ⟨hs, hsel, ho⟩ | ⟨m, hm⟩
  · obtain ⟨h1, results, h2, h3, h4⟩ := ho.finished hf
    refine ⟨results, h3, fun h => by rw [h2]; exact hsel wanted hw h, by rw [h2]; exact ho.once, fun h rs hm => ?_⟩
    have hok := h4 _ hm
    refine ⟨session_length hok, fun hc => ?_⟩
    have hh : h ∈ (program opts targets loaded select luck f).2.1 := by
      rw [h1, ← h2]
      exact List.mem_map_of_mem (f := (·.1)) hm
    rw [ho.reached h hh]
    exact session_same (hl h) (.inr ⟨hops h, rs, hok, hc⟩)
  · rw [hm] at hf
    cases hf

section
variable (opts : Env) (tools : Str → Tools) (targets : Str → Target) (calls : Str → List Ops.Call) (base : Str → Settings) (f : Fleet)

/-- C88, what is asked for. If the program comes to its end, all operations on all hosts asked for were successful and everything is
there. However it ends, nothing else was changed on any host. Assumed: as in C83, and that the host is as usual. -/
theorem C88_deployed_partial (hdry : opts.dry = false) (loaded : List Str) (select : Option Str) (luck : Str → Luck) (wanted : List Str)
    (hw : Run.Wanted loaded select wanted) (hsite : ∀ h ∈ wanted, Site opts (tools h) (targets h) (calls h) (base h) (f.hosts h)) :
    let r := program opts targets loaded select luck f
    (∀ h, Untouched (fun q => h ∈ wanted ∧ ∃ x ∈ asked (targets h) (calls h), x.Covers q) (f.hosts h) (r.2.2.hosts h))
    ∧ (r.1 = .finished → (∀ h ∈ wanted, Deployed opts (targets h) (asked (targets h) (calls h)) (base h) (f.hosts h) (r.2.2.hosts h))
        ∧ ∃ results, r.2.2.results = f.results ++ results ∧ (∀ h, h ∈ results.map (·.1) ↔ h ∈ wanted)
          ∧ ∀ h rs, (h, rs) ∈ results → rs.length = (calls h).length ∧ ∀ r ∈ rs, r.success = true) := by
  intro r
  refine ⟨fun h => ?_, fun hf => ⟨fun h hh => ?_, ?_⟩⟩
  · by_cases hh : h ∈ wanted
    · have := (program_going (loaded := loaded) (select := select) (luck := luck) rfl (hsite h hh) hdry (.start (hsite h hh).ordinary)).1.untouched
      exact ⟨fun q hq => this.fs q fun hx => hq ⟨hh, hx⟩, this.rest⟩
    · rcases program_outcome (opts := opts) (targets := targets) (luck := luck) (f := f) (loaded := loaded) (select := select) with ⟨hs, hsel, ho⟩ | ⟨m, hm⟩
      · have : r.2.2.hosts h = f.hosts h := ho.others h fun hc => hh ((hsel wanted hw h).mp (ho.started.subset hc))
        rw [this]
        exact ⟨fun _ _ => rfl, rfl⟩
      · have : r = (.died m, [], f) := hm
        rw [this]
        exact ⟨fun _ _ => rfl, rfl⟩
  · have hg := ((program_going rfl (hsite h hh) hdry (.start (hsite h hh).ordinary)).2 wanted hw hf hh)
    exact fun x hx => ⟨(hg.granted x hx).1, (hg.granted x hx).2.reached ((hsite h hh).tasks.names x hx) (hg.granted x hx).1⟩
  · rcases program_outcome (opts := opts) (targets := targets) (luck := luck) (f := f) (loaded := loaded) (select := select) with ⟨hs, hsel, ho⟩ | ⟨m, hm⟩
    · obtain ⟨h1, results, h2, h3, h4⟩ := ho.finished hf
      refine ⟨results, h3, fun h => by rw [h2]; exact hsel wanted hw h, fun h rs hm => ?_⟩
      have hwh : h ∈ wanted := (hsel wanted hw h).mp (by rw [← h2]; exact List.mem_map_of_mem (f := (·.1)) hm)
      exact ((session_going (hsite h hwh) hdry (.start (hsite h hwh).ordinary)).2 rs (h4 _ hm)).1
    · have : r = (.died m, [], f) := hm
      rw [this] at hf
      cases hf

/-- C88, running the program again. After a run that came to its end, another one changes nothing on any host, wherever it ends, and
all its results report that nothing was changed. Assumed: as above, and that what was asked for can be recognised. -/
theorem C88_again_partial (hdry : opts.dry = false) (loaded : List Str) (select : Option Str) (luck luck' : Str → Luck) (wanted : List Str)
    (hw : Run.Wanted loaded select wanted) (hsite : ∀ h ∈ wanted, Site opts (tools h) (targets h) (calls h) (base h) (f.hosts h))
    (hsteady : ∀ h ∈ wanted, Steady opts (asked (targets h) (calls h)) (base h) (f.hosts h)) (hf : (program opts targets loaded select luck f).1 = .finished) :
    let first := (program opts targets loaded select luck f).2.2
    let second := program opts targets loaded select luck' first
    (∀ h, Untouched (fun _ => False) (first.hosts h) (second.2.2.hosts h))
    ∧ (second.1 = .finished → ∃ results, second.2.2.results = first.results ++ results ∧ (∀ h, h ∈ results.map (·.1) ↔ h ∈ wanted)
        ∧ ∀ h rs, (h, rs) ∈ results → rs.length = (calls h).length ∧ ∀ r ∈ rs, r.success = true ∧ r.changed = false) := by
  intro first second
  have hgo := fun h hh => (program_going (opts := opts) (luck := luck) rfl (hsite h hh) hdry (.start (hsite h hh).ordinary)).2 wanted hw hf hh
  rcases program_outcome (opts := opts) (targets := targets) (luck := luck') (f := first) (loaded := loaded) (select := select) with ⟨hs, hsel, ho⟩ | ⟨m, hm⟩
  · refine ⟨fun h => ?_, fun hf2 => ?_⟩
    · by_cases hh : h ∈ second.2.1
      · have hwh : h ∈ wanted := (hsel wanted hw h).mp (ho.started.subset hh)
        rw [ho.reached h hh]
        have hs := (session_calm (lk := luck' h) (hsite h hwh) (hsteady h hwh).modes (hsteady h hwh).aliases (hsteady h hwh).bits (hgo h hwh)).1
        exact ⟨fun q _ => by rw [hs], by rw [hs]⟩
      · rw [ho.others h hh]
        exact ⟨fun _ _ => rfl, rfl⟩
    · obtain ⟨h1, results, h2, h3, h4⟩ := ho.finished hf2
      refine ⟨results, h3, fun h => by rw [h2]; exact hsel wanted hw h, fun h rs hm => ?_⟩
      have hwh : h ∈ wanted := (hsel wanted hw h).mp (by rw [← h2]; exact List.mem_map_of_mem (f := (·.1)) hm)
      refine ⟨?_, (session_calm (lk := luck' h) (hsite h hwh) (hsteady h hwh).modes (hsteady h hwh).aliases (hsteady h hwh).bits (hgo h hwh)).2 rs (h4 _ hm)⟩
      rw [session_length (h4 _ hm), (hsite h hwh).script, List.length_map]
  · have : second = (.died m, [], first) := hm
    rw [this]
    exact ⟨fun _ => ⟨fun _ _ => rfl, rfl⟩, nofun⟩

/-- C88, resuming. Suppose a run was interrupted anywhere, at any host, by whatever happens to the connections, or was for a different
selection of hosts. Then a run that comes to its end leads to the same hosts as if there had been no other run before. Assumed: as
above, and no collisions of checksums. -/
theorem C88_resumed_partial (hdry : opts.dry = false) (loaded loaded1 : List Str) (select select1 : Option Str) (luck luck1 luck2 : Str → Luck)
    (wanted : List Str) (hw : Run.Wanted loaded select wanted) (hsite : ∀ h ∈ wanted, Site opts (tools h) (targets h) (calls h) (base h) (f.hosts h))
    (hsteady : ∀ h ∈ wanted, Steady opts (asked (targets h) (calls h)) (base h) (f.hosts h)) (hsum : ∀ h ∈ wanted, NoCollisions (targets h) (asked (targets h) (calls h)))
    (hf : (program opts targets loaded select luck f).1 = .finished)
    (hf2 : (program opts targets loaded select luck2 (program opts targets loaded1 select1 luck1 f).2.2).1 = .finished) (h : Str) (hh : h ∈ wanted) :
    Alike ((program opts targets loaded select luck f).2.2.hosts h)
      ((program opts targets loaded select luck2 (program opts targets loaded1 select1 luck1 f).2.2).2.2.hosts h) := by
  have hst := hsite h hh
  have hstart := Going.start (sys := (targets h).sys) (env := { opts with base := base h }) (st := start (base h)) (ts := asked (targets h) (calls h)) hst.ordinary
  have ha := (program_going (luck := luck) rfl hst hdry hstart).2 wanted hw hf hh
  have h1 := (program_going (luck := luck1) (loaded := loaded1) (select := select1) rfl hst hdry hstart).1
  have hs1 : Site opts (tools h) (targets h) (calls h) (base h) ((program opts targets loaded1 select1 luck1 f).2.2.hosts h) :=
    ⟨h1.ordinary, identity_untouched h1.untouched hst.identity, hst.script, hst.fits, h1.tasks hst.tasks, hst.modes⟩
  have h2 := (program_going (luck := luck2) rfl hs1 hdry (.start h1.ordinary)).2 wanted hw hf2 hh
  exact granted_alike (hsteady h hh).modes (hsteady h hh).bits (fun t ht _ => hst.owners _) (hsum h hh) ha h1 h2

/-- C88, predictions. If the program comes to its end, then a dry run at the same point, over connections that work, would have come
to its end with the same results for all operations on all hosts and the same summaries on the screen, and would have left all hosts alone (where links are asked for it
runs `readlink`, otherwise nothing). Assumed: as above, and as for C30. -/
theorem C88_predicted_partial (loaded : List Str) (select : Option Str) (luck luck' : Str → Luck) (wanted : List Str)
    (hw : Run.Wanted loaded select wanted) (hsite : ∀ h ∈ wanted, Site opts (tools h) (targets h) (calls h) (base h) (f.hosts h))
    (hlinks : ∀ h ∈ wanted, (∃ x ∈ asked (targets h) (calls h), x.wish.isLink = true) → SteadyLinks (targets h).sys (tools h) ∧ WorksIn (f.hosts h) (base h).cwd)
    (hroot : ∀ h ∈ wanted, Rooted (f.hosts h)) (hlooks : ∀ h ∈ wanted, SteadyLooks (targets h).sys) (hluck : ∀ h ∈ wanted, Working (luck' h))
    (hf : (program { opts with dry := false } targets loaded select luck f).1 = .finished) :
    let real := program { opts with dry := false } targets loaded select luck f
    let dry := program { opts with dry := true } targets loaded select luck' f
    dry.1 = .finished ∧ dry.2.1 = real.2.1 ∧ dry.2.2.results = real.2.2.results ∧ dry.2.2.screen = real.2.2.screen
    ∧ (∀ h, ∃ started, dry.2.2.hosts h = { f.hosts h with started })
    ∧ ∀ h, (h ∈ wanted → ∀ x ∈ asked (targets h) (calls h), x.wish.isLink = false) → dry.2.2.hosts h = f.hosts h := by
  intro real dry
  have hkey : ∀ (hs : List Str) (fr fd : Fleet), hs.Nodup → (∀ h ∈ hs, h ∈ wanted) → (fd.results = fr.results ∧ fd.screen = fr.screen) → (∀ h ∈ hs, fr.hosts h = f.hosts h) →
      (∀ h ∈ hs, fd.hosts h = f.hosts h) → (∀ h, (∃ started, fd.hosts h = { f.hosts h with started })
        ∧ ((h ∈ wanted → ∀ x ∈ asked (targets h) (calls h), x.wish.isLink = false) → fd.hosts h = f.hosts h)) →
      (Run.runHosts (round { opts with dry := false } targets luck) hs fr).1 = .finished →
      (Run.runHosts (round { opts with dry := true } targets luck') hs fd).1 = .finished
      ∧ (Run.runHosts (round { opts with dry := true } targets luck') hs fd).2.1 = (Run.runHosts (round { opts with dry := false } targets luck) hs fr).2.1
      ∧ ((Run.runHosts (round { opts with dry := true } targets luck') hs fd).2.2.results = (Run.runHosts (round { opts with dry := false } targets luck) hs fr).2.2.results
        ∧ (Run.runHosts (round { opts with dry := true } targets luck') hs fd).2.2.screen = (Run.runHosts (round { opts with dry := false } targets luck) hs fr).2.2.screen)
      ∧ ∀ h, (∃ started, (Run.runHosts (round { opts with dry := true } targets luck') hs fd).2.2.hosts h = { f.hosts h with started })
        ∧ ((h ∈ wanted → ∀ x ∈ asked (targets h) (calls h), x.wish.isLink = false) →
          (Run.runHosts (round { opts with dry := true } targets luck') hs fd).2.2.hosts h = f.hosts h) := by
    intro hs
    induction hs with
    | nil => intro fr fd _ _ hr _ _ hh _; exact ⟨rfl, rfl, hr, hh⟩
    | cons h hs ih =>
      intro fr fd hnd hin hr hfr hfd hinv hfin
      rw [List.nodup_cons] at hnd
      have hwh := hin h (by simp)
      unfold Run.runHosts at hfin ⊢
      cases hx : (session { opts with dry := false } (targets h) (luck h) (fr.hosts h)).1 with
      | error e =>
        have : (round { opts with dry := false } targets luck h fr).1 = .error { kind := e } := by unfold round; simp only [hx]
        rcases hro : round { opts with dry := false } targets luck h fr with ⟨x, f1⟩
        rw [hro] at this
        cases this
        rw [hro] at hfin
        cases hfin
      | ok rs =>
        have hx' := hx
        rw [hfr h (by simp)] at hx'
        obtain ⟨hd1, l, hd2, hl, hd3⟩ := session_ahead (hsite h hwh) (hlinks h hwh) (hlooks h hwh) (hroot h hwh) hx' (hluck h hwh)
        rw [← hfd h (by simp)] at hd1 hd2
        have hre : ∃ f1, round { opts with dry := false } targets luck h fr = (.ok (), f1) ∧ f1.results = fr.results ++ [(h, rs)]
            ∧ f1.screen = fr.screen ++ (session { opts with dry := false } (targets h) (luck h) (f.hosts h)).2.2.2.map (fun p => (h, p)) ∧ ∀ x ∈ hs, f1.hosts x = f.hosts x := by
          unfold round
          simp only [hx]
          refine ⟨_, rfl, rfl, by rw [hfr h (by simp)], fun x hxs => ?_⟩
          have : x ≠ h := fun hc => hnd.1 (hc ▸ hxs)
          simp only [if_neg this]
          exact hfr x (by simp [hxs])
        have hde : ∃ f1, round { opts with dry := true } targets luck' h fd = (.ok (), f1) ∧ f1.results = fd.results ++ [(h, rs)]
            ∧ f1.screen = fd.screen ++ (session { opts with dry := false } (targets h) (luck h) (f.hosts h)).2.2.2.map (fun p => (h, p)) ∧ (∀ x ∈ hs, f1.hosts x = f.hosts x)
            ∧ ∀ x, (∃ started, f1.hosts x = { f.hosts x with started })
              ∧ ((x ∈ wanted → ∀ y ∈ asked (targets x) (calls x), y.wish.isLink = false) → f1.hosts x = f.hosts x) := by
          unfold round
          simp only [hd1]
          refine ⟨_, rfl, rfl, by rw [hfd h (by simp), hd3], fun x hxs => ?_, fun x => ?_⟩
          · have : x ≠ h := fun hc => hnd.1 (hc ▸ hxs)
            simp only [if_neg this]
            exact hfd x (by simp [hxs])
          · by_cases hc : x = h
            · subst hc
              simp only [if_true]
              rw [hd2, hfd x (by simp)]
              refine ⟨⟨l, rfl⟩, fun hn => ?_⟩
              have := hl (hn hwh)
              subst this
              rfl
            · simp only [if_neg hc]
              exact hinv x
        obtain ⟨f1, he1, hr1, hs1, hh1⟩ := hre
        obtain ⟨f2, he2, hr2, hs2, hh2, hi2⟩ := hde
        rw [he1] at hfin ⊢
        rw [he2]
        dsimp only at hfin ⊢
        obtain ⟨i1, i2, i3, i4⟩ := ih f1 f2 hnd.2 (fun x hx => hin x (by simp [hx])) ⟨by rw [hr1, hr2, hr.1], by rw [hs1, hs2, hr.2]⟩ hh1 hh2 hi2 hfin
        exact ⟨i1, by rw [i2], i3, i4⟩
  have hsplit : (∀ h, (∃ started, dry.2.2.hosts h = { f.hosts h with started })
      ∧ ((h ∈ wanted → ∀ x ∈ asked (targets h) (calls h), x.wish.isLink = false) → dry.2.2.hosts h = f.hosts h)) →
      (∀ h, ∃ started, dry.2.2.hosts h = { f.hosts h with started })
      ∧ ∀ h, (h ∈ wanted → ∀ x ∈ asked (targets h) (calls h), x.wish.isLink = false) → dry.2.2.hosts h = f.hosts h := fun h => ⟨fun x => (h x).1, fun x => (h x).2⟩
  suffices hall : _ ∧ _ ∧ (_ ∧ _) ∧ _ from ⟨hall.1, hall.2.1, hall.2.2.1.1, hall.2.2.1.2, hsplit hall.2.2.2⟩
  clear hsplit
  revert hf
  show real.1 = .finished → _
  unfold real dry program Run.mainRun
  cases hs : Run.select loaded (Run.requested loaded select) [] with
  | error m => exact nofun
  | ok selected =>
    have hsel := (Run.select_spec (loaded := loaded) (hs := Run.requested loaded select) Run.firstOccurrences_nil).1 hs
    refine hkey selected f f hsel.1.once (fun h hh => ?_) ⟨rfl, rfl⟩ (fun _ _ => rfl) (fun _ _ => rfl) (fun h => ⟨⟨_, rfl⟩, fun _ => rfl⟩)
    have := (hsel.1.same h).mp hh
    rw [Run.wanted_iff.mp hw]
    simpa using this

end

namespace Example
open Ops.Example (sys tools host treeCalls tree ordinary treeCalls_fit treeCalls_tasks treeCalls_bits noAliases looking)

def target : Target := { sys, base := Script.baseRemoteSettings, script := treeCalls.map (Ops.Call.op sys.sha512) }

/-- The settings of the connection: we are root. -/
def settings : Settings := { Script.baseRemoteSettings with asUser := some p!"root", asGroup := some p!"root", owner := some p!"root", group := some p!"root" }

def fine : Luck := { opening := { popen := none, alive := .ok .ack, died := false }, lost := fun _ => none, dies := false }

/-- The hosts a and b are the example host, and are asked to have a new directory with a directory tree in it, a link to that, and no `/home`. -/
def fleet : Fleet := { hosts := fun _ => host }

theorem site (opts : Env) : Site opts tools target treeCalls settings host where
  ordinary := ordinary
  identity := ⟨Remote.Example.root, Remote.Example.rootG, Client.findUser_iff.mp (by decide), Client.findGroup_iff.mp (by decide), rfl⟩
  script := rfl
  fits := treeCalls_fit
  tasks := treeCalls_tasks
  modes := by
    intro m h
    rcases h with h | h <;> cases h <;> exact ⟨by decide, by decide⟩

theorem steady (opts : Env) : Steady opts (asked target treeCalls) settings host where
  modes := by
    intro m h
    rcases h with h | h <;> cases h
    · exact ⟨0o600, by decide⟩
    · exact ⟨0o700, by decide⟩
  aliases := noAliases
  bits := treeCalls_bits

/-- A link is asked for; the hypotheses about `readlink` are met. -/
example : SteadyLinks target.sys tools ∧ WorksIn (fleet.hosts p!"a") settings.cwd := by
  refine ⟨⟨fun _ _ _ => rfl, fun _ _ _ _ _ => ⟨rfl, rfl⟩⟩, ?_⟩
  rintro d hd
  cases hd
  refine ⟨rfl, [p!"tmp"], Remote.Example.dirNode 0o1777, rfl, rfl⟩

theorem noCollisions : NoCollisions target (asked target treeCalls) := fun _ _ _ _ _ _ _ _ h => h

theorem working : Working fine := ⟨rfl, rfl, rfl, fun _ => rfl, rfl⟩

theorem steadyLooks : SteadyLooks target.sys := fun _ _ _ _ => ⟨rfl, rfl, rfl⟩

example : Rooted (fleet.hosts p!"a") := Ops.Example.rooted

/-- Every operation of the script is one of those of fora. -/
example : ∀ op ∈ target.script, ∃ o, Operation o op := by
  intro op hop
  simp only [target, treeCalls, Ops.Call.op, List.map_cons, List.map_nil, List.mem_cons, List.not_mem_nil, or_false] at hop
  rcases hop with rfl | rfl | rfl | rfl
  · exact ⟨_, .directory ..⟩
  · exact ⟨_, .uploadDir ..⟩
  · exact ⟨_, .link ..⟩
  · exact ⟨_, .directory ..⟩

/-- How the program ends, the hosts it has started with, and the changes reported. -/
def seen (r : Run.End × List Str × Fleet) : Bool × List Str × List (Str × List Bool) :=
  (match r.1 with | .finished => true | _ => false, r.2.1, r.2.2.results.map fun p => (p.1, p.2.map (·.changed)))

def run (dry : Bool) (select : Option Str) (luck : Str → Luck) (f : Fleet) : Run.End × List Str × Fleet :=
  program { base := {}, dry } (fun _ => target) [p!"a", p!"b"] select luck f

/-- The first run changes both hosts, the second one none of them. A dry run predicts the changes, and makes none. -/
example : seen (run false none (fun _ => fine) fleet) = (true, [p!"a", p!"b"], [(p!"a", [true, true, true, true]), (p!"b", [true, true, true, true])])
    ∧ seen (run false none (fun _ => fine) { (run false none (fun _ => fine) fleet).2.2 with results := [] })
        = (true, [p!"a", p!"b"], [(p!"a", [false, false, false, false]), (p!"b", [false, false, false, false])])
    ∧ seen (run true none (fun _ => fine) fleet) = (true, [p!"a", p!"b"], [(p!"a", [true, true, true, true]), (p!"b", [true, true, true, true])])
    ∧ ((run true none (fun _ => fine) fleet).2.2.hosts p!"b").fs [p!"etc", p!"site"] = none :=
  ⟨by decide +kernel, by decide +kernel, by decide +kernel, by decide +kernel⟩

/-- What is on the screen: the hosts, whether the operations succeeded, and whether they changed something. -/
def onScreen (r : Run.End × List Str × Fleet) : List (Str × Bool × Bool) :=
  r.2.2.screen.map fun p => (p.1, p.2.result.success, p.2.result.changed)

/-- The summaries of two runs. Of the second one they say that nothing was changed, and the hosts are as before (C100_run_screen). -/
example : (onScreen (run false none (fun _ => fine) fleet)).map (·.2.2) = List.replicate (onScreen (run false none (fun _ => fine) fleet)).length true
    ∧ (onScreen (run false none (fun _ => fine) fleet)).length = 14
    ∧ onScreen (run false none (fun _ => fine) { (run false none (fun _ => fine) fleet).2.2 with screen := [] })
        = List.replicate 7 (p!"a", true, false) ++ List.replicate 7 (p!"b", true, false) :=
  ⟨by decide +kernel, by decide +kernel, by decide +kernel⟩

/-- The connection to a breaks. -/
def unlucky (h : Str) : Luck := if h = p!"a" then { fine with lost := Ops.Example.breaks 20 true } else fine

/-- Then b is not connected to. The next run does what is missing. -/
example : seen (run false none unlucky fleet) = (false, [p!"a"], [])
    ∧ ((run false none unlucky fleet).2.2.hosts p!"a").fs [p!"etc", p!"site"] ≠ none
    ∧ ((run false none unlucky fleet).2.2.hosts p!"b").fs [p!"etc", p!"site"] = none
    ∧ seen (run false none (fun _ => fine) (run false none unlucky fleet).2.2)
        = (true, [p!"a", p!"b"], [(p!"a", [false, true, true, true]), (p!"b", [true, true, true, true])])
    ∧ seen (run false (some p!"b") (fun _ => fine) (run false none unlucky fleet).2.2) = (true, [p!"b"], [(p!"b", [true, true, true, true])]) :=
  ⟨by decide +kernel, by decide +kernel, by decide +kernel, by decide +kernel, by decide +kernel⟩

/-- If the background process dies before the script ends, it ends with an error, although everything was done. -/
example : seen (run false none (fun _ => { fine with dies := true }) fleet) = (false, [p!"a"], [])
    ∧ ((run false none (fun _ => { fine with dies := true }) fleet).2.2.hosts p!"a").fs [p!"etc", p!"site", p!"conf", p!"a.conf"] ≠ none :=
  ⟨by decide +kernel, by decide +kernel⟩

/-- A case that meets the hypotheses of `C88_left_behind`: the connection to b breaks at the first request. -/
def mute (h : Str) : Luck := if h = p!"b" then { fine with lost := fun _ => some false } else fine

example : seen (run false none mute fleet) = (false, [p!"a", p!"b"], [(p!"a", [true, true, true, true])])
    ∧ (run false none mute fleet).2.2.background = 1 :=
  ⟨by decide +kernel, by decide +kernel⟩

end Example

end Verif.Program
