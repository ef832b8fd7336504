/-
C101: scripts about different files, at the same time.
-/
import Verif.Ops.BesideAskLemmas
import Verif.Ops.TogetherProps
import Verif.Ops.DeployProps

namespace Verif.Ops

open Script Remote
open Client (Prog direct)
open Wire (Packet)

section
variable {sys : Sys} {tools : Tools} {w : World} {ts ts' : List Task} {env env' : Env} {st st' : St}

theorem Neighbour.minds (h : Neighbour sys tools w ts ts' env st) (hord : Ordinary sys tools w) (hk : KeepApart ts ts') : Minds sys tools (Zone ts') w ts env st :=
  ⟨hord.exec, h.unmoved, fun t ht => ⟨h.tasks.names t ht, h.noLinks t ht, way_free hk ht⟩, fun d hd =>
    (h.lodged d hd).imp fun _ h => ⟨h.1, h.2.1, h.2.2.1, fun p s hs => h.2.2.2 p ⟨s, hs.symm⟩⟩⟩

theorem tasks_both (h : Tasks sys w ts) (h' : Tasks sys w ts') (hk : KeepApart ts ts') : Tasks sys w (ts ++ ts') := by
  refine ⟨?_, ?_, ?_, ?_, ?_, ?_, ?_⟩
  · exact fun t ht => (List.mem_append.mp ht).elim (h.proper t) (h'.proper t)
  · exact fun t ht => (List.mem_append.mp ht).elim (h.names t) (h'.names t)
  · rw [List.map_append, List.nodup_append]
    refine ⟨h.distinct, h'.distinct, fun a ha b hb hab => ?_⟩
    obtain ⟨t, ht, rfl⟩ := List.mem_map.mp ha
    obtain ⟨t', ht', rfl⟩ := List.mem_map.mp hb
    exact (hk t ht t' ht').1 (by rw [hab]; exact List.prefix_refl _)
  · exact fun t ht => (List.mem_append.mp ht).elim (h.plain t) (h'.plain t)
  · intro t ht d hd s hs hne
    rcases List.mem_append.mp ht with ht | ht <;> rcases List.mem_append.mp hd with hd | hd
    · exact h.apart t ht d hd s hs hne
    · exact ((hk t ht d hd).1 ⟨s, hs.symm⟩).elim
    · exact ((hk d hd t ht).2 ⟨s, hs.symm⟩).elim
    · exact h'.apart t ht d hd s hs hne
  · exact fun t ht => (List.mem_append.mp ht).elim (h.links t) (h'.links t)
  · rintro ⟨t, ht, ha⟩
    exact (List.mem_append.mp ht).elim (fun ht => h.rooted ⟨t, ht, ha⟩) fun ht => h'.rooted ⟨t, ht, ha⟩

theorem Tasks.right (h : Tasks sys w (ts ++ ts')) : Tasks sys w ts' :=
  ⟨fun t ht => h.proper t (by simp [ht]), fun t ht => h.names t (by simp [ht]), (List.nodup_append.mp (by simpa using h.distinct)).2.1,
    fun t ht => h.plain t (by simp [ht]), fun t ht d hd => h.apart t (by simp [ht]) d (by simp [hd]), fun t ht => h.links t (by simp [ht]),
    fun ⟨t, ht, ha⟩ => h.rooted ⟨t, by simp [ht], ha⟩⟩

/-- One script after the other. -/
theorem beside_serial (hord : Ordinary sys tools w) (hk : KeepApart ts ts') (h : Neighbour sys tools w ts ts' env st) (h' : Neighbour sys tools w ts' ts env' st')
    {lost lost' : Nat → Option Bool} {r r' : Except Exn (List OpResult) × St} {w1 w2 : World} {k1 k2 : Nat}
    (h1 : exec (flaky sys lost) (deploy (ts.map (·.op))) env st (w, 0) = (r, (w1, k1)))
    (h2 : exec (flaky sys lost') (deploy (ts'.map (·.op))) env' st' (w1, 0) = (r', (w2, k2))) :
    Untouched (Zone ts) w w1 ∧ Untouched (Zone ts') w1 w2 ∧ (∀ rs, r.1 = .ok rs → ∀ t ∈ ts, t.wish.Granted sys env st w w2 t.names)
    ∧ ∀ rs, r'.1 = .ok rs → ∀ t ∈ ts', t.Reached w2 := by
  have hall := tasks_both h.tasks h'.tasks hk
  have hpost := deploy_post (lost := lost) (tools := tools) hall h.modes h.wet ts rfl (.start hord) (fun t ht => List.mem_append_left _ ht) h.tasks.distinct (fun _ h => h.elim)
  have hg : Going sys tools env st (ts ++ ts') w (fun _ => False) (perform sys lost (deploy (ts.map (·.op))) env st w).2 := post_world hpost fun _ _ _ h => h.2.forget
  obtain ⟨hu, hgr⟩ := C83_deploy_complete sys tools lost env st w hord h.modes h.wet ts h.tasks
  have hp : perform sys lost (deploy (ts.map (·.op))) env st w = (r.1, w1) := by unfold perform; rw [h1]
  rw [hp] at hu hgr hg
  obtain ⟨hu', hgr'⟩ := C83_deploy_complete sys tools lost' env' st' w1 hg.ordinary h'.modes h'.wet ts' (hg.tasks hall).right
  have hp' : perform sys lost' (deploy (ts'.map (·.op))) env' st' w1 = (r'.1, w2) := by unfold perform; rw [h2]
  rw [hp'] at hu' hgr'
  refine ⟨hu, hu', fun rs hr t ht => ?_, fun rs hr t ht => ((hgr' rs hr).2 t ht).2⟩
  exact ((hgr rs hr).2 t ht).1.elsewhere fun q hq => hu'.fs q fun hz => zones_disjoint hk ⟨t, ht, hq⟩ hz

theorem reached_sameHost {w w' : World} {t : Task} (h : t.Reached w) (hs : SameHost w w') : t.Reached w' := by
  obtain ⟨l, rfl⟩ := hs
  exact h

end

/-- C101 (partially): scripts about different files. Two scripts that create, fill and remove files and directories are run on the same host at the same
time, in real runs. No path of the one is a path of the other or on the way to one, or to the working directory of the other, and there are no symbolic
links on the way. Then with every schedule, and however the connections break: the outcome of each, its results, its screen and its state, is the one that it has when it is run
alone; the host is the one that results when the second is run after the first; nothing but the places of the two was touched; and what a script that came to its end
asked for is there. -/
theorem C101_files_partial (sys : Sys) (tools : Tools) (w : World) (hord : Ordinary sys tools w) (hn : NoHistory sys) (ts ts' : List Task) (hk : KeepApart ts ts')
    (env env' : Env) (st st' : St) (h : Neighbour sys tools w ts ts' env st) (h' : Neighbour sys tools w ts' ts env' st') (lost lost' : Nat → Option Bool)
    (schedule : List Bool) (r r' : Except Exn (List OpResult) × St)
    (hr : (together sys schedule (Process.start (deploy (ts.map (·.op))) env st lost) (Process.start (deploy (ts'.map (·.op))) env' st' lost') w).1.todo = .ret r)
    (hr' : (together sys schedule (Process.start (deploy (ts.map (·.op))) env st lost) (Process.start (deploy (ts'.map (·.op))) env' st' lost') w).2.1.todo = .ret r') :
    let host := (together sys schedule (Process.start (deploy (ts.map (·.op))) env st lost) (Process.start (deploy (ts'.map (·.op))) env' st' lost') w).2.2
    (exec (flaky sys lost) (deploy (ts.map (·.op))) env st (w, 0)).1 = r ∧ (exec (flaky sys lost') (deploy (ts'.map (·.op))) env' st' (w, 0)).1 = r'
    ∧ SameHost (perform sys lost' (deploy (ts'.map (·.op))) env' st' (perform sys lost (deploy (ts.map (·.op))) env st w).2).2 host
    ∧ Untouched (fun q => Zone ts q ∨ Zone ts' q) w host
    ∧ (∀ rs, r.1 = .ok rs → ∀ t ∈ ts, t.wish.Granted sys env st w host t.names ∧ t.Reached host)
    ∧ ∀ rs, r'.1 = .ok rs → ∀ t ∈ ts', t.wish.Granted sys env' st' w host t.names ∧ t.Reached host := by
  intro host
  have hx := exchangeable_files hk (h.minds hord hk) (h'.minds hord hk.symm)
  have hA : AsksOnly sys (Amid ts ts' w) (Asking ts env st) (deploy (ts.map (·.op))) env st :=
    asksOnly_deploy (fun _ hi => hi.accounts hord.accounts) h.defaults h.tasks.proper h.noLinkTasks
  have hB : AsksOnly sys (Amid ts ts' w) (Asking ts' env' st') (deploy (ts'.map (·.op))) env' st' :=
    asksOnly_deploy (fun _ hi => hi.accounts hord.accounts) h'.defaults h'.tasks.proper h'.noLinkTasks
  obtain ⟨⟨w1, k1, w2, k2, a1, a2, a3⟩, ⟨v1, l1, v2, l2, b1, b2, b3⟩⟩ :=
    C101_serial_partial sys hn _ _ _ hx _ env st lost hA _ env' st' lost' hB w .refl schedule r r' hr hr'
  change SameHost w2 host at a3
  change SameHost v2 host at b3
  obtain ⟨c1, c2, c3, c4⟩ := beside_serial hord hk h h' a1 a2
  obtain ⟨d1, d2, d3, d4⟩ := beside_serial hord hk.symm h' h b1 b2
  have hfs : host.fs = w2.fs := by obtain ⟨l, hl⟩ := a3; rw [hl]
  have hfs' : host.fs = v2.fs := by obtain ⟨l, hl⟩ := b3; rw [hl]
  refine ⟨by rw [a1], by rw [b1], ?_, ⟨fun q hq => ?_, ?_⟩, fun rs hr t ht => ⟨?_, ?_⟩, fun rs hr t ht => ⟨?_, ?_⟩⟩
  · have e1 : perform sys lost (deploy (ts.map (·.op))) env st w = (r.1, w1) := by unfold perform; rw [a1]
    have e2 : perform sys lost' (deploy (ts'.map (·.op))) env' st' w1 = (r'.1, w2) := by unfold perform; rw [a2]
    rw [e1, e2]
    exact a3
  · rw [hfs, c2.fs q fun hz => hq (.inr hz), c1.fs q fun hz => hq (.inl hz)]
  · obtain ⟨l, hl⟩ := a3
    rw [hl, c2.rest, c1.rest]
  · exact (c3 rs hr t ht).elsewhere fun q _ => by rw [hfs]
  · exact reached_sameHost (d4 rs hr t ht) b3
  · exact (d3 rs hr t ht).elsewhere fun q _ => by rw [hfs']
  · exact reached_sameHost (c4 rs hr t ht) a3

/-! ### A concrete case -/

namespace Example

/-- One script creates a directory and two files in it, the other one replaces `/etc/motd` and removes `/home`. -/
def here : List Task := [siteTasks[0], siteTasks[1], siteTasks[3]]
def there : List Task := [siteTasks[2], siteTasks[4]]

theorem keepApart : KeepApart here there := by
  have : ∀ t ∈ here, ∀ t' ∈ there, t.names.isPrefixOf t'.names = false ∧ t'.names.isPrefixOf t.names = false := by decide +kernel
  intro t ht t' ht'
  obtain ⟨h1, h2⟩ := this t ht t' ht'
  exact ⟨(fun h => by rw [List.isPrefixOf_iff_prefix.mpr h] at h1; cases h1), (fun h => by rw [List.isPrefixOf_iff_prefix.mpr h] at h2; cases h2)⟩

theorem some_tasks {ts : List Task} (h : ∀ t ∈ ts, t ∈ siteTasks) (hd : (ts.map (·.names)).Nodup) : Tasks sys host ts := by
  have hs := siteTasks_proper
  exact ⟨fun t ht => hs.proper t (h t ht), fun t ht => hs.names t (h t ht), hd, fun t ht => hs.plain t (h t ht),
    fun t ht d hd => hs.apart t (h t ht) d (h d hd), fun t ht => hs.links t (h t ht), fun _ => rooted⟩

theorem here_in : ∀ t ∈ here, t ∈ siteTasks := by simp [here, siteTasks]
theorem there_in : ∀ t ∈ there, t ∈ siteTasks := by simp [there, siteTasks]

theorem unmoved (P : Str → Prop) (Z : Loc → Prop) : Unmoved sys tools P Z :=
  ⟨fun _ _ _ _ _ => rfl, fun _ _ _ _ _ => rfl, fun _ _ _ _ _ _ _ => rfl, fun _ _ _ _ _ _ _ => rfl, fun _ _ _ _ _ _ _ => rfl, fun _ _ _ _ _ _ _ => rfl, fun _ _ _ _ => rfl⟩

theorem plainDefaults : PlainDefaults env st := by
  rintro s (rfl | hs) x hx
  · rcases hx with hx | hx | hx | hx <;> cases hx <;> decide
  · simp only [st, List.mem_singleton] at hs
    subst hs
    rcases hx with hx | hx | hx | hx <;> cases hx

theorem no_links_site : ∀ t ∈ siteTasks, NoLinks host t.names := by
  intro t ht p s he n target hn hk
  by_cases hs : s = []
  · subst hs
    rw [List.append_nil] at he
    subst he
    simp only [siteTasks, List.mem_cons, List.not_mem_nil, or_false] at ht
    rcases ht with rfl | rfl | rfl | rfl | rfl
    · have h0 : none = some n := hn; cases h0
    · have h0 : none = some n := hn; cases h0
    · cases hn; cases hk
    · have h0 : none = some n := hn; cases h0
    · cases hn; cases hk
  · exact siteTasks_proper.plain t ht p s he hs n target hn hk

theorem lodged {ts : List Task} (h : ∀ t ∈ ts, t ∈ siteTasks) : Lodged host ts env st := by
  intro d hd
  have hd : d = pathOf [p!"tmp"] := by
    rcases hd with hd | ⟨s, hs, hd⟩
    · cases hd; decide
    · simp only [st, List.mem_singleton] at hs
      subst hs
      cases hd
  have pre : ∀ p s, [p!"tmp"] = p ++ s → p = [] ∨ p = [p!"tmp"] := by
    intro p s he
    match p with
    | [] => exact .inl rfl
    | [a] => simp at he; exact .inr (by rw [he.1])
    | a :: b :: p => simp at he
  refine ⟨_, hd, ?_, ?_, ?_⟩
  · intro n hn
    rw [List.mem_singleton] at hn
    subst hn
    exact ⟨by decide, by decide, by decide, by decide⟩
  · intro p s he n target hn hk
    rcases pre p s he with rfl | rfl <;> cases hn <;> cases hk
  · rintro p ⟨s, hs⟩ ⟨t, ht, hc⟩
    have hns : ∀ t ∈ siteTasks, t.names ≠ [] ∧ t.names ≠ [p!"tmp"] := by decide +kernel
    obtain ⟨n1, n2⟩ := hns t (h t ht)
    have hpre : t.names <+: p := by
      rcases hc with rfl | ⟨_, s, rfl⟩
      · exact List.prefix_refl _
      · exact List.prefix_append _ _
    obtain ⟨s', hs'⟩ := hpre
    rcases pre p s hs.symm with rfl | rfl
    · exact n1 (List.append_eq_nil_iff.mp hs').1
    · rcases pre t.names s' hs'.symm with hx | hx
      · exact n1 hx
      · exact n2 hx

theorem beside : Neighbour sys tools host here there env st :=
  ⟨some_tasks here_in (by decide +kernel), by decide, fun t ht => no_links_site t (here_in t ht), plainModes, plainDefaults, lodged there_in, rfl, unmoved _ _⟩

theorem beside' : Neighbour sys tools host there here env st :=
  ⟨some_tasks there_in (by decide +kernel), by decide, fun t ht => no_links_site t (there_in t ht), plainModes, plainDefaults, lodged here_in, rfl, unmoved _ _⟩

/-- The two at the same time, taking turns. -/
def turns := together sys ((List.range 60).flatMap fun _ => [true, false, false])
  (Process.start (deploy (here.map (·.op))) env st always) (Process.start (deploy (there.map (·.op))) env st always) host

/-- What a run that has come to its end reports. -/
def ended (p : Process (Except Exn (List OpResult) × St)) : Option (List Bool) :=
  match p.todo with
  | .ret r => changes r.1
  | .req .. => none

end Example

/-- The hypotheses of `C101_files_partial` (and so those of `C101_serial_partial`) are met, see also `Example.ordinary`, `Example.noHistory`, `Example.keepApart`, `Example.beside`
and `Example.beside'`; both scripts come to their end. -/
example : Example.ended Example.turns.1 = some [true, true, true] ∧ Example.ended Example.turns.2.1 = some [true, true]
    ∧ (Example.turns.2.2.fs [p!"etc", p!"motd"]).map (·.kind) = some (.file [104, 111])
    ∧ (Example.turns.2.2.fs [p!"etc", p!"site", p!"conf"]).map (·.kind) = some (.file [120, 61, 49])
    ∧ (Example.turns.2.2.fs [p!"home"]).isNone = true :=
  ⟨by decide +kernel, by decide +kernel, by decide +kernel, by decide +kernel, by decide +kernel⟩

end Verif.Ops
