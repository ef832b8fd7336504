/-
C83 and C30 for scripts that also upload directory trees.
-/
import Verif.Ops.CallsLemmas
import Verif.Ops.DeployProps

namespace Verif.Ops

open Script Remote
open Client (direct)

section
variable {sys : Sys} {lost : Nat → Option Bool} {env : Env} {st : St} {w0 w : World} {tools : Tools} {ts : List Task}

theorem call_tasks_ne {sha512 : Bytes → Bytes} (c : Call) : c.tasks sha512 ≠ [] := by
  cases c with
  | one t => simp [Call.tasks]
  | tree => simp [Call.tasks, treeTasks]

end

/-! ### C83 -/

/-- C83 for scripts that also upload directory trees, what they achieve: like `C83_deploy_complete`, where an uploaded tree asks for a
directory or a file for everything in it. -/
theorem C83_calls_complete (sys : Sys) (tools : Tools) (lost : Nat → Option Bool) (env : Env) (st : St) (w : World)
    (hord : Ordinary sys tools w) (hm : PlainModes env st) (hdry : env.dry = false) (calls : List Call) (hf : ∀ c ∈ calls, c.Fits)
    (hts : Tasks sys w (calls.flatMap (Call.tasks sys.sha512))) :
    Untouched (fun q => ∃ c ∈ calls, ∃ t ∈ c.tasks sys.sha512, t.Covers q) w (perform sys lost (deploy (calls.map (Call.op sys.sha512))) env st w).2
    ∧ ∀ rs, (perform sys lost (deploy (calls.map (Call.op sys.sha512))) env st w).1 = .ok rs →
      (rs.length = calls.length ∧ ∀ r ∈ rs, r.success = true)
      ∧ ∀ c ∈ calls, ∀ t ∈ c.tasks sys.sha512,
        t.wish.Granted sys env st w (perform sys lost (deploy (calls.map (Call.op sys.sha512))) env st w).2 t.names
        ∧ t.Reached (perform sys lost (deploy (calls.map (Call.op sys.sha512))) env st w).2 := by
  have hpost := calls_post (lost := lost) (tools := tools) hm hdry hf (.refl _) hts (.start hord)
  refine ⟨?_, fun rs hrs => ⟨?_, fun c hc t ht => ?_⟩⟩
  · have h := post_world (P := Untouched (fun q => ∃ t ∈ calls.flatMap (Call.tasks sys.sha512), t.Covers q) w) (hpost.mono (fun _ _ _ h => h) fun _ h => h.untouched) (fun _ _ _ h => h.untouched)
    refine ⟨fun q hq => h.fs q ?_, h.rest⟩
    rintro ⟨t, ht, hcov⟩
    obtain ⟨c, hc, htc⟩ := List.mem_flatMap.mp ht
    exact hq ⟨c, hc, t, htc, hcov⟩
  · have := post_ok (deploy_successes (sys := sys) (lost := lost) (env := env) (ops := calls.map (Call.op sys.sha512)) (fun op ho => by
      obtain ⟨c, hc, rfl⟩ := List.mem_map.mp ho
      exact checked_success (call_operation fun t ht => hts.proper t (List.mem_flatMap.mpr ⟨c, hc, ht⟩)))) hrs
    rwa [List.length_map] at this
  · have h := post_ok hpost hrs
    have hmem : t ∈ calls.flatMap (Call.tasks sys.sha512) := List.mem_flatMap.mpr ⟨c, hc, ht⟩
    exact ⟨(h.granted t hmem).1, (h.granted t hmem).2.reached (hts.names t hmem) (h.granted t hmem).1⟩

/-- C83 for scripts that also upload directory trees, running one again: it has no effect on the host, and every operation reports
that nothing was changed. Assumed: as in `C83_deploy_idempotent_partial`. -/
theorem C83_calls_idempotent_partial (sys : Sys) (tools : Tools) (lost : Nat → Option Bool) (env : Env) (st : St) (w : World)
    (hord : Ordinary sys tools w) (hm : PlainModes env st) (hcm : CanonicalModes env st) (hna : NoAliases w) (hdry : env.dry = false)
    (calls : List Call) (hf : ∀ c ∈ calls, c.Fits) (hts : Tasks sys w (calls.flatMap (Call.tasks sys.sha512)))
    (hown : AllOwned env st (calls.flatMap (Call.tasks sys.sha512))) (hbits : NoSetIdsAsked env st w (calls.flatMap (Call.tasks sys.sha512)))
    (rs : List OpResult) (hrs : (perform sys lost (deploy (calls.map (Call.op sys.sha512))) env st w).1 = .ok rs) (lost' : Nat → Option Bool) :
    Untouched (fun _ => False) (perform sys lost (deploy (calls.map (Call.op sys.sha512))) env st w).2
      (perform sys lost' (deploy (calls.map (Call.op sys.sha512))) env st (perform sys lost (deploy (calls.map (Call.op sys.sha512))) env st w).2).2
    ∧ ∀ rs', (perform sys lost' (deploy (calls.map (Call.op sys.sha512))) env st (perform sys lost (deploy (calls.map (Call.op sys.sha512))) env st w).2).1 = .ok rs' →
        ∀ r ∈ rs', r.success = true ∧ r.changed = false := by
  have hg := post_ok (calls_post (lost := lost) (tools := tools) hm hdry hf (.refl _) hts (.start hord)) hrs
  revert hg
  generalize (perform sys lost (deploy (calls.map (Call.op sys.sha512))) env st w).2 = w1
  intro hg
  have hacc := hg.untouched.accounts
  have hcalm := calls_calm (lost := lost') hg.ordinary hm hcm ⟨by rw [hacc.1]; exact hna.users, by rw [hacc.2]; exact hna.groups⟩ calls (st1 := st) (w1 := w1) rfl rfl hf
    fun t ht => ⟨hts.proper t ht, hown t ht, granted_ready hts hcm hbits hg ht⟩
  refine ⟨?_, fun rs' h => (post_ok hcalm h).1⟩
  have hs : Same w1 (perform sys lost' (deploy (calls.map (Call.op sys.sha512))) env st w1).2 := post_world hcalm (fun _ _ _ h => h.2)
  refine ⟨fun q _ => ?_, ?_⟩
  · rw [hs]
  · rw [hs]

/-- C83 for scripts that also upload directory trees, resuming one: it leads to the same host if it comes to its end after it was
interrupted anywhere, also in the middle of a tree, even if the operations were called in a different order. Assumed: as in
`C83_deploy_resumable_partial`. -/
theorem C83_calls_resumable_partial (sys : Sys) (tools : Tools) (lost lost1 lost2 : Nat → Option Bool) (env : Env) (st : St) (w : World)
    (hord : Ordinary sys tools w) (hm : PlainModes env st) (hcm : CanonicalModes env st) (hdry : env.dry = false)
    (calls calls1 calls2 : List Call) (hf : ∀ c ∈ calls, c.Fits) (hts : Tasks sys w (calls.flatMap (Call.tasks sys.sha512)))
    (hp1 : calls1.Perm calls) (hp2 : calls2.Perm calls)
    (hown : AllOwned env st (calls.flatMap (Call.tasks sys.sha512))) (hbits : NoSetIdsAsked env st w (calls.flatMap (Call.tasks sys.sha512)))
    (hsum : ∀ c ∈ calls, ∀ t ∈ c.tasks sys.sha512, ∀ bytes mode owner group other, t.wish = .file (.ok bytes) mode owner group →
      sys.sha512 other = sys.sha512 bytes → other = bytes)
    (rs rs2 : List OpResult) (hrs : (perform sys lost (deploy (calls.map (Call.op sys.sha512))) env st w).1 = .ok rs)
    (hrs2 : (perform sys lost2 (deploy (calls2.map (Call.op sys.sha512))) env st (perform sys lost1 (deploy (calls1.map (Call.op sys.sha512))) env st w).2).1 = .ok rs2) :
    Alike (perform sys lost (deploy (calls.map (Call.op sys.sha512))) env st w).2
      (perform sys lost2 (deploy (calls2.map (Call.op sys.sha512))) env st (perform sys lost1 (deploy (calls1.map (Call.op sys.sha512))) env st w).2).2 := by
  have hg := post_ok (calls_post (tools := tools) hm hdry hf (.refl _) hts (.start hord)) hrs
  have h1 : Going sys tools env st (calls.flatMap (Call.tasks sys.sha512)) w (fun _ => False) (perform sys lost1 (deploy (calls1.map (Call.op sys.sha512))) env st w).2 :=
    post_world (calls_post hm hdry hf hp1 hts (.start hord)) (fun _ _ _ h => h.forget)
  have h2 := post_ok (calls_post (tools := tools) hm hdry hf hp2 (h1.tasks hts) (.start h1.ordinary)) hrs2
  exact granted_alike hcm hbits hown (fun t ht => by
    obtain ⟨c, hc, htc⟩ := List.mem_flatMap.mp ht
    exact hsum c hc t htc) hg h1 h2

/-! ### C30 -/

/-- C30 for scripts that also manage symbolic links and upload directory trees: like `C30_linked_scripts_partial`. If there
are no links, not even `readlink` is run. -/
theorem C30_calls_partial (sys : Sys) (tools : Tools) (lost : Nat → Option Bool) (env : Env) (st : St) (w : World)
    (hord : Ordinary sys tools w) (hroot : Rooted w) (hlooks : SteadyLooks sys) (hm : PlainModes env st)
    (calls : List Call) (hf : ∀ c ∈ calls, c.Fits) (hts : Tasks sys w (calls.flatMap (Call.tasks sys.sha512)))
    (hlinks : (∃ c ∈ calls, ∃ t ∈ c.tasks sys.sha512, t.wish.isLink = true) →
      SteadyLinks sys tools ∧ ∀ c rest, st.stack = c :: rest → WorksIn w (env.base.overlay c).cwd)
    (rs : List OpResult) (st' : St) (s : World × Nat)
    (h : exec (flaky sys lost) (deploy (calls.map (Call.op sys.sha512))) { env with dry := false } st (w, 0) = ((.ok rs, st'), s)) :
    ∃ started, exec (direct sys) (deploy (calls.map (Call.op sys.sha512))) { env with dry := true } st w = ((.ok rs, st'), { w with started })
      ∧ ((∀ c ∈ calls, ∀ t ∈ c.tasks sys.sha512, t.wish.isLink = false) → started = w.started) := by
  have hperm := calls_perm hf hts.distinct
  have hcar := calls_carries (sha512 := sys.sha512) hf
  cases ho : calls.flatMap (Call.order sys.sha512) with
  | nil =>
    cases calls with
    | nil =>
      rw [List.map_nil, deploy] at h ⊢
      cases h
      exact ⟨w.started, rfl, fun _ => rfl⟩
    | cons c calls =>
      exfalso
      rw [ho] at hperm
      have h0 := hperm.symm.eq_nil
      rw [List.flatMap_cons, List.append_eq_nil_iff] at h0
      exact call_tasks_ne c h0.1
  | cons t0 todo =>
  obtain ⟨st2, st3, s3, r, h2, h3⟩ := carries_first (hcar.cast ho) h
  obtain ⟨c0, rest0, hs0, hcwd⟩ := proper_cwd (hts.proper t0 (hperm.mem_iff.mp (by rw [ho]; simp))) h3
  obtain ⟨l, hd, hl⟩ := carries_foresees (tools := tools) (st := st) (done := fun _ => False) (l := w.started) hts hm hlooks hroot (fun c rest hs => by
      rw [h2, hs] at hs0
      cases hs0
      exact hcwd) (fun ⟨t, ht, hi⟩ => by
      obtain ⟨c, hc, htc⟩ := List.mem_flatMap.mp ht
      exact hlinks ⟨c, hc, t, htc, hi⟩) hcar rfl (.start hord)
    (fun _ _ => rfl) (fun t h => hperm.mem_iff.mp h) ((hperm.map _).nodup_iff.mpr hts.distinct) (fun _ h => h.elim) h
  refine ⟨l, hd, fun hn => hl fun t ht => ?_⟩
  obtain ⟨c, hc, htc⟩ := List.mem_flatMap.mp (hperm.mem_iff.mp ht)
  exact hn c hc t htc

namespace Example

/-- A script that creates a directory, uploads a tree into it, creates a link to it, and removes `/home`. -/
def treeCalls : List Call :=
  [.one ⟨directory (pathOf [p!"etc", p!"site"]) true false (some p!"755") none none true, [p!"etc", p!"site"], .dir (some p!"755") none none⟩,
   .tree p!"./conf" p!"/etc/site/" tree [p!"etc", p!"site", p!"conf"] (some p!"750") (some p!"640") (some p!"alice") none,
   .one ⟨link (pathOf [p!"etc", p!"current"]) p!"site/conf" true false none none true, [p!"etc", p!"current"], .link p!"site/conf" none none⟩,
   .one ⟨directory (pathOf [p!"home"]) false false none none none true, [p!"home"], .absent .dir⟩]

theorem treeCalls_fit : ∀ c ∈ treeCalls, c.Fits := by
  intro c hc
  simp only [treeCalls, List.mem_cons, List.not_mem_nil, or_false] at hc
  rcases hc with rfl | rfl | rfl | rfl
  · trivial
  · refine ⟨tree_proper, ?_⟩
    exact Lands.child (src := p!"./conf") (names := [p!"etc", p!"site"]) (name := p!"conf") (dir := p!".")
      (by intro n hn; simp only [List.mem_cons, List.not_mem_nil, or_false] at hn; rcases hn with rfl | rfl <;> exact ⟨by decide, by decide, by decide, by decide⟩)
      ⟨by decide, by decide, by decide, by decide⟩ (.inr rfl)
  · trivial
  · trivial

/-- It asks for seven things. -/
example : (treeCalls.flatMap (Call.tasks sys.sha512)).map (·.names) =
    [[p!"etc", p!"site"], [p!"etc", p!"site", p!"conf"], [p!"etc", p!"site", p!"conf", p!"a.conf"], [p!"etc", p!"site", p!"conf", p!"sub"],
     [p!"etc", p!"site", p!"conf", p!"sub", p!"b"], [p!"etc", p!"current"], [p!"home"]] := by decide +kernel

theorem treeCalls_tasks : Tasks sys host (treeCalls.flatMap (Call.tasks sys.sha512)) := by
  refine ⟨?_, ?_, by decide +kernel, ?_, ?_, ?_, fun _ => rooted⟩
  · intro t ht
    simp only [treeCalls, tree, Call.tasks, treeTasks, entriesTasks, List.flatMap_cons, List.flatMap_nil, List.cons_append, List.nil_append, List.append_nil, List.mem_cons, List.not_mem_nil, or_false] at ht
    rcases ht with rfl | rfl | rfl | rfl | rfl | rfl | rfl
    · exact .directory _ _ _ _
    · exact .directory _ _ _ _
    · exact .store (.file _ (.ok [104, 105]) _) (by intro b h; cases h; unfold Modest; decide)
    · exact .directory _ _ _ _
    · exact .store (.file _ (.ok []) _) (by intro b h; cases h; unfold Modest; decide)
    · exact .link _ _ _ _ ⟨by unfold Text; decide, by unfold Modest; decide⟩
    · exact .noDirectory _ _ _ _
  · have : ∀ t ∈ treeCalls.flatMap (Call.tasks sys.sha512), ∀ n ∈ t.names, n ≠ [] ∧ n ≠ p!"." ∧ n ≠ p!".." ∧ 47 ∉ n := by decide +kernel
    intro t ht n hn
    obtain ⟨h1, h2, h3, h4⟩ := this t ht n hn
    exact ⟨h1, h4, h2, h3⟩
  · have : ∀ t ∈ treeCalls.flatMap (Call.tasks sys.sha512), ∀ k < t.names.length, (host.fs (t.names.take k)).all (fun n => n.kind = .dir) = true := by decide +kernel
    intro t ht p s he hs n target hn hk
    have hlen : p.length < t.names.length := by
      have := List.length_pos_iff.mpr hs
      rw [he, List.length_append]; omega
    have := this t ht p.length hlen
    rw [show t.names.take p.length = p from by rw [he]; simp, hn] at this
    simp [hk] at this
  · have : ∀ t ∈ treeCalls.flatMap (Call.tasks sys.sha512), ∀ d ∈ treeCalls.flatMap (Call.tasks sys.sha512),
        t.names.isPrefixOf d.names = true → t.names ≠ d.names → t.wish.isDir = true := by decide +kernel
    intro t ht d hd s he hs
    refine this t ht d hd (List.isPrefixOf_iff_prefix.mpr ⟨s, he.symm⟩) fun h => hs ?_
    rw [h] at he
    exact List.append_cancel_left (as := d.names) (by rw [List.append_nil]; exact he.symm)
  · have : ∀ t ∈ treeCalls.flatMap (Call.tasks sys.sha512), t.wish.isLink = true → host.fs t.names = none := by
      intro t ht h
      simp only [treeCalls, tree, Call.tasks, treeTasks, entriesTasks, List.flatMap_cons, List.flatMap_nil, List.cons_append, List.nil_append, List.append_nil, List.mem_cons, List.not_mem_nil, or_false] at ht
      rcases ht with rfl | rfl | rfl | rfl | rfl | rfl | rfl <;> first | (cases h; done) | rfl
    intro t ht target owner group hw n hn
    rw [this t ht (by rw [hw]; rfl)] at hn
    cases hn

/-- The remaining hypotheses of C83 are met as well. -/
example : AllOwned env st (treeCalls.flatMap (Call.tasks sys.sha512)) := by
  intro t ht _
  simp only [treeCalls, tree, Call.tasks, treeTasks, entriesTasks, List.flatMap_cons, List.flatMap_nil, List.cons_append, List.nil_append, List.append_nil, List.mem_cons, List.not_mem_nil, or_false] at ht
  rcases ht with rfl | rfl | rfl | rfl | rfl | rfl | rfl <;> exact ⟨by decide, by decide⟩

theorem mode_bits {m : Str} {i : Nat} (h : m = p!"755" ∨ m = p!"750" ∨ m = p!"640") (hi : Py.parseInt 8 m = some (i : Int)) : i < 0o10000 ∧ i &&& 0o6000 = 0 := by
  have h0 : Py.parseInt 8 p!"755" = some ((0o755 : Nat) : Int) ∧ Py.parseInt 8 p!"750" = some ((0o750 : Nat) : Int) ∧ Py.parseInt 8 p!"640" = some ((0o640 : Nat) : Int) := by decide +kernel
  have : i = 0o755 ∨ i = 0o750 ∨ i = 0o640 := by
    rcases h with rfl | rfl | rfl
    · rw [h0.1] at hi; have := Option.some.inj hi; omega
    · rw [h0.2.1] at hi; have := Option.some.inj hi; omega
    · rw [h0.2.2] at hi; have := Option.some.inj hi; omega
  rcases this with rfl | rfl | rfl <;> decide

theorem treeCalls_bits {env : Env} {st : St} : NoSetIdsAsked env st host (treeCalls.flatMap (Call.tasks sys.sha512)) := by
  have hnone : ∀ q n, host.fs ([p!"etc", p!"site"] ++ q) = some n → False := by
    intro q n h
    have h0 : none = some n := h
    cases h0
  intro t ht
  simp only [treeCalls, tree, Call.tasks, treeTasks, entriesTasks, List.flatMap_cons, List.flatMap_nil, List.cons_append, List.nil_append, List.append_nil, List.mem_cons, List.not_mem_nil, or_false] at ht
  rcases ht with rfl | rfl | rfl | rfl | rfl | rfl | rfl
  · exact ⟨fun m i hm hi => mode_bits (.inl (by cases hm; rfl)) hi, fun n hn => (hnone [] n hn).elim, fun _ p hp => by
      have : host.fs [p!"etc"] = some p := hp
      cases this
      decide⟩
  · exact ⟨fun m i hm hi => mode_bits (.inr (.inl (by cases hm; rfl))) hi, fun n hn => (hnone [p!"conf"] n hn).elim, fun _ p hp => (hnone [] p hp).elim⟩
  · exact fun m i hm hi => mode_bits (.inr (.inr (by cases hm; rfl))) hi
  · exact ⟨fun m i hm hi => mode_bits (.inr (.inl (by cases hm; rfl))) hi, fun n hn => (hnone [p!"conf", p!"sub"] n hn).elim, fun _ p hp => (hnone [p!"conf"] p hp).elim⟩
  · exact fun m i hm hi => mode_bits (.inr (.inr (by cases hm; rfl))) hi
  · trivial
  · trivial

/-- The script changes everything, then nothing. If the connection breaks while the tree is uploaded, the next run uploads the rest.
The dry run predicts all changes. -/
example : let run := fun (cs : List Call) lost w => perform sys lost (deploy (cs.map (Call.op sys.sha512))) env st w
    let done := (run treeCalls always host)
    changes done.1 = some [true, true, true, true]
    ∧ (done.2.fs [p!"etc", p!"site", p!"conf", p!"sub", p!"b"]).map (fun n => (n.kind, n.perm, n.uid)) = some (.file [], 0o640, 1000)
    ∧ changes (run treeCalls always done.2).1 = some [false, false, false, false]
    ∧ changes (run treeCalls (breaks 24 true) host).1 = none
    ∧ ((run treeCalls (breaks 24 true) host).2.fs [p!"etc", p!"site", p!"conf", p!"sub"]).isSome = true
    ∧ changes (run treeCalls always (run treeCalls (breaks 24 true) host).2).1 = some [false, true, true, true]
    ∧ changes (exec (direct sys) (deploy (treeCalls.map (Call.op sys.sha512))) { env with dry := true } st host).1.1 = some [true, true, true, true] :=
  ⟨by decide +kernel, by decide +kernel, by decide +kernel, by decide +kernel, by decide +kernel, by decide +kernel, by decide +kernel⟩

end Example

end Verif.Ops
