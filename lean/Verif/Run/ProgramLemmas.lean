/-
Sessions with hosts.
-/
import Verif.Run.ProgramSpec
import Verif.Ops.CallsProps
import Verif.Ops.DryProps
import Verif.Ops.MirrorDryLemmas
import Verif.Ops.ScriptedLemmas
import Verif.Client.LifecycleProps
import Verif.Script.SettingsProps

namespace Verif.Program

open Script Remote Ops
open Client.Lifecycle (OpenEnv State open' exit close)

variable {opts : Env} {tools : Tools} {targets : Str → Target} {luck : Str → Luck} {f : Fleet} {t : Target} {lk : Luck} {w w' w0 : World} {calls : List Ops.Call} {b : Settings}

/-! ### The loop over the hosts -/

/-- What a run has done. -/
structure Outcome (opts : Env) (targets : Str → Target) (luck : Str → Luck) (f : Fleet) (hs : List Str) (r : Run.End × List Str × Fleet) : Prop where
  once : hs.Nodup
  started : r.2.1 <+: hs
  reached : ∀ h ∈ r.2.1, r.2.2.hosts h = (session opts (targets h) (luck h) (f.hosts h)).2.2.1
  others : ∀ h, h ∉ r.2.1 → r.2.2.hosts h = f.hosts h
  screen : r.2.2.screen = f.screen ++ r.2.1.flatMap fun h => (session opts (targets h) (luck h) (f.hosts h)).2.2.2.map fun p => (h, p)
  finished : r.1 = .finished → r.2.1 = hs
    ∧ ∃ results, results.map (·.1) = hs ∧ r.2.2.results = f.results ++ results
      ∧ ∀ p ∈ results, (session opts (targets p.1) (luck p.1) (f.hosts p.1)).1 = .ok p.2

theorem runHosts_outcome : ∀ (hs : List Str) (f : Fleet), hs.Nodup → Outcome opts targets luck f hs (Run.runHosts (round opts targets luck) hs f)
  | [], f, _ => ⟨List.nodup_nil, List.prefix_refl _, nofun, fun _ _ => rfl, (List.append_nil _).symm, fun _ => ⟨rfl, [], rfl, (List.append_nil _).symm, nofun⟩⟩
  | h :: hs, f, hnd => by
    have hnd0 := hnd
    rw [List.nodup_cons] at hnd
    unfold Run.runHosts
    cases hr : (session opts (targets h) (luck h) (f.hosts h)).1 with
    | error e =>
      have he : round opts targets luck h f = (.error { kind := e }, { f with hosts := fun x => if x = h then (session opts (targets h) (luck h) (f.hosts h)).2.2.1 else f.hosts x, screen := f.screen ++ (session opts (targets h) (luck h) (f.hosts h)).2.2.2.map (fun p => (h, p)), background := f.background + (session opts (targets h) (luck h) (f.hosts h)).2.1.background }) := by
        unfold round
        simp only [hr]
      rw [he]
      refine ⟨hnd0, ⟨hs, rfl⟩, ?_, ?_, by simp, nofun⟩
      · intro x hx
        rw [List.mem_singleton.mp hx]
        exact if_pos rfl
      · intro x hx
        exact if_neg fun hc => hx (by rw [hc]; simp)
    | ok rs =>
      have he : round opts targets luck h f = (.ok (), { f with hosts := fun x => if x = h then (session opts (targets h) (luck h) (f.hosts h)).2.2.1 else f.hosts x, screen := f.screen ++ (session opts (targets h) (luck h) (f.hosts h)).2.2.2.map (fun p => (h, p)), background := f.background + (session opts (targets h) (luck h) (f.hosts h)).2.1.background, results := f.results ++ [(h, rs)] }) := by
        unfold round
        simp only [hr]
      rw [he]
      have ih := runHosts_outcome hs { f with hosts := fun x => if x = h then (session opts (targets h) (luck h) (f.hosts h)).2.2.1 else f.hosts x, screen := f.screen ++ (session opts (targets h) (luck h) (f.hosts h)).2.2.2.map (fun p => (h, p)), background := f.background + (session opts (targets h) (luck h) (f.hosts h)).2.1.background, results := f.results ++ [(h, rs)] } hnd.2
      dsimp only
      revert ih
      generalize Run.runHosts (round opts targets luck) hs _ = r
      intro ih
      have hout : ∀ x ∈ hs, x ≠ h := fun x hx hc => hnd.1 (hc ▸ hx)
      have hsub : ∀ x ∈ r.2.1, x ≠ h := fun x hx => hout x (ih.started.subset hx)
      refine ⟨hnd0, ?_, ?_, ?_, ?_, ?_⟩
      · obtain ⟨s, hs'⟩ := ih.started
        exact ⟨s, by simp [hs']⟩
      · intro x hx
        rcases List.mem_cons.mp hx with rfl | hx
        · rw [ih.others x fun hc => hsub x hc rfl]
          exact if_pos rfl
        · rw [ih.reached x hx]
          simp only [if_neg (hsub x hx)]
      · intro x hx
        rw [ih.others x fun hc => hx (by simp [hc])]
        exact if_neg fun hc => hx (by simp [hc])
      · rw [ih.screen]
        simp only [List.flatMap_cons, List.append_assoc]
        congr 2
        refine congrArg List.flatten (List.map_congr_left fun x hx => ?_)
        simp only [if_neg (hsub x hx)]
      · intro hf
        obtain ⟨h1, results, h2, h3, h4⟩ := ih.finished hf
        refine ⟨by simp [h1], (h, rs) :: results, by simp [h2], by rw [h3]; simp, ?_⟩
        intro p hp
        rcases List.mem_cons.mp hp with rfl | hp
        · exact hr
        · rw [← h4 p hp]
          simp only [if_neg (hout p.1 (h2 ▸ List.mem_map_of_mem hp))]

/-- The program runs for the selected hosts, which are different, or ends before the first one. -/
theorem program_outcome {loaded : List Str} {select : Option Str} :
    (∃ hs, (∀ wanted, Run.Wanted loaded select wanted → ∀ h, h ∈ hs ↔ h ∈ wanted) ∧ Outcome opts targets luck f hs (program opts targets loaded select luck f))
    ∨ (∃ m, program opts targets loaded select luck f = (.died m, [], f)) := by
  unfold program Run.mainRun
  cases hs : Run.select loaded (Run.requested loaded select) [] with
  | error m => exact .inr ⟨m, rfl⟩
  | ok selected =>
    have hsel := (Run.select_spec (loaded := loaded) (hs := Run.requested loaded select) Run.firstOccurrences_nil).1 hs
    refine .inl ⟨selected, fun wanted hw h => ?_, runHosts_outcome selected f hsel.1.once⟩
    rw [hsel.1.same h]
    rw [Run.wanted_iff.mp hw]
    simp

/-! ### Sessions -/

/-- Who we are on a host. -/
theorem identity_post {sys : Sys} {lost : Nat → Option Bool} {env : Env} {st : St} {base : Settings} (hw : w.Sane) :
    Post sys lost (resolveIdentity base) env st w (fun b' _ w' => w' = w ∧ Identity base w b') (fun w' => w' = w) := by
  unfold resolveIdentity Connection.resolveUser Connection.resolveGroup
  have hu := Client.resolveUser_run hw sys (u := none) (Client.noNul_natStr _)
  have hgr := Client.resolveGroup_run hw sys (u := none) (Client.noNul_natStr _)
  refine Post.bind (Post.query (single_resolveUser none) ?_ (fun u h1 => ?_) rfl)
  · rw [hu]; split <;> rfl
  refine Post.bind (Post.query (single_resolveGroup none) ?_ (fun g h2 => ?_) rfl)
  · rw [hgr]; split <;> rfl
  refine Post.ret ⟨rfl, ?_⟩
  rw [hu] at h1
  rw [hgr] at h2
  split at h1
  · rename_i e he
    cases h1
    split at h2
    · rename_i e' he'
      cases h2
      exact ⟨e, e', Client.findUser_iff.mp he, Client.findGroup_iff.mp he', rfl⟩
    · cases h2
  · cases h1

theorem Identity.unique {base b1 b2 : Settings} (h1 : Identity base w b1) (h2 : Identity base w b2) : b1 = b2 := by
  obtain ⟨u1, g1, hu1, hg1, rfl⟩ := h1
  obtain ⟨u2, g2, hu2, hg2, rfl⟩ := h2
  rw [Client.DenotesUser.unique hu1 hu2, Client.DenotesGroup.unique hg1 hg2]

theorem Identity.owners {base b : Settings} (h : Identity base w b) : b.owner ≠ none ∧ b.group ≠ none := by
  obtain ⟨u, g, _, _, rfl⟩ := h
  exact ⟨nofun, nofun⟩

theorem overlay_empty (s : Settings) : s.overlay {} = s := rfl

theorem overlay_self (s : Settings) : s.overlay s = s := by
  have h : ∀ a : Option Str, pick a a = a := fun a => by cases a <;> rfl
  cases s
  simp [Settings.overlay, h]

theorem userValue_self {s : Str} {u : PwEntry} {v : Option Str} (hu : DenotesUser w s u) (h : UserValue w (some u.name) v) : v = some u.name := by
  obtain ⟨e', he', hn, _⟩ := Client.find_name_self hu
  obtain ⟨e, he, rfl⟩ := h
  rw [Client.DenotesUser.unique he (.inl he'), hn]

theorem groupValue_self {s : Str} {u : GrEntry} {v : Option Str} (hu : DenotesGroup w s u) (h : GroupValue w (some u.name) v) : v = some u.name := by
  obtain ⟨e', he', hn, _⟩ := Client.find_gname_self hu
  obtain ⟨e, he, rfl⟩ := h
  rw [Client.DenotesGroup.unique he (.inl he'), hn]

/-- The defaults of a script are those of the connection. -/
theorem Identity.resolved {base b r : Settings} (h : Identity base w b) (hr : Resolved w b r) : r = b := by
  obtain ⟨u, g, hu, hg, rfl⟩ := h
  have h1 := userValue_self hu hr.asUser
  have h2 := groupValue_self hg hr.asGroup
  have h3 := userValue_self hu hr.owner
  have h4 := groupValue_self hg hr.group
  have h5 := hr.fileMode
  have h6 := hr.dirMode
  have h7 := hr.umask
  have h8 := hr.cwd
  cases r
  simp_all

theorem identity_untouched {base b : Settings} {p : Loc → Prop} (hu : Untouched p w w') (h : Identity base w b) : Identity base w' b := by
  obtain ⟨u, g, h1, h2, h3⟩ := h
  have hr := hu.rest
  refine ⟨u, g, ?_, ?_, h3⟩
  · rw [hr]; exact h1
  · rw [hr]; exact h2

theorem Site.accounts (h : Site opts tools t calls b w) : b.owner ≠ none ∧ b.group ≠ none := h.identity.owners

/-- The script on a host that was on its way. -/
theorem cmdline_post {lost : Nat → Option Bool} (hs : Site opts tools t calls b w0) (hdry : opts.dry = false)
    (hg : Going t.sys tools { opts with base := b } (start b) (asked t calls) w0 (fun _ => False) w) :
    Post t.sys lost (runCmdline t.script) { opts with base := b } { stack := [{}] } w
      (fun rs _ w' => (rs.length = calls.length ∧ ∀ r ∈ rs, r.success = true) ∧ Going t.sys tools { opts with base := b } (start b) (asked t calls) w0 (fun d => d ∈ asked t calls) w')
      (Going t.sys tools { opts with base := b } (start b) (asked t calls) w0 (fun _ => False)) := by
  unfold runCmdline
  refine Post.withDefaults hg.ordinary.sane hg ?_
  intro q' c rest r hq hst hr
  cases hq
  cases hst
  have hid := identity_untouched hg.untouched hs.identity
  cases hid.resolved hr
  rw [hs.script]
  refine ((calls_post hs.modes hdry hs.fits (.refl _) hs.tasks hg).and (deploy_successes (env := { opts with base := b }) (ops := calls.map (Ops.Call.op t.sys.sha512)) fun op ho => ?_)).mono ?_ fun _ h => h.1
  · obtain ⟨c, hc, rfl⟩ := List.mem_map.mp ho
    exact checked_success (call_operation fun x hx => hs.tasks.proper x (List.mem_flatMap.mpr ⟨c, hc, hx⟩))
  · rintro rs _ w' ⟨h1, h2⟩
    rw [List.length_map] at h2
    exact ⟨h2, h1⟩

/-- A session with a host that was on its way. -/
theorem session_going (hs : Site opts tools t calls b w0) (hdry : opts.dry = false)
    (hg : Going t.sys tools { opts with base := b } (start b) (asked t calls) w0 (fun _ => False) w) :
    Going t.sys tools { opts with base := b } (start b) (asked t calls) w0 (fun _ => False) (session opts t lk w).2.2.1
    ∧ ∀ rs, (session opts t lk w).1 = .ok rs → (rs.length = calls.length ∧ ∀ r ∈ rs, r.success = true)
        ∧ Going t.sys tools { opts with base := b } (start b) (asked t calls) w0 (fun d => d ∈ asked t calls) (session opts t lk w).2.2.1 := by
  unfold session
  split
  · exact ⟨hg, nofun⟩
  · dsimp only
    have hid := identity_post (sys := t.sys) (lost := lk.lost) (env := opts) (st := { stack := [] }) (base := t.base) hg.ordinary.sane 0
    split
    · rename_i he
      rw [he] at hid
      cases (show _ = w from hid)
      exact ⟨hg, nofun⟩
    · rename_i base' _ w1 k he
      rw [he] at hid
      obtain ⟨e1, hb⟩ := hid
      cases (show w1 = w from e1)
      cases hb.unique (identity_untouched hg.untouched hs.identity)
      have hp := cmdline_post (lost := lk.lost) hs hdry hg k
      cases hx : exec (flaky t.sys lk.lost) (runCmdline t.script) { opts with base := b } { stack := [{}] } (w, k) with
      | mk r s =>
        obtain ⟨r, st'⟩ := r
        rw [hx] at hp
        cases r with
        | error e =>
          split
          · exact ⟨hp, nofun⟩
          · exact ⟨hp, nofun⟩
        | ok rs =>
          split
          · exact ⟨hp.2.forget, nofun⟩
          · refine ⟨hp.2.forget, fun rs' h => ?_⟩
            cases h
            exact hp

/-- The owners are those of the connection, unless others are asked for. -/
theorem Site.owners (hs : Site opts tools t calls b w0) (x : Wish) : OwnersSet (x.settings { opts with base := b } (start b)) := by
  have hown := hs.accounts
  have hpick : ∀ {a c : Option Str}, a ≠ none → pick a c ≠ none := by
    intro a c h
    cases c
    · exact h
    · exact nofun
  cases x <;> first | exact ⟨hpick (hpick hown.1), hpick (hpick hown.2)⟩ | exact ⟨hpick (c := b.owner) hown.1, hpick (c := b.group) hown.2⟩

/-- A session with a host on which everything is as was asked for. -/
theorem session_calm (hs : Site opts tools t calls b w0) (hcm : CanonicalModes { opts with base := b } (start b)) (hna : NoAliases w0)
    (hbits : NoSetIdsAsked { opts with base := b } (start b) w0 (asked t calls))
    (hg : Going t.sys tools { opts with base := b } (start b) (asked t calls) w0 (fun d => d ∈ asked t calls) w) :
    Same w (session opts t lk w).2.2.1 ∧ ∀ rs, (session opts t lk w).1 = .ok rs → ∀ r ∈ rs, r.success = true ∧ r.changed = false := by
  have hacc := hg.untouched.accounts
  have hid0 := identity_untouched hg.untouched hs.identity
  have hscript : Post t.sys lk.lost (runCmdline t.script) { opts with base := b } { stack := [{}] } w
      (fun rs _ w' => Same w w' ∧ ∀ r ∈ rs, r.success = true ∧ r.changed = false) (Same w) := by
    unfold runCmdline
    refine Post.withDefaults hg.ordinary.sane rfl ?_
    intro q' c rest r hq hst hr
    cases hq
    cases hst
    cases hid0.resolved hr
    rw [hs.script]
    refine (calls_calm (st := start b) hg.ordinary hs.modes hcm ⟨by rw [hacc.1]; exact hna.users, by rw [hacc.2]; exact hna.groups⟩ calls rfl (.refl w) hs.fits
      fun x hx => ⟨hs.tasks.proper x hx, fun _ => hs.owners _, granted_ready hs.tasks hcm hbits hg hx⟩).mono ?_ fun _ h => h
    rintro rs _ w' ⟨h1, h2⟩
    exact ⟨h2, h1⟩
  unfold session
  split
  · exact ⟨rfl, nofun⟩
  · dsimp only
    have hid := identity_post (sys := t.sys) (lost := lk.lost) (env := opts) (st := { stack := [] }) (base := t.base) hg.ordinary.sane 0
    split
    · rename_i he
      rw [he] at hid
      cases (show _ = w from hid)
      exact ⟨rfl, nofun⟩
    · rename_i base' _ w1 k he
      rw [he] at hid
      obtain ⟨e1, hb⟩ := hid
      cases (show w1 = w from e1)
      cases hb.unique hid0
      have hp := hscript k
      cases hx : exec (flaky t.sys lk.lost) (runCmdline t.script) { opts with base := b } { stack := [{}] } (w, k) with
      | mk r s =>
        obtain ⟨r, st'⟩ := r
        rw [hx] at hp
        cases r with
        | error e =>
          split
          · exact ⟨hp, nofun⟩
          · exact ⟨hp, nofun⟩
        | ok rs =>
          split
          · exact ⟨hp.1, nofun⟩
          · refine ⟨hp.1, fun rs' h => ?_⟩
            cases h
            exact hp.2

/-! ### Sessions in which operations only look -/

theorem exec_same {α : Type} {sys : Sys} {lost : Nat → Option Bool} {env : Env} {st : St} (hl : Looking sys) {m : Op α} (hq : Quiet env m) (s : World × Nat) :
    Same s.1 (exec (flaky sys lost) m env st s).2.1 :=
  run_same (readOnly_same hl) (m env st) s fun e he => hq _ _ _ _ (runs_recorded (flaky sys lost) (m env st) s) e he

theorem quiet_identity (env : Env) (base : Settings) : Quiet env (resolveIdentity base) :=
  .bind (.resolveUser readOnly_query _) fun _ => .bind (.resolveGroup readOnly_query _) fun _ => .pure _

theorem quiet_deploy {env : Env} : ∀ {ops : List (Op OpResult)}, (∀ op ∈ ops, Quiet env op) → Quiet env (deploy ops)
  | [], _ => .pure _
  | op :: ops, h => .bind (h op (by simp)) fun _ => .bind (quiet_deploy fun o ho => h o (by simp [ho])) fun _ => .pure _

/-- If no result reports a change then the operations have only looked. -/
def Candid (env : Env) (m : Op (List OpResult)) : Prop :=
  ∀ st t rs st', Execution m env st t (.ok rs) st' → (∀ r ∈ rs, r.changed = false) → ∀ e ∈ t, ReadOnly e.1

theorem Candid.bind {α : Type} {env : Env} {m : Op α} {f : α → Op (List OpResult)} (hm : Quiet env m) (hf : ∀ a, Candid env (f a)) : Candid env (m >>= f) := by
  intro st t x st' h hc e he
  obtain ⟨t1, t2, a, st1, rfl, h1, h2⟩ := execution_ok_bind h
  rcases List.mem_append.mp he with he | he
  · exact hm _ _ _ _ h1 e he
  · exact hf a _ _ _ _ h2 hc e he

theorem Candid.withDefaults {env : Env} {s : Settings} {body : Settings → Op (List OpResult)} (h : ∀ a, Candid env (body a)) : Candid env (withDefaults s body) := by
  unfold Script.withDefaults
  refine .bind (.ofExcept _) fun _ => .bind .getEnv fun _ => .bind .currentDefaults fun _ =>
    .bind (.resolveDefaults readOnly_query _) fun _ => .bind (.push _) fun _ => ?_
  intro st t x st' he hc
  obtain ⟨st1, h1, _⟩ := execution_finally.mp he
  exact h _ _ _ _ _ h1 hc

theorem candid_deploy {env : Env} : ∀ {ops : List (Op OpResult)}, (∀ op ∈ ops, ∃ o, Operation o op) → Candid env (deploy ops)
  | [], _ => by
    intro st t rs st' h _
    obtain ⟨rfl, _⟩ := (execution_ret rfl).mp h
    simp
  | op :: ops, hops => by
    intro st t rs st' h hc e he
    rw [deploy] at h
    obtain ⟨t1, t2, a, st1, rfl, h1, h2⟩ := execution_ok_bind h
    obtain ⟨t3, t4, as, st2, rfl, h3, h4⟩ := execution_ok_bind h2
    obtain ⟨rfl, h5, _⟩ := (execution_ret rfl).mp h4
    cases h5
    obtain ⟨o, ho⟩ := hops op (by simp)
    rcases List.mem_append.mp he with he | he
    · exact C31_unchanged_only_looks o op ho env _ _ _ _ h1 (hc a (by simp)) e.1 e.2 he
    · rw [List.append_nil] at he
      exact candid_deploy (fun o ho => hops o (by simp [ho])) _ _ _ _ h3 (fun r hr => hc r (by simp [hr])) e he

/-- A session in which nothing was changed. -/
theorem session_same (hl : Looking t.sys)
    (h : (opts.dry = true ∧ ∀ op ∈ t.script, Scripted op)
      ∨ (∀ op ∈ t.script, ∃ o, Operation o op) ∧ ∃ rs, (session opts t lk w).1 = .ok rs ∧ ∀ r ∈ rs, r.changed = false) : Same w (session opts t lk w).2.2.1 := by
  revert h
  unfold session
  split
  · exact fun _ => .refl _
  · dsimp only
    have hid := exec_same (lost := lk.lost) (st := { stack := [] }) hl (quiet_identity opts t.base) (w, 0)
    split
    · rename_i he
      rw [he] at hid
      exact fun _ => hid
    · rename_i base _ w1 k he
      rw [he] at hid
      replace hid : Same w w1 := hid
      intro h
      have key : Same w1 (exec (flaky t.sys lk.lost) (runCmdline t.script) { opts with base } { stack := [{}] } (w1, k)).2.1 := by
        rcases h with ⟨h, hops⟩ | ⟨hops, rs, h, hrs⟩
        · refine exec_same hl (quiet_withDefaults fun _ => quiet_deploy fun op hop => ?_) (w1, k)
          exact sends_scripted (hops op hop) h
        · refine run_same (readOnly_same hl) (runCmdline t.script { opts with base } { stack := [{}] }) (w1, k) ?_
          have hx := runs_recorded (flaky t.sys lk.lost) (runCmdline t.script { opts with base } { stack := [{}] }) (w1, k)
          have hres : (exec (flaky t.sys lk.lost) (runCmdline t.script) { opts with base } { stack := [{}] } (w1, k)).1.1 = .ok rs := by
            split at h
            · cases h
            · exact h
          cases hr : ((runCmdline t.script { opts with base } { stack := [{}] }).run (flaky t.sys lk.lost) (w1, k)).1 with
          | mk r st' =>
            rw [hr] at hx
            have : r = .ok rs := by
              have := hres
              unfold exec at this
              rw [hr] at this
              exact this
            subst this
            exact (Candid.withDefaults fun _ => candid_deploy hops) _ _ _ _ hx hrs
      split
      · exact hid.trans key
      · exact hid.trans key

theorem onlyLooks_pure {α : Type} (a : α) : OnlyLooks (Op.pure a) := by
  intro env st t r st' h
  obtain ⟨ht, _, hst⟩ := (execution_ret rfl).mp h
  subst ht
  exact ⟨(fun _ _ hm => absurd hm List.not_mem_nil), hst⟩

theorem scripted_deploy : ∀ {ops : List (Op OpResult)}, (∀ op ∈ ops, Scripted op) → Scripted (deploy ops)
  | [], _ => .look _ (onlyLooks_pure _)
  | _ :: _, h => .andThen _ _ (h _ (by simp)) fun _ => .andThen _ _ (scripted_deploy fun op hop => h op (by simp [hop])) fun _ => .look _ (onlyLooks_pure _)

/-- A session in which nothing but operations without a change was printed. -/
theorem session_shown (hl : Looking t.sys) (hops : ∀ op ∈ t.script, Scripted op) (h : ∀ p ∈ (session opts t lk w).2.2.2, Report.Unchanged p) :
    Same w (session opts t lk w).2.2.1 := by
  revert h
  unfold session
  split
  · exact fun _ => .refl _
  · dsimp only
    have hid := exec_same (lost := lk.lost) (st := { stack := [] }) hl (quiet_identity opts t.base) (w, 0)
    split
    · rename_i he
      rw [he] at hid
      exact fun _ => hid
    · rename_i base _ w1 k he
      rw [he] at hid
      replace hid : Same w w1 := hid
      have key : (∀ p ∈ (exec (flaky t.sys lk.lost) (runCmdline t.script) { opts with base } { stack := [{}] } (w1, k)).1.2.shown, Report.Unchanged p) →
          Same w1 (exec (flaky t.sys lk.lost) (runCmdline t.script) { opts with base } { stack := [{}] } (w1, k)).2.1 := by
        intro h
        refine run_same (readOnly_same hl) (runCmdline t.script { opts with base } { stack := [{}] }) (w1, k) fun e he => ?_
        have hs : Scripted (runCmdline t.script) := .defaults _ _ fun _ => scripted_deploy hops
        obtain ⟨new, h1, h2⟩ := fair_scripted hs _ _ _ _ _ (runs_recorded (flaky t.sys lk.lost) (runCmdline t.script { opts with base } { stack := [{}] }) (w1, k))
        refine h2 (fun p hp => h p ?_) e he
        show p ∈ ((runCmdline t.script { opts with base } { stack := [{}] }).run (flaky t.sys lk.lost) (w1, k)).1.2.shown
        rw [h1]
        simpa using hp
      intro h
      split at h <;> exact hid.trans (key h)

/-- What is returned has the property. -/
def Gives {α : Type} (env : Env) (m : Op α) (Q : α → Prop) : Prop := ∀ st t a st', Execution m env st t (.ok a) st' → Q a

theorem Gives.bind {α β : Type} {env : Env} {m : Op α} {f : α → Op β} {Q : β → Prop} (h : ∀ a, Gives env (f a) Q) : Gives env (m >>= f) Q := by
  intro st t x st' he
  obtain ⟨t1, t2, a, st1, rfl, h1, h2⟩ := execution_ok_bind he
  exact h a _ _ _ _ h2

theorem gives_cmdline {env : Env} {ops : List (Op OpResult)} : Gives env (runCmdline ops) fun rs => rs.length = ops.length := by
  have hd : ∀ (ops : List (Op OpResult)), Gives env (deploy ops) fun rs => rs.length = ops.length := by
    intro ops
    induction ops with
    | nil =>
      intro st t x st' he
      obtain ⟨_, h, _⟩ := (execution_ret rfl).mp he
      cases h
      rfl
    | cons op ops ih =>
      refine .bind fun a => ?_
      intro st t x st' he
      obtain ⟨t1, t2, rs, st1, rfl, h1, h2⟩ := execution_ok_bind he
      obtain ⟨_, h, _⟩ := (execution_ret rfl).mp h2
      cases h
      simp [ih _ _ _ _ h1]
  unfold runCmdline Script.withDefaults
  refine .bind fun _ => .bind fun _ => .bind fun _ => .bind fun _ => .bind fun _ => ?_
  intro st t x st' he
  obtain ⟨st1, h1, _⟩ := execution_finally.mp he
  exact hd ops _ _ _ _ h1

theorem session_length {rs : List OpResult} (h : (session opts t lk w).1 = .ok rs) : rs.length = t.script.length := by
  unfold session at h
  split at h
  · cases h
  · dsimp only at h
    split at h
    · cases h
    · rename_i base _ w1 k he
      split at h
      · cases h
      · have hx := runs_recorded (flaky t.sys lk.lost) (runCmdline t.script { opts with base } { stack := [{}] }) (w1, k)
        cases hr : ((runCmdline t.script { opts with base } { stack := [{}] }).run (flaky t.sys lk.lost) (w1, k)).1 with
        | mk r st' =>
          rw [hr] at hx
          have : r = .ok rs := by
            unfold exec at h
            rw [hr] at h
            exact h
          subst this
          exact gives_cmdline _ _ _ _ hx

/-! ### A dry run beside a real run -/

/-- Over a connection that does not break. -/
theorem run_unbroken {α : Type} {sys : Sys} {lost : Nat → Option Bool} (hl : ∀ k, lost k = none) : ∀ (p : Client.Prog α) (w : World) (k : Nat),
    (p.run (flaky sys lost) (w, k)).1 = (p.run (Client.direct sys) w).1 ∧ (p.run (flaky sys lost) (w, k)).2.1 = (p.run (Client.direct sys) w).2
  | .ret _, _, _ => ⟨rfl, rfl⟩
  | .req q c, w, k => by
    have := run_unbroken (sys := sys) hl (c (Client.direct sys q w).1) (Client.direct sys q w).2 (k + 1)
    simpa only [Client.Prog.run, flaky, hl] using this

theorem exec_unbroken {α : Type} {sys : Sys} {lost : Nat → Option Bool} (hl : ∀ k, lost k = none) {m : Op α} {env : Env} {st st' : St} {w w' : World} {x : Except Exn α} {k : Nat}
    (h : exec (Client.direct sys) m env st w = ((x, st'), w')) : ∃ k', exec (flaky sys lost) m env st (w, k) = ((x, st'), (w', k')) := by
  have := run_unbroken (sys := sys) hl (m env st) w k
  unfold exec at h ⊢
  rw [h] at this
  exact ⟨((m env st).run (flaky sys lost) (w, k)).2.2, Prod.ext this.1 (Prod.ext this.2 rfl)⟩

theorem identity_echoes {sys : Sys} {lost : Nat → Option Bool} {env : Env} {st : St} {base : Settings} (hw : w.Sane) : Echoes sys lost w w env st (resolveIdentity base) :=
  .bind (.call ⟨rfl, rfl⟩ rfl) fun _ _ => .bind (.call ⟨rfl, rfl⟩ rfl) fun _ _ => .pure' _

theorem cmdline_ahead {lost : Nat → Option Bool} (hs : Site opts tools t calls b w) (hlk : (∃ x ∈ asked t calls, x.wish.isLink = true) → SteadyLinks t.sys tools ∧ WorksIn w b.cwd) (hf : SteadyLooks t.sys) (hr : Rooted w) {k : Nat} {rs : List OpResult} {st' : St} {s : World × Nat}
    (h : exec (flaky t.sys lost) (runCmdline t.script) { opts with base := b, dry := false } { stack := [{}] } (w, k) = ((.ok rs, st'), s)) :
    ∃ l, exec (Client.direct t.sys) (runCmdline t.script) { opts with base := b, dry := true } { stack := [{}] } w = ((.ok rs, st'), { w with started := l })
      ∧ ((∀ x ∈ asked t calls, x.wish.isLink = false) → l = w.started) := by
  unfold runCmdline at h ⊢
  obtain ⟨c0, rest0, hs0, q0, hq0, hcwd⟩ := withDefaults_cwd (env := { opts with base := b }) h
  cases hs0
  cases hq0
  replace hcwd : CwdFine t.sys w b.cwd := hcwd
  unfold Script.withDefaults at h ⊢
  obtain ⟨q', st1, s1, h1, h2⟩ := exec_bind_ok.mp h
  obtain ⟨hq, rfl, rfl⟩ := exec_ofExcept_ok h1
  cases hq
  obtain ⟨e1, st2, s2, h3, h4⟩ := exec_bind_ok.mp h2
  cases h3
  obtain ⟨c, st3, s3, h5, h6⟩ := exec_bind_ok.mp h4
  obtain ⟨rfl, rfl, rest, hst⟩ := currentDefaults_ok h5
  cases hst
  obtain ⟨r, st4, s4, h7, h8⟩ := exec_bind_ok.mp h6
  obtain ⟨hw4, h9⟩ := Echoes.resolveDefaults (env := { opts with base := b }) (v := w) (sameAccounts_of rfl rfl) (fun c' rest' hs' => by
    cases hs'
    rw [overlay_absorb]
    exact hcwd) _ _ _ _ h7
  have hres : r = b ∧ st4 = { stack := [{}] } := by
    refine post_exec (Q := fun r st w' => r = b ∧ st = { stack := [{}] }) (E := fun _ => True) (Post.resolveDefaults hs.ordinary.sane ?_ trivial) h7
    intro c rest r hst hr
    cases hst
    rw [overlay_absorb] at hr
    exact ⟨hs.identity.resolved hr, rfl⟩
  obtain ⟨rfl, rfl⟩ := hres
  obtain ⟨w4, k4⟩ := s4
  cases (show w4 = w from hw4)
  obtain ⟨u, st5, s5, h10, h11⟩ := exec_bind_ok.mp h8
  cases h10
  have hb : ∀ {a st' s}, exec (flaky t.sys lost) (deploy t.script) { opts with base := r, dry := false } (start r) (w, k4) = ((.ok a, st'), s) →
      ∃ l, exec (Client.direct t.sys) (deploy t.script) { opts with base := r, dry := true } (start r) w = ((.ok a, st'), { w with started := l })
        ∧ ((∀ x ∈ asked t calls, x.wish.isLink = false) → l = w.started) := by
    intro a st' s he
    rw [hs.script] at he ⊢
    have hperm := calls_perm hs.fits hs.tasks.distinct
    obtain ⟨l, hd, hl⟩ := carries_foresees (tools := tools) (env := { opts with base := r }) (st := start r) (done := fun _ => False) (l := w.started) hs.tasks hs.modes hf hr
      (fun c' rest' h' => by cases h'; rw [overlay_self]; exact hcwd)
      (fun hx => ⟨(hlk hx).1, fun c' rest' h' => by cases h'; rw [overlay_self]; exact (hlk hx).2⟩) (calls_carries hs.fits) rfl
      (.start hs.ordinary) (fun _ _ => rfl) (fun x h => hperm.mem_iff.mp h) ((hperm.map _).nodup_iff.mpr hs.tasks.distinct) (fun _ h => h.elim) he
    exact ⟨l, hd, fun hn => hl fun x hx => hn x (hperm.mem_iff.mp hx)⟩
  rw [exec_finally] at h11
  simp only [Prod.mk.injEq] at h11
  obtain ⟨⟨g1, g2⟩, g3⟩ := h11
  obtain ⟨l, hd, hl⟩ := hb (a := rs) (st' := (exec (flaky t.sys lost) (deploy t.script) { opts with base := r, dry := false } (start r) (w, k4)).1.2) (s := s) (by rw [← g1, ← g3]; rfl)
  refine ⟨l, exec_bind_ok.mpr ⟨_, _, _, rfl, exec_bind_ok.mpr ⟨_, _, _, rfl, exec_bind_ok.mpr ⟨_, _, _, rfl,
    exec_bind_ok.mpr ⟨_, _, _, h9, exec_bind_ok.mpr ⟨_, _, _, rfl, ?_⟩⟩⟩⟩⟩, hl⟩
  rw [exec_finally]
  have hd' : exec (Client.direct t.sys) (deploy t.script) { opts with base := r, dry := true } { stack := r :: [{}] } w = _ := hd
  rw [← g2]
  exact congrArg (fun x => ((x.1.1, { x.1.2 with stack := x.1.2.stack.tail }), x.2)) hd'

/-- A connection that works. -/
theorem session_ahead {lk' : Luck} (hs : Site opts tools t calls b w) (hlk : (∃ x ∈ asked t calls, x.wish.isLink = true) → SteadyLinks t.sys tools ∧ WorksIn w b.cwd) (hf : SteadyLooks t.sys) (hr : Rooted w) {rs : List OpResult}
    (h : (session { opts with dry := false } t lk w).1 = .ok rs) (hg : Working lk') :
    (session { opts with dry := true } t lk' w).1 = .ok rs ∧ ∃ l, (session { opts with dry := true } t lk' w).2.2.1 = { w with started := l }
      ∧ ((∀ x ∈ asked t calls, x.wish.isLink = false) → l = w.started)
      ∧ (session { opts with dry := true } t lk' w).2.2.2 = (session { opts with dry := false } t lk w).2.2.2 := by
  unfold session at h ⊢
  have ho : open' lk'.opening State.fresh = (.ok (), { isOpen := true, process := true, running := true, pipeOpen := true, lost := 0, hostConnection := false }) := by
    unfold open'
    rw [hg.popen, hg.alive]
    simp [hg.stays, State.fresh, State.background]
  rw [ho]
  split at h
  · cases h
  · dsimp only at h ⊢
    split at h
    · cases h
    · rename_i base' st1 w1 k he
      have hid := identity_post (sys := t.sys) (lost := lk.lost) (env := { opts with dry := false }) (st := { stack := [] }) (base := t.base) hs.ordinary.sane 0
      rw [he] at hid
      obtain ⟨e1, hb⟩ := hid
      cases (show w1 = w from e1)
      cases hb.unique hs.identity
      obtain ⟨_, hd⟩ := identity_echoes (env := opts) hs.ordinary.sane _ _ _ _ he
      obtain ⟨k', hd'⟩ := exec_unbroken (lost := lk'.lost) (k := 0) hg.unbroken hd
      rw [hd']
      dsimp only
      rw [if_neg (by rw [hg.lives]; decide)]
      cases hx : exec (flaky t.sys lk.lost) (runCmdline t.script) { opts with base := b, dry := false } { stack := [{}] } (w, k) with
      | mk r s =>
        obtain ⟨r, st'⟩ := r
        rw [hx] at h
        have : r = .ok rs := by
          split at h
          · cases h
          · exact h
        subst this
        obtain ⟨l, hl1, hl2⟩ := cmdline_ahead hs hlk hf hr hx
        obtain ⟨k2, h2⟩ := exec_unbroken (lost := lk'.lost) (k := k') hg.unbroken hl1
        rw [h2]
        refine ⟨rfl, l, rfl, hl2, ?_⟩
        show st'.shown = _
        split <;> rfl

/-! ### Processes -/

theorem session_background : (session opts t lk w).2.1.background ≤ 1 ∧ ∀ rs, (session opts t lk w).1 = .ok rs → (session opts t lk w).2.1.background = 0 := by
  unfold session
  cases ho : open' lk.opening State.fresh with
  | mk r s =>
    cases r with
    | error e =>
      have := (Client.Lifecycle.C19_open_failure_partial State.fresh s lk.opening e rfl ho).1
      exact ⟨by rw [this]; decide, nofun⟩
    | ok _ =>
      have hs : s = { isOpen := true, process := true, running := !lk.opening.died, pipeOpen := true, lost := 0, hostConnection := false } := by
        unfold open' at ho
        split at ho
        · cases ho
        · simp only at ho
          split at ho
          · cases ho; rfl
          · split at ho <;> cases ho
      subst hs
      dsimp only
      split
      · refine ⟨?_, nofun⟩
        unfold State.background
        cases lk.opening.died <;> simp
      · cases lk.dies <;> cases lk.opening.died <;> exact ⟨by simp [exit, close, State.background], by simp [exit, close, State.background]⟩

/-- Before every host that is dealt with, and at the end, there are no processes of the program. -/
theorem completed_background {s s1 : Fleet} {hs : List Str} (h : Run.Completed (round opts targets luck) s hs s1) : s1.background = s.background := by
  induction h with
  | none => rfl
  | @next s s1 s2 x hs hr _ ih =>
    rw [ih]
    unfold round at hr
    dsimp only at hr
    split at hr
    · cases hr
    · rename_i rs he
      have := session_background.2 rs he
      cases hr
      simp [this]

/-! ### Runs -/

/-- A run of the program, seen from one host that was on its way. -/
theorem program_going {loaded : List Str} {select : Option Str} {h : Str} {w0 : World} {t : Target} (ht : targets h = t) (hs : Site opts tools t calls b w0) (hdry : opts.dry = false)
    (hg : Going t.sys tools { opts with base := b } (start b) (asked t calls) w0 (fun _ => False) (f.hosts h)) :
    Going t.sys tools { opts with base := b } (start b) (asked t calls) w0 (fun _ => False) ((program opts targets loaded select luck f).2.2.hosts h)
    ∧ ∀ wanted, Run.Wanted loaded select wanted → (program opts targets loaded select luck f).1 = .finished → h ∈ wanted →
        Going t.sys tools { opts with base := b } (start b) (asked t calls) w0 (fun d => d ∈ asked t calls) ((program opts targets loaded select luck f).2.2.hosts h) := by
  rcases program_outcome (opts := opts) (targets := targets) (luck := luck) (f := f) (loaded := loaded) (select := select) with ⟨hs', hsel, ho⟩ | ⟨m, hm⟩
  · refine ⟨?_, fun wanted hw hf hh => ?_⟩
    · by_cases hh : h ∈ (program opts targets loaded select luck f).2.1
      · rw [ho.reached h hh, ht]
        exact (session_going hs hdry hg).1
      · rw [ho.others h hh]
        exact hg
    · obtain ⟨h1, results, h2, h3, h4⟩ := ho.finished hf
      have hm : h ∈ hs' := (hsel wanted hw h).mpr hh
      rw [ho.reached h (by rw [h1]; exact hm), ht]
      rw [← h2] at hm
      obtain ⟨p, hp, rfl⟩ := List.mem_map.mp hm
      have h5 := h4 p hp
      rw [ht] at h5
      exact ((session_going hs hdry hg).2 p.2 h5).2
  · rw [hm]
    exact ⟨hg, nofun⟩

end Verif.Program
