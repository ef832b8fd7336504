/-
C83: scripts that consist of several operations.
-/
import Verif.Ops.DeployLemmas
import Verif.Ops.MirrorDryProps

namespace Verif.Ops

open Script Remote

/-! ### C83 -/

/-- C83, what a script achieves. If it comes to its end, then everything that was asked for is there, also what was asked for
first, what was not to be there is gone, and everything else is as before. If it does not come to its end, everything else is as
before nevertheless. -/
theorem C83_deploy_complete (sys : Sys) (tools : Tools) (lost : Nat → Option Bool) (env : Env) (st : St) (w : World)
    (hord : Ordinary sys tools w) (hm : PlainModes env st) (hdry : env.dry = false) (ts : List Task) (hts : Tasks sys w ts) :
    Untouched (fun q => ∃ t ∈ ts, t.Covers q) w (perform sys lost (deploy (ts.map (·.op))) env st w).2
    ∧ ∀ rs, (perform sys lost (deploy (ts.map (·.op))) env st w).1 = .ok rs →
      (rs.length = ts.length ∧ ∀ r ∈ rs, r.success = true)
      ∧ ∀ t ∈ ts, t.wish.Granted sys env st w (perform sys lost (deploy (ts.map (·.op))) env st w).2 t.names
        ∧ t.Reached (perform sys lost (deploy (ts.map (·.op))) env st w).2 := by
  have hpost := deploy_post (lost := lost) (tools := tools) hts hm hdry ts rfl (.start hord) (fun _ h => h) hts.distinct (fun _ h => h.elim)
  refine ⟨post_world (P := Untouched (fun q => ∃ t ∈ ts, t.Covers q) w) (hpost.mono (fun _ _ _ h => h) fun _ h => h.untouched) (fun _ _ _ h => h.2.untouched), fun rs hrs => ?_⟩
  obtain ⟨h1, h2⟩ := post_ok hpost hrs
  exact ⟨h1, fun t ht => ⟨(h2.granted t (.inr ht)).1, (h2.granted t (.inr ht)).2.reached (hts.names t ht) (h2.granted t (.inr ht)).1⟩⟩

/-- C83, running a script again. If it has come to its end, then running it again has no effect on the host, even if the
connection breaks, and every operation reports that nothing was changed. Assumed: as in C39, the default modes have no leading
zeros, no uid or gid belongs to two accounts, owners are set, and no setuid or setgid bits are involved. -/
theorem C83_deploy_idempotent_partial (sys : Sys) (tools : Tools) (lost : Nat → Option Bool) (env : Env) (st : St) (w : World)
    (hord : Ordinary sys tools w) (hm : PlainModes env st) (hcm : CanonicalModes env st) (hna : NoAliases w) (hdry : env.dry = false)
    (ts : List Task) (hts : Tasks sys w ts) (hown : AllOwned env st ts) (hbits : NoSetIdsAsked env st w ts)
    (rs : List OpResult) (hrs : (perform sys lost (deploy (ts.map (·.op))) env st w).1 = .ok rs) (lost' : Nat → Option Bool) :
    Untouched (fun _ => False) (perform sys lost (deploy (ts.map (·.op))) env st w).2
      (perform sys lost' (deploy (ts.map (·.op))) env st (perform sys lost (deploy (ts.map (·.op))) env st w).2).2
    ∧ ∀ rs', (perform sys lost' (deploy (ts.map (·.op))) env st (perform sys lost (deploy (ts.map (·.op))) env st w).2).1 = .ok rs' →
        ∀ r ∈ rs', r.success = true ∧ r.changed = false := by
  have hpost := deploy_post (lost := lost) (tools := tools) hts hm hdry ts rfl (.start hord) (fun _ h => h) hts.distinct (fun _ h => h.elim)
  obtain ⟨_, hg⟩ := post_ok hpost hrs
  have hg : Going sys tools env st ts w (fun d => d ∈ ts) (perform sys lost (deploy (ts.map (·.op))) env st w).2 :=
    { hg with granted := fun t ht => hg.granted t (.inr ht), member := fun _ h => h }
  revert hg
  generalize (perform sys lost (deploy (ts.map (·.op))) env st w).2 = w1
  intro hg
  have hacc := hg.untouched.accounts
  have hcalm := deploy_calm (lost := lost') hg.ordinary hm hcm ⟨by rw [hacc.1]; exact hna.users, by rw [hacc.2]; exact hna.groups⟩ ts (st1 := st) (w1 := w1) rfl rfl
    fun t ht => ⟨hts.proper t ht, hown t ht, granted_ready hts hcm hbits hg ht⟩
  refine ⟨?_, fun rs' h => (post_ok hcalm h).1⟩
  have hs : Same w1 (perform sys lost' (deploy (ts.map (·.op))) env st w1).2 := post_world hcalm (fun _ _ _ h => h.2)
  refine ⟨fun q _ => ?_, ?_⟩
  · rw [hs]
  · rw [hs]

/-- C83, resuming a script. If it comes to its end on a host, then it leads to the same host if it comes to its end after it was
interrupted anywhere, even if the operations were called in a different order. Assumed: as for running it again, and that no
other content has the checksum of one of the files. -/
theorem C83_deploy_resumable_partial (sys : Sys) (tools : Tools) (lost lost1 lost2 : Nat → Option Bool) (env : Env) (st : St) (w : World)
    (hord : Ordinary sys tools w) (hm : PlainModes env st) (hcm : CanonicalModes env st) (hdry : env.dry = false)
    (ts ts1 ts2 : List Task) (hts : Tasks sys w ts) (hp1 : ts1.Perm ts) (hp2 : ts2.Perm ts)
    (hown : AllOwned env st ts) (hbits : NoSetIdsAsked env st w ts)
    (hsum : ∀ t ∈ ts, ∀ bytes mode owner group other, t.wish = .file (.ok bytes) mode owner group → sys.sha512 other = sys.sha512 bytes → other = bytes)
    (rs rs2 : List OpResult) (hrs : (perform sys lost (deploy (ts.map (·.op))) env st w).1 = .ok rs)
    (hrs2 : (perform sys lost2 (deploy (ts2.map (·.op))) env st (perform sys lost1 (deploy (ts1.map (·.op))) env st w).2).1 = .ok rs2) :
    Alike (perform sys lost (deploy (ts.map (·.op))) env st w).2
      (perform sys lost2 (deploy (ts2.map (·.op))) env st (perform sys lost1 (deploy (ts1.map (·.op))) env st w).2).2 := by
  obtain ⟨_, hg⟩ := post_ok (deploy_post (tools := tools) hts hm hdry ts rfl (.start hord) (fun _ h => h) hts.distinct (fun _ h => h.elim)) hrs
  have h1 : Going sys tools env st ts w (fun _ => False) (perform sys lost1 (deploy (ts1.map (·.op))) env st w).2 :=
    post_world (deploy_post hts hm hdry ts1 rfl (.start hord) (fun t h => hp1.mem_iff.mp h) ((hp1.map _).nodup_iff.mpr hts.distinct) (fun _ h => h.elim))
      (fun _ _ _ h => h.2.forget)
  obtain ⟨_, h2⟩ := post_ok (deploy_post (tools := tools) (h1.tasks hts) hm hdry ts2 rfl (.start h1.ordinary) (fun t h => hp2.mem_iff.mp h)
    ((hp2.map _).nodup_iff.mpr hts.distinct) (fun _ h => h.elim)) hrs2
  exact granted_alike hcm hbits hown hsum { hg with granted := fun t ht => hg.granted t (.inr ht), member := fun _ h => h } h1
    { h2 with granted := fun t ht => h2.granted t (.inr (hp2.mem_iff.mpr ht)), member := fun _ h => h }

/-! ### C30 -/

/-- C30 for scripts. If the real run of a script comes to its end, then its dry run on the same host reports the same results and
leaves the host alone, although it does not find the directories and files that the real run has created by then. Assumed: an
ordinary host with a proper file system, whose faults when looking at something do not depend on what else is there. Missing:
scripts that manage symbolic links, see `C30_linked_scripts_partial`. -/
theorem C30_deploy_partial (sys : Sys) (tools : Tools) (lost : Nat → Option Bool) (env : Env) (st : St) (w : World)
    (hord : Ordinary sys tools w) (hroot : Rooted w) (hlooks : SteadyLooks sys) (hm : PlainModes env st)
    (ts : List Task) (hts : Tasks sys w ts) (hnl : ∀ t ∈ ts, t.wish.isLink = false) (rs : List OpResult) (st' : St) (s : World × Nat)
    (h : exec (flaky sys lost) (deploy (ts.map (·.op))) { env with dry := false } st (w, 0) = ((.ok rs, st'), s)) :
    exec (Client.direct sys) (deploy (ts.map (·.op))) { env with dry := true } st w = ((.ok rs, st'), w) := by
  have hc : ts ≠ [] → ∃ c rest, st.stack = c :: rest ∧ CwdFine sys w (env.base.overlay c).cwd := by
    intro hne
    cases ts with
    | nil => exact absurd rfl hne
    | cons t ts =>
      rw [List.map_cons, deploy] at h
      obtain ⟨r, st2, s2, h1, h2⟩ := exec_bind_ok.mp h
      have hp := hts.proper t (by simp)
      cases hp with
      | directory => exact directory_cwd h1
      | noDirectory => exact directory_cwd h1
      | store hop _ => exact store_cwd hop h1
      | file => exact file_cwd h1
      | noFile => exact file_cwd h1
      | link => cases hnl _ (List.mem_cons_self ..)
      | noLink => cases hnl _ (List.mem_cons_self ..)
  by_cases hne : ts = []
  · subst hne
    rw [List.map_nil, deploy] at h ⊢
    cases h
    rfl
  · obtain ⟨c, rest, hs, hcwd⟩ := hc hne
    refine deploy_ahead (tools := tools) (st := st) (done := fun _ => False) hts hnl hm hlooks hroot (fun c' rest' h' => ?_) ts rfl (.start hord) (fun _ _ => rfl) (fun _ h => h)
      hts.distinct (fun _ h => h.elim) h
    rw [hs] at h'
    cases h'
    exact hcwd

namespace Example

/-- A script that creates a directory and two files in it, replaces `/etc/motd` and removes `/home`. -/
def siteTasks : List Task :=
  [⟨directory (pathOf [p!"etc", p!"site"]) true false (some p!"755") none none true, [p!"etc", p!"site"], .dir (some p!"755") none none⟩,
   ⟨uploadContent sys.sha512 (.str p!"x=1") (pathOf [p!"etc", p!"site", p!"conf"]) (some p!"640") (some p!"alice") none true,
    [p!"etc", p!"site", p!"conf"], .file (.ok [120, 61, 49]) (some p!"640") (some p!"alice") none⟩,
   ⟨upload sys.sha512 p!"./motd" (.ok [104, 111]) (pathOf [p!"etc", p!"motd"]) none none none true,
    [p!"etc", p!"motd"], .file (.ok [104, 111]) none none none⟩,
   ⟨file (pathOf [p!"etc", p!"site", p!"log"]) true false none none none true, [p!"etc", p!"site", p!"log"], .plain none none none⟩,
   ⟨directory (pathOf [p!"home"]) false false none none none true, [p!"home"], .absent .dir⟩]

/-- It also creates a link, and removes one. -/
def allTasks : List Task := siteTasks ++
  [⟨link (pathOf [p!"etc", p!"site", p!"current"]) p!"conf" true false none none true, [p!"etc", p!"site", p!"current"], .link p!"conf" none none⟩,
   ⟨link (pathOf [p!"dangling"]) p!"nowhere" false false none none true, [p!"dangling"], .absent .link⟩]

theorem allTasks_proper : Tasks sys host allTasks := by
  have prefixes : ∀ (names p s : List Str), names = p ++ s → s ≠ [] → (names.length ≤ 3) →
      p = [] ∨ p = names.take 1 ∧ names.length ≠ 1 ∨ p = names.take 2 ∧ names.length = 3 := by
    intro names p s he hs hlen
    subst he
    have : 0 < s.length := List.length_pos_iff.mpr hs
    rw [List.length_append] at hlen
    match p with
    | [] => exact .inl rfl
    | [a] => exact .inr (.inl ⟨by simp, by rw [List.length_append]; simp; exact hs⟩)
    | [a, b] => exact .inr (.inr ⟨by simp, by rw [List.length_append]; simp at hlen ⊢; omega⟩)
    | a :: b :: c :: r => simp at hlen; omega
  have small : ∀ t ∈ allTasks, t.names.length ≤ 3 := by decide +kernel
  refine ⟨?_, ?_, by decide +kernel, ?_, ?_, ?_, fun _ => rooted⟩
  · intro t ht
    simp only [allTasks, siteTasks, List.cons_append, List.nil_append, List.mem_cons, List.not_mem_nil, or_false] at ht
    rcases ht with rfl | rfl | rfl | rfl | rfl | rfl | rfl
    · exact .directory _ _ _ _
    · exact .store (.content (.str p!"x=1") _) (by intro b h; cases h; unfold Modest; decide)
    · exact .store (.file p!"./motd" (.ok [104, 111]) _) (by intro b h; cases h; unfold Modest; decide)
    · exact .file _ _ _ _
    · exact .noDirectory _ _ _ _
    · exact .link _ _ _ _ ⟨by unfold Text; decide, by unfold Modest; decide⟩
    · exact .noLink _ _ _ _ ⟨by unfold Text; decide, by unfold Modest; decide⟩
  · have : ∀ t ∈ allTasks, ∀ n ∈ t.names, n ≠ [] ∧ n ≠ p!"." ∧ n ≠ p!".." ∧ 47 ∉ n := by decide +kernel
    intro t ht n hn
    obtain ⟨h1, h2, h3, h4⟩ := this t ht n hn
    exact ⟨h1, h4, h2, h3⟩
  · have hdirs : ∀ t ∈ allTasks, ∀ p ∈ [[], t.names.take 1, t.names.take 2], p.length < t.names.length → ∀ n, host.fs p = some n → n.kind = .dir := by
      intro t ht
      simp only [allTasks, siteTasks, List.cons_append, List.nil_append, List.mem_cons, List.not_mem_nil, or_false] at ht
      rcases ht with rfl | rfl | rfl | rfl | rfl | rfl | rfl <;> intro p hp hlen n hn <;>
        simp only [List.mem_cons, List.not_mem_nil, or_false] at hp <;> rcases hp with rfl | rfl | rfl <;>
        first | (cases hn; rfl) | (exfalso; revert hlen; decide) | (have h0 : none = some n := hn; cases h0)
    intro t ht p s he hs n target hn hk
    have hlen : p.length < t.names.length := by
      have := List.length_pos_iff.mpr hs
      rw [he, List.length_append]; omega
    have := hdirs t ht p (by rcases prefixes _ p s he hs (small t ht) with rfl | ⟨rfl, _⟩ | ⟨rfl, _⟩ <;> simp) hlen n hn
    rw [this] at hk
    cases hk
  · have : ∀ t ∈ allTasks, ∀ d ∈ allTasks, t.names.isPrefixOf d.names = true → t.names ≠ d.names → t.wish.isDir = true := by decide +kernel
    intro t ht d hd s he hs
    refine this t ht d hd (List.isPrefixOf_iff_prefix.mpr ⟨s, he.symm⟩) fun h => hs ?_
    rw [h] at he
    exact List.append_cancel_left (as := d.names) (by rw [List.append_nil]; exact he.symm)
  · intro t ht target owner group hw n hn
    simp only [allTasks, siteTasks, List.cons_append, List.nil_append, List.mem_cons, List.not_mem_nil, or_false] at ht
    rcases ht with rfl | rfl | rfl | rfl | rfl | rfl | rfl <;> cases hw
    have h0 : none = some n := hn
    cases h0

theorem siteTasks_proper : Tasks sys host siteTasks := by
  have hin : ∀ t ∈ siteTasks, t ∈ allTasks := fun t h => List.mem_append_left _ h
  have h := allTasks_proper
  exact ⟨fun t ht => h.proper t (hin t ht), fun t ht => h.names t (hin t ht), by decide +kernel, fun t ht => h.plain t (hin t ht),
    fun t ht d hd => h.apart t (hin t ht) d (hin d hd), fun t ht => h.links t (hin t ht), fun _ => rooted⟩

example : ∀ t ∈ siteTasks, t.wish.isLink = false := by decide

/-- The remaining hypotheses of C83 are met as well. -/
example : AllOwned env st allTasks := by
  intro t ht _
  simp only [allTasks, siteTasks, List.cons_append, List.nil_append, List.mem_cons, List.not_mem_nil, or_false] at ht
  rcases ht with rfl | rfl | rfl | rfl | rfl | rfl | rfl <;> exact ⟨by decide, by decide⟩

theorem site_bits {env : Env} {st : St} (hd : ∀ m i, (inForce env st { fileMode := none, owner := none, group := none }).fileMode = some m →
    Py.parseInt 8 m = some ((i : Nat) : Int) → i < 0o10000 ∧ i &&& 0o6000 = 0) : NoSetIdsAsked env st host allTasks := by
  intro t ht
  simp only [allTasks, siteTasks, List.cons_append, List.nil_append, List.mem_cons, List.not_mem_nil, or_false] at ht
  rcases ht with rfl | rfl | rfl | rfl | rfl | rfl | rfl
  · refine ⟨fun m i hm hi => ?_, fun n hn => ?_, fun _ p hp => ?_⟩
    · cases hm
      rw [show Py.parseInt 8 p!"755" = some ((0o755 : Nat) : Int) from by decide +kernel] at hi
      have : i = 0o755 := by have := Option.some.inj hi; omega
      subst this; decide
    · have : host.fs [p!"etc", p!"site"] = none := rfl
      rw [this] at hn; cases hn
    · have : host.fs [p!"etc"] = some p := hp
      cases this
      decide
  · intro m i hm hi
    cases hm
    rw [show Py.parseInt 8 p!"640" = some ((0o640 : Nat) : Int) from by decide +kernel] at hi
    have : i = 0o640 := by have := Option.some.inj hi; omega
    subst this; decide
  · exact hd
  · exact hd
  · trivial
  · trivial
  · trivial

theorem mode600 : ∀ (i : Nat), Py.parseInt 8 p!"600" = some (i : Int) → i < 0o10000 ∧ i &&& 0o6000 = 0 := by
  intro i hi
  rw [show Py.parseInt 8 p!"600" = some ((0o600 : Nat) : Int) from by decide +kernel] at hi
  have : i = 0o600 := by have := Option.some.inj hi; omega
  subst this; decide

example : NoSetIdsAsked env st host allTasks := site_bits fun m i hm hi => by cases hm; exact mode600 i hi

/-- What the operations of a script report, `none` if it does not come to its end. -/
def changes (r : Except Exn (List OpResult)) : Option (List Bool) := r.toOption.map (·.map (·.changed))

/-- The script changes everything, then nothing. If the connection breaks while the first file is stored, the next run changes
what is missing, and in a different order of the operations too. -/
example : let run := fun (ts : List Task) lost w => perform sys lost (deploy (ts.map (·.op))) env st w
    let done := (run allTasks always host)
    changes done.1 = some [true, true, true, true, true, true, true]
    ∧ (done.2.fs [p!"etc", p!"site", p!"conf"]).map (fun n => (n.perm, n.uid)) = some (0o640, 1000)
    ∧ (done.2.fs [p!"home"]).isNone = true
    ∧ changes (run allTasks always done.2).1 = some [false, false, false, false, false, false, false]
    ∧ changes (run allTasks (breaks 14 true) host).1 = none
    ∧ changes (run allTasks always (run allTasks (breaks 14 true) host).2).1 = some [false, true, true, true, true, true, true]
    ∧ changes (run [allTasks[4], allTasks[2], allTasks[0], allTasks[5], allTasks[6], allTasks[1], allTasks[3]] always (run allTasks (breaks 14 true) host).2).1
        = some [true, true, false, true, true, true, true] :=
  ⟨by decide +kernel, by decide +kernel, by decide +kernel, by decide +kernel, by decide +kernel, by decide +kernel, by decide +kernel⟩

/-- A dry run predicts all changes. -/
example : changes (exec (Client.direct sys) (deploy (siteTasks.map (·.op))) { env with dry := true } st host).1.1 = some [true, true, true, true, true] := by decide +kernel

end Example

/-- Why the paths have to be different: a script that asks for two modes of one directory changes it twice, whenever it is run. -/
theorem C83_same_path_refuted :
    let ops := [directory p!"/tmp/d" true false (some p!"755") none none true, directory p!"/tmp/d" true false (some p!"700") none none true]
    Example.changes (perform Example.sys Example.always (deploy ops) Example.env Example.st Example.host).1 = some [true, true]
    ∧ Example.changes (perform Example.sys Example.always (deploy ops) Example.env Example.st
        (perform Example.sys Example.always (deploy ops) Example.env Example.st Example.host).2).1 = some [true, true] :=
  ⟨by decide +kernel, by decide +kernel⟩

/-- Why a directory has to be asked for at a path that is on the way to another: a script that removes a directory and then asks for
a file in it does not come to its end, because the directory is missing. -/
theorem C83_removed_way_refuted :
    let ops := [directory p!"/etc" false false none none none true, file p!"/etc/motd" true false none none none true]
    Example.changes (perform Example.sys Example.always (deploy ops) Example.env Example.st Example.host).1 = none
    ∧ ((perform Example.sys Example.always (deploy ops) Example.env Example.st Example.host).2.fs [p!"etc"]).isNone = true :=
  ⟨by decide +kernel, by decide +kernel⟩

end Verif.Ops
