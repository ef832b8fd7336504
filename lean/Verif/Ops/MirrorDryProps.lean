/-
C30 for `upload_dir`: a dry run predicts the real run, although it does not find what the real run would have created before.
-/
import Verif.Ops.MirrorDryLemmas
import Verif.Ops.MirrorProps

namespace Verif.Ops

open Script Remote
open Client (Prog direct lostConnection)

/-- C30 for `upload_dir`. If the real run returns a result, the dry run on the same host returns the same result, leaves the same
state behind (and thus has shown the same summaries), and leaves the host alone. Assumed: an ordinary host with a proper file system, whose
faults when looking at something do not depend on what else is there. -/
theorem C30_upload_dir_partial (sys : Sys) (tools : Tools) (lost : Nat → Option Bool) (env : Env) (st : St) (w : World)
    (hord : Ordinary sys tools w) (hroot : Rooted w) (hlooks : SteadyLooks sys) (hm : PlainModes env st)
    (src dest : Str) (entries : List (Str × Tree)) (names : List Str)
    (hp : Tree.Proper (.dir entries)) (hsize : Tree.Storable (.dir entries)) (hl : Lands src dest names)
    (dirMode fileMode owner group : Option Str) (check : Bool) (r : OpResult) (st' : St) (s : World × Nat)
    (h : exec (flaky sys lost) (uploadDir sys.sha512 src (.dir entries) dest dirMode fileMode owner group check) { env with dry := false } st (w, 0) = ((.ok r, st'), s)) :
    exec (direct sys) (uploadDir sys.sha512 src (.dir entries) dest dirMode fileMode owner group check) { env with dry := true } st w = ((.ok r, st'), w) := by
  obtain ⟨hdest, hnames⟩ := destOf_lands hl
  have hr : r.success = true := (post_exec (mirror_post (env := { env with dry := false }) hord hm rfl hp hsize hl) h).1
  refine (Foretold.operation (v := w) (w := w) (lost := lost) (env := env) ?_) _ _ _ _ h hr
  intro k x st2 s2 h hx
  obtain ⟨_, st3, s3, h1, h2⟩ := exec_bind_ok.mp h
  cases h1
  obtain ⟨_, st4, s4, h3, h4⟩ := exec_bind_ok.mp h2
  obtain ⟨habs, rfl, rfl⟩ := exec_ofExcept_ok h3
  refine exec_bind_ok.mpr ⟨_, _, _, rfl, exec_bind_ok.mpr ⟨_, _, _, (by rw [exec_ofExcept, habs]), ?_⟩⟩
  rw [if_neg (by simp [Tree.isDir])] at h4 ⊢
  simp only [hdest] at h4 ⊢
  rw [destDirs_eq hp hnames, destFiles_eq hp hnames] at h4 ⊢
  have htop : (relDirs entries).map (fun rel => pathOf (names ++ rel)) = pathOf names :: ((chosen Tree.isDir (places [] (.dir entries))).map (·.1)).map fun rel => pathOf (names ++ rel) := by
    unfold relDirs
    rw [List.map_cons, List.append_nil]
  rw [htop, uploadDirs] at h4 ⊢
  obtain ⟨_, st5, s5, h5, h6⟩ := exec_bind_ok.mp h4
  obtain ⟨r0, st6, s6, h7, h8⟩ := exec_bind_ok.mp h5
  obtain ⟨_, st7, s7, h9, h10⟩ := exec_bind_ok.mp h8
  -- the top directory
  obtain ⟨c, rest, hst0, hcwd⟩ := directory_cwd h7
  have hst0 : st.stack = c :: rest := hst0
  have hc : ∀ c rest, st.stack = c :: rest → CwdFine sys w (env.base.overlay c).cwd := by
    intro c' rest' h'
    rw [hst0] at h'
    cases h'
    exact hcwd
  have hd0 := directory_foretold (lost := lost) (w := w) (v := w) (env := env) (st := { stack := st.stack, op := { hasNested := true }, shown := st.shown }) (sameAccounts_of rfl rfl) hc ⟨rfl, rfl⟩ _ _ _ _ h7 (operation_checked h7)
  obtain ⟨hst6, l, n, hden, hstep, hn, hi, hkb⟩ := post_exec (dir_step (env := { env with dry := false }) (st := { stack := st.stack, op := { hasNested := true }, shown := st.shown }) hord (plainModes_congr (st := st) rfl hm) rfl false) h7
  have hpr1 : Progress sys tools (mirrorJob env st dirMode fileMode owner group names entries w l) w [[]] [] s6.1 := top_progress hord hden hstep hn hi hkb
  have ha1 : Ahead (mirrorJob env st dirMode fileMode owner group names entries w l) w [[]] [] s6.1 := by
    refine ⟨fun rel hrel => ?_, fun rel hrel _ => ?_⟩
    · rw [List.mem_singleton] at hrel
      subst hrel
      rw [List.append_nil, List.append_nil]
      exact .inl hden
    · refine hstep.untouched.fs _ fun h => hrel ?_
      have : rel = [] := List.append_right_eq_self.mp h
      simp [this]
  obtain ⟨hd1, hst7, hs7⟩ := addNested_ahead (v := w) h9
  obtain ⟨w7, k7⟩ := s7
  cases (show w7 = s6.1 from hs7)
  -- the other directories
  obtain ⟨hd2, hst5, ds, hall, honly, hpr3, ha3⟩ := dirs_ahead (j := mirrorJob env st dirMode fileMode owner group names entries w l) (st := st) hm rfl (fun ht => ht.1)
    hlooks hroot hc _ (hst7.trans hst6) hpr1 ha1 (relDirs_ordered entries) (List.nodup_cons.mp (relDirs_nodup hp)).2 (by
      intro r hr
      rw [List.mem_singleton]
      rintro rfl
      exact (List.nodup_cons.mp (relDirs_nodup hp)).1 hr) (by
      intro r hr
      obtain ⟨t, h1, h2⟩ := relDirs_mem.mp (List.mem_cons_of_mem _ hr)
      refine ⟨⟨t, h1, transferred_dir h2⟩, fun n hn => ?_⟩
      rcases List.mem_append.mp hn with hn | hn
      · exact hnames n hn
      · exact at_names hp h1 n hn) h10
  have hds : ∀ r, r ∈ ds ↔ r ∈ relDirs entries := by
    intro r
    unfold relDirs
    rw [List.mem_cons]
    constructor
    · intro h
      rcases honly r h with h | h
      · exact .inl (List.mem_singleton.mp h)
      · exact .inr h
    · rintro (rfl | h)
      · exact hall _ (.inl (by simp))
      · exact hall _ (.inr h)
  -- the files
  obtain ⟨_, st8, s8, h11, h12⟩ := exec_bind_ok.mp h6
  obtain ⟨hd3, _⟩ := files_ahead (j := mirrorJob env st dirMode fileMode owner group names entries w l) (st := st) hm rfl hlooks hroot hc (relFiles entries) hst5 hpr3 ha3
    (relFiles_nodup hp) (by
      intro x hx
      exact ⟨fun h => rel_disjoint hp ((hds _).mp h) (List.mem_map.mpr ⟨x, hx, rfl⟩), by simp⟩) (by
      intro x hx
      obtain ⟨h1, h2⟩ := relFiles_mem.mp hx
      obtain ⟨p, m, he, hpm⟩ := relFiles_parent hx
      refine ⟨h2, fun h => ⟨_, h1, h⟩, ?_, ⟨p, m, he, (hds _).mpr hpm⟩, fun n hn => ?_, fun b hb => ?_⟩
      · rintro t rfl ht ⟨u, hu, hut⟩
        rw [at_unique hp hu h1] at hut
        exact ht hut
      · rcases List.mem_append.mp hn with hn | hn
        · exact hnames n hn
        · exact at_names hp h1 n hn
      · refine hsize x.1 b ?_
        rcases content_store hb with h | h
        · rw [h] at h1; exact .inl h1
        · rw [h] at h1; exact .inr h1) h11
  refine exec_bind_ok.mpr ⟨_, _, _, exec_bind_ok.mpr ⟨_, _, _, hd0, exec_bind_ok.mpr ⟨_, _, _, hd1, hd2⟩⟩, exec_bind_ok.mpr ⟨_, _, _, hd3, ?_⟩⟩
  exact (Foretold.returned (w := s8.1) (Echoes.success (lost := lost)).foretold) s8.2 _ _ _ h12 hx

/-! ### A concrete case -/

theorem Example.looks : SteadyLooks Example.sys := fun _ _ _ _ => ⟨rfl, rfl, rfl⟩

theorem Example.rooted : Rooted Example.host := by
  intro l name n h
  have key : ∀ q n, Example.host.fs q = some n → q ∈ [p!"tmp"] :: Remote.Example.table.map (·.1) := by
    intro q n h
    have h : setNode Remote.Example.world.fs [p!"tmp"] (some (Remote.Example.dirNode 0o1777)) q = some n := h
    unfold setNode at h
    split at h
    · rename_i hq; rw [hq]; simp
    · have h : (Remote.Example.table.find? (·.1 == q)).map (·.2) = some n := h
      rw [Option.map_eq_some_iff] at h
      obtain ⟨e, he, _⟩ := h
      have := List.find?_some he
      simp only [beq_iff_eq] at this
      rw [← this]
      exact List.mem_cons_of_mem _ (List.mem_map.mpr ⟨e, List.mem_of_find?_eq_some he, rfl⟩)
  have hl : l = [] ∨ l = [p!"etc"] := by
    have hq := key _ _ h
    have : ∀ q ∈ [p!"tmp"] :: Remote.Example.table.map (·.1), q ≠ [] → q.dropLast = [] ∨ q.dropLast = [p!"etc"] := by decide
    have := this _ hq (by simp)
    rwa [List.dropLast_concat] at this
  rcases hl with rfl | rfl
  · exact ⟨Remote.Example.dirNode 0o755, by decide, rfl⟩
  · exact ⟨Remote.Example.dirNode 0o755, by decide, rfl⟩

/-- The real run creates four things, two of them in directories that a dry run does not find; it reports the same. -/
example : (exec (flaky Example.sys Example.always) (uploadDir Example.sys.sha512 p!"./site" (.dir Example.tree) p!"/tmp/" none none (some p!"alice") none true)
      { Example.env with dry := false } Example.st (Example.host, 0)).1.1.toOption.map (fun r => (r.changed, r.final.length)) = some (true, 4)
    ∧ (exec (direct Example.sys) (uploadDir Example.sys.sha512 p!"./site" (.dir Example.tree) p!"/tmp/" none none (some p!"alice") none true)
      { Example.env with dry := true } Example.st Example.host).1.1.toOption.map (fun r => (r.changed, r.final.length)) = some (true, 4) :=
  ⟨by decide +kernel, by decide +kernel⟩

end Verif.Ops
