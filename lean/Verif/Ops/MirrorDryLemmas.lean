/-
The loops of `upload_dir` in a dry run beside those in a real run.
-/
import Verif.Ops.EchoLemmas

namespace Verif.Ops

open Script Remote
open Client (Prog direct lostConnection)

section
variable {sys : Sys} {lost : Nat → Option Bool} {env : Env} {st st' : St} {w v : World} {k : Nat} {s : World × Nat}
variable {tools : Tools} {mode owner group : Option Str} {j : Job}

theorem post_exec {α : Type} {m : Op α} {Q : α → St → World → Prop} {E : World → Prop} {a : α} (h : Post sys lost m env st w Q E)
    (he : exec (flaky sys lost) m env st (w, k) = ((.ok a, st'), s)) : Q a st' s.1 := by
  have := h k
  rw [he] at this
  exact this

/-- With `check=True` what returns is a success. -/
theorem operation_checked {f : Op (Option OpResult)} {r : OpResult} (he : exec (flaky sys lost) (operation true f) env st (w, k) = ((.ok r, st'), s)) :
    r.success = true := by
  rw [exec_operation] at he
  match hm : exec (flaky sys lost) f env { st with op := {} } (w, k) with
  | ((.error e, st1), s1) => rw [hm] at he; cases he
  | ((.ok none, st1), s1) => rw [hm] at he; cases he
  | ((.ok (some x), st1), s1) =>
    rw [hm] at he
    simp only [Bool.true_and] at he
    cases hx : x.success with
    | false => rw [hx] at he; cases he
    | true => rw [hx] at he; cases he; exact hx

/-- A call that has gone well has checked the working directory. -/
theorem resolveDefaults_cwd {q r : Settings} (he : exec (flaky sys lost) (resolveDefaults q) { env with dry := false } st (w, k) = ((.ok r, st'), s)) :
    ∃ c rest, st.stack = c :: rest ∧ CwdFine sys w (c.overlay q).cwd := by
  have ha : SameAccounts sys w w := sameAccounts_of rfl rfl
  unfold Script.resolveDefaults at he
  obtain ⟨c, st1, s1, h1, h2⟩ := exec_bind_ok.mp he
  obtain ⟨rfl, rfl, rest, hs⟩ := currentDefaults_ok h1
  refine ⟨c, rest, hs, ?_⟩
  obtain ⟨_, _, ⟨w1, k1⟩, h1, h2⟩ := exec_bind_ok.mp h2
  cases (show w1 = w from (Echoes.resolveUser ha.user _ _ _ _ h1).1)
  obtain ⟨_, _, ⟨w1, k1⟩, h1, h2⟩ := exec_bind_ok.mp h2
  cases (show w1 = w from (Echoes.resolveGroup ha.group _ _ _ _ h1).1)
  obtain ⟨_, _, ⟨w1, k1⟩, h1, h2⟩ := exec_bind_ok.mp h2
  cases (show w1 = w from (Echoes.resolveUser ha.user _ _ _ _ h1).1)
  obtain ⟨_, _, ⟨w1, k1⟩, h1, h2⟩ := exec_bind_ok.mp h2
  cases (show w1 = w from (Echoes.resolveGroup ha.group _ _ _ _ h1).1)
  obtain ⟨_, _, ⟨w1, k1⟩, h1, h2⟩ := exec_bind_ok.mp h2
  cases (show w1 = w from (Echoes.ofExcept (v := w) _ _ _ _ _ h1).1)
  obtain ⟨_, _, ⟨w1, k1⟩, h1, h2⟩ := exec_bind_ok.mp h2
  cases (show w1 = w from (Echoes.ofExcept (v := w) _ _ _ _ _ h1).1)
  obtain ⟨_, _, ⟨w1, k1⟩, h1, h2⟩ := exec_bind_ok.mp h2
  cases (show w1 = w from (Echoes.ofExcept (v := w) _ _ _ _ _ h1).1)
  obtain ⟨_, _, ⟨w1, k1⟩, h1, h2⟩ := exec_bind_ok.mp h2
  exact (cwdFine_of h1).2.2

theorem withDefaults_cwd {α : Type} {q : Settings} {body : Settings → Op α} {a : α}
    (he : exec (flaky sys lost) (withDefaults q body) { env with dry := false } st (w, k) = ((.ok a, st'), s)) :
    ∃ c rest, st.stack = c :: rest ∧ ∃ q', canonicalize q = .ok q' ∧ CwdFine sys w ((env.base.overlay c).overlay q').cwd := by
  unfold withDefaults at he
  obtain ⟨q', st1, s1, h4, h5⟩ := exec_bind_ok.mp he
  obtain ⟨hq, rfl, rfl⟩ := exec_ofExcept_ok h4
  obtain ⟨e1, st2, s2, h6, h7⟩ := exec_bind_ok.mp h5
  cases h6
  obtain ⟨c, st3, s3, h8, h9⟩ := exec_bind_ok.mp h7
  obtain ⟨rfl, rfl, rest, hs⟩ := currentDefaults_ok h8
  obtain ⟨r, st4, s4, h10, _⟩ := exec_bind_ok.mp h9
  obtain ⟨c', rest', hs', hf⟩ := resolveDefaults_cwd h10
  rw [hs] at hs'
  cases hs'
  rw [overlay_absorb] at hf
  exact ⟨c, rest, hs, q', hq, hf⟩

theorem operation_inner {check : Bool} {f : Op (Option OpResult)} {r : OpResult}
    (he : exec (flaky sys lost) (operation check f) env st (w, k) = ((.ok r, st'), s)) :
    ∃ x st1, exec (flaky sys lost) f env { st with op := {} } (w, k) = ((.ok x, st1), s) := by
  rw [exec_operation] at he
  match hm : exec (flaky sys lost) f env { st with op := {} } (w, k) with
  | ((.error e, st1), s1) => rw [hm] at he; cases he
  | ((.ok none, st1), s1) => rw [hm] at he; cases he
  | ((.ok (some x), st1), s1) =>
    rw [hm] at he
    simp only at he
    split at he
    · cases he
    · cases he; exact ⟨_, _, rfl⟩

theorem directory_cwd {path : Str} {present touch check : Bool} {r : OpResult}
    (he : exec (flaky sys lost) (directory path present touch mode owner group check) { env with dry := false } st (w, k) = ((.ok r, st'), s)) :
    ∃ c rest, st.stack = c :: rest ∧ CwdFine sys w (env.base.overlay c).cwd := by
  obtain ⟨x, st1, hm⟩ := operation_inner he
  obtain ⟨_, st2, ⟨w2, k2⟩, h1, h2⟩ := exec_bind_ok.mp hm
  obtain ⟨_, rfl, hs2⟩ := exec_ofExcept_ok h1
  cases hs2
  obtain ⟨_, _, _, h3, _⟩ := exec_bind_ok.mp h2
  obtain ⟨c, rest, hs, q', hq, hf⟩ := withDefaults_cwd h3
  rw [canonicalize_ok hq] at hf
  exact ⟨c, rest, hs, hf⟩

theorem save_cwd {sha512 : Bytes → Bytes} {content : Content} {dest : Str} {r : Option OpResult}
    (he : exec (flaky sys lost) (returned (saveContent sha512 content dest mode owner group)) { env with dry := false } st (w, k) = ((.ok r, st'), s)) :
    ∃ c rest, st.stack = c :: rest ∧ CwdFine sys w (env.base.overlay c).cwd := by
  obtain ⟨_, _, _, h1, _⟩ := exec_bind_ok.mp he
  obtain ⟨_, st2, ⟨w2, k2⟩, h2, h3⟩ := exec_bind_ok.mp h1
  obtain ⟨_, rfl, hs2⟩ := exec_ofExcept_ok h2
  cases hs2
  obtain ⟨c, rest, hs, q', hq, hf⟩ := withDefaults_cwd h3
  rw [canonicalize_ok hq] at hf
  exact ⟨c, rest, hs, hf⟩

theorem store_cwd {sha512 : Bytes → Bytes} {op : Op OpResult} {path : Str} {source : Except Exn Bytes} {check : Bool} {r : OpResult}
    (hop : Stores sha512 mode owner group check op path source)
    (he : exec (flaky sys lost) op { env with dry := false } st (w, k) = ((.ok r, st'), s)) :
    ∃ c rest, st.stack = c :: rest ∧ CwdFine sys w (env.base.overlay c).cwd := by
  cases hop with
  | content content =>
    obtain ⟨x, st1, hm⟩ := operation_inner he
    obtain ⟨_, st2, ⟨w2, k2⟩, h1, h2⟩ := exec_bind_ok.mp hm
    obtain ⟨_, rfl, hs2⟩ := exec_ofExcept_ok h1
    cases hs2
    exact save_cwd (st := { st with op := {} }) h2
  | file src =>
    obtain ⟨x, st1, hm⟩ := operation_inner he
    obtain ⟨_, st2, ⟨w2, k2⟩, h1, h2⟩ := exec_bind_ok.mp hm
    obtain ⟨_, rfl, hs2⟩ := exec_ofExcept_ok h1
    cases hs2
    obtain ⟨_, st3, ⟨w3, k3⟩, h3, h4⟩ := exec_bind_ok.mp h2
    obtain ⟨_, rfl, hs3⟩ := exec_ofExcept_ok h3
    cases hs3
    exact save_cwd (st := { st with op := {} }) h4
  | templateContent =>
    obtain ⟨x, st1, hm⟩ := operation_inner he
    obtain ⟨_, st2, ⟨w2, k2⟩, h1, h2⟩ := exec_bind_ok.mp hm
    obtain ⟨_, rfl, hs2⟩ := exec_ofExcept_ok h1
    cases hs2
    obtain ⟨_, st3, ⟨w3, k3⟩, h3, h4⟩ := exec_bind_ok.mp h2
    obtain ⟨_, rfl, hs3⟩ := exec_ofExcept_ok h3
    cases hs3
    exact save_cwd (st := { st with op := {} }) h4
  | template =>
    obtain ⟨x, st1, hm⟩ := operation_inner he
    obtain ⟨_, st2, ⟨w2, k2⟩, h1, h2⟩ := exec_bind_ok.mp hm
    obtain ⟨_, rfl, hs2⟩ := exec_ofExcept_ok h1
    cases hs2
    obtain ⟨_, st3, ⟨w3, k3⟩, h3, h4⟩ := exec_bind_ok.mp h2
    obtain ⟨_, rfl, hs3⟩ := exec_ofExcept_ok h3
    cases hs3
    obtain ⟨_, st4, ⟨w4, k4⟩, h5, h6⟩ := exec_bind_ok.mp h4
    obtain ⟨_, rfl, hs4⟩ := exec_ofExcept_ok h5
    cases hs4
    exact save_cwd (st := { st with op := {} }) h6

/-- What a dry run on `v` finds of what a real run that began on `v` has made of it so far. -/
structure Ahead (j : Job) (v : World) (ds : List Loc) (fs : List (Loc × Tree)) (w : World) : Prop where
  leads : ∀ rel ∈ ds, Leads v (pathOf (j.names ++ rel)) (j.place ++ rel)
  fresh : ∀ rel, rel ∉ ds → rel ∉ fs.map (·.1) → w.fs (j.place ++ rel) = v.fs (j.place ++ rel)

variable {dirs : List Loc} {files : List (Loc × Tree)}

/-- The next place: both runs find the same there. -/
theorem Ahead.next {rel p : Loc} {m : Str} (ha : Ahead j v dirs files w) (hpr : Progress sys tools j v dirs files w) (hr : Rooted v) (hp : p ∈ dirs)
    (he : rel = p ++ [m]) (hnames : ∀ n ∈ j.names ++ rel, FileName n) (hnew : rel ∉ dirs ∧ rel ∉ files.map (·.1)) :
    Leads v (pathOf (j.names ++ rel)) (j.place ++ rel) ∧ SameLook w v (pathOf (j.names ++ rel)) false
      ∧ ((∀ t, shape (v.fs (j.place ++ rel)) ≠ .link t) → SameLook w v (pathOf (j.names ++ rel)) true) := by
  have hleads : Leads v (pathOf (j.names ++ rel)) (j.place ++ rel) := by
    have := (ha.leads p hp).child (n := m) hr (fun n hn => hnames n (by rw [he]; simp only [List.mem_append] at hn ⊢; exact hn.elim .inl fun h => .inr (.inl h)))
      (hnames m (by rw [he]; simp)) ?_
    · rwa [List.append_assoc, List.append_assoc, ← he] at this
    · intro hv
      obtain ⟨n, hn, hi⟩ := hpr.dirs p hp
      rw [← hpr.grows _ hv, hn]
      unfold shape
      simp [hi.1]
  exact ⟨hleads, hleads.same (hpr.child hp he hnames) (ha.fresh rel hnew.1 hnew.2)⟩

theorem dir_ahead {rel p : Loc} {m : Str} {st1 : St} {r : OpResult} (hm : PlainModes env st) (hj : j.dirWant = inForce env st { dirMode := mode, owner, group })
    (ht : j.tame → ∀ t, j.dirWant.dirMode.map (modeAs mode) = some t → t.length < 5 ∧ octalValue t &&& 0o6000 = 0)
    (hf : SteadyLooks sys) (hr : Rooted v) (hc : ∀ c rest, st.stack = c :: rest → CwdFine sys v (env.base.overlay c).cwd)
    (hst : st1.stack = st.stack) (hpr : Progress sys tools j v dirs [] w) (ha : Ahead j v dirs [] w) (hp : p ∈ dirs) (he : rel = p ++ [m])
    (hnew : rel ∉ dirs) (hmay : j.may rel) (hnames : ∀ n ∈ j.names ++ rel, FileName n)
    (h : exec (flaky sys lost) (directory (pathOf (j.names ++ rel)) true false mode owner group true) { env with dry := false } st1 (w, k) = ((.ok r, st'), s)) :
    exec (direct sys) (directory (pathOf (j.names ++ rel)) true false mode owner group true) { env with dry := true } st1 v = ((.ok r, st'), v)
      ∧ st'.stack = st.stack ∧ Progress sys tools j v (rel :: dirs) [] s.1 ∧ Ahead j v (rel :: dirs) [] s.1 := by
  obtain ⟨hleads, hl1, _⟩ := ha.next hpr hr hp he hnames ⟨hnew, by simp⟩
  have hacc := hpr.untouched.accounts
  obtain ⟨hst', hstep, hpr'⟩ := post_exec (dir_progress (env := { env with dry := false }) rfl hm hj ht hst hpr hp he hnew hmay hnames) h
  refine ⟨directory_foretold (sameAccounts_of hacc.1.symm hacc.2.symm) (fun c rest hs => hc c rest (hst ▸ hs))
    (stat_same hf hacc.1.symm hacc.2.symm hl1 (by intro h; cases h)) _ _ _ _ h (operation_checked h), hst', hpr', ?_, ?_⟩
  · intro q hq
    rcases List.mem_cons.mp hq with rfl | hq
    · exact hleads
    · exact ha.leads q hq
  · intro q hq _
    rw [List.mem_cons, not_or] at hq
    rw [← ha.fresh q hq.2 (by simp)]
    exact hstep.untouched.fs _ fun h => hq.1 (List.append_cancel_left h)

theorem addNested_ahead {key : Str} {r : OpResult} {st1 : St}
    (h : exec (flaky sys lost) (addNestedResult key r) { env with dry := false } st1 (w, k) = ((.ok (), st'), s)) :
    exec (direct sys) (addNestedResult key r) { env with dry := true } st1 v = ((.ok (), st'), v) ∧ st'.stack = st1.stack ∧ s.1 = w := by
  obtain ⟨h1, h2⟩ := Echoes.addNestedResult (v := v) _ _ _ _ _ _ h
  refine ⟨h2, ?_, h1⟩
  exact post_exec (Q := fun _ st' _ => st'.stack = st1.stack) (E := fun _ => True) (Post.addNested (fun _ h => h) trivial) h

theorem dirs_ahead (hm : PlainModes env st) (hj : j.dirWant = inForce env st { dirMode := mode, owner, group })
    (ht : j.tame → ∀ t, j.dirWant.dirMode.map (modeAs mode) = some t → t.length < 5 ∧ octalValue t &&& 0o6000 = 0)
    (hf : SteadyLooks sys) (hr : Rooted v) (hc : ∀ c rest, st.stack = c :: rest → CwdFine sys v (env.base.overlay c).cwd) :
    ∀ (rels : List Loc) {dirs : List Loc} {st1 : St} {w : World} {k : Nat}, st1.stack = st.stack → Progress sys tools j v dirs [] w → Ahead j v dirs [] w →
      ParentsFirst dirs rels → rels.Nodup → (∀ r ∈ rels, r ∉ dirs) → (∀ r ∈ rels, j.may r ∧ ∀ n ∈ j.names ++ r, FileName n) →
      exec (flaky sys lost) (uploadDirs mode owner group (rels.map fun rel => pathOf (j.names ++ rel))) { env with dry := false } st1 (w, k) = ((.ok (), st'), s) →
      exec (direct sys) (uploadDirs mode owner group (rels.map fun rel => pathOf (j.names ++ rel))) { env with dry := true } st1 v = ((.ok (), st'), v)
        ∧ st'.stack = st.stack ∧ ∃ ds, (∀ r, r ∈ dirs ∨ r ∈ rels → r ∈ ds) ∧ (∀ r ∈ ds, r ∈ dirs ∨ r ∈ rels)
        ∧ Progress sys tools j v ds [] s.1 ∧ Ahead j v ds [] s.1
  | [], dirs, st1, w, k, hst, hpr, ha, _, _, _, _, h => by
    rw [List.map_nil, uploadDirs] at h ⊢
    cases h
    exact ⟨rfl, hst, dirs, fun r h => h.elim id (fun h => by cases h), fun r h => .inl h, hpr, ha⟩
  | rel :: rels, dirs, st1, w, k, hst, hpr, ha, ⟨⟨p, m, he, hp⟩, hpf⟩, hnd, hnew, hall, h => by
    rw [List.map_cons, uploadDirs] at h ⊢
    rw [List.nodup_cons] at hnd
    obtain ⟨hmay, hnames⟩ := hall rel (by simp)
    obtain ⟨r, st2, s2, h1, h2⟩ := exec_bind_ok.mp h
    obtain ⟨hd1, hst2, hpr2, ha2⟩ := dir_ahead hm hj ht hf hr hc hst hpr ha hp he (hnew rel (by simp)) hmay hnames h1
    obtain ⟨u, st3, s3, h3, h4⟩ := exec_bind_ok.mp h2
    obtain ⟨hd2, hst3, hs3⟩ := addNested_ahead (v := v) h3
    obtain ⟨w3, k3⟩ := s3
    cases (show w3 = s2.1 from hs3)
    obtain ⟨hd3, hst4, ds, h5, h6, hpr3, ha3⟩ := dirs_ahead hm hj ht hf hr hc rels (hst3.trans hst2) hpr2 ha2 hpf hnd.2 (by
      intro r hr hc
      rcases List.mem_cons.mp hc with rfl | hc
      · exact hnd.1 hr
      · exact hnew r (by simp [hr]) hc) (fun r hr => hall r (by simp [hr])) h4
    refine ⟨exec_bind_ok.mpr ⟨_, _, _, hd1, exec_bind_ok.mpr ⟨_, _, _, hd2, hd3⟩⟩, hst4, ds, ?_, ?_, hpr3, ha3⟩
    · rintro r (hr | hr)
      · exact h5 r (.inl (by simp [hr]))
      · rcases List.mem_cons.mp hr with rfl | hr
        · exact h5 _ (.inl (by simp))
        · exact h5 r (.inr hr)
    · intro r hr
      rcases h6 r hr with h | h
      · rcases List.mem_cons.mp h with rfl | h
        · exact .inr (by simp)
        · exact .inl h
      · exact .inr (by simp [h])

theorem file_ahead {rel p : Loc} {m : Str} {st1 : St} {r : OpResult} {t : Tree} {c : Except Exn Bytes} (hm : PlainModes env st)
    (hj : j.fileWant = inForce env st { fileMode := mode, owner, group })
    (hf : SteadyLooks sys) (hr : Rooted v) (hc : ∀ c rest, st.stack = c :: rest → CwdFine sys v (env.base.overlay c).cwd)
    (hst : st1.stack = st.stack) (hpr : Progress sys tools j v dirs files w) (ha : Ahead j v dirs files w) (ht : t = .file c ∨ t = .fileLink c)
    (hp : p ∈ dirs) (he : rel = p ++ [m])
    (hnew : rel ∉ dirs ∧ rel ∉ files.map (·.1)) (hmay : j.may rel) (hnames : ∀ n ∈ j.names ++ rel, FileName n) (hsize : ∀ bytes, c = .ok bytes → Modest bytes.length)
    (h : exec (flaky sys lost) (upload sys.sha512 (baseName (pathOf (j.names ++ rel))) c (pathOf (j.names ++ rel)) mode owner group true)
      { env with dry := false } st1 (w, k) = ((.ok r, st'), s)) :
    exec (direct sys) (upload sys.sha512 (baseName (pathOf (j.names ++ rel))) c (pathOf (j.names ++ rel)) mode owner group true) { env with dry := true } st1 v
        = ((.ok r, st'), v)
      ∧ st'.stack = st.stack ∧ Progress sys tools j v dirs ((rel, t) :: files) s.1 ∧ Ahead j v dirs ((rel, t) :: files) s.1 := by
  obtain ⟨hleads, hl1, hl2⟩ := ha.next hpr hr hp he hnames hnew
  have hacc := hpr.untouched.accounts
  have hdest : destOf (baseName (pathOf (j.names ++ rel))) (pathOf (j.names ++ rel)) = pathOf (j.names ++ rel) := by
    rw [he, ← List.append_assoc]
    refine destOf_pathOf ?_
    rw [List.append_assoc, ← he]; exact hnames
  obtain ⟨hst', hstep, hpr'⟩ := post_exec (file_progress (env := { env with dry := false }) rfl hm hj hst hpr ht hp he hnew hmay hnames hsize) h
  have hno : ∀ t', shape (v.fs (j.place ++ rel)) ≠ .link t' := by
    intro t' hl
    have hne : v.fs (j.place ++ rel) ≠ none := by intro h0; rw [h0] at hl; cases hl
    have hg := hpr'.grows _ hne
    rw [hl] at hg
    have hmir := hpr'.files (rel, t) (by simp)
    have : ∃ n c', s.1.fs (j.place ++ rel) = some n ∧ n.kind = .file c' := by
      rcases ht with rfl | rfl <;> obtain ⟨b, n, _, hn, ⟨c', hc', _⟩, _⟩ := hmir <;> exact ⟨n, c', hn, hc'⟩
    obtain ⟨n, c', hn, hc'⟩ := this
    rw [hn] at hg
    unfold shape at hg
    simp [hc'] at hg
  have hl2 := hl2 hno
  refine ⟨upload_foretold (sameAccounts_of hacc.1.symm hacc.2.symm) (fun c rest hs => hc c rest (hst ▸ hs))
    (by rw [hdest]; exact stat_same hf hacc.1.symm hacc.2.symm hl1 (fun _ => hl2)) (by rw [hdest]; exact download_same hf hl2) _ _ _ _ h (operation_checked h), hst', hpr', ha.leads, ?_⟩
  intro q hq hq'
  simp only [List.map_cons, List.mem_cons, not_or] at hq'
  rw [← ha.fresh q hq hq'.2]
  exact hstep.untouched.fs _ fun h => hq'.1 (List.append_cancel_left h)

theorem Ahead.addSpecial {x : Loc × Tree} (ha : Ahead j v dirs files w) : Ahead j v dirs (x :: files) w :=
  ⟨ha.leads, fun q h1 h2 => ha.fresh q h1 (by simp only [List.map_cons, List.mem_cons, not_or] at h2; exact h2.2)⟩

theorem files_ahead (hm : PlainModes env st) (hj : j.fileWant = inForce env st { fileMode := mode, owner, group })
    (hf : SteadyLooks sys) (hr : Rooted v) (hc : ∀ c rest, st.stack = c :: rest → CwdFine sys v (env.base.overlay c).cwd) :
    ∀ (rels : List (Loc × Tree)) {files : List (Loc × Tree)} {st1 : St} {w : World} {k : Nat}, st1.stack = st.stack →
      Progress sys tools j v dirs files w → Ahead j v dirs files w →
      (rels.map (·.1)).Nodup → (∀ x ∈ rels, x.1 ∉ dirs ∧ x.1 ∉ files.map (·.1)) →
      (∀ x ∈ rels, x.2.isDir = false ∧ (x.2.Transferred → j.may x.1) ∧ (∀ t, x.2 = t → ¬ t.Transferred → ¬ j.may x.1) ∧ (∃ p m, x.1 = p ++ [m] ∧ p ∈ dirs)
        ∧ (∀ n ∈ j.names ++ x.1, FileName n) ∧ ∀ bytes, x.2.content? = some (.ok bytes) → Modest bytes.length) →
      exec (flaky sys lost) (uploadFiles sys.sha512 mode owner group (rels.map fun x => (x.2, pathOf (j.names ++ x.1)))) { env with dry := false } st1 (w, k) = ((.ok (), st'), s) →
      exec (direct sys) (uploadFiles sys.sha512 mode owner group (rels.map fun x => (x.2, pathOf (j.names ++ x.1)))) { env with dry := true } st1 v = ((.ok (), st'), v)
        ∧ st'.stack = st.stack
  | [], files, st1, w, k, hst, hpr, ha, _, _, _, h => by
    rw [List.map_nil, uploadFiles] at h ⊢
    cases h
    exact ⟨rfl, hst⟩
  | (rel, t) :: rels, files, st1, w, k, hst, hpr, ha, hnd, hnew, hall, h => by
    rw [List.map_cons, uploadFiles] at h ⊢
    rw [List.map_cons, List.nodup_cons] at hnd
    obtain ⟨hnd0, hmay, hnot, ⟨p, m, he, hp⟩, hnames, hsize⟩ := hall (rel, t) (by simp)
    have hnew' : ∀ x ∈ rels, x.1 ∉ dirs ∧ x.1 ∉ ((rel, t) :: files).map (·.1) := by
      intro x hx
      refine ⟨(hnew x (by simp [hx])).1, ?_⟩
      rw [List.map_cons, List.mem_cons, not_or]
      exact ⟨fun h => hnd.1 (h ▸ List.mem_map.mpr ⟨x, hx, rfl⟩), (hnew x (by simp [hx])).2⟩
    cases hcon : t.content? with
    | none =>
      have ht := content_none hcon hnd0
      simp only [hcon] at h ⊢
      refine files_ahead hm hj hf hr hc rels hst (hpr.addFile (x := (rel, t)) ?_) ha.addSpecial hnd.2 hnew' (fun x hx => hall x (by simp [hx])) h
      subst ht
      refine hpr.untouched.fs _ ?_
      rintro ⟨r, hr, heq⟩
      rw [← List.append_cancel_left heq] at hr
      exact hnot _ rfl (fun h => h) hr
    | some c =>
      have hm' : j.may rel := hmay (by rcases content_store hcon with rfl | rfl <;> trivial)
      simp only [hcon] at h ⊢
      obtain ⟨r, st2, s2, h1, h2⟩ := exec_bind_ok.mp h
      obtain ⟨hd1, hst2, hpr2, ha2⟩ := file_ahead hm hj hf hr hc hst hpr ha (content_store hcon) hp he (hnew (rel, t) (by simp)) hm' hnames
        (fun b hb => hsize b (by rw [hcon, hb])) h1
      obtain ⟨u, st3, s3, h3, h4⟩ := exec_bind_ok.mp h2
      obtain ⟨hd2, hst3, hs3⟩ := addNested_ahead (v := v) h3
      obtain ⟨w3, k3⟩ := s3
      cases (show w3 = s2.1 from hs3)
      obtain ⟨hd3, hst4⟩ := files_ahead hm hj hf hr hc rels (hst3.trans hst2) hpr2 ha2 hnd.2 hnew' (fun x hx => hall x (by simp [hx])) h4
      exact ⟨exec_bind_ok.mpr ⟨_, _, _, hd1, exec_bind_ok.mpr ⟨_, _, _, hd2, hd3⟩⟩, hst4⟩

end

end Verif.Ops
