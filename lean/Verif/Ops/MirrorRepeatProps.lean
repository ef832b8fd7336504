/-
C39 and C40 for `upload_dir`: mirroring a directory tree again.
-/
import Verif.Ops.MirrorProps
import Verif.Ops.RepeatProps

namespace Verif.Ops

open Script Remote
open Client (Prog direct lostConnection)

section
variable {sys : Sys} {lost : Nat → Option Bool} {env : Env} {st : St} {w w' : World}
variable {tools : Tools} {mode owner group : Option Str} {n : Node}

theorem Post.and_execution {α : Type} {m : Op α} {Q : α → St → World → Prop} {E : World → Prop} {R : α → St → Prop} (h : Post sys lost m env st w Q E)
    (hx : ∀ t a st', Execution m env st t (.ok a) st' → R a st') : Post sys lost m env st w (fun a st' w' => Q a st' w' ∧ R a st') E := by
  intro k
  have hk := h k
  have hr := runs_recorded (flaky sys lost) (m env st) (w, k)
  match hm : exec (flaky sys lost) m env st (w, k) with
  | ((.ok a, st'), (w', k')) =>
    rw [hm] at hk
    refine ⟨hk, hx (recorded (flaky sys lost) (m env st) (w, k)) a st' ?_⟩
    unfold exec at hm
    rw [hm] at hr
    exact hr
  | ((.error e, st'), (w', k')) => rw [hm] at hk; exact hk

theorem Post.trivial {α : Type} (m : Op α) : Post sys lost m env st w (fun _ _ _ => True) (fun _ => True) := by
  intro k
  match exec (flaky sys lost) m env st (w, k) with
  | ((.ok a, st'), (w', k')) => exact True.intro
  | ((.error e, st'), (w', k')) => exact True.intro

/-- Equal states of all nested results are equal states. -/
theorem nested_same {l : List (Str × Dict × Dict)} (hn : (l.map (·.1)).Nodup) (h : ∀ e ∈ l, e.2.1.eq e.2.2 = true) :
    Dict.eq (l.map fun e => (e.1, .dict e.2.1)) (l.map fun e => (e.1, .dict e.2.2)) = true := by
  simp only [Dict.eq, Bool.and_eq_true, List.length_map, beq_self_eq_true, true_and]
  refine (within_iff _ _).mpr fun k v hkv => ?_
  obtain ⟨e, he, hev⟩ := List.mem_map.mp hkv
  cases hev
  refine ⟨_, Dict.get_of_mem (d := l.map fun e => (e.1, Val.dict e.2.2)) (by rw [List.map_map]; exact hn) (k := e.1) (v := .dict e.2.2)
    (List.mem_map.mpr ⟨e, he, rfl⟩), ?_⟩
  rw [← dict_eq_iff]
  exact h e he

/-- All nested results so far report no change. -/
def AllEqual (st : St) : Prop := ∃ l, Nested l st ∧ ∀ e ∈ l, e.2.1.eq e.2.2 = true

theorem Post.addEqual {key : Str} {r : OpResult} (h : AllEqual st) (hr : r.initial.eq r.final = true) {E : World → Prop} (hE : E w) :
    Post sys lost (addNestedResult key r) env st w (fun _ st' w' => (st'.stack = st.stack ∧ w' = w) ∧ AllEqual st') E := by
  obtain ⟨l, hn, hl⟩ := h
  refine (Post.addNested (fun st' h => ⟨h, rfl⟩) hE).and_execution fun t a st' he => ?_
  obtain ⟨_, hn'⟩ := nested_add hn he
  refine ⟨_, hn', fun e he => ?_⟩
  rcases List.mem_append.mp he with he | he
  · exact hl e he
  · cases List.mem_singleton.mp he; exact hr

theorem AllEqual.of_op {st1 : St} (h : AllEqual st) (ho : st1.op = st.op) : AllEqual st1 := by
  obtain ⟨l, hn, hl⟩ := h
  refine ⟨l, ?_, hl⟩
  unfold Nested
  rw [ho]
  exact hn

theorem canonicalModes_congr {st1 : St} (h : st1.stack = st.stack) (hm : CanonicalModes env st) : CanonicalModes env st1 := by
  unfold CanonicalModes inForce at hm ⊢
  rw [h]; exact hm

theorem NoAliases.same (hna : NoAliases w) (h : Same w w') : NoAliases w' := by
  rw [h]; exact ⟨hna.users, hna.groups⟩

/-- A directory at this path is as requested, with exactly the requested mode. -/
def DirReady (w : World) (want : Settings) (path : Str) : Prop :=
  ∃ l n, lookup w.fs w.cwd path false = .ok (l, n) ∧ n.kind = .dir ∧ OwnedBy w want n ∧ ∃ m, want.dirMode = some m ∧ Py.parseInt 8 m = some (n.perm : Int)

/-- A file at this path is as requested, with exactly the requested mode. -/
def FileReady (sys : Sys) (w : World) (want : Settings) (path : Str) (source : Except Exn Bytes) : Prop :=
  ∃ l n c bytes, lookup w.fs w.cwd path false = .ok (l, n) ∧ n.kind = .file c ∧ source = .ok bytes ∧ sys.sha512 c = sys.sha512 bytes ∧ OwnedBy w want n
    ∧ ∃ m, want.fileMode = some m ∧ Py.parseInt 8 m = some (n.perm : Int)

theorem dirs_calm (hord : Ordinary sys tools w) (hm : PlainModes env st) (hcm : CanonicalModes env st) (hna : NoAliases w)
    (hown : OwnersSet (inForce env st { dirMode := mode, owner, group })) :
    ∀ (ps : List Str) {st1 : St} {w1 : World}, st1.stack = st.stack → AllEqual st1 → Same w w1 →
      (∀ p ∈ ps, DirReady w (inForce env st { dirMode := mode, owner, group }) p) →
      Post sys lost (uploadDirs mode owner group ps) env st1 w1 (fun _ st' w' => (st'.stack = st.stack ∧ Same w w') ∧ AllEqual st') (Same w)
  | [], st1, w1, hst, heq, hs, _ => by
    rw [uploadDirs]
    exact Post.pure ⟨⟨hst, hs⟩, heq⟩
  | p :: ps, st1, w1, hst, heq, hs, hall => by
    rw [uploadDirs]
    obtain ⟨l, n, hlk, hk, hob, m, hmm, hi⟩ := hall p (by simp)
    have hf := inForce_congr (env := env) hst { dirMode := mode, owner, group }
    have hcalm := directory_calm (lost := lost) (check := true) (hs.ordinary hord) (plainModes_congr hst hm) (canonicalModes_congr hst hcm) (hna.same hs)
      (by rw [hf]; exact hown.1) (by rw [hf]; exact hown.2) (by rw [same_fs hs, same_cwd hs]; exact hlk) hk
      (by rw [hf]; exact hob.congr (same_users hs) (same_groups hs)) (m := m) (by rw [hf]; exact hmm) hi
    refine Post.bind (((hcalm.withStack (balanced_directory _ _ _ _ _ _ _)).and_execution fun t a st' he => operation_kept he).mono ?_ ?_)
    · rintro r st2 w2 ⟨⟨⟨⟨hset, hs2⟩, _⟩, hst2⟩, hop⟩
      have hs' : Same w w2 := by rw [hs2, hs]; rfl
      refine Post.bind ((Post.addEqual (heq.of_op hop) hset.1.2 hs').mono ?_ fun _ h => h)
      rintro _ st3 w3 ⟨⟨hst3, rfl⟩, heq3⟩
      exact dirs_calm hord hm hcm hna hown ps (hst3.trans (hst2.trans hst)) heq3 hs' fun p hp => hall p (by simp [hp])
    · intro w2 hs2; rw [hs2, hs]; rfl

theorem files_calm (hord : Ordinary sys tools w) (hm : PlainModes env st) (hcm : CanonicalModes env st) (hna : NoAliases w)
    (hown : OwnersSet (inForce env st { fileMode := mode, owner, group })) :
    ∀ (ps : List (Tree × Str)) {st1 : St} {w1 : World}, st1.stack = st.stack → AllEqual st1 → Same w w1 →
      (∀ x ∈ ps, ∀ c, x.1.content? = some c → FileReady sys w (inForce env st { fileMode := mode, owner, group }) x.2 c ∧ destOf (baseName x.2) x.2 = x.2) →
      Post sys lost (uploadFiles sys.sha512 mode owner group ps) env st1 w1 (fun _ st' w' => (st'.stack = st.stack ∧ Same w w') ∧ AllEqual st') (Same w)
  | [], st1, w1, hst, heq, hs, _ => by
    rw [uploadFiles]
    exact Post.pure ⟨⟨hst, hs⟩, heq⟩
  | (t, p) :: ps, st1, w1, hst, heq, hs, hall => by
    rw [uploadFiles]
    cases hc : t.content? with
    | none => exact files_calm hord hm hcm hna hown ps hst heq hs fun x hx => hall x (by simp [hx])
    | some source =>
      obtain ⟨⟨l, n, c, bytes, hlk, hk, hsrc, hsum, hob, m, hmm, hi⟩, hdest⟩ := hall (t, p) (by simp) source hc
      dsimp only at hlk hdest
      have hf := inForce_congr (env := env) hst { fileMode := mode, owner, group }
      have hop := Stores.file (sha512 := sys.sha512) (mode := mode) (owner := owner) (group := group) (check := true) (baseName p) source p
      rw [hdest] at hop
      have hcalm := store_calm (lost := lost) hop (hs.ordinary hord) (plainModes_congr hst hm) (canonicalModes_congr hst hcm) (hna.same hs)
        (by rw [hf]; exact hown.1) (by rw [hf]; exact hown.2) (by rw [same_fs hs, same_cwd hs]; exact hlk) hk
        (fun b hb => by rw [hsrc] at hb; cases hb; exact hsum)
        (by rw [hf]; exact hob.congr (same_users hs) (same_groups hs)) (m := m) (by rw [hf]; exact hmm) hi
      refine Post.bind (((hcalm.withStack (balanced_upload _ _ _ _ _ _ _ _)).and_execution fun t a st' he => operation_kept he).mono ?_ ?_)
      · rintro r st2 w2 ⟨⟨⟨⟨hset, hs2⟩, _⟩, hst2⟩, hop⟩
        have hs' : Same w w2 := by rw [hs2, hs]; rfl
        refine Post.bind ((Post.addEqual (heq.of_op hop) hset.1.2 hs').mono ?_ fun _ h => h)
        rintro _ st3 w3 ⟨⟨hst3, rfl⟩, heq3⟩
        exact files_calm hord hm hcm hna hown ps (hst3.trans (hst2.trans hst)) heq3 hs' fun x hx => hall x (by simp [hx])
      · intro w2 hs2; rw [hs2, hs]; rfl

theorem uploadDir_calm {src dest : Str} {es : List (Str × Tree)} {names : List Str} {dirMode fileMode : Option Str} {check : Bool}
    (hord : Ordinary sys tools w) (hm : PlainModes env st) (hcm : CanonicalModes env st) (hna : NoAliases w)
    (hown : OwnersSet (inForce env st { dirMode, owner, group })) (hown' : OwnersSet (inForce env st { fileMode, owner, group }))
    (hp : Tree.Proper (.dir es)) (hl : Lands src dest names)
    (hdirs : ∀ rel ∈ relDirs es, DirReady w (inForce env st { dirMode, owner, group }) (pathOf (names ++ rel)))
    (hfiles : ∀ x ∈ relFiles es, ∀ c, x.2.content? = some c → FileReady sys w (inForce env st { fileMode, owner, group }) (pathOf (names ++ x.1)) c) :
    Post sys lost (uploadDir sys.sha512 src (.dir es) dest dirMode fileMode owner group check) env st w
      (fun r _ w' => (Settled w r w' ∧ Same w w') ∧ (check = true → r.success = true)) (Same w) := by
  obtain ⟨hdest, hnames⟩ := destOf_lands hl
  unfold uploadDir
  refine Post.operation (Post.bind (Post.ofRet rfl (Post.bind (Post.ofExcept (fun _ _ => ?_) rfl))))
  rw [if_neg (by simp [Tree.isDir])]
  simp only [hdest]
  rw [destDirs_eq hp hnames, destFiles_eq hp hnames]
  refine Post.bind ((dirs_calm (st := st) hord hm hcm hna hown _ (w1 := w) (st1 := { stack := st.stack, op := { hasNested := true }, shown := st.shown }) rfl
    ⟨[], ⟨rfl, rfl, rfl, by simp⟩, by simp⟩ rfl ?_).mono ?_ fun _ h => h)
  · intro p hpm
    obtain ⟨rel, hr, rfl⟩ := List.mem_map.mp hpm
    exact hdirs rel hr
  · rintro _ st1 w1 ⟨⟨hst1, hs1⟩, heq1⟩
    refine Post.bind ((files_calm (st := st) hord hm hcm hna hown' _ hst1 heq1 hs1 ?_).mono ?_ fun _ h => h)
    · intro x hx c hc
      obtain ⟨y, hy, rfl⟩ := List.mem_map.mp hx
      refine ⟨hfiles y hy c hc, ?_⟩
      obtain ⟨p, m, he, _⟩ := relFiles_parent hy
      dsimp only
      rw [he, ← List.append_assoc]
      refine destOf_pathOf ?_
      rw [List.append_assoc, ← he]
      intro n hn
      rcases List.mem_append.mp hn with hn | hn
      · exact hnames n hn
      · exact at_names hp (relFiles_mem.mp hy).1 n hn
    · rintro _ st2 w2 ⟨⟨hst2, hs2⟩, l, ⟨hn1, hni, hnf, hnd⟩, heq⟩
      refine Post.returned ?_
      rcases success_cases env st2 with ⟨e, h⟩ | ⟨i, f, hi, hf, h⟩
      · exact Post.ofErr h hs2
      · rw [hi] at hni
        rw [hf] at hnf
        simp only [Option.getD_some] at hni hnf
        have heq' : i.eq f = true := by rw [hni, hnf]; exact nested_same hnd heq
        refine Post.ofRet h ⟨hs2, ?_⟩
        rintro _ ⟨⟩ hc
        exact ⟨⟨⟨⟨⟨rfl, by simp [heq']⟩, heq'⟩, hs2⟩, hs2⟩, hc⟩

theorem natStr_short {i : Nat} (h : i < 4096) : (Py.natStr 8 i).length < 5 := by
  have : ∀ f n, n < 4096 → (Py.digitsAux 8 f n).length ≤ 4 := by
    intro f n hn
    match f with
    | 0 => simp [Py.digitsAux]
    | 1 => unfold Py.digitsAux; split <;> simp [Py.digitsAux]
    | 2 => unfold Py.digitsAux; split <;> (try unfold Py.digitsAux) <;> (try split) <;> simp [Py.digitsAux]
    | 3 =>
      unfold Py.digitsAux; split
      · simp
      · unfold Py.digitsAux; split
        · simp
        · unfold Py.digitsAux; split <;> simp [Py.digitsAux]
    | f + 4 =>
      unfold Py.digitsAux; split
      · simp
      · unfold Py.digitsAux; split
        · simp
        · unfold Py.digitsAux; split
          · simp
          · unfold Py.digitsAux; split
            · simp
            · omega
  rw [Py.natStr, List.length_reverse, List.length_map]
  have := this (i + 1) i h
  omega

theorem IsDirectory.exact {want : Settings} (h : IsDirectory w want n) (hb : NoSetIds want.dirMode) (hc : n.perm &&& 0o6000 = 0) :
    ∃ m, want.dirMode = some m ∧ Py.parseInt 8 m = some (n.perm : Int) := by
  obtain ⟨hk, hob, m, i, hmm, hi, hperm, _⟩ := h
  refine ⟨m, hmm, ?_⟩
  have e2 := (hb m i hmm hi).2
  have : n.perm = i := by
    apply Nat.eq_of_testBit_eq
    intro k
    have a1 := congrArg (fun x => x.testBit k) hperm
    have a2 := congrArg (fun x => x.testBit k) hc
    have a3 := congrArg (fun x => x.testBit k) e2
    simp only [Nat.testBit_or, Nat.testBit_and, Nat.zero_testBit] at a1 a2 a3
    cases hb : Nat.testBit 0o6000 k <;> simp_all
  rw [this, hi]

theorem IsFile.exact {want : Settings} {bytes : Bytes} (h : IsFile sys w want bytes n) (hb : NoSetIds want.fileMode) :
    ∃ m, want.fileMode = some m ∧ Py.parseInt 8 m = some (n.perm : Int) := by
  obtain ⟨_, hob, m, i, hmm, hi, hlow, hwithin⟩ := h
  refine ⟨m, hmm, ?_⟩
  obtain ⟨b1, b2⟩ := hb m i hmm hi
  rw [Nat.mod_eq_of_lt b1] at hlow hwithin
  have : n.perm = i := by
    apply Nat.eq_of_testBit_eq
    intro k
    have a1 := congrArg (fun x => x.testBit k) hlow
    have a2 := congrArg (fun x => x.testBit k) hwithin
    have a3 := congrArg (fun x => x.testBit k) b2
    simp only [Nat.testBit_and, Nat.zero_testBit] at a1 a2 a3
    by_cases hk12 : k < 12
    · have hb : Nat.testBit 0o1777 k = !Nat.testBit 0o6000 k := by
        have : ∀ k < 12, Nat.testBit 0o1777 k = !Nat.testBit 0o6000 k := by decide
        exact this k hk12
      rw [hb] at a1
      cases hb6 : Nat.testBit 0o6000 k <;> simp_all
    · have hik : i.testBit k = false := Nat.testBit_lt_two_pow (Nat.lt_of_lt_of_le b1 (by
        rw [show (0o10000 : Nat) = 2 ^ 12 from rfl]; exact Nat.pow_le_pow_right (by decide) (by omega)))
      simp_all
  rw [this, hi]

theorem same_perm {want : Option Str} {a b : Nat} (ha : ∃ m, want = some m ∧ Py.parseInt 8 m = some (a : Int))
    (hb : ∃ m, want = some m ∧ Py.parseInt 8 m = some (b : Int)) : a = b := by
  obtain ⟨m, rfl, h1⟩ := ha
  obtain ⟨m', h, h2⟩ := hb
  cases h
  rw [h1] at h2
  simp only [Option.some.injEq] at h2
  omega

/-- No directory of the host that corresponds to one of the tree has setuid or setgid bits, and the top would not inherit them either. -/
def NoSetIdsAround (w : World) (names : List Str) (tree : Tree) : Prop :=
  ∀ l, Denotes w (pathOf names) l →
    (∀ rel t n, tree.At rel t → t.Transferred → w.fs (l ++ rel) = some n → n.kind = .dir → n.perm &&& 0o6000 = 0)
    ∧ (w.fs l = none → ∀ p, w.fs l.dropLast = some p → p.perm &&& 0o2000 = 0)

theorem tame_of {dirMode : Option Str} {es : List (Str × Tree)} {names : List Str} {l : Loc} (hcm : CanonicalModes env st)
    (hdbits : NoSetIds (inForce env st { dirMode, owner, group }).dirMode) (hclean : NoSetIdsAround w names (.dir es)) (hden : Denotes w (pathOf names) l)
    (hi : IsDirectory w' (inForce env st { dirMode, owner, group }) n) : Tame env st dirMode owner group es w l := by
  obtain ⟨_, _, m, i, hmm, hi, _⟩ := hi
  obtain ⟨b1, b2⟩ := hdbits m i hmm hi
  refine ⟨fun t ht => ?_, fun rel t h h' n hn hk => (hclean l hden).1 rel t n h h' hn hk, ?_⟩
  · rw [mode_again (fun hg => ?_) hmm hi] at ht
    · cases ht
      rw [octalValue_natStr]
      exact ⟨natStr_short b1, b2⟩
    · subst hg
      exact inForce_dir hcm hmm
  · rintro ⟨h1, p, h2, h3⟩
    exact h3 ((hclean l hden).2 h1 p h2)

end

/-! ### C39 -/

/-- C39 for `upload_dir`. After it has succeeded, doing it again has no effect and reports no change. Assumed: as for `directory`
and `upload`, and that no setuid or setgid bits are found on the directories, which could not be cleared and would be inherited. -/
theorem C39_upload_dir_idempotent_partial (sys : Sys) (tools : Tools) (lost : Nat → Option Bool) (env : Env) (st : St) (w : World)
    (hord : Ordinary sys tools w) (hm : PlainModes env st) (hcm : CanonicalModes env st) (hna : NoAliases w) (hdry : env.dry = false)
    (src dest : Str) (entries : List (Str × Tree)) (names : List Str)
    (hp : Tree.Proper (.dir entries)) (hsize : Tree.Storable (.dir entries)) (hl : Lands src dest names)
    (dirMode fileMode owner group : Option Str) (check : Bool)
    (hown : OwnersSet (inForce env st { dirMode, fileMode, owner, group }))
    (hbits : NoSetIds (inForce env st { fileMode, owner, group }).fileMode) (hdbits : NoSetIds (inForce env st { dirMode, owner, group }).dirMode)
    (hclean : NoSetIdsAround w names (.dir entries))
    (r : OpResult) (hr : (perform sys lost (uploadDir sys.sha512 src (.dir entries) dest dirMode fileMode owner group check) env st w).1 = .ok r) :
    NothingToDo sys (uploadDir sys.sha512 src (.dir entries) dest dirMode fileMode owner group check) env st
      (perform sys lost (uploadDir sys.sha512 src (.dir entries) dest dirMode fileMode owner group check) env st w).2 := by
  obtain ⟨h1, l, hden, hkept, ⟨hord', hres⟩, hall⟩ := post_ok (mirror_post hord hm hdry hp hsize hl) hr
  have hacc := hkept.untouched.accounts
  have hna' : NoAliases (perform sys lost (uploadDir sys.sha512 src (.dir entries) dest dirMode fileMode owner group check) env st w).2 :=
    ⟨by rw [hacc.1]; exact hna.users, by rw [hacc.2]; exact hna.groups⟩
  obtain ⟨n0, _, hn0⟩ : ∃ n, _ ∧ IsDirectory w (inForce env st { dirMode, owner, group }) n := hall [] _ (.here _)
  obtain ⟨hc, _⟩ := hkept.clean (tame_of hcm hdbits hclean hden hn0)
  refine nothing_of_calm (check := check) fun lost' => uploadDir_calm hord' hm hcm hna' hown hown hp hl ?_ ?_
  · intro rel hrel
    obtain ⟨t, hat, hd⟩ := relDirs_mem.mp hrel
    have : t.Transferred ∧ ∃ n, (perform sys lost (uploadDir sys.sha512 src (.dir entries) dest dirMode fileMode owner group check) env st w).2.fs (l ++ rel) = some n
        ∧ IsDirectory w (inForce env st { dirMode, owner, group }) n := by
      have := hall rel t hat
      cases t with
      | dir => exact ⟨trivial, this⟩
      | dirLink => exact ⟨trivial, this⟩
      | file => cases hd
      | fileLink => cases hd
      | special => cases hd
    obtain ⟨htr, n, hn, hi⟩ := this
    obtain ⟨m, hmm, hpm⟩ := hi.exact hdbits (hc rel ⟨t, hat, htr⟩ n hn hi.1)
    exact ⟨_, n, lookup_of (hres rel t hat) hn, hi.1, hi.2.1.congr hacc.1 hacc.2, m, hmm, hpm⟩
  · intro x hx c hc
    obtain ⟨hat, hd⟩ := relFiles_mem.mp hx
    have : ∃ bytes n, c = .ok bytes ∧ (perform sys lost (uploadDir sys.sha512 src (.dir entries) dest dirMode fileMode owner group check) env st w).2.fs (l ++ x.1) = some n
        ∧ IsFile sys w (inForce env st { fileMode, owner, group }) bytes n := by
      have := hall x.1 x.2 hat
      obtain ⟨rel, t⟩ := x
      cases t with
      | dir => cases hd
      | dirLink => cases hd
      | file => cases hc; exact this
      | fileLink => cases hc; exact this
      | special => cases hc
    obtain ⟨bytes, n, hsrc, hn, hi⟩ := this
    obtain ⟨m, hmm, hpm⟩ := hi.exact hbits
    obtain ⟨⟨c', hk, hsum⟩, hob, _⟩ := hi
    exact ⟨_, n, c', bytes, lookup_of (hres x.1 x.2 hat) hn, hk, hsrc, hsum, hob.congr hacc.1 hacc.2, m, hmm, hpm⟩

/-! ### C40 -/

/-- C40 for `upload_dir`. If it is interrupted at any point and then done again, the host is as after an uninterrupted run. Assumed: as for C39, and
that no other content has the checksum of one of the files. -/
theorem C40_upload_dir_repeatable_partial (sys : Sys) (tools : Tools) (env : Env) (st : St) (w : World)
    (hord : Ordinary sys tools w) (hm : PlainModes env st) (hcm : CanonicalModes env st) (hdry : env.dry = false)
    (src dest : Str) (entries : List (Str × Tree)) (names : List Str)
    (hp : Tree.Proper (.dir entries)) (hsize : Tree.Storable (.dir entries)) (hl : Lands src dest names)
    (dirMode fileMode owner group : Option Str) (check : Bool)
    (hown : OwnersSet (inForce env st { dirMode, fileMode, owner, group }))
    (hbits : NoSetIds (inForce env st { fileMode, owner, group }).fileMode) (hdbits : NoSetIds (inForce env st { dirMode, owner, group }).dirMode)
    (hclean : NoSetIdsAround w names (.dir entries))
    (hsum : ∀ rel bytes other, Tree.At (.dir entries) rel (.file (.ok bytes)) ∨ Tree.At (.dir entries) rel (.fileLink (.ok bytes)) →
      sys.sha512 other = sys.sha512 bytes → other = bytes) :
    Repeatable sys (uploadDir sys.sha512 src (.dir entries) dest dirMode fileMode owner group check) env st w := by
  intro lost lost1 lost2 r r2 hr _ hr2 _
  obtain ⟨_, l, hden, hkept, _, hall⟩ := post_ok (mirror_post hord hm hdry hp hsize hl) hr
  obtain ⟨n0, _, hn0⟩ : ∃ n, _ ∧ IsDirectory w (inForce env st { dirMode, owner, group }) n := hall [] _ (.here _)
  have htame := tame_of hcm hdbits hclean hden hn0
  -- the interrupted run
  have hmid := post_world (lost := lost1) (mirror_post (check := check) (dirMode := dirMode) (fileMode := fileMode) (owner := owner) (group := group) hord hm hdry hp hsize hl)
    (fun _ _ _ h => .inr ⟨_, h.2.choose_spec.1, h.2.choose_spec.2.1⟩)
  revert hr2
  generalize (perform sys lost1 (uploadDir sys.sha512 src (.dir entries) dest dirMode fileMode owner group check) env st w).2 = w1 at hmid ⊢
  intro hr2
  have hk1 : Kept sys tools (mirrorJob env st dirMode fileMode owner group names entries w l) w w1 := by
    have hrefl : Kept sys tools (mirrorJob env st dirMode fileMode owner group names entries w l) w w :=
      ⟨⟨fun _ _ => rfl, rfl⟩, fun p m h => absurd rfl h, hord, .refl _, fun ht => ⟨fun rel ⟨t, h, h'⟩ => ht.2.1 rel t h h', ht.2.2⟩⟩
    rcases hmid with h | ⟨l', hden', h⟩
    · exact hrefl.same h
    · have : l' = l := by have := hden'.symm.trans hden; cases this; rfl
      subst this; exact h
  have hcwd : w1.cwd = w.cwd := by rw [hk1.untouched.rest]
  have hden1 : Denotes w1 (pathOf names) l := by
    unfold Denotes
    rw [hcwd]
    exact resolve_grows hk1.grows hden
  obtain ⟨_, l2, hden2, hkept2, _, hall2⟩ := post_ok (mirror_post hk1.ordinary hm hdry hp hsize hl) hr2
  have : l2 = l := by have := hden2.symm.trans hden1; cases this; rfl
  subst this
  have htame1 : Tame env st dirMode owner group entries w1 l2 :=
    ⟨htame.1, fun rel t h h' => (hk1.clean htame).1 rel ⟨t, h, h'⟩, (hk1.clean htame).2⟩
  have hacc1 := hk1.untouched.accounts
  have key : ∀ q, (∃ rel t, Tree.At (.dir entries) rel t ∧ t.Transferred ∧ q = l2 ++ rel) → ∃ a b,
      (perform sys lost (uploadDir sys.sha512 src (.dir entries) dest dirMode fileMode owner group check) env st w).2.fs q = some a
      ∧ (perform sys lost2 (uploadDir sys.sha512 src (.dir entries) dest dirMode fileMode owner group check) env st w1).2.fs q = some b ∧ SameFile a b := by
    rintro q ⟨rel, t, hat, htr, rfl⟩
    have m1 := hall rel t hat
    have m2 := hall2 rel t hat
    have hd : ∀ a b, (perform sys lost (uploadDir sys.sha512 src (.dir entries) dest dirMode fileMode owner group check) env st w).2.fs (l2 ++ rel) = some a →
        (perform sys lost2 (uploadDir sys.sha512 src (.dir entries) dest dirMode fileMode owner group check) env st w1).2.fs (l2 ++ rel) = some b →
        IsDirectory w (inForce env st { dirMode, owner, group }) a → IsDirectory w1 (inForce env st { dirMode, owner, group }) b → SameFile a b := by
      intro a b ha hb ia ib
      obtain ⟨o1, o2⟩ := owned_same hacc1.1 hacc1.2 hown.1 hown.2 ia.2.1 ib.2.1
      refine ⟨.inl (ia.1.trans ib.1.symm), fun _ => same_perm (ia.exact hdbits ?_) (ib.exact hdbits ?_), o1, o2⟩
      · exact (hkept.clean htame).1 rel ⟨t, hat, htr⟩ a ha ia.1
      · exact (hkept2.clean htame1).1 rel ⟨t, hat, htr⟩ b hb ib.1
    have hf : ∀ bytes a b, Tree.At (.dir entries) rel (.file (.ok bytes)) ∨ Tree.At (.dir entries) rel (.fileLink (.ok bytes)) →
        IsFile sys w (inForce env st { fileMode, owner, group }) bytes a → IsFile sys w1 (inForce env st { fileMode, owner, group }) bytes b → SameFile a b := by
      intro bytes a b hb ia ib
      obtain ⟨o1, o2⟩ := owned_same hacc1.1 hacc1.2 hown.1 hown.2 ia.2.1 ib.2.1
      obtain ⟨c1, k1, s1⟩ := ia.1
      obtain ⟨c2, k2, s2⟩ := ib.1
      refine ⟨.inl ?_, fun _ => same_perm (ia.exact hbits) (ib.exact hbits), o1, o2⟩
      rw [k1, k2, hsum rel bytes c1 hb s1, hsum rel bytes c2 hb s2]
    cases t with
    | special => cases htr
    | dir =>
      obtain ⟨a, ha, ia⟩ := m1
      obtain ⟨b, hb, ib⟩ := m2
      exact ⟨a, b, ha, hb, hd a b ha hb ia ib⟩
    | dirLink =>
      obtain ⟨a, ha, ia⟩ := m1
      obtain ⟨b, hb, ib⟩ := m2
      exact ⟨a, b, ha, hb, hd a b ha hb ia ib⟩
    | file =>
      obtain ⟨bytes, a, rfl, ha, ia⟩ := m1
      obtain ⟨_, b, e, hb, ib⟩ := m2
      cases e
      exact ⟨a, b, ha, hb, hf bytes a b (.inl hat) ia ib⟩
    | fileLink =>
      obtain ⟨bytes, a, rfl, ha, ia⟩ := m1
      obtain ⟨_, b, e, hb, ib⟩ := m2
      cases e
      exact ⟨a, b, ha, hb, hf bytes a b (.inr hat) ia ib⟩
  refine ⟨fun q => ?_, ?_⟩
  · by_cases hq : ∃ rel t, Tree.At (.dir entries) rel t ∧ t.Transferred ∧ q = l2 ++ rel
    · exact .inr (key q hq)
    · have hq' : ¬ ∃ rel, (mirrorJob env st dirMode fileMode owner group names entries w l2).may rel ∧ q = l2 ++ rel := by
        rintro ⟨rel, ⟨t, h, h'⟩, e⟩
        exact hq ⟨rel, t, h, h', e⟩
      rw [hkept.untouched.fs q hq', hkept2.untouched.fs q hq', hk1.untouched.fs q hq']
      cases w.fs q with
      | none => exact .inl ⟨rfl, rfl⟩
      | some a => exact .inr ⟨a, a, rfl, rfl, .inl rfl, fun _ => rfl, rfl, rfl⟩
  · rw [hkept2.untouched.rest, hk1.untouched.rest, hkept.untouched.rest]

/-- The hypotheses are met by the tree of the example above, which is uploaded and then found unchanged. -/
example : let op := uploadDir Example.sys.sha512 p!"./site" (.dir Example.tree) p!"/tmp/" none (some p!"640") (some p!"alice") none true
    OwnersSet (inForce Example.env Example.st { dirMode := none, fileMode := some p!"640", owner := some p!"alice", group := none })
    ∧ Example.reports (perform Example.sys Example.always op Example.env Example.st Example.host).1 true true = true
    ∧ Example.reports (Example.again op Example.host) true false = true :=
  ⟨⟨by decide, by decide⟩, by decide +kernel, by decide +kernel⟩

example : NoSetIdsAround Example.host [p!"tmp", p!"site"] (.dir Example.tree) := by
  intro l hl
  have hd : resolve Example.host.fs Example.host.cwd (pathOf [p!"tmp", p!"site"]) false = .ok [p!"tmp", p!"site"] := by rfl
  have : l = [p!"tmp", p!"site"] := by have := hl.symm.trans hd; cases this; rfl
  subst this
  refine ⟨fun rel t n _ _ hn _ => ?_, fun _ p hp => ?_⟩
  · have : Example.host.fs ([p!"tmp", p!"site"] ++ rel) = none := rfl
    rw [this] at hn; cases hn
  · have : Example.host.fs [p!"tmp"] = some p := hp
    cases this
    decide

/-- The connection breaks when the first file has been uploaded; the next run completes the tree. -/
example : let op := uploadDir Example.sys.sha512 p!"./site" (.dir Example.tree) p!"/tmp/" none (some p!"640") (some p!"alice") none true
    let w1 := (perform Example.sys (Example.breaks 20 true) op Example.env Example.st Example.host)
    (match w1.1 with | .ok _ => false | .error _ => true) = true
    ∧ (w1.2.fs [p!"tmp", p!"site", p!"sub"]).map (fun n => (n.perm, n.uid)) = some (0o700, 1000)
    ∧ Example.reports (perform Example.sys Example.always op Example.env Example.st w1.2).1 true true = true :=
  ⟨by decide +kernel, by decide +kernel, by decide +kernel⟩

end Verif.Ops
