/-
What holds between the operations of a script.
-/
import Verif.Ops.DeployPathLemmas
import Verif.Ops.DiffLemmas

namespace Verif.Ops

open Script Remote
open Client (Prog direct lostConnection)

section
variable {sys : Sys} {lost : Nat → Option Bool} {env : Env} {st : St} {w0 w w' : World}
variable {tools : Tools} {mode owner group : Option Str} {n : Node} {l : Loc} {ts : List Task} {done : Task → Prop}

/-! ### Operations that do not ignore errors -/

theorem Post.checked {f : Op (Option OpResult)} {Q : OpResult → St → World → Prop} {E : World → Prop} (h : Post sys lost (Script.operation true f) env st w Q E) :
    Post sys lost (Script.operation true f) env st w (fun r st' w' => Q r st' w' ∧ r.success = true) E := by
  intro k
  have hk := h k
  match hm : exec (flaky sys lost) (Script.operation true f) env st (w, k) with
  | ((.ok a, st'), (w', k')) => rw [hm] at hk; exact ⟨hk, operation_checked hm⟩
  | ((.error e, st'), (w', k')) => rw [hm] at hk; exact hk

theorem store_operation {op : Op OpResult} {sha512 : Bytes → Bytes} {source : Except Exn Bytes} {path : Str}
    (h : Stores sha512 mode owner group true op path source) : ∃ f, op = operation true f := by
  cases h <;> exact ⟨_, rfl⟩

/-! ### Different tasks -/

theorem same_task {t d : Task} : ∀ {ts : List Task}, (ts.map (·.names)).Nodup → t ∈ ts → d ∈ ts → t.names = d.names → t = d
  | x :: ts, hnd, ht, hd, he => by
    rw [List.map_cons, List.nodup_cons] at hnd
    rcases List.mem_cons.mp ht with h1 | h1
    · rcases List.mem_cons.mp hd with h2 | h2
      · rw [h1, h2]
      · rw [← h1] at hnd
        exact absurd (List.mem_map.mpr ⟨d, h2, he.symm⟩) hnd.1
    · rcases List.mem_cons.mp hd with h2 | h2
      · rw [← h2] at hnd
        exact absurd (List.mem_map.mpr ⟨t, h1, he⟩) hnd.1
      · exact same_task hnd.2 h1 h2 he

theorem Tasks.disjoint (hts : Tasks sys w ts) {t d : Task} (ht : t ∈ ts) (hd : d ∈ ts) (hne : t.names ≠ d.names) {q : Loc} (h1 : t.Covers q) : ¬ d.Covers q := by
  have below : ∀ {t d : Task}, t ∈ ts → d ∈ ts → t.names ≠ d.names → ∀ s, t.wish = .absent .dir → d.names = t.names ++ s → False := by
    intro t d ht hd hne s hw he
    have hs : s ≠ [] := by rintro rfl; exact hne (by rw [he, List.append_nil])
    have := hts.apart t ht d hd s he hs
    rw [hw] at this
    cases this
  intro h2
  rcases h1 with rfl | ⟨hw1, s1, e1⟩
  · rcases h2 with h2 | ⟨hw2, s2, e2⟩
    · exact hne h2
    · exact below hd ht (Ne.symm hne) s2 hw2 e2
  · rcases h2 with rfl | ⟨hw2, s2, e2⟩
    · exact below ht hd hne s1 hw1 e1
    · rcases List.append_eq_append_iff.mp (e1.symm.trans e2) with ⟨s, h3, _⟩ | ⟨s, h3, _⟩
      · exact below ht hd hne s hw1 h3
      · exact below hd ht (Ne.symm hne) s hw2 h3

/-- What a task changes on the way to another is a directory that it is asked for. -/
theorem Tasks.crossing (hts : Tasks sys w ts) {t d : Task} (ht : t ∈ ts) (hd : d ∈ ts) {p s : Loc} (he : d.names = p ++ s) (hs : s ≠ []) (h : t.Covers p) :
    t.wish.isDir = true ∧ p = t.names := by
  rcases h with rfl | ⟨hw, s', rfl⟩
  · exact ⟨hts.apart t ht d hd s he hs, rfl⟩
  · have := hts.apart t ht d hd (s' ++ s) (by rw [he, List.append_assoc]) (by simp [hs])
    rw [hw] at this
    cases this

theorem not_covered {t : Task} {p s : Loc} (he : t.names = p ++ s) (hs : s ≠ []) : ¬ t.Covers p := by
  have h3 : 0 < s.length := List.length_pos_iff.mpr hs
  have h2 : t.names.length = p.length + s.length := by rw [he, List.length_append]
  rintro (rfl | ⟨_, s', rfl⟩)
  · omega
  · rw [List.length_append] at h2; omega

/-! ### One task -/

/-- Nothing is there, and what will be created there inherits setgid from its directory. -/
def WouldInherit (w : World) (l : Loc) : Prop := w.fs l = none ∧ ∃ p, w.fs l.dropLast = some p ∧ p.kind = .dir ∧ p.perm &&& 0o2000 ≠ 0

/-- No setuid or setgid bits are there, inherited or requested. -/
def TameTasks (env : Env) (st : St) (ts : List Task) (w : World) : Prop :=
  ∀ t ∈ ts, ∀ mode owner group, t.wish = .dir mode owner group →
    (∀ m, (inForce env st { dirMode := mode, owner, group }).dirMode.map (modeAs mode) = some m → m.length < 5 ∧ octalValue m &&& 0o6000 = 0)
    ∧ CleanAt w t.names ∧ ¬ WouldInherit w t.names

/-- What was there is there with the same content; otherwise nothing, or an empty file. -/
structure SameText (w w' : World) (l : Loc) : Prop where
  still : w'.fs l = none → w.fs l = none
  kind : ∀ m n, w.fs l = some m → w'.fs l = some n → n.kind = m.kind
  new : ∀ n, w.fs l = none → w'.fs l = some n → n.kind = .file []

theorem SameText.of_eq (h : w'.fs l = w.fs l) : SameText w w' l := by
  refine ⟨fun h1 => by rw [← h]; exact h1, fun m n h1 h2 => ?_, fun n h1 h2 => ?_⟩
  · rw [h, h1] at h2; cases h2; rfl
  · rw [h, h1] at h2; cases h2

theorem SameText.trans (h1 : SameText w0 w l) (h2 : SameText w w' l) : SameText w0 w' l := by
  refine ⟨fun h => h1.still (h2.still h), fun m n hm hn => ?_, fun n hm hn => ?_⟩
  · cases hw : w.fs l with
    | none => rw [h1.still hw] at hm; cases hm
    | some x => rw [h2.kind x n hw hn, h1.kind m x hm hw]
  · cases hw : w.fs l with
    | none => exact h2.new n hw hn
    | some x => rw [h2.kind x n hw hn, h1.new x hm hw]

/-- If anything is there, it is a link with this target. -/
def HasLink (target : Str) (o : Option Node) : Prop := ∀ n, o = some n → ∃ s, n.kind = .link s ∧ Py.encodeEscape s = Py.encodeEscape target

/-- What a task can do to the host. -/
structure Move (sys : Sys) (tools : Tools) (t : Task) (w w' : World) : Prop where
  untouched : Untouched t.Covers w w'
  ordinary : Ordinary sys tools w'
  way : t.wish.isDir = true → (w.fs t.names ≠ none → shape (w'.fs t.names) = shape (w.fs t.names))
    ∧ (w.fs t.names = none → shape (w'.fs t.names) = .dir ∨ w'.fs t.names = none)
  kept : ∀ mode owner group, t.wish = .plain mode owner group → SameText w w' t.names
  fine : ∀ target owner group, t.wish = .link target owner group → HasLink target (w.fs t.names) → HasLink target (w'.fs t.names)
  rooted : Rooted w → Rooted w'

/-- Everything on the way is a directory, or missing if nothing is to be there. -/
def Task.Way (w : World) (t : Task) : Prop :=
  ∀ p s, t.names = p ++ s → s ≠ [] → shape (w.fs p) = .dir ∨ (t.wish.isAbsent = true ∧ w.fs p = none)

/-! ### Between two operations -/

structure Going (sys : Sys) (tools : Tools) (env : Env) (st : St) (ts : List Task) (w0 : World) (done : Task → Prop) (w : World) : Prop where
  ordinary : Ordinary sys tools w
  ways : ∀ t ∈ ts, ∀ p s, t.names = p ++ s → s ≠ [] → (w0.fs p ≠ none → shape (w.fs p) = shape (w0.fs p))
    ∧ (w0.fs p = none → shape (w.fs p) = .dir ∨ w.fs p = none)
  untouched : Untouched (fun q => ∃ t ∈ ts, t.Covers q) w0 w
  kept : ∀ t ∈ ts, ∀ mode owner group, t.wish = .plain mode owner group → SameText w0 w t.names
  fine : ∀ t ∈ ts, ∀ target owner group, t.wish = .link target owner group → HasLink target (w0.fs t.names) → HasLink target (w.fs t.names)
  rooted : Rooted w0 → Rooted w
  member : ∀ t, done t → t ∈ ts
  granted : ∀ t, done t → t.wish.Granted sys env st w0 w t.names ∧ t.Way w
  tame : TameTasks env st ts w0 → TameTasks env st ts w

theorem Going.start (hord : Ordinary sys tools w) : Going sys tools env st ts w (fun _ => False) w :=
  ⟨hord, fun _ _ _ _ _ _ => ⟨fun _ => rfl, .inr⟩, ⟨fun _ _ => rfl, rfl⟩, fun _ _ _ _ _ _ => .of_eq rfl, fun _ _ _ _ _ _ h => h, id, (fun _ h => h.elim),
    (fun _ h => h.elim), id⟩

theorem Going.forget (h : Going sys tools env st ts w0 done w) : Going sys tools env st ts w0 (fun _ => False) w :=
  { h with granted := fun _ h => h.elim, member := fun _ h => h.elim }

theorem Wish.Granted.elsewhere {t : Task} (h : t.wish.Granted sys env st w0 w t.names) (hfs : ∀ q, t.Covers q → w'.fs q = w.fs q) :
    t.wish.Granted sys env st w0 w' t.names := by
  have h0 := hfs t.names (.inl rfl)
  unfold Task.Covers at hfs
  generalize t.wish = x at h hfs ⊢
  cases x with
  | absent what =>
    refine ⟨h0.trans h.1, fun hd s => ?_⟩
    subst hd
    rw [hfs _ (.inr ⟨rfl, s, rfl⟩)]
    exact h.2 rfl s
  | _ => simp only [Wish.Granted, h0] at h ⊢; exact h

theorem Going.same (h : Going sys tools env st ts w0 done w) (hs : Same w w') : Going sys tools env st ts w0 done w' := by
  have hfs : w'.fs = w.fs := by rw [hs]
  refine ⟨hs.ordinary h.ordinary, by rw [hfs]; exact h.ways, ⟨by rw [hfs]; exact h.untouched.fs, by rw [hs, h.untouched.rest]⟩,
    fun t ht m o g hw => (h.kept t ht m o g hw).trans (.of_eq (by rw [hfs])), by rw [hfs]; exact h.fine, fun h0 => (h.rooted h0).same hs, h.member,
    fun t ht => ⟨(h.granted t ht).1.elsewhere (fun _ _ => by rw [hfs]), ?_⟩, ?_⟩
  · unfold Task.Way; rw [hfs]; exact (h.granted t ht).2
  · unfold TameTasks CleanAt WouldInherit; rw [hfs]; exact h.tame

theorem Going.plain (h : Going sys tools env st ts w0 done w) (hts : Tasks sys w0 ts) {t : Task} (ht : t ∈ ts) :
    ∀ p s, t.names = p ++ s → s ≠ [] → ∀ n target, w.fs p = some n → n.kind ≠ .link target := by
  intro p s he hs n target hn hk
  obtain ⟨h1, h2⟩ := h.ways t ht p s he hs
  cases h0 : w0.fs p with
  | none =>
    rcases h2 h0 with h3 | h3
    · rw [hn] at h3
      simp only [shape, hk] at h3
      cases h3
    · rw [hn] at h3; cases h3
  | some m =>
    have h1 := h1 (by rw [h0]; simp)
    rw [h0, hn] at h1
    simp only [shape, hk] at h1
    exact hts.plain t ht p s he hs m target h0 (kind_of_link h1.symm)

theorem Going.step {t : Task} (h : Going sys tools env st ts w0 done w) (hts : Tasks sys w0 ts) (hs : Move sys tools t w w') (ht : t ∈ ts)
    (hnew : ∀ d, done d → d.names ≠ t.names) (hclean : t.wish.isDir = true → TameTasks env st ts w0 → CleanAt w' t.names) :
    Going sys tools env st ts w0 done w' := by
  have other : ∀ {d : Task}, d ∈ ts → d.names ≠ t.names → w'.fs d.names = w.fs d.names := fun hd hne =>
    hs.untouched.fs _ (hts.disjoint hd ht hne (.inl rfl))
  refine ⟨hs.ordinary, ?_, ⟨fun q hq => ?_, by rw [hs.untouched.rest, h.untouched.rest]⟩, ?_, ?_, fun h0 => hs.rooted (h.rooted h0), h.member, ?_, ?_⟩
  · intro d hd p s he hne
    obtain ⟨h1, h2⟩ := h.ways d hd p s he hne
    by_cases hc : t.Covers p
    · obtain ⟨hdir, rfl⟩ := hts.crossing ht hd he hne hc
      obtain ⟨w1, w2⟩ := hs.way hdir
      refine ⟨fun h0 => ?_, fun h0 => ?_⟩
      · rw [← h1 h0]
        refine w1 fun hn => ?_
        rw [hn] at h1
        exact h0 (shape_none.mp (h1 h0).symm)
      · rcases h2 h0 with h3 | h3
        · refine .inl ((w1 fun hn => ?_).trans h3)
          rw [hn] at h3; cases h3
        · exact w2 h3
    · rw [hs.untouched.fs p hc]; exact ⟨h1, h2⟩
  · rw [hs.untouched.fs q (fun he => hq ⟨t, ht, he⟩)]
    exact h.untouched.fs q hq
  · intro d hd m o g hw
    refine (h.kept d hd m o g hw).trans ?_
    by_cases hq : d.names = t.names
    · cases same_task hts.distinct hd ht hq
      exact hs.kept m o g hw
    · exact .of_eq (other hd hq)
  · intro d hd target o g hw h0
    have := h.fine d hd target o g hw h0
    by_cases hq : d.names = t.names
    · cases same_task hts.distinct hd ht hq
      exact hs.fine target o g hw this
    · rw [other hd hq]; exact this
  · intro d hd
    have hdm := h.member d hd
    refine ⟨(h.granted d hd).1.elsewhere (fun q hq => hs.untouched.fs _ (hts.disjoint hdm ht (hnew d hd) hq)), ?_⟩
    intro p s he hne
    have hw := (h.granted d hd).2 p s he hne
    by_cases hc : t.Covers p
    · obtain ⟨hdir, rfl⟩ := hts.crossing ht hdm he hne hc
      obtain ⟨w1, w2⟩ := hs.way hdir
      rcases hw with hw | ⟨ha, hw⟩
      · refine .inl ((w1 fun hn => ?_).trans hw)
        rw [hn] at hw; cases hw
      · exact (w2 hw).imp id fun h => ⟨ha, h⟩
    · rw [hs.untouched.fs p hc]; exact hw
  · intro htame d hd m o g hwish
    obtain ⟨h1, h2, h3⟩ := h.tame htame d hd m o g hwish
    refine ⟨h1, ?_, ?_⟩
    · by_cases hq : d.names = t.names
      · cases same_task hts.distinct hd ht hq
        exact hclean (by rw [hwish]; rfl) htame
      · unfold CleanAt
        rw [other hd hq]; exact h2
    · rintro ⟨e1, p, e2, e3, e4⟩
      have hnil : d.names ≠ [] := by
        intro h0
        rw [h0, List.dropLast_nil] at e2
        rw [h0, e2] at e1; cases e1
      have e0 : w.fs d.names = none := by
        by_cases hq : d.names = t.names
        · cases same_task hts.distinct hd ht hq
          cases hw : w.fs t.names with
          | none => rfl
          | some n =>
            have := (hs.way (by rw [hwish]; rfl)).1 (by rw [hw]; simp)
            rw [e1, hw] at this
            cases shape_none.mp this.symm
        · rw [← other hd hq]; exact e1
      by_cases hc : t.Covers d.names.dropLast
      · obtain ⟨hdir, hq⟩ := hts.crossing ht hd (List.dropLast_concat_getLast hnil).symm (by simp) hc
        have hz := hclean hdir htame p (by rw [← hq]; exact e2) e3
        apply e4
        have : p.perm &&& 0o2000 = (p.perm &&& 0o6000) &&& 0o2000 := by rw [Nat.and_assoc]; rfl
        rw [this, hz, Nat.zero_and]
      · rw [hs.untouched.fs _ hc] at e2
        exact h3 ⟨e0, p, e2, e3, e4⟩

theorem Wish.settings_congr {st1 : St} (h : st1.stack = st.stack) (x : Wish) : x.settings env st1 = x.settings env st := by
  cases x <;> exact inForce_congr h _

/-- The path of a finished task leads where it should. -/
theorem Task.Way.reached {t : Task} (h : t.Way w) (hn : ∀ n ∈ t.names, FileName n) (hg : t.wish.Granted sys env st w0 w t.names) : t.Reached w := by
  unfold Task.Reached
  unfold Task.Way at h
  cases hw : t.wish with
  | absent what =>
    rw [hw] at hg
    exact lookup_free hn (fun p s he hs => (h p s he hs).imp id And.right) hg.1
  | _ =>
    refine denotes_dirs hn fun p s he hs => (h p s he hs).elim id fun h => ?_
    rw [hw] at h
    cases h.1

/-! ### What the operations do -/

theorem Post.and {α : Type} {m : Op α} {Q Q' : α → St → World → Prop} {E E' : World → Prop} (h : Post sys lost m env st w Q E) (h' : Post sys lost m env st w Q' E') :
    Post sys lost m env st w (fun a st' w' => Q a st' w' ∧ Q' a st' w') (fun w' => E w' ∧ E' w') := by
  intro k
  have h1 := h k
  have h2 := h' k
  match hm : exec (flaky sys lost) m env st (w, k) with
  | ((.ok a, st'), (w', k')) => rw [hm] at h1 h2; exact ⟨h1, h2⟩
  | ((.error e, st'), (w', k')) => rw [hm] at h1 h2; exact ⟨h1, h2⟩

theorem balanced_file (path : Str) (present touch : Bool) (mode owner group : Option Str) (check : Bool) :
    Balanced (file path present touch mode owner group check) := by
  refine .operation (.bind (.ofExcept _) fun _ => balanced_returned (.withDefaults fun attr => ?_))
  refine .bind (balanced_finalState _) fun _ => .bind (.call _) fun s => ?_
  have hs : Balanced (settle (Op.pure ()) (fileActions path present attr)) := balanced_settle (.pure _) (keeps_fileActions _ _ _)
  cases s with
  | none => exact .bind (balanced_initialState _) fun _ => hs
  | some s =>
    simp only
    split
    · exact balanced_failure _
    · exact .bind (balanced_initialState _) fun _ => hs

theorem balanced_link (path target : Str) (present touch : Bool) (owner group : Option Str) (check : Bool) :
    Balanced (link path target present touch owner group check) := by
  refine .operation (.bind (.ofExcept _) fun _ => ?_)
  split
  · exact .raise _
  · refine balanced_returned (.withDefaults fun attr => ?_)
    refine .bind (balanced_finalState _) fun _ => .bind (.call _) fun s => ?_
    have hs : Balanced (settle (Op.pure ()) (linkActions path target present attr)) := balanced_settle (.pure _) (keeps_linkActions _ _ _ _)
    cases s with
    | none => exact .bind (balanced_initialState _) fun _ => hs
    | some s =>
      simp only
      split
      · exact balanced_failure _
      · exact .bind (balanced_run _ _ _ _ _ _ _ _) fun _ => .bind (.ofExcept _) fun _ => .bind (balanced_initialState _) fun _ => hs

theorem Move.same {t : Task} (hord : Ordinary sys tools w) (h : Same w w') : Move sys tools t w w' := by
  have hfs : w'.fs = w.fs := by rw [h]
  refine ⟨untouched_same h, h.ordinary hord, fun _ => ?_, fun _ _ _ _ => .of_eq (by rw [hfs]), fun _ _ _ _ h => by rw [hfs]; exact h, fun hr => hr.same h⟩
  rw [hfs]
  exact ⟨fun _ => rfl, .inr⟩

/-- Something was put at the place of the task. -/
theorem Move.put {t : Task} (hord : Ordinary sys tools w') (hu : Untouched (· = t.names) w w') (hd : ∀ p s, t.names = p ++ s → s ≠ [] → shape (w.fs p) = .dir)
    (hdir : shape (w.fs t.names) = .dir → shape (w'.fs t.names) = .dir)
    (hway : t.wish.isDir = true → (w.fs t.names ≠ none → shape (w'.fs t.names) = shape (w.fs t.names))
      ∧ (w.fs t.names = none → shape (w'.fs t.names) = .dir ∨ w'.fs t.names = none))
    (hkept : ∀ mode owner group, t.wish = .plain mode owner group → SameText w w' t.names)
    (hfine : ∀ target owner group, t.wish = .link target owner group → HasLink target (w.fs t.names) → HasLink target (w'.fs t.names)) :
    Move sys tools t w w' :=
  ⟨⟨fun q hq => hu.fs q fun h => hq (.inl h), hu.rest⟩, hord, hway, hkept, hfine, fun hr => hr.put hu hd hdir⟩

theorem sameText_left {path : Str} (h : FileLeft path w l w') : SameText w w' l := by
  obtain ⟨o, hn, hf, hnone⟩ := h
  refine ⟨fun h => hnone (hn.at.symm.trans h), fun m n hm h => ?_, fun n hm h => ?_⟩
  · have := hf n (hn.at.symm.trans h)
    rw [this.kind, this.was m hm]
  · rw [(hf n (hn.at.symm.trans h)).kind]
    unfold contentAt
    rw [hm]

/-- A file or a link was removed. -/
theorem removal {t : Task} {what : Entry} (hord : Ordinary sys tools w) (hroot : Rooted w) (hwish : t.wish = .absent what) (hwhat : what ≠ .dir) (hnames : ∀ n ∈ t.names, FileName n)
    (hplain : ∀ p s, t.names = p ++ s → s ≠ [] → ∀ n target, w.fs p = some n → n.kind ≠ .link target) :
    (∀ {w2 : World}, Gone (pathOf t.names) w w2 →
      (Same w w2 ∨ ∃ l n s, resolve w.fs w.cwd (pathOf t.names) false = .ok l ∧ w.fs l = some n ∧ n.kind ≠ .dir ∧ w2 = { w.set l none with started := s }) →
      Move sys tools t w w2 ∧ t.wish.Granted sys env st w0 w2 t.names ∧ t.Way w)
    ∧ ∀ {w2 : World}, (∃ l n s, resolve w.fs w.cwd (pathOf t.names) false = .ok l ∧ w.fs l = some n ∧ n.kind ≠ .dir ∧ w2 = { w.set l none with started := s }) →
      Move sys tools t w w2 := by
  have move : ∀ {n : Node} {s : List Proc}, (∀ p s, t.names = p ++ s → s ≠ [] → shape (w.fs p) = .dir) → w.fs t.names = some n → n.kind ≠ .dir →
      Move sys tools t w { w.set t.names none with started := s } := by
    intro n s hd hn hk
    refine .put (hord.removed (fs := setNode w.fs t.names none) fun q n hq => ?_) ⟨fun q hq => setNode_ne _ _ hq, rfl⟩ hd (fun hsh => ?_) (fun h => ?_)
      (fun _ _ _ h => ?_) (fun _ _ _ h => ?_)
    · unfold setNode at hq
      split at hq
      · cases hq
      · exact hq
    · rw [hn] at hsh
      exact absurd (kind_of_dir hsh) hk
    · rw [hwish] at h; cases h
    · rw [hwish] at h; cases h
    · rw [hwish] at h; cases h
  have move2 : ∀ {w2 : World}, (∃ l n s, resolve w.fs w.cwd (pathOf t.names) false = .ok l ∧ w.fs l = some n ∧ n.kind ≠ .dir ∧ w2 = { w.set l none with started := s }) →
      Move sys tools t w w2 := by
    rintro w2 ⟨l, n, s, hl, hn, hk, rfl⟩
    obtain ⟨rfl, hd⟩ := denotes_plain hnames hplain hl
    exact move hd hn hk
  refine ⟨fun {w2} hgone hleft => ⟨hleft.elim (.same hord) move2, ?_⟩, move2⟩
  rcases hgone with ⟨hlk, hs⟩ | ⟨l, n, s, hl, hn, rfl⟩
  · obtain ⟨h0, hway⟩ := missing_way hroot hnames hplain hlk
    refine ⟨?_, fun p s he hne => (hway p s he hne).imp id fun h => ⟨by rw [hwish]; rfl, h⟩⟩
    rw [hwish]
    exact ⟨by rw [same_fs hs]; exact h0, fun h => absurd h hwhat⟩
  · obtain ⟨rfl, hd⟩ := denotes_plain hnames hplain hl
    refine ⟨?_, fun p s he hne => .inl (hd p s he hne)⟩
    rw [hwish]
    refine ⟨?_, fun h => absurd h hwhat⟩
    show setNode w.fs t.names none t.names = none
    exact setNode_same _ _ _

/-- One operation. -/
theorem task_post {t : Task} {st1 : St} (hts : Tasks sys w0 ts) (hm : PlainModes env st) (hdry : env.dry = false) (h : Going sys tools env st ts w0 done w)
    (hst : st1.stack = st.stack) (ht : t ∈ ts) (hnew : ∀ d, done d → d.names ≠ t.names) :
    Post sys lost t.op env st1 w (fun r st' w' => (st'.stack = st.stack ∧ r.success = true ∧ Move sys tools t w w') ∧ Going sys tools env st ts w0 (fun d => done d ∨ d = t) w')
      (Going sys tools env st ts w0 (fun _ => False)) := by
  have hacc := h.untouched.accounts
  have finish : ∀ {w' : World}, Move sys tools t w w' → (t.wish.isDir = true → TameTasks env st ts w0 → CleanAt w' t.names) → t.Way w →
      t.wish.Granted sys env st w0 w' t.names → Going sys tools env st ts w0 (fun d => done d ∨ d = t) w' := by
    intro w' hs hclean hway hgr
    have hg := h.step hts hs ht hnew hclean
    refine { hg with member := ?_, granted := ?_ }
    · rintro d (hd | rfl)
      · exact hg.member d hd
      · exact ht
    · rintro d (hd | rfl)
      · exact hg.granted d hd
      · refine ⟨hgr, fun p s he hne => ?_⟩
        rw [hs.untouched.fs p (not_covered he hne)]
        exact hway p s he hne
  have hplain := h.plain hts ht
  have hnames := hts.names t ht
  have hnotend : ∀ p, w.fs t.names.dropLast = some p → Denotes w (pathOf t.names) t.names → t.names ≠ [] → p.kind = .dir := by
    intro p hp hden hne
    have := (denotes_plain hnames hplain hden).2 t.names.dropLast [t.names.getLast hne] (List.dropLast_concat_getLast hne).symm (by simp)
    rw [hp] at this
    exact kind_of_dir this
  have hm1 := plainModes_congr hst hm
  have hproper := hts.proper t ht
  cases hproper with
  | directory names mode owner group =>
    have hclean : ∀ {w2 : World}, Denotes w (pathOf names) names → Step sys tools names w w2 →
        KeepsBits (inForce env st1 { dirMode := mode, owner, group }) mode names w w2 →
        TameTasks env st ts w0 → CleanAt w2 names := by
      intro w2 hden hs hb htame
      rw [inForce_congr hst] at hb
      obtain ⟨h1, h2, h3⟩ := h.tame htame _ ht mode owner group rfl
      refine clean_step hs hb h1 h2 ?_
      rintro ⟨e1, p, e2, e3⟩
      refine h3 ⟨e1, p, e2, hnotend p e2 hden ?_, e3⟩
      rintro rfl
      rw [List.dropLast_nil] at e2
      rw [e1] at e2; cases e2
    have move : ∀ {w2 : World}, Denotes w (pathOf names) names → (∀ p s, names = p ++ s → s ≠ [] → shape (w.fs p) = .dir) → Step sys tools names w w2 →
        DirectoryLeft env st1 (pathOf names) true mode owner group w w2 →
        Move sys tools ⟨directory (pathOf names) true false mode owner group true, names, .dir mode owner group⟩ w w2 := by
      intro w2 hden hd hs hleft
      refine .put hs.ordinary hs.untouched hd (fun hsh => ?_) (fun _ => ⟨fun hne => hs.grows _ hne, fun hnone => ?_⟩) nofun nofun
      · exact (hs.grows names (by intro hn; dsimp only at hsh; rw [hn] at hsh; cases hsh)).trans hsh
      · rcases hleft with hsame | ⟨_, _, _, l, _, _, hl, o, hn, hdn, _⟩ | ⟨hp, _⟩
        · exact .inr (by rw [same_fs hsame]; exact hnone)
        · cases hden.symm.trans hl
          cases o with
          | none => exact .inr hn.at
          | some n => exact .inl (by rw [hn.at]; simp only [shape, (hdn n rfl).kind])
        · cases hp
    refine (Post.checked ((dir_step h.ordinary hm1 hdry false).and (directory_post h.ordinary hm1))).mono ?_ ?_
    · rintro r st2 w2 ⟨⟨⟨hst2, l, n, hl, hstep, hn, hi, hkb⟩, ⟨_, hleft⟩, _⟩, hr⟩
      obtain ⟨rfl, hd⟩ := denotes_plain hnames hplain hl
      have hmove := move hl hd hstep hleft
      refine ⟨⟨hst2.trans hst, hr, hmove⟩, finish hmove (fun _ => hclean hl hstep hkb) (fun p s he hs => .inl (hd p s he hs)) ⟨n, hn, ?_⟩⟩
      rw [← Wish.settings_congr hst]
      exact hi.congr hacc.1.symm hacc.2.symm
    · rintro w2 ⟨hs | ⟨l, hl, hstep, hkb⟩, hleft⟩
      · exact (h.same hs).forget
      · obtain ⟨rfl, hd⟩ := denotes_plain hnames hplain hl
        exact (h.step hts (move hl hd hstep hleft) ht hnew (fun _ => hclean hl hstep hkb)).forget
  | @store op names source mode owner group hop hsize =>
    have move : ∀ {w2 : World}, (∀ p s, names = p ++ s → s ≠ [] → shape (w.fs p) = .dir) → Step sys tools names w w2 →
        Move sys tools ⟨op, names, .file source mode owner group⟩ w w2 := by
      intro w2 hd hs
      refine .put hs.ordinary hs.untouched hd (fun hsh => ?_) nofun nofun nofun
      exact (hs.grows names (by intro hn; dsimp only at hsh; rw [hn] at hsh; cases hsh)).trans hsh
    have hpost := store_step (lost := lost) hop h.ordinary hm1 hdry hsize
    obtain ⟨f, rfl⟩ := store_operation hop
    refine hpost.checked.mono ?_ ?_
    · rintro r st2 w2 ⟨⟨hst2, l, n, bytes, hsrc, hl, hstep, hn, hi⟩, hr⟩
      obtain ⟨rfl, hd⟩ := denotes_plain hnames hplain hl
      refine ⟨⟨hst2.trans hst, hr, move hd hstep⟩, finish (move hd hstep) nofun (fun p s he hs => .inl (hd p s he hs)) ⟨bytes, n, hsrc, hn, ?_⟩⟩
      rw [← Wish.settings_congr hst]
      exact hi.congr hacc.1.symm hacc.2.symm
    · rintro w2 (hs | ⟨l, hl, hstep, _⟩)
      · exact (h.same hs).forget
      · obtain ⟨rfl, hd⟩ := denotes_plain hnames hplain hl
        exact (h.step hts (move hd hstep) ht hnew nofun).forget
  | file names mode owner group =>
    have move : ∀ {w2 : World}, (∀ p s, names = p ++ s → s ≠ [] → shape (w.fs p) = .dir) → FileLeft (pathOf names) w names w2 →
        Move sys tools ⟨file (pathOf names) true false mode owner group true, names, .plain mode owner group⟩ w w2 := by
      intro w2 hd hleft
      have hkept := sameText_left hleft
      obtain ⟨o, hn, hf, hnone⟩ := hleft
      refine .put (h.ordinary.now hn fun n h => (hf n h).sane) (untouched_now hn rfl) hd (fun hsh => ?_) nofun (fun _ _ _ _ => hkept) nofun
      exfalso
      dsimp only at hsh
      cases hw : w.fs names with
      | none => rw [hw] at hsh; cases hsh
      | some m =>
        rw [hw] at hsh
        cases o with
        | none => rw [hnone rfl] at hw; cases hw
        | some n =>
          have := (hf n rfl).was m hw
          rw [kind_of_dir hsh] at this
          cases this
    refine ((file_post h.ordinary hm1).withStack (balanced_file _ _ _ _ _ _ _)).mono ?_ ?_
    · rintro r st2 w2 ⟨⟨⟨h1, _⟩, h2⟩, hst2⟩
      obtain ⟨attr, t, l, he, _, hat, _, hlt, hl, hdone, m, hmm, hi⟩ := (h1 (h2 rfl) hdry).1 rfl
      obtain ⟨rfl, hd⟩ := denotes_plain hnames hplain hl
      have hmove := move hd hdone.left
      have hkept := (h.kept _ ht mode owner group rfl).trans (sameText_left hdone.left)
      obtain ⟨n, hn, hf, hp, how⟩ := hdone
      refine ⟨⟨hst2.trans hst, h2 rfl, hmove⟩, finish hmove nofun (fun p s he hs => .inl (hd p s he hs))
        ⟨_, n, hn.at, hf.kind, ⟨⟨_, hf.kind, rfl⟩, ?_, m, octalValue t, ?_, hi, ?_, ?_⟩, fun m' h0 => ?_, fun h0 => ?_⟩⟩
      · rw [← Wish.settings_congr hst]
        exact (he.owned how).congr hacc.1.symm hacc.2.symm
      · rw [← Wish.settings_congr hst]; exact hmm
      · rw [Nat.mod_eq_of_lt hlt]; exact hp.low
      · rw [Nat.mod_eq_of_lt hlt]; exact hp.within
      · exact (hkept.kind m' n h0 hn.at).symm.trans hf.kind
      · have := hkept.new n h0 hn.at
        rw [hf.kind] at this
        exact NodeKind.file.inj this
    · rintro w2 (hs | ⟨_, l, hl, hleft⟩ | ⟨hp, _⟩)
      · exact (h.same hs).forget
      · obtain ⟨rfl, hd⟩ := denotes_plain hnames hplain hl
        exact (h.step hts (move hd hleft) ht hnew nofun).forget
      · cases hp
  | link names target owner group htext =>
    have hlink : HasLink target (w.fs names) := h.fine _ ht target owner group rfl (hts.links _ ht target owner group rfl)
    have hnd : HasTarget w (pathOf names) target ∨ NotToDirectory w (pathOf names) := by
      cases hres : resolve w.fs w.cwd (pathOf names) false with
      | error e =>
        refine .inr fun l n hlk => ?_
        unfold lookup at hlk
        rw [resolve_error_follow hres] at hlk
        cases hlk
      | ok l =>
        obtain ⟨rfl, _⟩ := denotes_plain hnames hplain hres
        cases hw : w.fs l with
        | none =>
          refine .inr fun l' n hlk => absurd hlk (lookup_missing ?_ _)
          unfold lookup
          rw [hres]
          simp only [hw]
        | some n =>
          obtain ⟨s, hk, he⟩ := hlink n hw
          exact .inl ⟨l, n, s, hres, hw, hk, he⟩
    have move : ∀ {w2 : World}, (∀ p s, names = p ++ s → s ≠ [] → shape (w.fs p) = .dir) → LinkLeft (pathOf names) target w names w2 →
        Move sys tools ⟨link (pathOf names) target true false owner group true, names, .link target owner group⟩ w w2 := by
      intro w2 hd ⟨o, hn, hf⟩
      refine .put (h.ordinary.now hn fun n h => (hf n h).sane htext.2) (untouched_now hn rfl) hd (fun hsh => ?_) nofun nofun (fun tg ow gr e _ n hn2 => ?_)
      · exfalso
        dsimp only at hsh
        cases hw : w.fs names with
        | none => rw [hw] at hsh; cases hsh
        | some m =>
          obtain ⟨s, hk, _⟩ := hlink m hw
          rw [hw] at hsh
          rw [kind_of_dir hsh] at hk
          cases hk
      · cases e
        obtain ⟨t, hk, he⟩ := (hf n (hn.at.symm.trans hn2)).kind
        rcases he with he | he
        · exact ⟨t, hk, he⟩
        · exact hlink n he
    refine ((link_post h.ordinary hm1 htext (direct_plain hnames hplain) (fun _ => hnd)).withStack (balanced_link _ _ _ _ _ _ _)).mono ?_ ?_
    · rintro r st2 w2 ⟨⟨⟨h1, _⟩, h2⟩, hst2⟩
      obtain ⟨attr, l, he, hl, hdone⟩ := (h1 (h2 rfl) hdry).1 rfl
      obtain ⟨rfl, hd⟩ := denotes_plain hnames hplain hl
      have hmove := move hd hdone.left
      obtain ⟨n, t, hn, hf, hk, henc, how⟩ := hdone
      refine ⟨⟨hst2.trans hst, h2 rfl, hmove⟩, finish hmove nofun (fun p s he hs => .inl (hd p s he hs)) ⟨n, t, hn.at, hk, henc, ?_⟩⟩
      rw [← Wish.settings_congr hst]
      refine (he.owned (how ?_)).congr hacc.1.symm hacc.2.symm
      rintro ⟨m, t', hm, _, hk', hne⟩
      obtain ⟨s, hk2, he2⟩ := hlink m hm
      rw [hk'] at hk2
      cases hk2
      exact hne he2
    · rintro w2 (hs | ⟨_, l, hl, hleft⟩ | ⟨hp, _⟩)
      · exact (h.same hs).forget
      · obtain ⟨rfl, hd⟩ := denotes_plain hnames hplain hl
        exact (h.step hts (move hd hleft) ht hnew nofun).forget
      · cases hp
  | noDirectory names mode owner group =>
    have hroot : Rooted w := h.rooted (hts.rooted ⟨_, ht, rfl⟩)
    have away : ∀ {q : Loc} {k : Loc → Bool}, ¬ Task.Covers ⟨directory (pathOf names) false false mode owner group true, names, .absent .dir⟩ q → names.isPrefixOf q = false := by
      intro q _ hq
      cases hu : names.isPrefixOf q with
      | false => rfl
      | true =>
        obtain ⟨s, e⟩ := List.isPrefixOf_iff_prefix.mp hu
        exact absurd (.inr ⟨rfl, s, e.symm⟩) hq
    have move : ∀ {k : Loc → Bool} {s : List Proc},
        Move sys tools ⟨directory (pathOf names) false false mode owner group true, names, .absent .dir⟩ w { w with fs := removeMost w.fs names k, started := s } := by
      intro k s
      refine ⟨⟨fun q hq => ?_, rfl⟩, h.ordinary.removed (fun q n hq => ?_), nofun, nofun, nofun, fun hr => hr.removeMost⟩
      · show removeMost w.fs names k q = w.fs q
        unfold removeMost under
        rw [away (k := k) hq]
        rfl
      · unfold removeMost at hq
        split at hq
        · cases hq
        · exact hq
    have move' : ∀ {s : List Proc},
        Move sys tools ⟨directory (pathOf names) false false mode owner group true, names, .absent .dir⟩ w { w with fs := removeTree w.fs names, started := s } := by
      intro s
      refine ⟨⟨fun q hq => ?_, rfl⟩, h.ordinary.removed (fun q n hq => ?_), nofun, nofun, nofun, fun hr => hr.removeTree⟩
      · show removeTree w.fs names q = w.fs q
        unfold removeTree
        rw [away (k := fun _ => false) hq]
        rfl
      · unfold removeTree at hq
        split at hq
        · cases hq
        · exact hq
    refine ((directory_post h.ordinary hm1).withStack (balanced_directory _ _ _ _ _ _ _)).mono ?_ ?_
    · rintro r st2 w2 ⟨⟨⟨h1, _⟩, h2⟩, hst2⟩
      rcases (h1 (h2 rfl) hdry).2 rfl with ⟨hlk, hs⟩ | ⟨l, n, s, hl, hn, rfl⟩
      · obtain ⟨h0, hway⟩ := missing_way hroot hnames hplain hlk
        refine ⟨⟨hst2.trans hst, h2 rfl, .same h.ordinary hs⟩, finish (.same h.ordinary hs) nofun (fun p s he hne => (hway p s he hne).imp id fun h => ⟨rfl, h⟩) ⟨?_, fun _ s => ?_⟩⟩
        · rw [same_fs hs]; exact h0
        · rw [same_fs hs]; exact hroot.below h0 s
      · obtain ⟨rfl, hd⟩ := denotes_plain hnames hplain hl
        refine ⟨⟨hst2.trans hst, h2 rfl, move'⟩, finish move' nofun (fun p s he hs => .inl (hd p s he hs)) ⟨?_, fun _ s => ?_⟩⟩
        · show removeTree w.fs l l = none
          unfold removeTree
          rw [if_pos (List.isPrefixOf_iff_prefix.mpr (List.prefix_refl _))]
        · show removeTree w.fs l (l ++ s) = none
          unfold removeTree
          rw [if_pos (List.isPrefixOf_iff_prefix.mpr (List.prefix_append _ _))]
    · rintro w2 (hs | ⟨hp, _⟩ | ⟨_, l, n, k, s, hl, hn, rfl⟩)
      · exact (h.same hs).forget
      · cases hp
      · obtain ⟨rfl, hd⟩ := denotes_plain hnames hplain hl
        exact (h.step hts move ht hnew nofun).forget
  | noFile names mode owner group =>
    have hroot : Rooted w := h.rooted (hts.rooted ⟨_, ht, rfl⟩)
    have hrm := removal (env := env) (st := st) (w0 := w0) (t := ⟨file (pathOf names) false false mode owner group true, names, .absent .file⟩) (what := .file) h.ordinary hroot rfl nofun hnames hplain
    refine ((file_post h.ordinary hm1).withStack (balanced_file _ _ _ _ _ _ _)).mono ?_ ?_
    · rintro r st2 w2 ⟨⟨⟨h1, hleft⟩, h2⟩, hst2⟩
      obtain ⟨hmove, hgr, hway⟩ := hrm.1 ((h1 (h2 rfl) hdry).2 rfl) (hleft.imp id fun h => h.elim (fun h => nomatch h.1) (fun h => h.2))
      exact ⟨⟨hst2.trans hst, h2 rfl, hmove⟩, finish hmove nofun hway hgr⟩
    · rintro w2 (hs | ⟨hp, _⟩ | ⟨_, h2⟩)
      · exact (h.same hs).forget
      · cases hp
      · exact (h.step hts (hrm.2 h2) ht hnew nofun).forget
  | noLink names target owner group htext =>
    have hroot : Rooted w := h.rooted (hts.rooted ⟨_, ht, rfl⟩)
    have hrm := removal (env := env) (st := st) (w0 := w0) (t := ⟨link (pathOf names) target false false owner group true, names, .absent .link⟩) (what := .link) h.ordinary hroot rfl nofun hnames hplain
    refine ((link_post (present := false) h.ordinary hm1 htext (direct_plain hnames hplain) (fun h => nomatch h)).withStack (balanced_link _ _ _ _ _ _ _)).mono ?_ ?_
    · rintro r st2 w2 ⟨⟨⟨h1, hleft⟩, h2⟩, hst2⟩
      obtain ⟨hmove, hgr, hway⟩ := hrm.1 ((h1 (h2 rfl) hdry).2 rfl) (hleft.imp id fun h => h.elim (fun h => nomatch h.1) (fun h => h.2))
      exact ⟨⟨hst2.trans hst, h2 rfl, hmove⟩, finish hmove nofun hway hgr⟩
    · rintro w2 (hs | ⟨hp, _⟩ | ⟨_, h2⟩)
      · exact (h.same hs).forget
      · cases hp
      · exact (h.step hts (hrm.2 h2) ht hnew nofun).forget

theorem deploy_post (hts : Tasks sys w0 ts) (hm : PlainModes env st) (hdry : env.dry = false) :
    ∀ (todo : List Task) {done : Task → Prop} {st1 : St} {w : World}, st1.stack = st.stack → Going sys tools env st ts w0 done w →
      (∀ t ∈ todo, t ∈ ts) → (todo.map (·.names)).Nodup → (∀ d, done d → d.names ∉ todo.map (·.names)) →
      Post sys lost (deploy (todo.map (·.op))) env st1 w
        (fun rs _ w' => (rs.length = todo.length ∧ ∀ r ∈ rs, r.success = true) ∧ Going sys tools env st ts w0 (fun d => done d ∨ d ∈ todo) w')
        (Going sys tools env st ts w0 (fun _ => False))
  | [], done, st1, w, hst, hg, _, _, _ => by
    rw [List.map_nil, deploy]
    exact Post.pure ⟨⟨rfl, by simp⟩, by simpa using hg⟩
  | t :: todo, done, st1, w, hst, hg, hin, hnd, hnew => by
    rw [List.map_cons, deploy]
    rw [List.map_cons, List.nodup_cons] at hnd
    have hnew' : ∀ d, done d → d.names ≠ t.names := fun d hd he => hnew d hd (by rw [he]; simp)
    refine Post.bind ((task_post hts hm hdry hg hst (hin t (by simp)) hnew').mono ?_ (fun _ h => h))
    rintro r st2 w2 ⟨⟨hst2, hr, _⟩, hg2⟩
    refine Post.bind ((deploy_post hts hm hdry todo hst2 hg2 (fun t h => hin t (by simp [h])) hnd.2 ?_).mono ?_ (fun _ h => h))
    · rintro d (hd | rfl) hc
      · exact hnew d hd (by rw [List.map_cons]; exact List.mem_cons_of_mem _ hc)
      · exact hnd.1 hc
    · rintro rs st3 w3 ⟨⟨hlen, hrs⟩, hg3⟩
      refine Post.pure ⟨⟨by simp [hlen], ?_⟩, ?_⟩
      · intro x hx
        rcases List.mem_cons.mp hx with rfl | hx
        · exact hr
        · exact hrs x hx
      · have split : ∀ d, done d ∨ d ∈ t :: todo → (done d ∨ d = t) ∨ d ∈ todo := by
          rintro d (hd | hd)
          · exact .inl (.inl hd)
          · rcases List.mem_cons.mp hd with rfl | hd
            · exact .inl (.inr rfl)
            · exact .inr hd
        exact { hg3 with granted := fun d hd => hg3.granted d (split d hd), member := fun d hd => hg3.member d (split d hd) }

/-- What has been granted has exactly the requested mode. -/
theorem tame_tasks (hcm : CanonicalModes env st) (hbits : NoSetIdsAsked env st w0 ts)
    (hall : ∀ t ∈ ts, t.wish.Granted sys env st w0 w' t.names) : TameTasks env st ts w0 := by
  intro t ht mode owner group hwish
  have hb := hbits t ht
  have hg := hall t ht
  rw [hwish] at hb hg
  obtain ⟨b1, b2, b3⟩ := hb
  obtain ⟨n, hn, _, _, m, i, hmm, hi, _⟩ := hg
  obtain ⟨c1, c2⟩ := b1 m i hmm hi
  change (inForce env st { dirMode := mode, owner, group }).dirMode = some m at hmm
  refine ⟨fun t ht => ?_, b2, ?_⟩
  · rw [mode_again (fun hg => ?_) hmm hi] at ht
    · cases ht
      rw [octalValue_natStr]
      exact ⟨natStr_short c1, c2⟩
    · subst hg
      exact inForce_dir hcm hmm
  · rintro ⟨e1, p, e2, ek, e3⟩
    exact e3 (b3 e1 p e2 ek)

/-- The place is exactly as was asked for. -/
def Wish.Ready (sys : Sys) (env : Env) (st : St) (w : World) (path : Str) (x : Wish) : Prop :=
  match x with
  | .dir .. => DirReady w (x.settings env st) path
  | .file source .. => FileReady sys w (x.settings env st) path source
  | .plain .. => ∃ l n c, lookup w.fs w.cwd path false = .ok (l, n) ∧ n.kind = .file c ∧ OwnedBy w (x.settings env st) n
      ∧ ∃ m, (x.settings env st).fileMode = some m ∧ Py.parseInt 8 m = some (n.perm : Int)
  | .link target .. => ∃ l n t, lookup w.fs w.cwd path false = .ok (l, n) ∧ n.kind = .link t ∧ Py.encodeEscape t = Py.encodeEscape target
      ∧ OwnedBy w (x.settings env st) n
  | .absent _ => lookup w.fs w.cwd path false = .error ENOENT

theorem granted_ready (hts : Tasks sys w0 ts) (hcm : CanonicalModes env st) (hbits : NoSetIdsAsked env st w0 ts) (hg : Going sys tools env st ts w0 (fun d => d ∈ ts) w)
    {t : Task} (ht : t ∈ ts) : t.wish.Ready sys env st w (pathOf t.names) := by
  have htame := hg.tame (tame_tasks hcm hbits fun t ht => (hg.granted t ht).1)
  have hacc := hg.untouched.accounts
  obtain ⟨hgr, hway⟩ := hg.granted t ht
  have hden := hway.reached (hts.names t ht) hgr
  have hb := hbits t ht
  have ht' := htame t ht
  unfold Task.Reached at hden
  cases hw : t.wish with
  | dir mode owner group =>
    rw [hw] at hgr hb ht' hden
    obtain ⟨_, hc, _⟩ := ht' mode owner group rfl
    obtain ⟨n, hn, hi⟩ := hgr
    obtain ⟨m, hmm, hpm⟩ := hi.exact hb.1 (hc n hn hi.1)
    exact ⟨_, n, lookup_of hden hn, hi.1, hi.2.1.congr hacc.1 hacc.2, m, hmm, hpm⟩
  | file source mode owner group =>
    rw [hw] at hgr hb hden
    obtain ⟨bytes, n, hsrc, hn, hi⟩ := hgr
    obtain ⟨m, hmm, hpm⟩ := hi.exact hb
    obtain ⟨⟨c', hk, hsum⟩, hob, _⟩ := hi
    exact ⟨_, n, c', bytes, lookup_of hden hn, hk, hsrc, hsum, hob.congr hacc.1 hacc.2, m, hmm, hpm⟩
  | plain mode owner group =>
    rw [hw] at hgr hb hden
    obtain ⟨c, n, hn, hk, hi, _⟩ := hgr
    obtain ⟨m, hmm, hpm⟩ := hi.exact hb
    exact ⟨_, n, c, lookup_of hden hn, hk, hi.2.1.congr hacc.1 hacc.2, m, hmm, hpm⟩
  | link target owner group =>
    rw [hw] at hgr hden
    obtain ⟨n, t', hn, hk, he, hob⟩ := hgr
    exact ⟨_, n, t', lookup_of hden hn, hk, he, hob.congr hacc.1 hacc.2⟩
  | absent what =>
    rw [hw] at hden
    exact hden

/-- If it is as was asked for, nothing is done. -/
theorem task_calm {t : Task} {st1 : St} {w1 : World} (hord : Ordinary sys tools w) (hm : PlainModes env st) (hcm : CanonicalModes env st) (hna : NoAliases w)
    (hst : st1.stack = st.stack) (hs : Same w w1) (hp : t.Proper sys.sha512) (hown : t.wish.isAbsent = false → OwnersSet (t.wish.settings env st))
    (hready : t.wish.Ready sys env st w (pathOf t.names)) :
    Post sys lost t.op env st1 w1 (fun r st' w' => (st'.stack = st.stack ∧ r.success = true ∧ r.changed = false) ∧ Same w w') (Same w) := by
  cases hp with
  | directory names mode owner group =>
    have hown := hown rfl
    obtain ⟨l, n, hlk, hk, hob, m, hmm, hi⟩ := hready
    have hf := inForce_congr (env := env) hst { dirMode := mode, owner, group }
    have hcalm := directory_calm (lost := lost) (check := true) (hs.ordinary hord) (plainModes_congr hst hm) (canonicalModes_congr hst hcm) (hna.same hs)
      (by rw [hf]; exact hown.1) (by rw [hf]; exact hown.2) (by rw [same_fs hs, same_cwd hs]; exact hlk) hk
      (by rw [hf]; exact hob.congr (same_users hs) (same_groups hs)) (m := m) (by rw [hf]; exact hmm) hi
    refine (hcalm.withStack (balanced_directory _ _ _ _ _ _ _)).mono ?_ ?_
    · rintro r st2 w2 ⟨⟨⟨hset, hs2⟩, _⟩, hst2⟩
      exact ⟨⟨hst2.trans hst, hset.1.1⟩, by rw [hs2, hs]; rfl⟩
    · intro w2 hs2; rw [hs2, hs]; rfl
  | @store op names source mode owner group hop hsize =>
    have hown := hown rfl
    obtain ⟨l, n, c, bytes, hlk, hk, hsrc, hsum, hob, m, hmm, hi⟩ := hready
    have hf := inForce_congr (env := env) hst { fileMode := mode, owner, group }
    have hcalm := store_calm (lost := lost) hop (hs.ordinary hord) (plainModes_congr hst hm) (canonicalModes_congr hst hcm) (hna.same hs)
      (by rw [hf]; exact hown.1) (by rw [hf]; exact hown.2) (by rw [same_fs hs, same_cwd hs]; exact hlk) hk
      (fun b hb => by rw [hsrc] at hb; cases hb; exact hsum)
      (by rw [hf]; exact hob.congr (same_users hs) (same_groups hs)) (m := m) (by rw [hf]; exact hmm) hi
    refine (hcalm.withStack (balanced_store hop)).mono ?_ ?_
    · rintro r st2 w2 ⟨⟨⟨hset, hs2⟩, _⟩, hst2⟩
      exact ⟨⟨hst2.trans hst, hset.1.1⟩, by rw [hs2, hs]; rfl⟩
    · intro w2 hs2; rw [hs2, hs]; rfl
  | file names mode owner group =>
    have hown := hown rfl
    obtain ⟨l, n, c, hlk, hk, hob, m, hmm, hi⟩ := hready
    have hf := inForce_congr (env := env) hst { fileMode := mode, owner, group }
    have hcalm := file_calm (lost := lost) (check := true) (hs.ordinary hord) (plainModes_congr hst hm) (canonicalModes_congr hst hcm) (hna.same hs)
      (by rw [hf]; exact hown.1) (by rw [hf]; exact hown.2) (by rw [same_fs hs, same_cwd hs]; exact hlk) hk
      (by rw [hf]; exact hob.congr (same_users hs) (same_groups hs)) (m := m) (by rw [hf]; exact hmm) hi
    refine (hcalm.withStack (balanced_file _ _ _ _ _ _ _)).mono ?_ ?_
    · rintro r st2 w2 ⟨⟨⟨hset, hs2⟩, _⟩, hst2⟩
      exact ⟨⟨hst2.trans hst, hset.1.1⟩, by rw [hs2, hs]; rfl⟩
    · intro w2 hs2; rw [hs2, hs]; rfl
  | link names target owner group htext =>
    have hown := hown rfl
    obtain ⟨l, n, t, hlk, hk, he, hob⟩ := hready
    have hf := inForce_congr (env := env) hst { owner, group }
    have hcalm := link_calm (lost := lost) (check := true) (hs.ordinary hord) (plainModes_congr hst hm) (hna.same hs)
      (by rw [hf]; exact hown.1) (by rw [hf]; exact hown.2) (by rw [same_fs hs, same_cwd hs]; exact hlk) hk htext.1 he
      (by rw [hf]; exact hob.congr (same_users hs) (same_groups hs))
    refine (hcalm.withStack (balanced_link _ _ _ _ _ _ _)).mono ?_ ?_
    · rintro r st2 w2 ⟨⟨⟨hset, hs2⟩, _⟩, hst2⟩
      exact ⟨⟨hst2.trans hst, hset.1.1⟩, by rw [hs2, hs]; rfl⟩
    · intro w2 hs2; rw [hs2, hs]; rfl
  | noDirectory names mode owner group =>
    have hcalm := directory_calm_absent (lost := lost) (check := true) (touch := false) (mode := mode) (owner := owner) (group := group) (hs.ordinary hord)
      (plainModes_congr hst hm) (by rw [same_fs hs, same_cwd hs]; exact hready)
    refine (hcalm.withStack (balanced_directory _ _ _ _ _ _ _)).mono ?_ ?_
    · rintro r st2 w2 ⟨⟨⟨hset, hs2⟩, _⟩, hst2⟩
      exact ⟨⟨hst2.trans hst, hset.1.1⟩, by rw [hs2, hs]; rfl⟩
    · intro w2 hs2; rw [hs2, hs]; rfl
  | noFile names mode owner group =>
    have hcalm := file_calm_absent (lost := lost) (check := true) (touch := false) (mode := mode) (owner := owner) (group := group) (hs.ordinary hord)
      (plainModes_congr hst hm) (by rw [same_fs hs, same_cwd hs]; exact hready)
    refine (hcalm.withStack (balanced_file _ _ _ _ _ _ _)).mono ?_ ?_
    · rintro r st2 w2 ⟨⟨⟨hset, hs2⟩, _⟩, hst2⟩
      exact ⟨⟨hst2.trans hst, hset.1.1⟩, by rw [hs2, hs]; rfl⟩
    · intro w2 hs2; rw [hs2, hs]; rfl
  | noLink names target owner group htext =>
    have hcalm := link_calm_absent (lost := lost) (check := true) (touch := false) (target := target) (owner := owner) (group := group) (hs.ordinary hord)
      (plainModes_congr hst hm) (by rw [same_fs hs, same_cwd hs]; exact hready)
    refine (hcalm.withStack (balanced_link _ _ _ _ _ _ _)).mono ?_ ?_
    · rintro r st2 w2 ⟨⟨⟨hset, hs2⟩, _⟩, hst2⟩
      exact ⟨⟨hst2.trans hst, hset.1.1⟩, by rw [hs2, hs]; rfl⟩
    · intro w2 hs2; rw [hs2, hs]; rfl

/-- If everything is as was asked for, nothing is done. -/
theorem deploy_calm (hord : Ordinary sys tools w) (hm : PlainModes env st) (hcm : CanonicalModes env st) (hna : NoAliases w) :
    ∀ (todo : List Task) {st1 : St} {w1 : World}, st1.stack = st.stack → Same w w1 →
      (∀ t ∈ todo, t.Proper sys.sha512 ∧ (t.wish.isAbsent = false → OwnersSet (t.wish.settings env st)) ∧ t.wish.Ready sys env st w (pathOf t.names)) →
      Post sys lost (deploy (todo.map (·.op))) env st1 w1 (fun rs _ w' => (∀ r ∈ rs, r.success = true ∧ r.changed = false) ∧ Same w w') (Same w)
  | [], st1, w1, hst, hs, _ => by
    rw [List.map_nil, deploy]
    exact Post.pure ⟨by simp, hs⟩
  | t :: todo, st1, w1, hst, hs, hall => by
    rw [List.map_cons, deploy]
    obtain ⟨hp, hown, hready⟩ := hall t (by simp)
    have hone := task_calm (lost := lost) hord hm hcm hna hst hs hp hown hready
    refine Post.bind (hone.mono ?_ fun _ h => h)
    rintro r st2 w2 ⟨⟨hst2, hr⟩, hs2⟩
    refine Post.bind ((deploy_calm hord hm hcm hna todo hst2 hs2 fun t h => hall t (by simp [h])).mono ?_ fun _ h => h)
    rintro rs st3 w3 ⟨hrs, hs3⟩
    refine Post.pure ⟨?_, hs3⟩
    intro x hx
    rcases List.mem_cons.mp hx with rfl | hx
    · exact hr
    · exact hrs x hx

/-- What remains of a host that was on its way is a host from which one can start. -/
theorem Going.tasks (h : Going sys tools env st ts w0 done w) (hts : Tasks sys w0 ts) : Tasks sys w ts :=
  ⟨hts.proper, hts.names, hts.distinct, (fun _ ht => h.plain hts ht), hts.apart, fun t ht target o g hw => h.fine t ht target o g hw (hts.links t ht target o g hw),
    fun hx => h.rooted (hts.rooted hx)⟩

/-- Two hosts on which all has been granted. -/
theorem granted_alike {w1 wa wb : World} (hcm : CanonicalModes env st) (hbits : NoSetIdsAsked env st w0 ts)
    (hown : AllOwned env st ts)
    (hsum : ∀ t ∈ ts, ∀ bytes mode owner group other, t.wish = .file (.ok bytes) mode owner group → sys.sha512 other = sys.sha512 bytes → other = bytes)
    (ha : Going sys tools env st ts w0 (fun d => d ∈ ts) wa) (h1 : Going sys tools env st ts w0 (fun _ => False) w1)
    (hb : Going sys tools env st ts w1 (fun d => d ∈ ts) wb) : Alike wa wb := by
  have htame := tame_tasks hcm hbits fun t ht => (ha.granted t ht).1
  have hta := ha.tame htame
  have htb := hb.tame (h1.tame htame)
  have hacc1 := h1.untouched.accounts
  have key : ∀ t ∈ ts, ∀ q, t.Covers q → (wa.fs q = none ∧ wb.fs q = none) ∨ ∃ a b, wa.fs q = some a ∧ wb.fs q = some b ∧ SameFile a b := by
    intro t ht q hq
    have hq' : t.wish.isAbsent = false → q = t.names := by
      intro hna
      rcases hq with hq | ⟨hq, _⟩
      · exact hq
      · rw [hq] at hna; cases hna
    obtain ⟨ga, _⟩ := ha.granted t ht
    obtain ⟨gb, _⟩ := hb.granted t ht
    have hbit := hbits t ht
    have hta' := hta t ht
    have htb' := htb t ht
    have ho := hown t ht
    have hkept := h1.kept t ht
    unfold Task.Covers at hq
    cases hw : t.wish with
    | dir mode owner group =>
      rw [hw] at ga gb hbit hta' htb' ho hq'
      cases hq' rfl
      have ho := ho rfl
      obtain ⟨a, ha, ia⟩ := ga
      obtain ⟨b, hb, ib⟩ := gb
      obtain ⟨o1, o2⟩ := owned_same hacc1.1 hacc1.2 ho.1 ho.2 ia.2.1 ib.2.1
      refine .inr ⟨a, b, ha, hb, .inl (ia.1.trans ib.1.symm), fun _ => same_perm (ia.exact hbit.1 ?_) (ib.exact hbit.1 ?_), o1, o2⟩
      · exact (hta' mode owner group rfl).2.1 a ha ia.1
      · exact (htb' mode owner group rfl).2.1 b hb ib.1
    | file source mode owner group =>
      have hs := hsum t ht
      rw [hw] at ga gb hbit ho hs hq'
      cases hq' rfl
      have ho := ho rfl
      obtain ⟨bytes, a, rfl, ha, ia⟩ := ga
      obtain ⟨_, b, e, hb, ib⟩ := gb
      cases e
      obtain ⟨o1, o2⟩ := owned_same hacc1.1 hacc1.2 ho.1 ho.2 ia.2.1 ib.2.1
      obtain ⟨c1, k1, s1⟩ := ia.1
      obtain ⟨c2, k2, s2⟩ := ib.1
      refine .inr ⟨a, b, ha, hb, .inl ?_, fun _ => same_perm (ia.exact hbit) (ib.exact hbit), o1, o2⟩
      rw [k1, k2, hs bytes _ _ _ c1 rfl s1, hs bytes _ _ _ c2 rfl s2]
    | plain mode owner group =>
      rw [hw] at ga gb hbit ho hq'
      cases hq' rfl
      have ho := ho rfl
      have hkept := hkept mode owner group hw
      obtain ⟨ca, a, ha, ka, ia, ya, na⟩ := ga
      obtain ⟨cb, b, hb, kb, ib, yb, nb⟩ := gb
      obtain ⟨o1, o2⟩ := owned_same hacc1.1 hacc1.2 ho.1 ho.2 ia.2.1 ib.2.1
      refine .inr ⟨a, b, ha, hb, .inl ?_, fun _ => same_perm (ia.exact hbit) (ib.exact hbit), o1, o2⟩
      rw [ka, kb]
      cases h0 : w0.fs t.names with
      | none =>
        rw [na h0]
        cases e1 : w1.fs t.names with
        | none => rw [nb e1]
        | some m1 => rw [← yb m1 e1, hkept.new m1 h0 e1]
      | some m =>
        cases e1 : w1.fs t.names with
        | none => rw [hkept.still e1] at h0; cases h0
        | some m1 => rw [← yb m1 e1, hkept.kind m m1 h0 e1, ya m h0]
    | link target owner group =>
      rw [hw] at ga gb ho hq'
      cases hq' rfl
      have ho := ho rfl
      obtain ⟨a, ta, ha, ka, ea, oa⟩ := ga
      obtain ⟨b, tb, hb, kb, eb, ob⟩ := gb
      obtain ⟨o1, o2⟩ := owned_same hacc1.1 hacc1.2 ho.1 ho.2 oa ob
      exact .inr ⟨a, b, ha, hb, .inr ⟨ta, tb, ka, kb, ea.trans eb.symm⟩, fun h => absurd ka (h ta), o1, o2⟩
    | absent what =>
      rw [hw] at ga gb hq
      rcases hq with rfl | ⟨hd, s, rfl⟩
      · exact .inl ⟨ga.1, gb.1⟩
      · cases hd
        exact .inl ⟨ga.2 rfl s, gb.2 rfl s⟩
  refine ⟨fun q => ?_, ?_⟩
  · by_cases hq : ∃ t ∈ ts, t.Covers q
    · obtain ⟨t, ht, hq⟩ := hq
      exact key t ht q hq
    · rw [ha.untouched.fs q hq, hb.untouched.fs q hq, h1.untouched.fs q hq]
      cases w0.fs q with
      | none => exact .inl ⟨rfl, rfl⟩
      | some a => exact .inr ⟨a, a, rfl, rfl, .inl rfl, fun _ => rfl, rfl, rfl⟩
  · rw [hb.untouched.rest, h1.untouched.rest, ha.untouched.rest]

/-! ### Dry runs -/

/-- Where the real run finds a place, the dry run on the host as it was finds it too, or finds that something on the way is missing. -/
theorem leads_plain {v : World} (hr : Rooted v) : ∀ {names : List Str}, (∀ n ∈ names, FileName n) →
    (∀ p s, names = p ++ s → s ≠ [] → v.fs p ≠ none → shape (v.fs p) = .dir) → Leads v (pathOf names) names := by
  intro names
  induction h : names.length generalizing names with
  | zero =>
    intro _ _
    cases List.length_eq_zero_iff.mp h
    exact .inl rfl
  | succ k ih =>
    intro hn hd
    have hne : names ≠ [] := by rintro rfl; cases h
    have hsplit := (List.dropLast_concat_getLast hne).symm
    have hinit : ∀ n ∈ names.dropLast, FileName n := fun n hm => hn n (List.dropLast_subset _ hm)
    have hl : Leads v (pathOf names.dropLast) names.dropLast := by
      refine ih (by rw [List.length_dropLast, h]; rfl) hinit fun p s he hs => hd p (s ++ [names.getLast hne]) ?_ (by simp)
      rw [← List.append_assoc, ← he]; exact hsplit
    rw [hsplit]
    refine hl.child hr hinit (hn _ (List.getLast_mem hne)) fun h0 => ?_
    exact hd _ _ hsplit (by simp) h0

theorem file_foretold {v : World} {path : Str} {present touch : Bool} {mode owner group : Option Str} {check : Bool} (ha : SameAccounts sys w v)
    (hc : ∀ c rest, st.stack = c :: rest → CwdFine sys v (env.base.overlay c).cwd) (hs : SameAnswer sys w v (.stat path false false)) :
    Foretold (·.success = true) sys lost w v env st (file path present touch mode owner group check) := by
  refine .operation (.bind (.ofExcept _) fun _ st1 h1 => .returned (.withDefaults ha ?_ fun attr st2 => ?_))
  · obtain ⟨_, _, h1⟩ := h1
    obtain ⟨_, rfl, _⟩ := exec_ofExcept_ok h1
    intro q' c rest hq hst
    rw [(canonicalize_ok hq)]
    exact hc c rest hst
  · refine .bind (.finalState _) fun _ _ _ => .bind (.stat hs) fun s _ _ => ?_
    cases s with
    | none => exact .bind (.initialState _) fun _ _ _ => .settle (fun _ => .pure _) (keeps_fileActions _ _ _)
    | some s => exact .ite (Echoes.failure _).foretold (.bind (.initialState _) fun _ _ _ => .settle (fun _ => .pure _) (keeps_fileActions _ _ _))

theorem file_cwd {path : Str} {present touch check : Bool} {mode owner group : Option Str} {k : Nat} {s : World × Nat} {st' : St} {r : OpResult}
    (he : exec (flaky sys lost) (file path present touch mode owner group check) { env with dry := false } st (w, k) = ((.ok r, st'), s)) :
    ∃ c rest, st.stack = c :: rest ∧ CwdFine sys w (env.base.overlay c).cwd := by
  obtain ⟨x, st1, hm⟩ := operation_inner he
  obtain ⟨_, st2, ⟨w2, k2⟩, h1, h2⟩ := exec_bind_ok.mp hm
  obtain ⟨_, rfl, hs2⟩ := exec_ofExcept_ok h1
  cases hs2
  obtain ⟨_, _, _, h3, _⟩ := exec_bind_ok.mp h2
  obtain ⟨c, rest, hs, q', hq, hf⟩ := withDefaults_cwd h3
  rw [canonicalize_ok hq] at hf
  exact ⟨c, rest, hs, hf⟩

/-- Where nothing is found in the real run, nothing is found in the dry run. -/
theorem missing_same {v : World} {names : List Str} (hrw : Rooted w) (hnames : ∀ n ∈ names, FileName n)
    (hplain : ∀ p s, names = p ++ s → s ≠ [] → ∀ n target, w.fs p = some n → n.kind ≠ .link target)
    (hways : ∀ p s, names = p ++ s → s ≠ [] → v.fs p ≠ none → shape (w.fs p) = shape (v.fs p)) (hfresh : w.fs names = v.fs names)
    (hlk : lookup w.fs w.cwd (pathOf names) false = .error ENOENT) : SameLook w v (pathOf names) false := by
  obtain ⟨h0, hd⟩ := missing_way hrw hnames hplain hlk
  unfold SameLook
  rw [hlk, lookup_free hnames (w := v) (fun p s he hs => ?_) (hfresh ▸ h0)]
  by_cases hv : v.fs p = none
  · exact .inr hv
  · have hsh := hways p s he hs hv
    rcases hd p s he hs with h | h
    · exact .inl (hsh ▸ h)
    · rw [h] at hsh
      exact absurd (shape_none.mp hsh.symm) hv

/-- One operation in the dry run beside the real one. -/
theorem task_ahead {v : World} {t : Task} {st1 st' : St} {k : Nat} {s : World × Nat} {r : OpResult} (hts : Tasks sys v ts) (hm : PlainModes env st)
    (hf : SteadyLooks sys) (hr : Rooted v) (hc : ∀ c rest, st.stack = c :: rest → CwdFine sys v (env.base.overlay c).cwd)
    (h : Going sys tools env st ts v done w) (hfresh : w.fs t.names = v.fs t.names) (hst : st1.stack = st.stack) (ht : t ∈ ts) (hnolink : t.wish.isLink = false)
    (he : exec (flaky sys lost) t.op { env with dry := false } st1 (w, k) = ((.ok r, st'), s)) :
    exec (direct sys) t.op { env with dry := true } st1 v = ((.ok r, st'), v) := by
  have hacc := h.untouched.accounts
  have hplain := h.plain hts ht
  have hnames := hts.names t ht
  have hsame := sameAccounts_of (sys := sys) hacc.1.symm hacc.2.symm
  have hcw : ∀ c rest, st1.stack = c :: rest → CwdFine sys v (env.base.overlay c).cwd := fun c rest hs => hc c rest (hst ▸ hs)
  have hproper := hts.proper t ht
  have hways : ∀ p s, t.names = p ++ s → s ≠ [] → v.fs p ≠ none → shape (w.fs p) = shape (v.fs p) := fun p s he hs => (h.ways t ht p s he hs).1
  have hleads : (∀ p s, t.names = p ++ s → s ≠ [] → shape (w.fs p) = .dir) → Leads v (pathOf t.names) t.names := fun hd =>
    leads_plain hr hnames fun p s he hs hv => (hways p s he hs hv).symm.trans (hd p s he hs)
  cases hproper with
  | directory names mode owner group =>
    obtain ⟨_, l, n, hl, _⟩ := post_exec (dir_step (env := { env with dry := false }) (st := st1) h.ordinary (plainModes_congr (env := env) hst hm) rfl false) he
    obtain ⟨rfl, hdirs⟩ := denotes_plain hnames hplain hl
    obtain ⟨hl1, _⟩ := (hleads hdirs).same hl hfresh
    exact directory_foretold hsame hcw (stat_same hf hacc.1.symm hacc.2.symm hl1 nofun) _ _ _ _ he (operation_checked he)
  | @store op names source mode owner group hop hsize =>
    obtain ⟨_, l, n, bytes, _, hl, hstep, hn, hi⟩ :=
      post_exec (store_step (env := { env with dry := false }) (st := st1) hop h.ordinary (plainModes_congr (env := env) hst hm) rfl hsize) he
    obtain ⟨rfl, hdirs⟩ := denotes_plain hnames hplain hl
    obtain ⟨hl1, hl2⟩ := (hleads hdirs).same hl hfresh
    have hl2 := hl2 (by
      intro t' hlk
      dsimp only at hfresh
      rw [← hfresh] at hlk
      have hne : w.fs l ≠ none := by intro h0; rw [h0] at hlk; cases hlk
      have hg := hstep.grows _ hne
      rw [hlk, hn] at hg
      obtain ⟨⟨c', hc', _⟩, _⟩ := hi
      simp only [shape, hc'] at hg
      cases hg)
    have hgood : r.success = true := by
      obtain ⟨f, rfl⟩ := store_operation hop
      exact operation_checked he
    exact store_foretold hop hsame hcw (stat_same hf hacc.1.symm hacc.2.symm hl1 (fun _ => hl2)) (download_same hf hl2) _ _ _ _ he hgood
  | file names mode owner group =>
    have hgood : r.success = true := operation_checked he
    obtain ⟨⟨h1, _⟩, _⟩ := post_exec (file_post (env := { env with dry := false }) (st := st1) h.ordinary (plainModes_congr (env := env) hst hm)) he
    obtain ⟨_, _, l, _, _, _, _, _, hl, _⟩ := (h1 hgood rfl).1 rfl
    obtain ⟨rfl, hdirs⟩ := denotes_plain hnames hplain hl
    obtain ⟨hl1, _⟩ := (hleads hdirs).same hl hfresh
    exact file_foretold hsame hcw (stat_same hf hacc.1.symm hacc.2.symm hl1 nofun) _ _ _ _ he hgood
  | link => cases hnolink
  | noLink => cases hnolink
  | noDirectory names mode owner group =>
    have hgood : r.success = true := operation_checked he
    obtain ⟨⟨h1, _⟩, _⟩ := post_exec (directory_post (env := { env with dry := false }) (st := st1) h.ordinary (plainModes_congr (env := env) hst hm)) he
    have hl1 : SameLook w v (pathOf names) false := by
      rcases (h1 hgood rfl).2 rfl with ⟨hlk, _⟩ | ⟨l, n, _, hl, _⟩
      · exact missing_same (h.rooted hr) hnames hplain hways hfresh hlk
      · obtain ⟨rfl, hdirs⟩ := denotes_plain hnames hplain hl
        exact ((hleads hdirs).same hl hfresh).1
    exact directory_foretold hsame hcw (stat_same hf hacc.1.symm hacc.2.symm hl1 nofun) _ _ _ _ he hgood
  | noFile names mode owner group =>
    have hgood : r.success = true := operation_checked he
    obtain ⟨⟨h1, _⟩, _⟩ := post_exec (file_post (env := { env with dry := false }) (st := st1) h.ordinary (plainModes_congr (env := env) hst hm)) he
    have hl1 : SameLook w v (pathOf names) false := by
      rcases (h1 hgood rfl).2 rfl with ⟨hlk, _⟩ | ⟨l, n, _, hl, _⟩
      · exact missing_same (h.rooted hr) hnames hplain hways hfresh hlk
      · obtain ⟨rfl, hdirs⟩ := denotes_plain hnames hplain hl
        exact ((hleads hdirs).same hl hfresh).1
    exact file_foretold hsame hcw (stat_same hf hacc.1.symm hacc.2.symm hl1 nofun) _ _ _ _ he hgood

/-- All of them. -/
theorem deploy_ahead {v : World} (hts : Tasks sys v ts) (hnl : ∀ t ∈ ts, t.wish.isLink = false) (hm : PlainModes env st) (hf : SteadyLooks sys) (hr : Rooted v)
    (hc : ∀ c rest, st.stack = c :: rest → CwdFine sys v (env.base.overlay c).cwd) :
    ∀ (todo : List Task) {done : Task → Prop} {st1 st' : St} {w : World} {k : Nat} {s : World × Nat} {rs : List OpResult}, st1.stack = st.stack →
      Going sys tools env st ts v done w → (∀ t ∈ todo, w.fs t.names = v.fs t.names) →
      (∀ t ∈ todo, t ∈ ts) → (todo.map (·.names)).Nodup → (∀ d, done d → d.names ∉ todo.map (·.names)) →
      exec (flaky sys lost) (deploy (todo.map (·.op))) { env with dry := false } st1 (w, k) = ((.ok rs, st'), s) →
      exec (direct sys) (deploy (todo.map (·.op))) { env with dry := true } st1 v = ((.ok rs, st'), v)
  | [], done, st1, st', w, k, s, rs, hst, hg, hfresh, hin, hnd, hnew, he => by
    rw [List.map_nil, deploy] at he ⊢
    cases he
    rfl
  | t :: todo, done, st1, st', w, k, s, rs, hst, hg, hfresh, hin, hnd, hnew, he => by
    rw [List.map_cons, deploy] at he ⊢
    rw [List.map_cons, List.nodup_cons] at hnd
    have hnew' : ∀ d, done d → d.names ≠ t.names := fun d hd he => hnew d hd (by rw [he]; simp)
    obtain ⟨r, st2, s2, h1, h2⟩ := exec_bind_ok.mp he
    have hd1 := task_ahead hts hm hf hr hc hg (hfresh t (by simp)) hst (hin t (by simp)) (hnl t (hin t (by simp))) h1
    obtain ⟨⟨hst2, _, hstep⟩, hg2⟩ := post_exec (task_post (env := { env with dry := false }) (st := st) hts (show PlainModes { env with dry := false } st from hm) rfl
      (show Going sys tools { env with dry := false } st ts v done w from { hg with }) hst (hin t (by simp)) hnew') h1
    obtain ⟨rs', st3, s3, h3, h4⟩ := exec_bind_ok.mp h2
    cases h4
    have hd2 := deploy_ahead hts hnl hm hf hr hc todo hst2 (show Going sys tools env st ts v _ s2.1 from { hg2 with }) (fun t' ht' => by
      rw [hstep.untouched.fs _ (hts.disjoint (hin t' (by simp [ht'])) (hin t (by simp)) (fun h => hnd.1 (by rw [← h]; exact List.mem_map.mpr ⟨t', ht', rfl⟩)) (.inl rfl))]
      exact hfresh t' (by simp [ht'])) (fun t h => hin t (by simp [h])) hnd.2 (by
      rintro d (hd | rfl) hc
      · exact hnew d hd (by rw [List.map_cons]; exact List.mem_cons_of_mem _ hc)
      · exact hnd.1 hc) h3
    exact exec_bind_ok.mpr ⟨_, _, _, hd1, exec_bind_ok.mpr ⟨_, _, _, hd2, rfl⟩⟩

end
end Verif.Ops
