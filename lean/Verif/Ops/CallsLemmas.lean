/-
Scripts that also upload directory trees: what they do is what the single operations would do.
-/
import Verif.Ops.CallsSpec
import Verif.Ops.ForesightLemmas
import Verif.Ops.MirrorRepeatProps

namespace Verif.Ops

open Script Remote
open Client (direct)

/-! ### Programs that perform tasks -/

/-- Nothing is requested, the defaults stay, and it makes no difference whether it is a dry run. -/
def Inert {α : Type} (m : Op α) : Prop :=
  ∀ env st, (∃ x st', m env st = .ret (x, st') ∧ st'.stack = st.stack) ∧ m { env with dry := true } st = m { env with dry := false } st

/-- A program that performs these tasks, one after the other, and nothing else. -/
inductive Carries : {α : Type} → List Task → Op α → Prop where
  | inert {α : Type} {m : Op α} : Inert m → Carries [] m
  | task (t : Task) : Carries [t] t.op
  | seq {α β : Type} {ts ts' : List Task} {m : Op α} {f : α → Op β} : Carries ts m → (∀ a, Carries ts' (f a)) → Carries (ts ++ ts') (m >>= f)
  | operation {ts : List Task} {f : Op (Option OpResult)} : Carries ts f → Carries ts (Script.operation true f)

theorem Inert.pure {α : Type} (a : α) : Inert (Op.pure a) := fun _ st => ⟨⟨_, _, rfl, rfl⟩, rfl⟩
theorem Inert.raise {α : Type} (e : Exn) : Inert (Op.raise e : Op α) := fun _ st => ⟨⟨_, _, rfl, rfl⟩, rfl⟩

theorem Inert.ofExcept {α : Type} (x : Except Exn α) : Inert (Op.ofExcept x) := by
  cases x with
  | ok a => exact .pure a
  | error e => exact .raise e

theorem Inert.setNested : Inert (setNested true) := fun _ st => ⟨⟨_, _, rfl, rfl⟩, rfl⟩

theorem Inert.addNestedResult (key : Str) (r : OpResult) : Inert (addNestedResult key r) := by
  intro env st
  refine ⟨?_, rfl⟩
  unfold Script.addNestedResult
  split
  · exact ⟨_, _, rfl, rfl⟩
  · dsimp only
    split <;> exact ⟨_, _, rfl, rfl⟩

theorem Inert.success : Inert success := by
  intro env st
  refine ⟨?_, rfl⟩
  rcases success_cases env st with ⟨e, h⟩ | ⟨i, f, _, _, h⟩
  · exact ⟨_, _, h, rfl⟩
  · exact ⟨_, _, h, St.show_stack _ _⟩

theorem Carries.cast {α : Type} {ts ts' : List Task} {m : Op α} (h : Carries ts m) (e : ts = ts') : Carries ts' m := e ▸ h

section
variable {sys : Sys} {lost : Nat → Option Bool} {env : Env} {st : St} {w0 w w' v : World}
variable {tools : Tools} {mode owner group : Option Str} {n : Node} {l : Loc} {ts : List Task}

theorem Going.weaken {done done' : Task → Prop} (h : Going sys tools env st ts w0 done w) (hd : ∀ d, done' d → done d) : Going sys tools env st ts w0 done' w :=
  { h with granted := fun d hd' => h.granted d (hd d hd'), member := fun d hd' => h.member d (hd d hd') }

theorem carries_post (hts : Tasks sys w0 ts) (hm : PlainModes env st) (hdry : env.dry = false) {α : Type} {todo : List Task} {m : Op α} (hc : Carries todo m) :
    ∀ {done : Task → Prop} {st1 : St} {w : World}, st1.stack = st.stack → Going sys tools env st ts w0 done w →
      (∀ t ∈ todo, t ∈ ts) → (todo.map (·.names)).Nodup → (∀ d, done d → d.names ∉ todo.map (·.names)) →
      Post sys lost m env st1 w
        (fun _ st' w' => (st'.stack = st.stack ∧ Untouched (fun q => ∃ t ∈ todo, t.Covers q) w w') ∧ Going sys tools env st ts w0 (fun d => done d ∨ d ∈ todo) w')
        (Going sys tools env st ts w0 (fun _ => False)) := by
  induction hc with
  | inert hi =>
    intro done st1 w hst hg _ _ _
    obtain ⟨⟨x, st', h, hs⟩, _⟩ := hi env st1
    cases x with
    | ok a => exact Post.ofRet h ⟨⟨hs.trans hst, ⟨fun _ _ => rfl, rfl⟩⟩, hg.weaken (by simp)⟩
    | error e => exact Post.ofErr h hg.forget
  | task t =>
    intro done st1 w hst hg hin _ hnew
    refine (task_post hts hm hdry hg hst (hin t (by simp)) (fun d hd he => hnew d hd (by rw [he]; simp))).mono ?_ (fun _ h => h)
    rintro r st2 w2 ⟨⟨h1, _, h2⟩, h3⟩
    exact ⟨⟨h1, ⟨fun q hq => h2.untouched.fs q (fun hc => hq ⟨t, by simp, hc⟩), h2.untouched.rest⟩⟩, h3.weaken (by simp)⟩
  | @seq α β ts1 ts2 m f _ _ ih1 ih2 =>
    intro done st1 w hst hg hin hnd hnew
    rw [List.map_append] at hnd hnew
    obtain ⟨hn1, hn2, hn3⟩ := List.nodup_append.mp hnd
    refine Post.bind ((ih1 hst hg (fun t h => hin t (List.mem_append_left _ h)) hn1 (fun d hd h => hnew d hd (List.mem_append_left _ h))).mono ?_ (fun _ h => h))
    rintro a st2 w2 ⟨⟨hst2, hu2⟩, hg2⟩
    refine (ih2 a hst2 hg2 (fun t h => hin t (List.mem_append_right _ h)) hn2 ?_).mono ?_ (fun _ h => h)
    · rintro d (hd | hd) h
      · exact hnew d hd (List.mem_append_right _ h)
      · exact hn3 _ (List.mem_map.mpr ⟨d, hd, rfl⟩) _ h rfl
    · rintro b st3 w3 ⟨⟨hst3, hu3⟩, hg3⟩
      refine ⟨⟨hst3, ⟨fun q hq => ?_, ?_⟩⟩, hg3.weaken ?_⟩
      · rw [hu3.fs q (fun ⟨t, h1, h2⟩ => hq ⟨t, List.mem_append_right _ h1, h2⟩), hu2.fs q (fun ⟨t, h1, h2⟩ => hq ⟨t, List.mem_append_left _ h1, h2⟩)]
      · rw [hu3.rest, hu2.rest]
      · rintro d (hd | hd)
        · exact .inl (.inl hd)
        · rcases List.mem_append.mp hd with hd | hd
          · exact .inl (.inr hd)
          · exact .inr hd
  | operation _ ih =>
    intro done st1 w hst hg hin hnd hnew
    refine Post.operation ((ih (st1 := { st1 with op := {} }) hst hg hin hnd hnew).mono ?_ (fun _ h => h))
    rintro r st2 w2 ⟨⟨h1, h2⟩, h3⟩
    exact ⟨h3.forget, fun _ _ _ => ⟨⟨h1, h2⟩, h3⟩⟩

theorem carries_foresees (hts : Tasks sys v ts) (hm : PlainModes env st) (hf : SteadyLooks sys) (hr : Rooted v)
    (hc : ∀ c rest, st.stack = c :: rest → CwdFine sys v (env.base.overlay c).cwd)
    (hlk : (∃ t ∈ ts, t.wish.isLink = true) → SteadyLinks sys tools ∧ ∀ c rest, st.stack = c :: rest → WorksIn v (env.base.overlay c).cwd)
    {α : Type} {todo : List Task} {m : Op α} (hca : Carries todo m) :
    ∀ {done : Task → Prop} {st1 st' : St} {w : World} {k : Nat} {s : World × Nat} {a : α} {l : List Proc}, st1.stack = st.stack →
      Going sys tools env st ts v done w → (∀ t ∈ todo, w.fs t.names = v.fs t.names) →
      (∀ t ∈ todo, t ∈ ts) → (todo.map (·.names)).Nodup → (∀ d, done d → d.names ∉ todo.map (·.names)) →
      exec (flaky sys lost) m { env with dry := false } st1 (w, k) = ((.ok a, st'), s) →
      ∃ l', exec (direct sys) m { env with dry := true } st1 { v with started := l } = ((.ok a, st'), { v with started := l' })
        ∧ ((∀ t ∈ todo, t.wish.isLink = false) → l' = l) := by
  induction hca with
  | inert hi =>
    intro done st1 st' w k s a l hst hg hfresh hin hnd hnew he
    obtain ⟨⟨x, st2, h, hs⟩, hd⟩ := hi { env with dry := false } st1
    refine ⟨l, ?_, fun _ => rfl⟩
    unfold exec at he ⊢
    rw [h] at he
    have hd' : _ = _ := hd
    dsimp only at hd'
    rw [hd', h]
    cases he
    rfl
  | task t =>
    intro done st1 st' w k s r l hst hg hfresh hin hnd hnew he
    have hts' : Tasks sys { v with started := l } ts := ⟨hts.proper, hts.names, hts.distinct, hts.plain, hts.apart, hts.links, hts.rooted⟩
    have hg' : Going sys tools env st ts { v with started := l } done w :=
      ⟨hg.ordinary, hg.ways, ⟨hg.untouched.fs, hg.untouched.rest⟩, fun t ht m o g e => { hg.kept t ht m o g e with }, hg.fine, hg.rooted, hg.member, hg.granted, hg.tame⟩
    cases hil : t.wish.isLink with
    | false => exact ⟨l, task_ahead hts' hm hf hr (fun c rest hs => cwdFine_started hf (hc c rest hs)) hg' (hfresh t (by simp)) hst (hin t (by simp)) hil he, fun _ => rfl⟩
    | true =>
      obtain ⟨l', h⟩ := task_foresees hts' hm hf hr (fun c rest hs => cwdFine_started hf (hc c rest hs)) (fun hi => hlk ⟨t, hin t (by simp), hi⟩) hg' (hfresh t (by simp)) hst (hin t (by simp)) he
      exact ⟨l', h, fun hn => by rw [hn t (by simp)] at hil; cases hil⟩
  | @seq α β ts1 ts2 m f hc1 hc2 ih1 ih2 =>
    intro done st1 st' w k s b l hst hg hfresh hin hnd hnew he
    rw [List.map_append] at hnd hnew
    obtain ⟨hn1, hn2, hn3⟩ := List.nodup_append.mp hnd
    obtain ⟨a, st2, s2, h1, h2⟩ := exec_bind_ok.mp he
    have hin1 : ∀ t ∈ ts1, t ∈ ts := fun t h => hin t (List.mem_append_left _ h)
    have hin2 : ∀ t ∈ ts2, t ∈ ts := fun t h => hin t (List.mem_append_right _ h)
    have hnew1 : ∀ d, done d → d.names ∉ ts1.map (·.names) := fun d hd h => hnew d hd (List.mem_append_left _ h)
    obtain ⟨l1, hd1, hl1⟩ := ih1 (l := l) hst hg (fun t h => hfresh t (List.mem_append_left _ h)) hin1 hn1 hnew1 h1
    obtain ⟨⟨hst2, hu2⟩, hg2⟩ := post_exec (carries_post (env := { env with dry := false }) (st := st) hts (show PlainModes { env with dry := false } st from hm) rfl hc1
      hst (show Going sys tools { env with dry := false } st ts v done w from { hg with }) hin1 hn1 hnew1) h1
    obtain ⟨l2, hd2, hl2⟩ := ih2 a (l := l1) hst2 (show Going sys tools env st ts v _ s2.1 from { hg2 with }) (fun t' ht' => by
      rw [hu2.fs _ (by
        rintro ⟨t, ht, hcv⟩
        exact hts.disjoint (hin1 t ht) (hin2 t' ht') (fun h => hn3 _ (List.mem_map.mpr ⟨t, ht, rfl⟩) _ (List.mem_map.mpr ⟨t', ht', rfl⟩) h) hcv (.inl rfl))]
      exact hfresh t' (List.mem_append_right _ ht')) hin2 hn2 (by
      rintro d (hd | hd) h
      · exact hnew d hd (List.mem_append_right _ h)
      · exact hn3 _ (List.mem_map.mpr ⟨d, hd, rfl⟩) _ h rfl) h2
    exact ⟨l2, exec_bind_ok.mpr ⟨_, _, _, hd1, hd2⟩, fun hn =>
      (hl2 fun t ht => hn t (List.mem_append_right _ ht)).trans (hl1 fun t ht => hn t (List.mem_append_left _ ht))⟩
  | @operation todo f _ ih =>
    intro done st1 st' w k s r l hst hg hfresh hin hnd hnew he
    rw [exec_operation] at he ⊢
    match hm' : exec (flaky sys lost) f { env with dry := false } { st1 with op := {} } (w, k) with
    | ((.error e, st2), s2) => rw [hm'] at he; cases he
    | ((.ok none, st2), s2) => rw [hm'] at he; cases he
    | ((.ok (some x), st2), s2) =>
      obtain ⟨l', h, hl'⟩ := ih (l := l) (st1 := { st1 with op := {} }) hst hg hfresh hin hnd hnew hm'
      rw [hm'] at he
      rw [h]
      refine ⟨l', ?_, hl'⟩
      dsimp only at he ⊢
      split at he
      · cases he
      · next hx =>
        rw [if_neg hx]
        cases he
        rfl

/-! ### `upload_dir` -/

/-- The tasks of `upload_dir` in the order in which it performs them. -/
def treeOrder (sha512 : Bytes → Bytes) (dirMode fileMode owner group : Option Str) (names : List Str) (es : List (Str × Tree)) : List Task :=
  ((relDirs es).map fun rel => ⟨directory (pathOf (names ++ rel)) true false dirMode owner group true, names ++ rel, .dir dirMode owner group⟩)
  ++ (relFiles es).filterMap fun x => x.2.content?.map fun c =>
    ⟨upload sha512 (baseName (pathOf (names ++ x.1))) c (pathOf (names ++ x.1)) fileMode owner group true, names ++ x.1, .file c fileMode owner group⟩

theorem uploadDirs_carries (mode owner group : Option Str) : ∀ (ns : List (List Str)),
    Carries (ns.map fun names => ⟨directory (pathOf names) true false mode owner group true, names, .dir mode owner group⟩) (uploadDirs mode owner group (ns.map pathOf))
  | [] => .inert (.pure _)
  | names :: ns => by
    rw [List.map_cons, List.map_cons, uploadDirs]
    exact .seq (ts := [_]) (.task ⟨_, names, _⟩) fun r => .seq (ts := []) (.inert (.addNestedResult _ r)) fun _ => uploadDirs_carries mode owner group ns

theorem uploadFiles_carries (sha512 : Bytes → Bytes) (mode owner group : Option Str) : ∀ (ns : List (List Str × Tree)),
    Carries (ns.filterMap fun x => x.2.content?.map fun c =>
      ⟨upload sha512 (baseName (pathOf x.1)) c (pathOf x.1) mode owner group true, x.1, .file c mode owner group⟩) (uploadFiles sha512 mode owner group (ns.map fun x => (x.2, pathOf x.1)))
  | [] => .inert (.pure _)
  | (names, t) :: ns => by
    rw [List.map_cons, List.filterMap_cons, uploadFiles]
    dsimp only
    cases hc : t.content? with
    | none => exact uploadFiles_carries sha512 mode owner group ns
    | some c =>
      exact .seq (ts := [_]) (.task ⟨_, names, _⟩) fun r => .seq (ts := []) (.inert (.addNestedResult _ r)) fun _ => uploadFiles_carries sha512 mode owner group ns

theorem uploadDir_carries {sha512 : Bytes → Bytes} {src dest : Str} {es : List (Str × Tree)} {names : List Str} {dirMode fileMode : Option Str}
    (hp : Tree.Proper (.dir es)) (hl : Lands src dest names) :
    Carries (treeOrder sha512 dirMode fileMode owner group names es) (uploadDir sha512 src (.dir es) dest dirMode fileMode owner group true) := by
  obtain ⟨hdest, hnames⟩ := destOf_lands hl
  unfold uploadDir
  have h1 := uploadDirs_carries dirMode owner group ((relDirs es).map (names ++ ·))
  have h2 := uploadFiles_carries sha512 fileMode owner group ((relFiles es).map fun x => (names ++ x.1, x.2))
  rw [List.map_map, List.map_map] at h1
  rw [List.filterMap_map, List.map_map] at h2
  refine .operation (.seq (ts := []) (.inert .setNested) fun _ => .seq (ts := []) (.inert (.ofExcept _)) fun _ => ?_)
  rw [if_neg (by simp [Tree.isDir])]
  simp only [hdest]
  rw [destDirs_eq hp hnames, destFiles_eq hp hnames]
  have h3 : Carries [] (returned success) := .seq (ts := []) (ts' := []) (.inert .success) fun r => .inert (.pure _)
  exact (Carries.seq h1 fun _ => Carries.seq h2 fun _ => h3).cast (by rw [List.append_nil]; rfl)

/-- The task for one entry of a tree. -/
inductive Piece (sha512 : Bytes → Bytes) (dirMode fileMode owner group : Option Str) (names : List Str) : Tree → Task → Prop where
  | dir {t : Tree} (h : t.isDir = true) : Piece sha512 dirMode fileMode owner group names t
      ⟨directory (pathOf names) true false dirMode owner group true, names, .dir dirMode owner group⟩
  | file {t : Tree} {c : Except Exn Bytes} (h : t.content? = some c) : Piece sha512 dirMode fileMode owner group names t
      ⟨upload sha512 (baseName (pathOf names)) c (pathOf names) fileMode owner group true, names, .file c fileMode owner group⟩

section
variable {sha512 : Bytes → Bytes} {dirMode fileMode : Option Str} {d : Task}

mutual
theorem treeTasks_piece : ∀ (t : Tree) (names : List Str), d ∈ treeTasks sha512 dirMode fileMode owner group names t →
    ∃ rel v, t.At rel v ∧ Piece sha512 dirMode fileMode owner group (names ++ rel) v d
  | .dir es, names, h => by
    rw [treeTasks, List.mem_cons] at h
    rcases h with rfl | h
    · refine ⟨[], _, .here _, ?_⟩
      rw [List.append_nil]
      exact .dir rfl
    · obtain ⟨n, t, rel, v, hm, ha, hp⟩ := entriesTasks_piece es names h
      exact ⟨n :: rel, v, .inside hm ha, hp⟩
  | .dirLink, names, h => by
    rw [treeTasks, List.mem_singleton] at h
    subst h
    refine ⟨[], _, .here _, ?_⟩
    rw [List.append_nil]
    exact .dir rfl
  | .file c, names, h => by
    rw [treeTasks, List.mem_singleton] at h
    subst h
    refine ⟨[], _, .here _, ?_⟩
    rw [List.append_nil]
    exact .file rfl
  | .fileLink c, names, h => by
    rw [treeTasks, List.mem_singleton] at h
    subst h
    refine ⟨[], _, .here _, ?_⟩
    rw [List.append_nil]
    exact .file rfl
  | .special, names, h => by
    rw [treeTasks] at h
    cases h
theorem entriesTasks_piece : ∀ (es : List (Str × Tree)) (names : List Str), d ∈ entriesTasks sha512 dirMode fileMode owner group names es →
    ∃ n t rel v, (n, t) ∈ es ∧ t.At rel v ∧ Piece sha512 dirMode fileMode owner group (names ++ n :: rel) v d
  | [], names, h => by
    rw [entriesTasks] at h
    cases h
  | (n, t) :: es, names, h => by
    rw [entriesTasks, List.mem_append] at h
    rcases h with h | h
    · obtain ⟨rel, v, ha, hp⟩ := treeTasks_piece t (names ++ [n]) h
      rw [List.append_assoc] at hp
      exact ⟨n, t, rel, v, by simp, ha, hp⟩
    · obtain ⟨m, u, rel, v, hm, ha, hp⟩ := entriesTasks_piece es names h
      exact ⟨m, u, rel, v, by simp [hm], ha, hp⟩
end

theorem entriesTasks_mem {n : Str} {t : Tree} {names : List Str} (h : d ∈ treeTasks sha512 dirMode fileMode owner group (names ++ [n]) t) :
    ∀ {es : List (Str × Tree)}, (n, t) ∈ es → d ∈ entriesTasks sha512 dirMode fileMode owner group names es
  | (m, u) :: es, hm => by
    rw [entriesTasks, List.mem_append]
    rcases List.mem_cons.mp hm with hm | hm
    · cases hm; exact .inl h
    · exact .inr (entriesTasks_mem h hm)

theorem piece_treeTasks {t v : Tree} {rel : List Str} (ha : t.At rel v) : ∀ {names : List Str}, Piece sha512 dirMode fileMode owner group (names ++ rel) v d →
    d ∈ treeTasks sha512 dirMode fileMode owner group names t := by
  induction ha with
  | here t =>
    intro names hp
    rw [List.append_nil] at hp
    cases hp with
    | dir h => cases t <;> first | (cases h; done) | (rw [treeTasks]; simp)
    | file h => cases t <;> first | (cases h; rw [treeTasks]; simp; done) | (cases h; done)
  | @inside es n sub t rel hm ha ih =>
    intro names hp
    rw [treeTasks]
    refine List.mem_cons_of_mem _ (entriesTasks_mem (ih ?_) hm)
    rw [List.append_assoc]
    exact hp

theorem treeOrder_mem {es : List (Str × Tree)} {names : List Str} :
    d ∈ treeOrder sha512 dirMode fileMode owner group names es ↔ ∃ rel v, Tree.At (.dir es) rel v ∧ Piece sha512 dirMode fileMode owner group (names ++ rel) v d := by
  unfold treeOrder
  rw [List.mem_append, List.mem_map, List.mem_filterMap]
  constructor
  · rintro (⟨rel, hr, rfl⟩ | ⟨x, hx, he⟩)
    · obtain ⟨t, h1, h2⟩ := relDirs_mem.mp hr
      exact ⟨rel, t, h1, .dir h2⟩
    · cases hc : x.2.content? with
      | none => rw [hc] at he; cases he
      | some c =>
        rw [hc] at he
        cases he
        exact ⟨x.1, x.2, (relFiles_mem.mp hx).1, .file hc⟩
  · rintro ⟨rel, v, ha, hp⟩
    cases hp with
    | dir h => exact .inl ⟨rel, relDirs_mem.mpr ⟨v, ha, h⟩, rfl⟩
    | @file c h =>
      refine .inr ⟨(rel, v), relFiles_mem.mpr ⟨ha, ?_⟩, ?_⟩
      · cases v <;> first | rfl | cases h
      · simp only [h, Option.map_some]

theorem treeOrder_nodup {es : List (Str × Tree)} {names : List Str} (hp : Tree.Proper (.dir es)) :
    ((treeOrder sha512 dirMode fileMode owner group names es).map (·.names)).Nodup := by
  have hsub : ((treeOrder sha512 dirMode fileMode owner group names es).map (·.names)).Sublist (((relDirs es) ++ (relFiles es).map (·.1)).map (names ++ ·)) := by
    unfold treeOrder
    rw [List.map_append, List.map_append, List.map_map, List.map_map]
    refine List.Sublist.append (.refl _) ?_
    generalize relFiles es = fs
    induction fs with
    | nil => exact .refl _
    | cons x fs ih =>
      rw [List.filterMap_cons, List.map_cons]
      cases x.2.content? with
      | none => exact ih.cons _
      | some c => exact ih.cons₂ _
  refine hsub.nodup ?_
  refine List.Pairwise.map (R := fun a b => a ≠ b) _ (fun a b h he => h (List.append_cancel_left he)) (show List.Nodup _ from ?_)
  refine List.nodup_append.mpr ⟨relDirs_nodup hp, relFiles_nodup hp, fun a ha b hb he => ?_⟩
  subst he
  exact rel_disjoint hp ha hb

theorem names_nodup {l : List Task} (h : (l.map (·.names)).Nodup) : l.Nodup := by
  induction l with
  | nil => exact .nil
  | cons a l ih =>
    rw [List.map_cons, List.nodup_cons] at h
    exact List.nodup_cons.mpr ⟨fun hm => h.1 (List.mem_map_of_mem hm), ih h.2⟩

end

/-- The tasks of a call in the order in which they are performed. -/
def Call.order (sha512 : Bytes → Bytes) : Call → List Task
  | .one t => [t]
  | .tree _ _ entries names dirMode fileMode owner group => treeOrder sha512 dirMode fileMode owner group names entries

theorem order_perm {sha512 : Bytes → Bytes} {c : Call} (hf : c.Fits) (hnd : ((c.tasks sha512).map (·.names)).Nodup) : (c.order sha512).Perm (c.tasks sha512) := by
  cases c with
  | one t => exact .refl _
  | tree src dest es names dirMode fileMode owner group =>
    refine (List.perm_ext_iff_of_nodup (names_nodup (treeOrder_nodup hf.1)) (names_nodup hnd)).mpr fun d => ?_
    exact treeOrder_mem.trans ⟨fun ⟨rel, v, ha, hp⟩ => piece_treeTasks ha hp, treeTasks_piece _ _⟩

theorem call_carries {sha512 : Bytes → Bytes} {c : Call} (hf : c.Fits) : Carries (c.order sha512) (c.op sha512) := by
  cases c with
  | one t => exact .task t
  | tree src dest es names dirMode fileMode owner group => exact uploadDir_carries hf.1 hf.2

theorem calls_carries {sha512 : Bytes → Bytes} {calls : List Call} (h : ∀ c ∈ calls, c.Fits) :
    Carries (calls.flatMap (Call.order sha512)) (deploy (calls.map (Call.op sha512))) := by
  induction calls with
  | nil => exact .inert (.pure _)
  | cons c calls ih =>
    rw [List.map_cons, deploy, List.flatMap_cons]
    refine .seq (call_carries (h c (by simp))) fun r => .cast (.seq (ts' := []) (ih fun d hd => h d (by simp [hd])) fun rs => .inert (.pure _)) (List.append_nil _)

theorem calls_perm {sha512 : Bytes → Bytes} {calls : List Call} (h : ∀ c ∈ calls, c.Fits) (hnd : ((calls.flatMap (Call.tasks sha512)).map (·.names)).Nodup) :
    (calls.flatMap (Call.order sha512)).Perm (calls.flatMap (Call.tasks sha512)) := by
  induction calls with
  | nil =>
    rw [List.flatMap_nil, List.flatMap_nil]
  | cons c calls ih =>
    rw [List.flatMap_cons, List.map_append] at hnd
    obtain ⟨h1, h2, _⟩ := List.nodup_append.mp hnd
    rw [List.flatMap_cons, List.flatMap_cons]
    exact (order_perm (h c (by simp)) h1).append (ih (fun d hd => h d (by simp [hd])) h2)

/-- The calls of a script, in any order, on a host that was on its way. -/
theorem calls_post {calls calls' : List Call} (hm : PlainModes env st) (hdry : env.dry = false) (hf : ∀ c ∈ calls, c.Fits) (hp : calls'.Perm calls)
    (hts : Tasks sys w0 (calls.flatMap (Call.tasks sys.sha512)))
    (hg : Going sys tools env st (calls.flatMap (Call.tasks sys.sha512)) w0 (fun _ => False) w) :
    Post sys lost (deploy (calls'.map (Call.op sys.sha512))) env st w
      (fun rs _ w' => Going sys tools env st (calls.flatMap (Call.tasks sys.sha512)) w0 (fun d => d ∈ calls.flatMap (Call.tasks sys.sha512)) w')
      (Going sys tools env st (calls.flatMap (Call.tasks sys.sha512)) w0 (fun _ => False)) := by
  have hf' : ∀ c ∈ calls', c.Fits := fun c hc => hf c (hp.mem_iff.mp hc)
  have hpt : (calls'.flatMap (Call.tasks sys.sha512)).Perm (calls.flatMap (Call.tasks sys.sha512)) := hp.flatMap_right _
  have hperm := (calls_perm hf' ((hpt.map _).nodup_iff.mpr hts.distinct)).trans hpt
  refine (carries_post hts hm hdry (calls_carries hf') rfl hg (fun t h => hperm.mem_iff.mp h) ((hperm.map _).nodup_iff.mpr hts.distinct) (fun _ h => h.elim)).mono ?_ fun _ h => h
  rintro _ _ w' ⟨_, h⟩
  exact h.weaken fun d hd => .inr (hperm.mem_iff.mpr hd)

theorem checked_success {op : Op OpResult} (h : ∃ f, op = operation true f) (st : St) (w : World) :
    Post sys lost op env st w (fun r _ _ => r.success = true) (fun _ => True) := by
  obtain ⟨f, rfl⟩ := h
  exact ((Post.trivial _).checked).mono (fun _ _ _ h => h.2) fun _ h => h

/-- Every result of a script is a success: no operation ignores errors. -/
theorem deploy_successes {ops : List (Op OpResult)}
    (h : ∀ op ∈ ops, ∀ st w, Post sys lost op env st w (fun r _ _ => r.success = true) (fun _ => True)) {st : St} {w : World} :
    Post sys lost (deploy ops) env st w (fun rs _ _ => rs.length = ops.length ∧ ∀ r ∈ rs, r.success = true) (fun _ => True) := by
  induction ops generalizing st w with
  | nil => exact Post.pure ⟨rfl, by simp⟩
  | cons op ops ih =>
    rw [deploy]
    refine Post.bind ((h op (List.mem_cons_self ..) st w).mono ?_ fun _ h => h)
    rintro r st1 w1 hr
    refine Post.bind ((ih (fun o ho => h o (by simp [ho]))).mono ?_ fun _ h => h)
    rintro rs st2 w2 ⟨hl, hrs⟩
    refine Post.pure ⟨by simp [hl], fun x hx => ?_⟩
    rcases List.mem_cons.mp hx with rfl | hx
    · exact hr
    · exact hrs x hx

theorem proper_operation {sha512 : Bytes → Bytes} {t : Task} (h : t.Proper sha512) : ∃ f, t.op = operation true f := by
  cases h with
  | store h _ => exact store_operation h
  | _ => exact ⟨_, rfl⟩

theorem call_operation {sha512 : Bytes → Bytes} {c : Call} (h : ∀ t ∈ c.tasks sha512, t.Proper sha512) : ∃ f, c.op sha512 = operation true f := by
  cases c with
  | one t => exact proper_operation (h t (by simp [Call.tasks]))
  | tree => exact ⟨_, rfl⟩

/-! ### Running a script again -/

theorem Carries.balanced {α : Type} {todo : List Task} {m : Op α} (hc : Carries todo m) : (∀ t ∈ todo, Balanced t.op) → Balanced m := by
  induction hc with
  | inert hi =>
    intro _
    exact .of_ret fun env st => (hi env st).1
  | task t => intro h; exact h t (by simp)
  | seq _ _ ih1 ih2 =>
    intro h
    exact .bind (ih1 fun t ht => h t (List.mem_append_left _ ht)) fun a => ih2 a fun t ht => h t (List.mem_append_right _ ht)
  | operation _ ih => intro h; exact .operation (ih h)

theorem proper_balanced {sha512 : Bytes → Bytes} {t : Task} (h : t.Proper sha512) : Balanced t.op := by
  cases h with
  | directory => exact balanced_directory _ _ _ _ _ _ _
  | noDirectory => exact balanced_directory _ _ _ _ _ _ _
  | store h _ => exact balanced_store h
  | file => exact balanced_file _ _ _ _ _ _ _
  | noFile => exact balanced_file _ _ _ _ _ _ _
  | link => exact balanced_link _ _ _ _ _ _ _
  | noLink => exact balanced_link _ _ _ _ _ _ _

theorem call_calm {c : Call} {st1 : St} {w1 : World} (hord : Ordinary sys tools w) (hm : PlainModes env st) (hcm : CanonicalModes env st) (hna : NoAliases w)
    (hst : st1.stack = st.stack) (hs : Same w w1) (hfit : c.Fits)
    (hall : ∀ t ∈ c.tasks sys.sha512, t.Proper sys.sha512 ∧ (t.wish.isAbsent = false → OwnersSet (t.wish.settings env st)) ∧ t.wish.Ready sys env st w (pathOf t.names)) :
    Post sys lost (c.op sys.sha512) env st1 w1 (fun r st' w' => (st'.stack = st.stack ∧ r.success = true ∧ r.changed = false) ∧ Same w w') (Same w) := by
  cases c with
  | one t =>
    obtain ⟨h1, h2, h3⟩ := hall t (by simp [Call.tasks])
    exact task_calm hord hm hcm hna hst hs h1 h2 h3
  | tree src dest es names dirMode fileMode owner group =>
    have hpiece : ∀ {rel v d}, Tree.At (.dir es) rel v → Piece sys.sha512 dirMode fileMode owner group (names ++ rel) v d → d ∈ (Call.tree src dest es names dirMode fileMode owner group).tasks sys.sha512 :=
      fun ha hp => piece_treeTasks ha hp
    have hb : Balanced ((Call.tree src dest es names dirMode fileMode owner group).op sys.sha512) := by
      refine (call_carries hfit).balanced fun t ht => ?_
      obtain ⟨rel, v, ha, hp⟩ := treeOrder_mem.mp ht
      exact proper_balanced (hall t (hpiece ha hp)).1
    have htop := (hall ⟨directory (pathOf names) true false dirMode owner group true, names, .dir dirMode owner group⟩ (by
      simp [Call.tasks, treeTasks])).2.1 rfl
    have hfd := inForce_congr (env := env) hst { dirMode, owner, group }
    have hff := inForce_congr (env := env) hst { fileMode, owner, group }
    have hown : OwnersSet (inForce env st { fileMode, owner, group }) := htop
    have hcalm := uploadDir_calm (lost := lost) (check := true) (src := src) (dest := dest) (es := es) (names := names) (hs.ordinary hord) (plainModes_congr hst hm) (canonicalModes_congr hst hcm) (hna.same hs)
      (by rw [hfd]; exact htop) (by rw [hff]; exact hown) hfit.1 hfit.2
      (by
        intro rel hr
        obtain ⟨t, h1, h2⟩ := relDirs_mem.mp hr
        obtain ⟨l, n, hlk, hk, hob, hm'⟩ := (hall _ (hpiece h1 (.dir h2))).2.2
        rw [hfd]
        exact ⟨l, n, by rw [same_fs hs, same_cwd hs]; exact hlk, hk, hob.congr (same_users hs) (same_groups hs), hm'⟩)
      (by
        intro x hx c hc
        obtain ⟨h1, h2⟩ := relFiles_mem.mp hx
        obtain ⟨l, n, c', bytes, hlk, hk, hsrc, hsum, hob, hm'⟩ := (hall _ (hpiece h1 (.file hc))).2.2
        rw [hff]
        exact ⟨l, n, c', bytes, by rw [same_fs hs, same_cwd hs]; exact hlk, hk, hsrc, hsum, hob.congr (same_users hs) (same_groups hs), hm'⟩)
    refine (hcalm.withStack hb).mono ?_ ?_
    · rintro r st2 w2 ⟨⟨⟨hset, hs2⟩, _⟩, hst2⟩
      exact ⟨⟨hst2.trans hst, hset.1.1⟩, by rw [hs2, hs]; rfl⟩
    · intro w2 hs2; rw [hs2, hs]; rfl

theorem calls_calm (hord : Ordinary sys tools w) (hm : PlainModes env st) (hcm : CanonicalModes env st) (hna : NoAliases w) :
    ∀ (calls : List Call) {st1 : St} {w1 : World}, st1.stack = st.stack → Same w w1 → (∀ c ∈ calls, c.Fits) →
      (∀ t ∈ calls.flatMap (Call.tasks sys.sha512), t.Proper sys.sha512 ∧ (t.wish.isAbsent = false → OwnersSet (t.wish.settings env st))
        ∧ t.wish.Ready sys env st w (pathOf t.names)) →
      Post sys lost (deploy (calls.map (Call.op sys.sha512))) env st1 w1 (fun rs _ w' => (∀ r ∈ rs, r.success = true ∧ r.changed = false) ∧ Same w w') (Same w)
  | [], _, _, _, hs, _, _ => Post.pure ⟨by simp, hs⟩
  | c :: calls, st1, w1, hst, hs, hfit, hall => by
    rw [List.map_cons, deploy]
    refine Post.bind ((call_calm (lost := lost) hord hm hcm hna hst hs (hfit c (by simp)) fun t h => hall t (by rw [List.flatMap_cons]; exact List.mem_append_left _ h)).mono ?_ fun _ h => h)
    rintro r st2 w2 ⟨⟨hst2, hr⟩, hs2⟩
    refine Post.bind ((calls_calm hord hm hcm hna calls hst2 hs2 (fun d hd => hfit d (by simp [hd]))
      fun t h => hall t (by rw [List.flatMap_cons]; exact List.mem_append_right _ h)).mono ?_ fun _ h => h)
    rintro rs st3 w3 ⟨hrs, hs3⟩
    refine Post.pure ⟨?_, hs3⟩
    intro x hx
    rcases List.mem_cons.mp hx with rfl | hx
    · exact hr
    · exact hrs x hx

/-! ### The first task -/

/-- If a program that performs tasks comes to its end, then so does the first of them. -/
theorem carries_first {α : Type} {todo : List Task} {m : Op α} (hc : Carries todo m) :
    ∀ {st1 st' : St} {s s' : World × Nat} {a : α}, exec (flaky sys lost) m env st1 s = ((.ok a, st'), s') →
      match todo with
      | [] => st'.stack = st1.stack ∧ s' = s
      | t :: _ => ∃ st2 st3 s3 r, st2.stack = st1.stack ∧ exec (flaky sys lost) t.op env st2 s = ((.ok r, st3), s3) := by
  induction hc with
  | inert hi =>
    intro st1 st' s s' a he
    obtain ⟨x, st2, h, hs⟩ := (hi env st1).1
    unfold exec at he
    rw [h] at he
    cases he
    exact ⟨hs, rfl⟩
  | task t =>
    intro st1 st' s s' a he
    exact ⟨_, _, _, _, rfl, he⟩
  | @seq α β ts1 ts2 m f _ _ ih1 ih2 =>
    intro st1 st' s s' b he
    obtain ⟨a, st2, s2, h1, h2⟩ := exec_bind_ok.mp he
    have i1 := ih1 h1
    have i2 := ih2 a h2
    cases ts1 with
    | cons t ts1 => exact i1
    | nil =>
      obtain ⟨e1, rfl⟩ := i1
      cases ts2 with
      | nil => exact ⟨i2.1.trans e1, i2.2⟩
      | cons t ts2 =>
        obtain ⟨st3, st4, s3, r, h3, h4⟩ := i2
        exact ⟨st3, st4, s3, r, h3.trans e1, h4⟩
  | @operation todo f _ ih =>
    intro st1 st' s s' r he
    rw [exec_operation] at he
    match hm' : exec (flaky sys lost) f env { st1 with op := {} } s with
    | ((.error e, st2), s2) => rw [hm'] at he; cases he
    | ((.ok none, st2), s2) => rw [hm'] at he; cases he
    | ((.ok (some x), st2), s2) =>
      have i := ih hm'
      rw [hm'] at he
      dsimp only at he
      split at he
      · cases he
      · cases he
        cases todo with
        | nil => exact i
        | cons t ts => exact i

theorem proper_cwd {t : Task} {k : Nat} {st' : St} {s : World × Nat} {r : OpResult} {sha512 : Bytes → Bytes} (hp : t.Proper sha512)
    (h : exec (flaky sys lost) t.op { env with dry := false } st (w, k) = ((.ok r, st'), s)) :
    ∃ c rest, st.stack = c :: rest ∧ CwdFine sys w (env.base.overlay c).cwd := by
  cases hp with
  | directory => exact directory_cwd h
  | noDirectory => exact directory_cwd h
  | store hop _ => exact store_cwd hop h
  | file => exact file_cwd h
  | noFile => exact file_cwd h
  | link => exact link_cwd h
  | noLink => exact link_cwd h

end
end Verif.Ops
