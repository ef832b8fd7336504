/-
C46: `upload_dir` mirrors the source tree.
-/
import Verif.Ops.MirrorLemmas
import Verif.Ops.LookLemmas

namespace Verif.Ops

open Script Remote
open Client (isQuery)

/-! ### Dry runs -/

section
variable {env : Env} (hd : env.dry = true)
include hd

theorem asks_settle {b m : Op Unit} (hb : Sends (fun p => isQuery p = true) env b) : Sends (fun p => isQuery p = true) env (settle b m) :=
  .settle hb fun h => by rw [hd] at h; cases h

theorem asks_directory (path : Str) (present touch : Bool) (mode owner group : Option Str) (check : Bool) :
    Sends (fun p => isQuery p = true) env (directory path present touch mode owner group check) := by
  refine .operation (.bind (.ofExcept _) fun _ => .returned (.withDefaults (fun _ h => h) fun attr => ?_))
  refine .bind (.finalState _) fun _ => .bind (.stat (fun _ h => h) _ _ _) fun s => ?_
  cases s with
  | none => exact .bind (.initialState _) fun _ => asks_settle hd (.pure _)
  | some s =>
    simp only
    split
    · exact .failure _
    · exact .bind (.initialState _) fun _ => asks_settle hd (.pure _)

theorem asks_upload (sha512 : Bytes → Bytes) (src : Str) (read : Except Exn Bytes) (dest : Str) (mode owner group : Option Str) (check : Bool) :
    Sends (fun p => isQuery p = true) env (upload sha512 src read dest mode owner group check) := by
  refine .operation (.bind (.ofExcept _) fun _ => .bind (.ofExcept _) fun _ => .returned ?_)
  refine .bind (.ofExcept _) fun c => .withDefaults (fun _ h => h) fun attr => ?_
  have hdiff : Sends (fun p => isQuery p = true) env (saveDiff (destOf src dest) c) := by
    refine .bind .diffWanted fun b => ?_
    cases b
    · exact .pure _
    · exact .bind (.downloadOr (fun _ h => h) _ _) fun _ => .opDiff _ _ _
  refine .bind (.finalState _) fun _ => .bind (.stat (fun _ h => h) _ _ _) fun s => ?_
  cases s with
  | none => exact .bind (.initialState _) fun _ => asks_settle hd hdiff
  | some s =>
    simp only
    split
    · exact .failure _
    · exact .bind (.initialState _) fun _ => asks_settle hd hdiff

theorem asks_uploadDir (sha512 : Bytes → Bytes) (src : Str) (tree : Tree) (dest : Str) (dirMode fileMode owner group : Option Str) (check : Bool) :
    Sends (fun p => isQuery p = true) env (uploadDir sha512 src tree dest dirMode fileMode owner group check) := by
  have hdirs : ∀ l, Sends (fun p => isQuery p = true) env (uploadDirs dirMode owner group l) := by
    intro l
    induction l with
    | nil => exact .pure _
    | cons d ds ih => exact .bind (asks_directory hd _ _ _ _ _ _ _) fun _ => .bind (.addNestedResult _ _) fun _ => ih
  have hfiles : ∀ l, Sends (fun p => isQuery p = true) env (uploadFiles sha512 fileMode owner group l) := by
    intro l
    induction l with
    | nil => exact .pure _
    | cons d ds ih =>
      obtain ⟨t, df⟩ := d
      rw [uploadFiles]
      split
      · exact .bind (asks_upload hd _ _ _ _ _ _ _ _) fun _ => .bind (.addNestedResult _ _) fun _ => ih
      · exact ih
  refine .operation (.bind (.setNested _) fun _ => .bind (.ofExcept _) fun _ => ?_)
  dsimp only
  split
  · exact .raise _
  · exact .bind (hdirs _) fun _ => .bind (hfiles _) fun _ => .returned .success

end

/-! ### C46 -/

/-- C46. After `upload_dir` has succeeded (not in a dry run), every directory of the source tree is a directory at the same
place below the destination, and every file of the source tree is a file with the same content there, with the requested
owner, group and mode. The destination is given without `.`, `..` or repeated slashes; `names` are its components, with the
name of the source directory added if it ends with a slash. Entries that are links are treated as what they lead to, except
that a link to a directory becomes an empty one; dangling links and special files are ignored. -/
theorem C46_mirrored_partial (sys : Sys) (tools : Tools) (lost : Nat → Option Bool) (env : Env) (st : St) (w : World) (hord : Ordinary sys tools w)
    (hm : PlainModes env st) (hdry : env.dry = false) (src dest : Str) (entries : List (Str × Tree)) (names : List Str)
    (hp : Tree.Proper (.dir entries)) (hsize : Tree.Storable (.dir entries)) (hl : Lands src dest names) (dirMode fileMode owner group : Option Str) (check : Bool)
    (r : OpResult) (hr : (perform sys lost (uploadDir sys.sha512 src (.dir entries) dest dirMode fileMode owner group check) env st w).1 = .ok r) :
    let w' := (perform sys lost (uploadDir sys.sha512 src (.dir entries) dest dirMode fileMode owner group check) env st w).2
    r.success = true ∧ ∃ l, Denotes w (pathOf names) l ∧ ∀ rel t, Tree.At (.dir entries) rel t →
      Mirrored sys (inForce env st { dirMode, owner, group }) (inForce env st { fileMode, owner, group }) w w' (l ++ rel) t := by
  intro w'
  obtain ⟨h1, l, h2, _, _, h3⟩ := post_ok (mirror_post hord hm hdry hp hsize hl) hr
  exact ⟨h1, l, h2, h3⟩

/-- C46: nothing else is touched. Whether `upload_dir` succeeds, fails or raises, and wherever the connection breaks, nothing
is changed except at the places that correspond to directories and files of the source tree. What else was in
the destination stays as it was. -/
theorem C46_frame_partial (sys : Sys) (tools : Tools) (lost : Nat → Option Bool) (env : Env) (st : St) (w : World) (hord : Ordinary sys tools w)
    (hm : PlainModes env st) (src dest : Str) (entries : List (Str × Tree)) (names : List Str)
    (hp : Tree.Proper (.dir entries)) (hsize : Tree.Storable (.dir entries)) (hl : Lands src dest names) (dirMode fileMode owner group : Option Str) (check : Bool) :
    Untouched (fun q => ∃ l rel t, Denotes w (pathOf names) l ∧ q = l ++ rel ∧ Tree.At (.dir entries) rel t ∧ t.Transferred) w
      (perform sys lost (uploadDir sys.sha512 src (.dir entries) dest dirMode fileMode owner group check) env st w).2 := by
  cases hdry : env.dry with
  | true =>
    refine untouched_same (perform_same (P := fun p => isQuery p = true) (fun p w h => query_same h w) fun t r st' h _ => ?_)
    exact asks_uploadDir hdry _ _ _ _ _ _ _ _ _ _ _ _ _ h
  | false =>
    have key : ∀ w', (Same w w' ∨ ∃ l, Denotes w (pathOf names) l ∧ Kept sys tools (mirrorJob env st dirMode fileMode owner group names entries w l) w w') →
        Untouched (fun q => ∃ l rel t, Denotes w (pathOf names) l ∧ q = l ++ rel ∧ Tree.At (.dir entries) rel t ∧ t.Transferred) w w' := by
      rintro w' (h | ⟨l, hd, h⟩)
      · exact untouched_same h
      · refine ⟨fun q hq => h.untouched.fs q ?_, h.untouched.rest⟩
        rintro ⟨rel, ⟨t, h1, h2⟩, rfl⟩
        exact hq ⟨l, rel, t, hd, rfl, h1, h2⟩
    exact key _ (post_world (mirror_post hord hm hdry hp hsize hl) (fun _ _ _ h => .inr (h.2.elim fun l h => ⟨l, h.1, h.2.1⟩)))

/-- C46: directories come before their content. Wherever `upload_dir` stops, and however, below the destination nothing has
been changed in a directory that is not complete itself, with its owner, group and mode. -/
theorem C46_directories_first_partial (sys : Sys) (tools : Tools) (lost : Nat → Option Bool) (env : Env) (st : St) (w : World) (hord : Ordinary sys tools w)
    (hm : PlainModes env st) (src dest : Str) (entries : List (Str × Tree)) (names : List Str)
    (hp : Tree.Proper (.dir entries)) (hsize : Tree.Storable (.dir entries)) (hl : Lands src dest names) (dirMode fileMode owner group : Option Str) (check : Bool) :
    let w' := (perform sys lost (uploadDir sys.sha512 src (.dir entries) dest dirMode fileMode owner group check) env st w).2
    ∀ l rel name, Denotes w (pathOf names) l → w'.fs (l ++ rel ++ [name]) ≠ w.fs (l ++ rel ++ [name]) →
      ∃ n, w'.fs (l ++ rel) = some n ∧ IsDirectory w (inForce env st { dirMode, owner, group }) n := by
  intro w' l rel name hden hne
  cases hdry : env.dry with
  | true =>
    have h : Same w w' := perform_same (P := fun p => isQuery p = true) (fun p w h => query_same h w) fun t r st' h _ =>
      asks_uploadDir hdry _ _ _ _ _ _ _ _ _ _ _ _ _ h
    exact absurd (by rw [h]) hne
  | false =>
    have key : ∀ w', (Same w w' ∨ ∃ l, Denotes w (pathOf names) l ∧ Kept sys tools (mirrorJob env st dirMode fileMode owner group names entries w l) w w') →
        w'.fs (l ++ rel ++ [name]) ≠ w.fs (l ++ rel ++ [name]) → ∃ n, w'.fs (l ++ rel) = some n ∧ IsDirectory w (inForce env st { dirMode, owner, group }) n := by
      rintro w' (h | ⟨l', hd, h⟩) hne
      · exact absurd (by rw [h]) hne
      · have : l' = l := by have := hd.symm.trans hden; cases this; rfl
        subst this
        exact h.order rel name (by rwa [List.append_assoc] at hne)
    exact key w' (post_world (mirror_post hord hm hdry hp hsize hl) (fun _ _ _ h => .inr (h.2.elim fun l h => ⟨l, h.1, h.2.1⟩))) hne

/-! ### Each path once -/

section
variable {env : Env}

theorem keys_uploadDirs {mode owner group : Option Str} : ∀ {ds : List Str} {l : List (Str × Dict × Dict)} {st st' : St} {t : Trace}, Nested l st →
    Execution (uploadDirs mode owner group ds) env st t (.ok ()) st' → ∃ l', Nested (l ++ l') st' ∧ l'.map (·.1) = ds := by
  intro ds
  induction ds with
  | nil =>
    intro l st st' t hn h
    obtain ⟨rfl, _, rfl⟩ := (execution_ret rfl).mp h
    exact ⟨[], by simpa using hn, rfl⟩
  | cons d ds ih =>
    intro l st st' t hn h
    replace h := execution_ok_bind h
    obtain ⟨t1, t2, x, st1, rfl, h1, h⟩ := h
    replace h := execution_ok_bind h
    obtain ⟨t3, t4, _, st2, rfl, h2, h⟩ := h
    have hn1 : Nested l st1 := by
      unfold Nested
      rw [operation_kept h1]
      exact hn
    obtain ⟨rfl, hn2⟩ := nested_add hn1 h2
    obtain ⟨l', h3, h4⟩ := ih hn2 h
    exact ⟨(d, x.initial, x.final) :: l', by simpa using h3, by rw [List.map_cons, h4]⟩

theorem keys_uploadFiles {sha512 : Bytes → Bytes} {mode owner group : Option Str} : ∀ {fs : List (Tree × Str)} {l : List (Str × Dict × Dict)}
    {st st' : St} {t : Trace}, Nested l st → Execution (uploadFiles sha512 mode owner group fs) env st t (.ok ()) st' →
    ∃ l', Nested (l ++ l') st' ∧ l'.map (·.1) = (fs.filter (·.1.content?.isSome)).map (·.2) := by
  intro fs
  induction fs with
  | nil =>
    intro l st st' t hn h
    obtain ⟨rfl, _, rfl⟩ := (execution_ret rfl).mp h
    exact ⟨[], by simpa using hn, rfl⟩
  | cons d ds ih =>
    intro l st st' t hn h
    obtain ⟨tr, df⟩ := d
    rw [uploadFiles] at h
    split at h
    · next c hc =>
      replace h := execution_ok_bind h
      obtain ⟨t1, t2, x, st1, rfl, h1, h⟩ := h
      replace h := execution_ok_bind h
      obtain ⟨t3, t4, _, st2, rfl, h2, h⟩ := h
      have hn1 : Nested l st1 := by
        unfold Nested
        rw [operation_kept h1]
        exact hn
      obtain ⟨rfl, hn2⟩ := nested_add hn1 h2
      obtain ⟨l', h3, h4⟩ := ih hn2 h
      refine ⟨(df, x.initial, x.final) :: l', by simpa using h3, ?_⟩
      rw [List.filter_cons_of_pos (by simp [hc]), List.map_cons, List.map_cons, h4]
    · next hc =>
      obtain ⟨l', h3, h4⟩ := ih hn h
      exact ⟨l', h3, by rw [List.filter_cons_of_neg (by simp [hc]), h4]⟩

theorem keys_uploadDir {sha512 : Bytes → Bytes} {src : Str} {tree : Tree} {dest : Str} {dirMode fileMode owner group : Option Str} {check : Bool}
    {st st' : St} {t : Trace} {x : OpResult} (he : Execution (uploadDir sha512 src tree dest dirMode fileMode owner group check) env st t (.ok x) st') :
    x.final.map (·.1) = destDirs (destOf src dest) (walkTree [] tree)
        ++ ((destFiles (destOf src dest) (walkTree [] tree)).filter (·.1.content?.isSome)).map (·.2)
      ∧ x.initial.map (·.1) = x.final.map (·.1) ∧ (x.final.map (·.1)).Nodup := by
  obtain ⟨r0, st0, h, _, h3⟩ := execution_operation.mp he
  have hr : r0 = .ok (some x) := by
    rcases r0 with e | (_ | y)
    · cases h3
    · cases h3
    · dsimp only at h3
      split at h3
      · cases h3
      · cases h3; rfl
  subst hr
  replace h := execution_ok_bind h
  obtain ⟨t1, t2, _, st1, rfl, h1, h⟩ := h
  obtain ⟨rfl, _, rfl⟩ := (execution_ret rfl).mp h1
  replace h := execution_ok_bind h
  obtain ⟨t3, t4, _, st2, rfl, h2, h⟩ := h
  have h2' : st2 = { st with op := { hasNested := true } } := by
    cases hp : checkAbsolutePath dest p!"dest" with
    | error e =>
      rw [hp] at h2
      replace h2 := (execution_ret rfl).mp h2
      obtain ⟨_, h2, _⟩ := h2
      cases h2
    | ok u =>
      rw [hp] at h2
      exact ((execution_ret rfl).mp h2).2.2
  subst h2'
  dsimp only at h
  split at h
  · replace h := (execution_ret rfl).mp h
    obtain ⟨_, h, _⟩ := h
    cases h
  replace h := execution_ok_bind h
  obtain ⟨t5, t6, _, st3, rfl, h5, h⟩ := h
  replace h := execution_ok_bind h
  obtain ⟨t7, t8, _, st4, rfl, h7, h⟩ := h
  obtain ⟨l1, hn1, hq1⟩ := keys_uploadDirs (l := []) ⟨rfl, rfl, rfl, by simp⟩ h5
  obtain ⟨l2, hn2, hq2⟩ := keys_uploadFiles hn1 h7
  obtain ⟨t9, t10, y, st5, rfl, h9, h10⟩ := execution_ok_bind h
  have h6 := (execution_ret rfl).mp h10
  simp only [Except.ok.injEq, Option.some.injEq] at h6
  obtain ⟨rfl, rfl, rfl⟩ := h6
  obtain ⟨_, hi, hf, hnd⟩ := hn2
  simp only [List.nil_append] at hi hf hnd
  rcases success_cases env st4 with ⟨e, hsc⟩ | ⟨i, f, hsi, hsf, hsc⟩
  · obtain ⟨_, h9, _⟩ := (execution_ret hsc).mp h9
    cases h9
  obtain ⟨_, h9, _⟩ := (execution_ret hsc).mp h9
  cases h9
  rw [hsi] at hi
  rw [hsf] at hf
  simp only [Option.getD_some] at hi hf
  have hk : f.map (·.1) = (l1 ++ l2).map (·.1) := by rw [hf, List.map_map]; rfl
  have hk' : i.map (·.1) = (l1 ++ l2).map (·.1) := by rw [hi, List.map_map]; rfl
  refine ⟨?_, by simp only; rw [hk, hk'], by simp only; rw [hk]; exact hnd⟩
  simp only
  rw [hk, List.map_append, hq1, hq2]

end

theorem parentsFirst_split {known l : List Loc} (h : ParentsFirst known l) : ∀ {a b : List Loc} {x : Loc}, l = a ++ x :: b → ∀ p n, x = p ++ [n] → p ∈ known ∨ p ∈ a := by
  induction l generalizing known with
  | nil => intro a b x he; simp at he
  | cons y r ih =>
    intro a b x he p n hx
    obtain ⟨⟨p', n', hy, hp'⟩, h2⟩ := h
    cases a with
    | nil =>
      simp only [List.nil_append, List.cons.injEq] at he
      rw [← he.1, hy] at hx
      rw [← (List.append_inj' hx rfl).1]
      exact .inl hp'
    | cons z a =>
      simp only [List.cons_append, List.cons.injEq] at he
      rcases ih h2 he.2 p n hx with h | h
      · rcases List.mem_cons.mp h with rfl | h
        · exact .inr (by rw [← he.1]; simp)
        · exact .inl h
      · exact .inr (by simp [h])

theorem pathOf_inj {a b : List Str} (ha : ∀ n ∈ a, FileName n) (hb : ∀ n ∈ b, FileName n) (h : pathOf a = pathOf b) : a = b := by
  rw [← components_pathOf ha, ← components_pathOf hb, h]

theorem isSome_content {t : Tree} (h : t.isDir = false) : t.content?.isSome = true ↔ t.Transferred := by
  cases t <;> simp_all [Tree.isDir, Tree.content?, Tree.Transferred]

/-- C46: each destination path is used once, and directories come before their content. If `upload_dir` ends normally,
whatever the remote answered, its states have one entry for each directory and file of the source tree, under the path in
the destination; no path occurs twice, and that of a directory comes before those in it. -/
theorem C46_each_once (sha512 : Bytes → Bytes) (env : Env) (st st' : St) (tr : Trace) (src dest : Str) (entries : List (Str × Tree)) (names : List Str)
    (hp : Tree.Proper (.dir entries)) (hl : Lands src dest names) (dirMode fileMode owner group : Option Str) (check : Bool) (r : OpResult)
    (he : Execution (uploadDir sha512 src (.dir entries) dest dirMode fileMode owner group check) env st tr (.ok r) st') :
    let paths := r.final.map (·.1)
    r.initial.map (·.1) = paths ∧ paths.Nodup
      ∧ (∀ path, path ∈ paths ↔ ∃ rel t, Tree.At (.dir entries) rel t ∧ t.Transferred ∧ path = pathOf (names ++ rel))
      ∧ ∀ before after rel name, paths = before ++ pathOf (names ++ (rel ++ [name])) :: after → (∀ n ∈ rel ++ [name], FileName n) → pathOf (names ++ rel) ∈ before := by
  intro paths
  obtain ⟨hdest, hnames⟩ := destOf_lands hl
  obtain ⟨h1, h2, h3⟩ := keys_uploadDir he
  rw [hdest, destDirs_eq hp hnames, destFiles_eq hp hnames] at h1
  have h1 : paths = (relDirs entries ++ ((relFiles entries).filter (·.2.content?.isSome)).map (·.1)).map fun rel => pathOf (names ++ rel) := by
    rw [show paths = _ from h1, List.map_append, List.map_map]
    congr 1
    rw [List.filter_map, List.map_map]
    rfl
  have hmem : ∀ rel, rel ∈ relDirs entries ++ ((relFiles entries).filter (·.2.content?.isSome)).map (·.1) ↔ ∃ t, Tree.At (.dir entries) rel t ∧ t.Transferred := by
    intro rel
    rw [List.mem_append, relDirs_mem, List.mem_map]
    constructor
    · rintro (⟨t, h, hd⟩ | ⟨x, hx, rfl⟩)
      · exact ⟨t, h, transferred_dir hd⟩
      · obtain ⟨hx, hc⟩ := List.mem_filter.mp hx
        obtain ⟨ha, hd⟩ := relFiles_mem.mp hx
        exact ⟨x.2, ha, (isSome_content hd).mp hc⟩
    · rintro ⟨t, h, ht⟩
      cases hd : t.isDir with
      | true => exact .inl ⟨t, h, hd⟩
      | false => exact .inr ⟨(rel, t), List.mem_filter.mpr ⟨relFiles_mem.mpr ⟨h, hd⟩, (isSome_content hd).mpr ht⟩, rfl⟩
  refine ⟨h2, h3, fun path => ?_, fun before after rel name hs hfn => ?_⟩
  · rw [h1, List.mem_map]
    constructor
    · rintro ⟨rel, hr, rfl⟩
      obtain ⟨t, ha, ht⟩ := (hmem rel).mp hr
      exact ⟨rel, t, ha, ht, rfl⟩
    · rintro ⟨rel, t, ha, ht, rfl⟩
      exact ⟨rel, (hmem rel).mpr ⟨t, ha, ht⟩, rfl⟩
  · rw [h1] at hs
    obtain ⟨a, b', hab, hbefore, hb⟩ := List.map_eq_append_iff.mp hs
    obtain ⟨x, b, hb', hx, _⟩ := List.map_eq_cons_iff.mp hb
    subst hb'
    have hxmem : x ∈ relDirs entries ++ ((relFiles entries).filter (·.2.content?.isSome)).map (·.1) := by rw [hab]; simp
    obtain ⟨t, hat, _⟩ := (hmem x).mp hxmem
    have hx' : names ++ x = names ++ (rel ++ [name]) := by
      refine pathOf_inj ?_ ?_ hx
      · intro n hn
        rcases List.mem_append.mp hn with hn | hn
        · exact hnames n hn
        · exact at_names hp hat n hn
      · intro n hn
        rcases List.mem_append.mp hn with hn | hn
        · exact hnames n hn
        · exact hfn n hn
    have hx' := List.append_cancel_left hx'
    subst hx'
    have key : rel ∈ a := by
      rcases List.append_eq_append_iff.mp hab with ⟨c, hc1, hc2⟩ | ⟨c, hc1, hc2⟩
      · -- the entry is one of the files
        obtain ⟨es', hes, _⟩ := at_snoc hat
        rw [hc1]
        exact List.mem_append_left _ (relDirs_mem.mpr ⟨_, hes, rfl⟩)
      · cases c with
        | nil =>
          obtain ⟨es', hes, _⟩ := at_snoc hat
          rw [List.append_nil] at hc1
          rw [← hc1]
          exact relDirs_mem.mpr ⟨_, hes, rfl⟩
        | cons y c =>
          simp only [List.cons_append, List.cons.injEq] at hc2
          obtain ⟨rfl, _⟩ := hc2
          have hpf : ParentsFirst [[]] ((chosen Tree.isDir (places [] (.dir entries))).map (·.1)) := relDirs_ordered entries
          unfold relDirs at hc1
          cases a with
          | nil => simp at hc1
          | cons z a =>
            simp only [List.cons_append, List.cons.injEq] at hc1
            rcases parentsFirst_split hpf hc1.2 rel name rfl with h | h
            · rw [List.mem_singleton] at h
              rw [h, ← hc1.1]; simp
            · simp [h]
    rw [← hbefore]
    exact List.mem_map.mpr ⟨rel, key, rfl⟩

/-! ### A concrete case -/

/-- A directory with a file, a directory with a file in it, and a dangling link. -/
def Example.tree : List (Str × Tree) :=
  [(p!"a.conf", .file (.ok [104, 105])), (p!"sub", .dir [(p!"b", .file (.ok []))]), (p!"gone", .special)]

theorem Example.tree_proper : Tree.Proper (.dir Example.tree) := by
  have hn : ∀ n : Str, n = p!"a.conf" ∨ n = p!"sub" ∨ n = p!"gone" ∨ n = p!"b" → FileName n := by
    rintro n (rfl | rfl | rfl | rfl) <;> exact ⟨by decide, by decide, by decide, by decide⟩
  intro rel entries h
  cases h with
  | here =>
    refine ⟨by decide, ?_⟩
    intro e he
    simp only [Example.tree, List.mem_cons, List.not_mem_nil, or_false] at he
    rcases he with rfl | rfl | rfl <;> exact hn _ (by simp)
  | inside hm ha =>
    simp only [Example.tree, List.mem_cons, List.not_mem_nil, or_false, Prod.mk.injEq] at hm
    rcases hm with ⟨rfl, rfl⟩ | ⟨rfl, rfl⟩ | ⟨rfl, rfl⟩
    · cases ha
    · cases ha with
      | here =>
        refine ⟨by decide, ?_⟩
        intro e he
        simp only [List.mem_cons, List.not_mem_nil, or_false] at he
        subst he
        exact hn _ (by simp)
      | inside hm ha =>
        simp only [List.mem_cons, List.not_mem_nil, or_false, Prod.mk.injEq] at hm
        obtain ⟨rfl, rfl⟩ := hm
        cases ha
    · cases ha

theorem Example.tree_storable : Tree.Storable (.dir Example.tree) := by
  have : ∀ rel b, Tree.At (.dir Example.tree) rel (.file (.ok b)) ∨ Tree.At (.dir Example.tree) rel (.fileLink (.ok b)) → b = [] ∨ b = [104, 105] := by
    intro rel b h
    rcases h with h | h
    · cases h with
      | inside hm ha =>
        simp only [Example.tree, List.mem_cons, List.not_mem_nil, or_false, Prod.mk.injEq] at hm
        rcases hm with ⟨rfl, rfl⟩ | ⟨rfl, rfl⟩ | ⟨rfl, rfl⟩
        · cases ha; exact .inr rfl
        · cases ha with
          | inside hm ha =>
            simp only [List.mem_cons, List.not_mem_nil, or_false, Prod.mk.injEq] at hm
            obtain ⟨rfl, rfl⟩ := hm
            cases ha; exact .inl rfl
        · cases ha
    · cases h with
      | inside hm ha =>
        simp only [Example.tree, List.mem_cons, List.not_mem_nil, or_false, Prod.mk.injEq] at hm
        rcases hm with ⟨rfl, rfl⟩ | ⟨rfl, rfl⟩ | ⟨rfl, rfl⟩
        · cases ha
        · cases ha with
          | inside hm ha =>
            simp only [List.mem_cons, List.not_mem_nil, or_false, Prod.mk.injEq] at hm
            obtain ⟨rfl, rfl⟩ := hm
            cases ha
        · cases ha
  intro rel b h
  rcases this rel b h with rfl | rfl <;> (unfold Modest; decide)

/-- `upload_dir("./site", "/tmp/")` creates `/tmp/site`, and succeeds on the example host. -/
example : Lands p!"./site" p!"/tmp/" [p!"tmp", p!"site"]
    ∧ (perform Example.sys Example.always (uploadDir Example.sys.sha512 p!"./site" (.dir Example.tree) p!"/tmp/" none none (some p!"alice") none true)
        Example.env Example.st Example.host).1.toOption.map (·.changed) = some true
    ∧ ((perform Example.sys Example.always (uploadDir Example.sys.sha512 p!"./site" (.dir Example.tree) p!"/tmp/" none none (some p!"alice") none true)
        Example.env Example.st Example.host).2.fs [p!"tmp", p!"site", p!"sub", p!"b"]).map (fun n => (n.kind, n.perm, n.uid)) = some (.file [], 0o600, 1000) := by
  refine ⟨?_, by decide +kernel, by decide +kernel⟩
  exact Lands.child (src := p!"./site") (names := [p!"tmp"]) (name := p!"site") (dir := p!".")
    (by intro n hn; simp only [List.mem_singleton] at hn; subst hn; exact ⟨by decide, by decide, by decide, by decide⟩)
    ⟨by decide, by decide, by decide, by decide⟩ (.inr rfl)

/-! ### What is not true -/

/-- C46 is false for links: the documentation of `upload_dir` says that it will only upload files and directories, not links.
A link to a file is uploaded as a file, and a link to a directory becomes an empty directory. -/
theorem C46_links_refuted :
    let op := uploadDir Example.sys.sha512 p!"site" (.dir [(p!"passwd", .fileLink (.ok [120])), (p!"etc", .dirLink)]) p!"/tmp/" none none none none true
    let w' := (perform Example.sys Example.always op Example.env Example.st Example.host).2
    (w'.fs [p!"tmp", p!"site", p!"passwd"]).map (·.kind) = some (.file [120]) ∧ (w'.fs [p!"tmp", p!"site", p!"etc"]).map (·.kind) = some .dir
      ∧ Example.host.fs [p!"tmp", p!"site", p!"passwd"] = none ∧ Example.host.fs [p!"tmp", p!"site", p!"etc"] = none := by
  decide +kernel

/-- A host on which `/tmp/l` is a link to `/etc/deep`, a directory. -/
def Example.linked : World :=
  (Example.host.set [p!"etc", p!"deep"] (some (Remote.Example.dirNode 0o755))).set [p!"tmp", p!"l"]
    (some { Remote.Example.dirNode 0o777 with kind := .link p!"/etc/deep" })

/-- C46 is false for a destination with `..` after a link: the top directory is created at one place, its content at another.
`/tmp/l/../x` is `/etc/x` on this host, but the files are uploaded to `/tmp/x`. -/
theorem C46_dotdot_refuted :
    let op := uploadDir Example.sys.sha512 p!"site" (.dir [(p!"f", .file (.ok [120]))]) p!"/tmp/l/../x" none none none none true
    let w1 := Example.linked.set [p!"tmp", p!"x"] (some (Remote.Example.dirNode 0o755))
    let w' := (perform Example.sys Example.always op Example.env Example.st w1).2
    (w1.fs [p!"etc", p!"x"]).isSome = false ∧ (w'.fs [p!"etc", p!"x"]).map (·.kind) = some .dir ∧ w'.fs [p!"etc", p!"x", p!"f"] = none
      ∧ (w'.fs [p!"tmp", p!"x", p!"f"]).map (·.kind) = some (.file [120]) := by
  decide +kernel

/-- C46 is false if both arguments end with a slash: `upload_dir("site/", "/tmp/")` does not create `/tmp/site`, it puts the
content directly into `/tmp`. (The name after the last slash of the source is empty.) -/
theorem C46_slash_refuted :
    let op := uploadDir Example.sys.sha512 p!"site/" (.dir [(p!"f", .file (.ok [120]))]) p!"/tmp/" none none none none true
    let w' := (perform Example.sys Example.always op Example.env Example.st Example.host).2
    w'.fs [p!"tmp", p!"site"] = none ∧ (w'.fs [p!"tmp", p!"f"]).map (·.kind) = some (.file [120])
      ∧ (w'.fs [p!"tmp"]).map (·.perm) = some 0o700 := by
  decide +kernel

end Verif.Ops
