/-
What `line` does to a host.
-/
import Verif.Ops.ManageLemmas
import Verif.Ops.RepeatLemmas
import Verif.Ops.LineSpec
import Verif.Py.LineLemmas

namespace Verif.Ops

open Script Remote
open Client (Prog direct lostConnection typeName writtenNode chmodNode chownNode)
open Wire (Packet)

/-- What `line` makes of a content: the new content, or none if it cannot be encoded. -/
def lineContent (line : Str) (present : Bool) (regex : Option Regex) (ws : Bool) (old : Bytes) : Option Bytes :=
  Py.encodeEscape (joinLines (newLines line present regex ws (Py.splitlines (Py.decodeEscape old))))

section
variable {sys : Sys} {lost : Nat → Option Bool} {env : Env} {st : St} {w w1 w' : World}
variable {tools : Tools} {path dst : Str} {l lb : Loc} {n m : Node} {old : Bytes}

/-- A file `m` has been written at another place `lb`; `path` still denotes `l`. -/
structure Beside (path : Str) (l lb : Loc) (m : Node) (w w1 : World) : Prop where
  ne : lb ≠ l
  eq : w1 = { w.set lb (some m) with started := w1.started }
  kind : ∃ c, m.kind = .file c
  was : ∀ x, w.fs lb = some x → ∃ c, x.kind = .file c
  res : ∀ cwd, resolve w1.fs cwd path false = .ok l

theorem Beside.fs (h : Beside path l lb m w w1) : w1.fs = setNode w.fs lb (some m) := by rw [h.eq]; rfl

theorem beside_resolve {b : Loc} {fo : Bool} {cwd L : Loc} {p : Str} (hk : ∃ c, m.kind = .file c) (hw : ∀ x, w.fs b = some x → ∃ c, x.kind = .file c)
    (h : resolve w.fs cwd p fo = .ok L) : resolve (setNode w.fs b (some m)) cwd p fo = .ok L := by
  obtain ⟨c, hc⟩ := hk
  cases hb : w.fs b with
  | none => exact resolve_create_any hb (fun _ t ht => by rw [hc] at ht; cases ht) h
  | some x =>
    obtain ⟨c', hx⟩ := hw x hb
    rw [resolve_set_shape (by rw [hb]; simp [shape, hc, hx]), h]

theorem Beside.resolve (h : Beside path l lb m w w1) {fo : Bool} {cwd L : Loc} {p : Str} (hr : resolve w.fs cwd p fo = .ok L) :
    resolve w1.fs cwd p fo = .ok L := by
  rw [h.fs]; exact beside_resolve h.kind h.was hr

/-- `path` has been copied to `dst`. -/
def Copied (path dst : Str) (l : Loc) (n : Node) (w w1 : World) : Prop :=
  ∃ lb m, Beside path l lb m w w1 ∧ m = { n with ctime := w.clock } ∧ ∀ cwd, resolve w1.fs cwd dst true = .ok lb

/-- Something has been written to `dst`. -/
def CopyLeft (path dst : Str) (l : Loc) (w w1 : World) : Prop :=
  Same w w1 ∨ ∃ lb m, Beside path l lb m w w1 ∧ ∀ cwd, resolve w1.fs cwd dst true = .ok lb

theorem Copied.left (h : Copied path dst l n w w1) : CopyLeft path dst l w w1 := by
  obtain ⟨lb, m, h1, _, h3⟩ := h
  exact .inr ⟨lb, m, h1, h3⟩

/-- The place `cp` copies to. -/
theorem copyPlace_spec {p : Proc} (hd : isAbs dst = true) (hfree : ∀ l n, lookup w.fs w.cwd dst true = .ok (l, n) → ∃ c, n.kind = .file c)
    (h : copyPlace w p path dst = .ok lb) : (∀ cwd, resolve w.fs cwd dst true = .ok lb) ∧ (∀ x, w.fs lb = some x → ∃ c, x.kind = .file c) := by
  unfold copyPlace at h
  have habs : ∀ fo, lookup w.fs p.cwd dst fo = lookup w.fs w.cwd dst fo := fun fo => by simp only [lookup, resolve_abs hd p.cwd w.cwd]
  cases hl : lookup w.fs w.cwd dst true with
  | ok x =>
    obtain ⟨l', n'⟩ := x
    rw [habs, hl] at h
    obtain ⟨c, hc⟩ := hfree _ _ hl
    simp only [hc, reduceCtorEq, if_false, Except.ok.injEq] at h
    subst h
    obtain ⟨h1, h2⟩ := lookup_ok hl
    exact ⟨fun cwd => (resolve_abs hd cwd w.cwd true).trans h1, fun x hx => by rw [h2] at hx; cases hx; exact ⟨c, hc⟩⟩
  | error e =>
    rw [habs, hl] at h
    simp only at h
    cases hl2 : lookup w.fs w.cwd dst false with
    | ok x => rw [habs, hl2] at h; cases h
    | error e' =>
      rw [habs, hl2] at h
      simp only at h
      have hnone : w.fs lb = none := by
        cases hx : w.fs lb with
        | none => rfl
        | some x =>
          rw [lookup_of ((resolve_abs hd w.cwd p.cwd false).trans h) hx] at hl2
          cases hl2
      refine ⟨fun cwd => resolve_follow ?_ ((resolve_abs hd cwd p.cwd false).trans h), fun x hx => by rw [hnone] at hx; cases hx⟩
      intro t ht
      rw [hnone] at ht
      cases ht

theorem cp_outcome {p : Proc} (hd : isAbs dst = true) (hres : ∀ cwd, resolve w.fs cwd path false = .ok l) (hl : w.fs l = some n) (hk : n.kind = .file old)
    (hfree : ∀ l n, lookup w.fs w.cwd dst true = .ok (l, n) → ∃ c, n.kind = .file c) :
    Outcome (Copied path dst l n w) (CopyLeft path dst l w) (runCp tools p w path dst) := by
  unfold runCp
  rw [lookup_of (hres p.cwd) hl]
  simp only [hk]
  cases hc : copyPlace w p path dst with
  | error e => exact .broken (.inl rfl)
  | ok lb =>
    obtain ⟨h1, h2⟩ := copyPlace_spec hd hfree hc
    simp only
    by_cases hne : lb = l
    · rw [if_pos hne]; exact .broken (.inl rfl)
    rw [if_neg hne]
    have key : ∀ m : Node, (∃ c, m.kind = .file c) → Beside path l lb m w (w.set lb (some m)) ∧ ∀ cwd, resolve (w.set lb (some m)).fs cwd dst true = .ok lb :=
      fun m hm => ⟨⟨hne, rfl, hm, h2, fun cwd => beside_resolve hm h2 (hres cwd)⟩, fun cwd => beside_resolve hm h2 (h1 cwd)⟩
    have good : Copied path dst l n w (w.set lb (some { n with ctime := w.clock })) :=
      ⟨lb, _, (key { n with ctime := w.clock } ⟨old, hk⟩).1, rfl, (key { n with ctime := w.clock } ⟨old, hk⟩).2⟩
    have bad : ∀ m : Node, (∃ c, m.kind = .file c) → CopyLeft path dst l w (w.set lb (some m)) :=
      fun m hm => .inr ⟨lb, m, (key m hm).1, (key m hm).2⟩
    cases hb : w.fs lb with
    | some x =>
      obtain ⟨c, hx⟩ := h2 x hb
      simp only [hx]
      split
      · exact .broken (.inl rfl)
      · split
        · exact .broken (bad _ ⟨_, rfl⟩)
        · exact .fine (by rw [← hk]; exact good)
    | none =>
      simp only
      split
      · exact .broken (.inl rfl)
      · split
        · exact .broken (bad _ ⟨_, rfl⟩)
        · exact .fine (by rw [← hk]; exact good)

theorem isAbs_dirName (h : isAbs path = true) : isAbs (dirName path) = true := by
  cases path with
  | nil => cases h
  | cons c r =>
    have hc : c = 47 := by simpa [isAbs] using h
    subst hc
    have hh : ∃ t, ((47 :: r).reverse.dropWhile (· != 47)).reverse = 47 :: t := by
      rw [List.reverse_cons]
      generalize r.reverse = s
      induction s with
      | nil => exact ⟨[], rfl⟩
      | cons x xs ih =>
        rw [List.cons_append, List.dropWhile_cons]
        split
        · exact ih
        · exact ⟨xs.reverse ++ [x], by simp⟩
    obtain ⟨t, ht⟩ := hh
    unfold dirName
    simp only [ht]
    split
    · rfl
    · next hall =>
      have : ∃ t', ((47 :: t).reverse.dropWhile (· == 47)).reverse = 47 :: t' := by
        have hex : ∃ x ∈ t.reverse, (x == 47) = false := by
          simp only [List.all_cons, beq_self_eq_true, Bool.true_and, Bool.not_eq_true, List.all_eq_false] at hall
          obtain ⟨x, hx, hx'⟩ := hall
          exact ⟨x, by simpa using hx, by simpa using hx'⟩
        rw [List.reverse_cons]
        revert hex
        generalize t.reverse = s
        induction s with
        | nil => rintro ⟨_, h, _⟩; cases h
        | cons x xs ih =>
          rintro ⟨y, hy, hy'⟩
          rw [List.cons_append, List.dropWhile_cons]
          split
          · next hx =>
            refine ih ⟨y, ?_, hy'⟩
            simp only [List.mem_cons] at hy
            rcases hy with rfl | hy
            · rw [hy'] at hx; cases hx
            · exact hy
          · exact ⟨xs.reverse ++ [x], by simp⟩
      obtain ⟨t', ht'⟩ := this
      rw [ht']; rfl

theorem isAbs_backupPath {backup : Backup} (ha : isAbs path = true) (h : backupPath path backup = some dst) : isAbs dst = true := by
  unfold backupPath at h
  cases hb : backup.fileName with
  | none => rw [hb] at h; cases h
  | some b => rw [hb] at h; cases h; exact isAbs_pathJoin (isAbs_dirName ha)

/-- The backup has been made if one was wanted. -/
def BackedUp (path : Str) (backup : Backup) (l : Loc) (n : Node) (w w1 : World) : Prop :=
  match backupPath path backup with
  | none => Same w w1
  | some dst => Copied path dst l n w w1

def BackupLeft (path : Str) (backup : Backup) (l : Loc) (w w1 : World) : Prop :=
  match backupPath path backup with
  | none => Same w w1
  | some dst => CopyLeft path dst l w w1

theorem BackupLeft.same {backup : Backup} (h : Same w w1) : BackupLeft path backup l w w1 := by
  unfold BackupLeft
  split
  · exact h
  · exact .inl h

theorem BackedUp.left {backup : Backup} (h : BackedUp path backup l n w w1) : BackupLeft path backup l w w1 := by
  unfold BackedUp at h
  unfold BackupLeft
  split at h
  · exact h
  · exact h.left

theorem BackupLeft.keeps {backup : Backup} (h : BackupLeft path backup l w w1) (hres : ∀ cwd, resolve w.fs cwd path false = .ok l) :
    w1.fs l = w.fs l ∧ ∀ cwd, resolve w1.fs cwd path false = .ok l := by
  have same : Same w w1 → w1.fs l = w.fs l ∧ ∀ cwd, resolve w1.fs cwd path false = .ok l := fun h => by
    have : w1.fs = w.fs := by rw [h]
    rw [this]; exact ⟨rfl, hres⟩
  unfold BackupLeft at h
  split at h
  · exact same h
  · rcases h with h | ⟨lb, m, hb, _⟩
    · exact same h
    · refine ⟨?_, hb.res⟩
      rw [hb.fs, setNode_ne _ _ (by rintro rfl; exact hb.ne rfl)]

theorem Same.started {s : List Proc} : Same w { w with started := s } := rfl

theorem Same.trans {w w1 w2 : World} (h1 : Same w w1) (h2 : Same w1 w2) : Same w w2 := by
  unfold Same at *
  rw [h1] at h2
  rw [h2]

theorem Beside.base {s : List Proc} (h : Beside path l lb m { w with started := s } w1) : Beside path l lb m w w1 := by
  refine ⟨h.ne, ?_, h.kind, h.was, h.res⟩
  have := h.eq
  rw [this]; rfl

theorem lineBackup_step (hw : w.Sane) (hsys : sys.exec = core tools) (ha : isAbs path = true) {backup : Backup} (hfree : BackupFree w path backup)
    (hres : ∀ cwd, resolve w.fs cwd path false = .ok l) (hl : w.fs l = some n) (hk : n.kind = .file old) :
    Post sys lost (lineBackup path backup) env st w (fun _ st' w1 => st' = st ∧ BackedUp path backup l n w w1) (BackupLeft path backup l w) := by
  unfold lineBackup
  cases hb : backup.fileName with
  | none =>
    refine Post.pure ⟨rfl, ?_⟩
    simp only [BackedUp, backupPath, hb, Option.map_none]
    exact (rfl : Same w w)
  | some b =>
    have hdst : backupPath path backup = some (pathJoin (dirName path) b) := by simp only [backupPath, hb, Option.map_some]
    simp only
    refine Post.runCommand hw hsys (t := .cp path (pathJoin (dirName path) b)) rfl (okP := BackedUp path backup l n w) (errP := BackupLeft path backup l w)
      ?_ (fun w' h => ⟨⟨rfl, h⟩, h.left⟩) (fun _ h => h) (BackupLeft.same rfl)
    intro p _ _
    show Outcome _ _ (runCp _ _ _ _ _)
    refine (cp_outcome (tools := tools) (p := p) (w := { w with started := p :: w.started }) (isAbs_backupPath ha hdst) hres hl hk
      (fun l n h => hfree _ hdst l n h)).mono ?_ ?_
    · rintro w' ⟨lb, m, h1, h2, h3⟩
      simp only [BackedUp, hdst]
      exact ⟨lb, m, h1.base, h2, h3⟩
    · rintro w' (h | ⟨lb, m, h1, h3⟩)
      · exact BackupLeft.same (Same.started.trans h)
      · simp only [BackupLeft, hdst]
        exact .inr ⟨lb, m, h1.base, h3⟩

/-- Uploading without mode, owner and group over an existing file. -/
theorem upload_plain {content : Bytes} (hres : ∀ cwd, resolve w.fs cwd path false = .ok l) (hl : w.fs l = some n) (hk : n.kind = .file old)
    {r : Except Exn Unit} (h : (Client.Connector.upload path content none none none).run (direct sys) w = (r, w')) :
    (w' = w ∧ r ≠ .ok ()) ∨ ∃ c, w' = w.set l (some { n with kind := .file c, mtime := w.clock, ctime := w.clock }) ∧ (r = .ok () → c = content) := by
  have hfo : resolve w.fs w.cwd path true = .ok l := by
    refine resolve_follow ?_ (hres w.cwd)
    intro t ht
    rw [hl] at ht
    rw [shape_link.mp ht] at hk
    cases hk
  have hworld : w' = (handleUpload sys path content none none none w).2 := by
    have := congrArg Prod.snd h
    simp only [Client.Connector.upload, Prog.run] at this
    rw [← this, Client.direct_world]
    rfl
  have hdo : handleUpload sys path content none none none w = doUpload sys path content none none none w := rfl
  rw [hdo] at hworld
  have hwr : ∀ x w1, osWrite sys w path content = (x, w1) →
      (w1 = w ∧ ∃ e, x = .error e) ∨ ∃ c, w1 = w.set l (some { n with kind := .file c, mtime := w.clock, ctime := w.clock }) ∧ (x = .ok () → c = content) := by
    intro x w1 hx
    unfold osWrite at hx
    split at hx
    · cases hx; exact .inl ⟨rfl, _, rfl⟩
    · rw [hfo] at hx
      simp only [hl, hk] at hx
      split at hx
      · cases hx; exact .inr ⟨_, rfl, fun h => by cases h⟩
      · cases hx; exact .inr ⟨_, rfl, fun _ => rfl⟩
  match hx : osWrite sys w path content with
  | (x, w1) =>
    have hd2 : (doUpload sys path content none none none w).2 = w1 := by
      unfold doUpload
      rw [hx]
      cases x <;> rfl
    rw [hd2] at hworld
    subst hworld
    have hokx : r = .ok () → x = .ok () := by
      rintro rfl
      obtain ⟨mo, ug, g, raw, q, h1, h2, h3, h4⟩ := Client.upload_ok h
      cases h1; cases h2; cases h3
      cases x with
      | ok u => rfl
      | error e =>
        unfold doUpload at h4
        rw [hx] at h4
        cases h4
    rcases hwr x w' hx with ⟨rfl, e, rfl⟩ | ⟨c, rfl, hc⟩
    · refine .inl ⟨rfl, fun h => ?_⟩
      cases hokx h
    · exact .inr ⟨c, rfl, fun h => hc (hokx h)⟩

/-- What `line` can leave behind if the file existed. -/
def LineLeft (path : Str) (backup : Backup) (l : Loc) (n : Node) (w w' : World) : Prop :=
  BackupLeft path backup l w w' ∨ ∃ w1 c, BackedUp path backup l n w w1
    ∧ w' = w1.set l (some { n with kind := .file c, mtime := w1.clock, ctime := w1.clock })

/-- The new content has been stored. -/
def LineDone (path : Str) (backup : Backup) (l : Loc) (n : Node) (new : Bytes) (w w' : World) : Prop :=
  ∃ w1, BackedUp path backup l n w w1 ∧ w' = w1.set l (some { n with kind := .file new, mtime := w1.clock, ctime := w1.clock })

theorem lineActions_some (hw : w.Sane) (hsys : sys.exec = core tools) (ha : isAbs path = true) {backup : Backup} (hfree : BackupFree w path backup)
    (hres : ∀ cwd, resolve w.fs cwd path false = .ok l) (hl : w.fs l = some n) (hk : n.kind = .file old) {attr : Settings} {new : Bytes} :
    Post sys lost (lineActions path backup attr (some old) new) env st w (fun _ st' w' => st' = st ∧ LineDone path backup l n new w w')
      (LineLeft path backup l n w) := by
  unfold lineActions
  refine Post.bind ((lineBackup_step hw hsys ha hfree hres hl hk).mono ?_ (fun _ h => .inl h))
  rintro _ st' w1 ⟨rfl, hb⟩
  obtain ⟨h1, h2⟩ := hb.left.keeps hres
  rw [hl] at h1
  refine Post.call (single_upload ..) ?_ ?_ (.inl hb.left)
  · intro _ w' h
    rcases upload_plain h2 h1 hk h with ⟨_, hne⟩ | ⟨c, rfl, hc⟩
    · exact absurd rfl hne
    · rw [hc rfl]
      exact ⟨⟨rfl, w1, hb, rfl⟩, .inr ⟨w1, new, hb, rfl⟩⟩
  · intro e w' h
    rcases upload_plain h2 h1 hk h with ⟨rfl, _⟩ | ⟨c, rfl, _⟩
    · exact .inl hb.left
    · exact .inr ⟨w1, c, hb, rfl⟩

theorem lineDiff_post {i f : Dict} (hs : States st i f) {orig : Option Bytes} {new : Bytes} {E : World → Prop} :
    Post sys lost (lineDiff path orig new) env st w (fun _ st' w' => (States st' i f ∧ st'.stack = st.stack) ∧ w' = w) E := by
  unfold lineDiff
  refine Post.bind (m := diffWanted) ?_
  intro k
  simp only [exec, diffWanted, Prog.run]
  cases env.diff with
  | false => exact Post.pure ⟨⟨hs, rfl⟩, rfl⟩
  | true =>
    simp only [if_true]
    intro k
    simp only [exec, opDiff, hs.nested, Bool.false_eq_true, if_false]
    split
    · rename_i h
      split at h
      · cases h; exact ⟨⟨hs, rfl⟩, rfl⟩
      · cases h; exact ⟨⟨⟨hs.printable, rfl, hs.initial, hs.final⟩, rfl⟩, rfl⟩
    · rename_i h
      split at h <;> cases h

theorem download_exact {c : Bytes} (hl : lookup w.fs w.cwd path true = .ok (l, n)) (hk : n.kind = .file old)
    (h : (Client.Connector.download path).run (direct sys) w = (.ok c, w)) : c = old := by
  simp only [Client.Connector.download, Prog.run, direct, handle, handleDownload, osRead, guardCall] at h
  cases hn : hasNul path with
  | true => simp [hn, nulError, isENOENT, lostConnection, Exn.isValueError] at h
  | false =>
    simp only [hn, Bool.false_eq_true, if_false] at h
    cases hf : sys.fault w (.openRead path) with
    | some e =>
      simp only [hf, OSErr.exn, isENOENT] at h
      by_cases he : e.errno = ENOENT
      · simp [he, Client.unpackResponse, Packet.getattr, Packet.kind, Packet.vals, Wire.schema, Wire.fieldText] at h
      · simp [he] at h
    | none =>
      simp only [hf, hl, hk] at h
      cases hf2 : sys.fault w (.read path) with
      | some e =>
        simp only [hf2, OSErr.exn, isENOENT] at h
        by_cases he : e.errno = ENOENT
        · simp [he, Client.unpackResponse, Packet.getattr, Packet.kind, Packet.vals, Wire.schema, Wire.fieldText] at h
        · simp [he] at h
      | none =>
        simp only [hf2] at h
        simpa [Client.unpackResponse] using congrArg Prod.fst h.symm

/-- The end of `line`. -/
theorem lineSettle_post {line : Str} {present : Bool} {regex : Option Regex} {ws : Bool} {backup : Backup} {attr : Settings} {orig : Option Bytes}
    (h1 : st.op.hasNested = false) (h2 : st.op.initial = none) (h3 : st.op.final = some [(p!"line_present", .bool present)])
    {Q : OpResult → World → Prop} {E : World → Prop} (hE : E w)
    (hsame : ∀ r : OpResult, r.success = true → r.changed = false → r.initial.eq r.final = true →
      (orig.any fun b => linePresent line regex ws (Py.decodeEscape b)) = present → Q r w)
    (hdry : ∀ r : OpResult, env.dry = true → r.success = true → r.changed = true →
      (orig.any fun b => linePresent line regex ws (Py.decodeEscape b)) ≠ present → Q r w)
    (hact : env.dry = false → (orig.any fun b => linePresent line regex ws (Py.decodeEscape b)) ≠ present →
      ∀ new, lineContent line present regex ws (orig.getD []) = some new → ∀ st', st'.stack = st.stack →
      Post sys lost (lineActions path backup attr orig new) env st' w
        (fun _ st'' w' => st'' = st' ∧ ∀ r : OpResult, r.success = true → r.changed = true → Q r w') E) :
    Post sys lost (lineSettle path line present regex ws backup attr orig) env st w (fun r _ w' => Q r w') E := by
  unfold lineSettle
  refine Post.bind (Post.initialState h1 h2 ?_)
  generalize hb : (orig.any fun b => linePresent line regex ws (Py.decodeEscape b)) = b
  rw [hb] at hsame hdry hact
  have hs : States { st with op := { st.op with initial := some [(p!"line_present", Val.bool b)] } } [(p!"line_present", .bool b)] [(p!"line_present", .bool present)] :=
    ⟨rfl, h1, rfl, h3⟩
  have heq : Dict.eq [(p!"line_present", Val.bool b)] [(p!"line_present", .bool present)] = (b == present) := by
    cases b <;> cases present <;> rfl
  generalize hst0 : ({ st with op := { st.op with initial := some [(p!"line_present", Val.bool b)] } } : St) = st0 at hs ⊢
  have hstack : st0.stack = st.stack := by rw [← hst0]
  refine Post.bind (m := unchanged) ?_
  intro k
  simp only [exec, unchanged, hs.initial, hs.final, Prog.run, Bool.not_false, if_true]
  rw [heq]
  cases hbp : (b == present) with
  | true =>
    simp only [if_true]
    refine Post.success hs ?_
    rw [heq, hbp]
    exact hsame _ rfl rfl (heq.trans hbp) (by simpa using hbp)
  | false =>
    have hne : b ≠ present := by simpa using hbp
    simp only [Bool.false_eq_true, if_false]
    refine Post.bind (Post.ofExcept ?_ hE)
    intro new hnew
    have hnew' : lineContent line present regex ws (orig.getD []) = some new := by
      have hd : (orig.map Py.decodeEscape).getD [] = Py.decodeEscape (orig.getD []) := by cases orig <;> rfl
      rw [hd] at hnew
      unfold lineContent
      unfold encodeLines at hnew
      split at hnew
      · next b' hb' => cases hnew; exact hb'
      · cases hnew
    refine Post.bind ((lineDiff_post hs (E := E)).mono ?_ fun _ h => h)
    rintro _ st' w' ⟨⟨hs', hst'⟩, rfl⟩
    refine Post.bind (m := unlessDry _) ?_
    unfold unlessDry
    refine Post.bind (m := dry) ?_
    intro k
    simp only [exec, dry, Prog.run]
    cases hd : env.dry with
    | true =>
      refine Post.pure ?_
      refine Post.success hs' ?_
      rw [heq, hbp]; exact hdry _ hd rfl rfl hne
    | false =>
      refine (hact hd hne new hnew' st' (hst'.trans hstack)).mono ?_ fun _ h => h
      rintro _ st'' w'' ⟨rfl, hq⟩
      refine Post.success hs' ?_
      rw [heq, hbp]; exact hq _ rfl rfl

/-- What `line` achieves on an existing file. -/
def LineGoal (path line : Str) (present : Bool) (regex : Option Regex) (ws : Bool) (backup : Backup) (l : Loc) (n : Node) (old : Bytes) (w w' : World) : Prop :=
  (linePresent line regex ws (Py.decodeEscape old) = present ∧ Same w w')
    ∨ linePresent line regex ws (Py.decodeEscape old) ≠ present
      ∧ ∃ new, lineContent line present regex ws old = some new ∧ LineDone path backup l n new w w'

theorem line_existing {line : Str} {present : Bool} {regex : Option Regex} {ws : Bool} {backup : Backup} {check : Bool}
    (hord : Ordinary sys tools w) (hm : PlainModes env st) (hfree : BackupFree w path backup)
    (hlk : lookup w.fs w.cwd path false = .ok (l, n)) (hk : n.kind = .file old) :
    Post sys lost (Ops.line path line present regex ws backup check) env st w
      (fun r _ w' => (((r.success = true ∧ (r.changed = true ↔ linePresent line regex ws (Py.decodeEscape old) ≠ present))
            ∧ (env.dry = false → LineGoal path line present regex ws backup l n old w w'))
          ∧ LineLeft path backup l n w w') ∧ (check = true → r.success = true)) (LineLeft path backup l n w) := by
  have hbase : LineLeft path backup l n w w := .inl (BackupLeft.same rfl)
  refine managed hord.sane hm hbase ?_
  intro attr st' ha h1 h2 h3 he hmo
  obtain ⟨hr, hl⟩ := lookup_ok hlk
  have hres : ∀ cwd, resolve w.fs cwd path false = .ok l := fun cwd => (resolve_abs ha cwd w.cwd false).trans hr
  unfold lineBody
  refine Post.bind (Post.finalState h1 h3 ?_)
  refine Post.bind (Post.stat ?_ hbase)
  intro s hstat
  cases s with
  | none =>
    have := stat_none hord.stat hstat
    rw [hlk] at this
    cases this
  | some s =>
    obtain ⟨l', n', hlk', rfl⟩ := stat_some hord.sane hstat
    rw [hlk] at hlk'
    cases hlk'
    simp only
    rw [if_neg (by simp [Client.described, hk, typeName])]
    refine Post.bind (Post.download ?_ hbase)
    intro c hc
    have hfo : lookup w.fs w.cwd path true = .ok (l, n) := lookup_follow (fun t ht => by rw [hk] at ht; cases ht) hlk
    obtain rfl := download_exact hfo hk hc
    refine (lineSettle_post (path := path) (Q := fun r w' => ((r.success = true ∧ (r.changed = true ↔ linePresent line regex ws (Py.decodeEscape c) ≠ present))
            ∧ (env.dry = false → LineGoal path line present regex ws backup l n c w w')) ∧ LineLeft path backup l n w w') ?_ ?_ ?_ hbase ?_ ?_ ?_)
    · exact h1
    · exact h2
    · rfl
    · intro r hr1 hr2 _ hp
      have hp : linePresent line regex ws (Py.decodeEscape c) = present := hp
      refine ⟨⟨⟨hr1, by rw [hr2]; simp [hp]⟩, fun _ => .inl ⟨hp, rfl⟩⟩, hbase⟩
    · intro r hd hr1 hr2 hp
      have hp : linePresent line regex ws (Py.decodeEscape c) ≠ present := hp
      exact ⟨⟨⟨hr1, by rw [hr2]; simpa using hp⟩, fun h => (by rw [hd] at h; cases h)⟩, hbase⟩
    · intro hd hp new hnew st2 _
      have hp : linePresent line regex ws (Py.decodeEscape c) ≠ present := hp
      refine (lineActions_some hord.sane hord.exec ha hfree hres hl hk).mono ?_ (fun _ h => h)
      rintro _ st3 w' ⟨rfl, hdone⟩
      refine ⟨rfl, fun r hr1 hr2 => ⟨⟨⟨hr1, by rw [hr2]; simpa using hp⟩, fun _ => .inr ⟨hp, new, hnew, hdone⟩⟩, ?_⟩⟩
      obtain ⟨w1, h1, h2⟩ := hdone
      exact .inr ⟨w1, new, h1, h2⟩

/-- What `line` achieves if there is no file. -/
def LineCreated (env : Env) (st : St) (path : Str) (present : Bool) (new : Option Bytes) (w w' : World) : Prop :=
  (present = false ∧ Same w w') ∨ present = true ∧ ∃ bytes attr l i m, new = some bytes ∧ Effective w (inForce env st (fileArgs none none none)) attr
    ∧ (inForce env st (fileArgs none none none)).fileMode = some m ∧ Py.parseInt 8 m = some i ∧ 0 ≤ i
    ∧ resolve w.fs w.cwd path false = .ok l ∧ Uploaded bytes path i attr w l w'

def LineCreateLeft (path : Str) (w w' : World) : Prop :=
  Same w w' ∨ ∃ l size, resolve w.fs w.cwd path false = .ok l ∧ SaveLeft size path w l w'

theorem line_missing {line : Str} {present : Bool} {regex : Option Regex} {ws : Bool} {backup : Backup} {check : Bool}
    (hord : Ordinary sys tools w) (hm : PlainModes env st) (hlk : ∀ x, lookup w.fs w.cwd path false ≠ .ok x) :
    Post sys lost (Ops.line path line present regex ws backup check) env st w
      (fun r _ w' => (((r.success = true ∧ r.changed = present)
            ∧ (env.dry = false → LineCreated env st path present (lineContent line present regex ws []) w w'))
          ∧ LineCreateLeft path w w') ∧ (check = true → r.success = true)) (LineCreateLeft path w) := by
  have hbase : LineCreateLeft path w w := .inl rfl
  refine managed hord.sane hm hbase ?_
  intro attr st' ha h1 h2 h3 he hmo
  obtain ⟨m, i, t, hmm, hi, hat, ht⟩ := he.file
  unfold lineBody
  refine Post.bind (Post.finalState h1 h3 ?_)
  refine Post.bind (Post.stat ?_ hbase)
  intro s hstat
  cases s with
  | some s =>
    obtain ⟨l', n', hlk', rfl⟩ := stat_some hord.sane hstat
    exact absurd hlk' (hlk _)
  | none =>
    simp only
    refine (lineSettle_post (path := path) (Q := fun r w' => ((r.success = true ∧ r.changed = present)
            ∧ (env.dry = false → LineCreated env st path present (lineContent line present regex ws []) w w')) ∧ LineCreateLeft path w w') ?_ ?_ ?_ hbase ?_ ?_ ?_)
    · exact h1
    · exact h2
    · rfl
    · intro r hr1 hr2 _ hp
      have hp : false = present := hp
      subst hp
      exact ⟨⟨⟨hr1, hr2⟩, fun _ => .inl ⟨rfl, rfl⟩⟩, hbase⟩
    · intro r hd hr1 hr2 hp
      have hp : false ≠ present := hp
      have hp : present = true := by cases present <;> simp_all
      subst hp
      exact ⟨⟨⟨hr1, hr2⟩, fun h => (by rw [hd] at h; cases h)⟩, hbase⟩
    · intro hd hp new hnew st2 _
      have hp : false ≠ present := hp
      have hp : present = true := by cases present <;> simp_all
      subst hp
      unfold lineActions
      rcases stat_none_cases (stat_none hord.stat hstat) with ⟨e, hr⟩ | ⟨l, hr, hl⟩
      · have hr' := resolve_error_follow hr
        refine Post.call (single_upload ..) ?_ ?_ hbase
        · intro u w' h
          exact absurd rfl (upload_unresolved hr' h).2
        · intro x w' h
          rw [(upload_unresolved hr' h).1]; exact hbase
      · have hn : Now path l w none w := by have := Now.init ha hr; rwa [hl] at this
        refine (upload_step hord.accounts hord.sane hn (fun _ h => by cases h) ht hat).mono ?_ (fun w' h => .inr ⟨l, _, hr, h⟩)
        rintro _ st3 w' ⟨rfl, h0, hup⟩
        refine ⟨rfl, fun r hr1 hr2 => ⟨⟨⟨hr1, hr2⟩, fun _ => .inr ⟨rfl, new, attr, l, i, m, hnew, he, hmm, hi, h0, hr, hup⟩⟩, ?_⟩⟩
        exact .inr ⟨l, _, hr, (hup.done sys).left⟩

/-- Something else is at the path. -/
theorem line_other {line : Str} {present : Bool} {regex : Option Regex} {ws : Bool} {backup : Backup} {check : Bool}
    (hord : Ordinary sys tools w) (hm : PlainModes env st) (hlk : lookup w.fs w.cwd path false = .ok (l, n)) (hk : ∀ c, n.kind ≠ .file c) :
    Post sys lost (Ops.line path line present regex ws backup check) env st w
      (fun r _ w' => ((r.success = false ∧ r.changed = false) ∧ Same w w') ∧ (check = true → r.success = true)) (Same w) := by
  refine managed hord.sane hm rfl ?_
  intro attr st' ha h1 h2 h3 he hmo
  unfold lineBody
  refine Post.bind (Post.finalState h1 h3 ?_)
  refine Post.bind (Post.stat ?_ rfl)
  intro s hstat
  cases s with
  | none =>
    have := stat_none hord.stat hstat
    rw [hlk] at this
    cases this
  | some s =>
    obtain ⟨l', n', hlk', rfl⟩ := stat_some hord.sane hstat
    rw [hlk] at hlk'
    cases hlk'
    simp only
    rw [if_pos ?_]
    · exact Post.failure fun r h h' => ⟨⟨h, h'⟩, rfl⟩
    · intro hf
      obtain ⟨c, hc⟩ := fileKind (n := n) (by simpa [Client.described] using hf)
      exact hk c hc

/-- There is nothing to do. -/
theorem line_calm {line : Str} {present : Bool} {regex : Option Regex} {ws : Bool} {backup : Backup} {check : Bool}
    (hord : Ordinary sys tools w) (hm : PlainModes env st) (hlk : lookup w.fs w.cwd path false = .ok (l, n)) (hk : n.kind = .file old)
    (hp : linePresent line regex ws (Py.decodeEscape old) = present) :
    Post sys lost (Ops.line path line present regex ws backup check) env st w
      (fun r _ w' => (Settled w r w' ∧ Same w w') ∧ (check = true → r.success = true)) (Same w) := by
  have hbase : Same w w := rfl
  refine managed hord.sane hm hbase ?_
  intro attr st' ha h1 h2 h3 he hmo
  unfold lineBody
  refine Post.bind (Post.finalState h1 h3 ?_)
  refine Post.bind (Post.stat ?_ hbase)
  intro s hstat
  cases s with
  | none =>
    have := stat_none hord.stat hstat
    rw [hlk] at this
    cases this
  | some s =>
    obtain ⟨l', n', hlk', rfl⟩ := stat_some hord.sane hstat
    rw [hlk] at hlk'
    cases hlk'
    simp only
    rw [if_neg (by simp [Client.described, hk, typeName])]
    refine Post.bind (Post.download ?_ hbase)
    intro c hc
    have hfo : lookup w.fs w.cwd path true = .ok (l, n) := lookup_follow (fun t ht => by rw [hk] at ht; cases ht) hlk
    obtain rfl := download_exact hfo hk hc
    refine (lineSettle_post (path := path) (Q := fun r w' => Settled w r w' ∧ Same w w') ?_ ?_ ?_ hbase ?_ ?_ ?_)
    · exact h1
    · exact h2
    · rfl
    · exact fun r hr1 hr2 hr3 _ => ⟨⟨⟨⟨hr1, hr2⟩, hr3⟩, rfl⟩, rfl⟩
    · exact fun r _ _ _ hne => absurd hp hne
    · exact fun _ hne => absurd hp hne

/-! ### Afterwards -/

theorem LineLeft.node {backup : Backup} (h : LineLeft path backup l n w w') (hres : ∀ cwd, resolve w.fs cwd path false = .ok l) (hl : w.fs l = some n) (hk : n.kind = .file old) :
    ∃ n', (∀ cwd, resolve w'.fs cwd path false = .ok l) ∧ w'.fs l = some n' ∧ (∃ c, n'.kind = .file c) ∧ n'.perm = n.perm ∧ n'.uid = n.uid ∧ n'.gid = n.gid := by
  rcases h with h | ⟨w1, c, h, rfl⟩
  · obtain ⟨h1, h2⟩ := h.keeps hres
    exact ⟨n, h2, h1.trans hl, ⟨old, hk⟩, rfl, rfl, rfl⟩
  · obtain ⟨h1, h2⟩ := h.left.keeps hres
    refine ⟨_, fun cwd => ?_, setNode_same .., ⟨c, rfl⟩, rfl, rfl, rfl⟩
    show resolve (setNode w1.fs l _) cwd path false = _
    rw [resolve_set_shape (by rw [h1, hl]; simp [shape, hk]), h2]

theorem LineDone.now {backup : Backup} {new : Bytes} (h : LineDone path backup l n new w w') (hres : ∀ cwd, resolve w.fs cwd path false = .ok l) (hl : w.fs l = some n) (hk : n.kind = .file old) :
    (∀ cwd, resolve w'.fs cwd path false = .ok l) ∧ ∃ n', w'.fs l = some n' ∧ n'.kind = .file new := by
  obtain ⟨w1, h, rfl⟩ := h
  obtain ⟨h1, h2⟩ := h.left.keeps hres
  refine ⟨fun cwd => ?_, _, setNode_same .., rfl⟩
  show resolve (setNode w1.fs l _) cwd path false = _
  rw [resolve_set_shape (by rw [h1, hl]; simp [shape, hk]), h2]

theorem sane_set {n : Node} (hw : w.Sane) (hn : n.Sane) (s : List Proc) : ({ w.set l (some n) with started := s } : World).Sane := by
  refine { hw with node := ?_ }
  intro q x hx
  have hx : setNode w.fs l (some n) q = some x := hx
  unfold setNode at hx
  split at hx
  · cases hx; exact hn
  · exact hw.node q x hx

theorem LineDone.ordinary {backup : Backup} {new : Bytes} (h : LineDone path backup l n new w w') (hord : Ordinary sys tools w) (hl : w.fs l = some n)
    (hm : Modest new.length) : Ordinary sys tools w' := by
  obtain ⟨w1, h, rfl⟩ := h
  have hn := hord.sane.node l n hl
  have hb : Ordinary sys tools w1 := by
    unfold BackedUp at h
    split at h
    · have h : w1 = { w with started := w1.started } := h
      rw [h]
      exact ⟨hord.exec, hord.stat, { hord.sane with }, ⟨hord.accounts.users, hord.accounts.groups, hord.accounts.userNames, hord.accounts.groupNames⟩⟩
    · obtain ⟨lb, m, hb, rfl, _⟩ := h
      rw [hb.eq]
      have hn2 : ({ n with ctime := w.clock } : Node).Sane := ⟨hn.perm, hn.uid, hn.gid, hn.mtime, hord.sane.clock, hn.content, hn.target⟩
      exact ⟨hord.exec, hord.stat, sane_set hord.sane hn2 _,
        ⟨hord.accounts.users, hord.accounts.groups, hord.accounts.userNames, hord.accounts.groupNames⟩⟩
  refine ⟨hb.exec, hb.stat, ?_, ⟨hb.accounts.users, hb.accounts.groups, hb.accounts.userNames, hb.accounts.groupNames⟩⟩
  have hs := hb.sane
  have hn2 : ({ n with kind := .file new, mtime := w1.clock, ctime := w1.clock } : Node).Sane :=
    ⟨hn.perm, hn.uid, hn.gid, hs.clock, hs.clock, fun c h => by cases h; exact hm, fun t h => by cases h⟩
  exact sane_set (w := w1) hs hn2 w1.started

/-! ### The new content -/

theorem joinLines_eq (ls : List Str) : joinLines ls = Py.terminated (if ls = [] then [[]] else ls) := by
  unfold joinLines
  by_cases h : ls = []
  · subst h; rfl
  · rw [if_neg h, Py.join_terminated h]

theorem lineContent_spec {line : Str} {present : Bool} {regex : Option Regex} {ws : Bool} {old : Bytes}
    (hline : present = true → Py.OneLine line ∧ Py.Stable line) :
    ∃ new, lineContent line present regex ws old = some new
      ∧ Py.decodeEscape new = Py.terminated (if newLines line present regex ws (Py.splitlines (Py.decodeEscape old)) = [] then [[]]
          else newLines line present regex ws (Py.splitlines (Py.decodeEscape old)))
      ∧ Py.splitlines (Py.decodeEscape new) = (if newLines line present regex ws (Py.splitlines (Py.decodeEscape old)) = [] then [[]]
          else newLines line present regex ws (Py.splitlines (Py.decodeEscape old))) := by
  have hall : ∀ x ∈ newLines line present regex ws (Py.splitlines (Py.decodeEscape old)), Py.OneLine x ∧ Py.Stable x := by
    have hold : ∀ x ∈ Py.splitlines (Py.decodeEscape old), Py.OneLine x ∧ Py.Stable x :=
      fun x hx => ⟨Py.splitlines_oneLine hx, Py.splitlines_stable (Py.stable_decode old) hx⟩
    intro x hx
    unfold newLines at hx
    cases present with
    | true =>
      simp only [if_true, List.mem_append, List.mem_singleton] at hx
      rcases hx with hx | rfl
      · exact hold x hx
      · exact hline rfl
    | false =>
      simp only [Bool.false_eq_true, if_false] at hx
      cases regex with
      | none =>
        simp only at hx
        split at hx <;> exact hold x (List.mem_filter.mp hx).1
      | some r => exact hold x (List.mem_filter.mp hx).1
  generalize hL : newLines line present regex ws (Py.splitlines (Py.decodeEscape old)) = L at hall ⊢
  generalize hL' : (if L = [] then [[]] else L) = L'
  have hall' : ∀ x ∈ L', Py.OneLine x ∧ Py.Stable x := by
    intro x hx
    rw [← hL'] at hx
    split at hx
    · simp only [List.mem_singleton] at hx
      subst hx
      exact ⟨fun _ h => (by cases h), [], rfl, rfl⟩
    · exact hall x hx
  obtain ⟨b, hb, hd⟩ := Py.stable_terminated (fun x hx => (hall' x hx).2)
  refine ⟨b, ?_, hd, ?_⟩
  · unfold lineContent
    rw [hL, joinLines_eq, hL', hb]
  · rw [hd, Py.splitlines_terminated (fun x hx => (hall' x hx).1)]

end
end Verif.Ops
