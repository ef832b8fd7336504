/-
What `file` does to a host.
-/
import Verif.Ops.DirectoryLemmas

namespace Verif.Ops

open Script Remote
open Client (Prog direct lostConnection typeName)
open Wire (Packet)

/-- The content of a regular file; nothing if there is none. -/
def contentAt (w : World) (l : Loc) : Bytes :=
  match w.fs l with
  | some n => match n.kind with
    | .file c => c
    | _ => []
  | none => []

/-- A regular file on its way. -/
structure FileNode (w : World) (l : Loc) (n : Node) : Prop where
  kind : n.kind = .file (contentAt w l)
  sane : n.Sane
  was : ∀ m, w.fs l = some m → m.kind = .file (contentAt w l)

/-- Whatever happened, what is left. -/
def FileLeft (path : Str) (w : World) (l : Loc) (w' : World) : Prop :=
  ∃ o, Now path l w o w' ∧ (∀ n, o = some n → FileNode w l n) ∧ (o = none → w.fs l = none)

/-- The permission bits of a file: as they were set, or as they are after setting the owner. -/
def FilePerm (v perm : Nat) : Prop := perm = v ∨ perm = v &&& 0o1777 ∨ perm = v &&& 0o3777

/-- The file is as it should be. -/
def FileDone (path t : Str) (attr : Settings) (w : World) (l : Loc) (w' : World) : Prop :=
  ∃ n, Now path l w (some n) w' ∧ FileNode w l n ∧ FilePerm (octalValue t) n.perm ∧ Owned w attr n

theorem FileDone.left {path t : Str} {attr : Settings} {w : World} {l : Loc} {w' : World} (h : FileDone path t attr w l w') :
    FileLeft path w l w' := by
  obtain ⟨n, h1, h2, h3, h4⟩ := h
  exact ⟨some n, h1, fun m hm => (by cases hm; exact h2), fun hm => by cases hm⟩

theorem FilePerm.low {v perm : Nat} (h : FilePerm v perm) : perm &&& 0o1777 = v &&& 0o1777 := by
  rcases h with rfl | rfl | rfl
  · rfl
  · rw [Nat.and_assoc]; rfl
  · rw [Nat.and_assoc]; rfl

theorem FilePerm.exact {v perm : Nat} (h : FilePerm v perm) (hv : v < 4096) (h0 : v &&& 0o6000 = 0) : perm = v := by
  have key : ∀ m, (∀ i, i < 12 → (0o6000 : Nat).testBit i = false → m.testBit i = true) → v &&& m = v := by
    intro m hm
    apply Nat.eq_of_testBit_eq
    intro i
    rw [Nat.testBit_and]
    by_cases hi : i < 12
    · cases h6 : (0o6000 : Nat).testBit i with
      | false => rw [hm i hi h6, Bool.and_true]
      | true =>
        have : (v &&& 0o6000).testBit i = false := by rw [h0, Nat.zero_testBit]
        rw [Nat.testBit_and, h6, Bool.and_true] at this
        rw [this, Bool.false_and]
    · have : v.testBit i = false := Nat.testBit_lt_two_pow (Nat.lt_of_lt_of_le hv (Nat.pow_le_pow_right (n := 2) (by decide) (by omega) : 2 ^ 12 ≤ 2 ^ i))
      rw [this, Bool.false_and]
  rcases h with rfl | rfl | rfl
  · rfl
  · exact key 0o1777 (by decide)
  · exact key 0o3777 (by decide)

theorem fileKind {n : Node} (h : typeName n.kind = p!"file") : ∃ c, n.kind = .file c := by
  cases hk : n.kind <;> rw [hk] at h <;> first | exact ⟨_, rfl⟩ | (exact absurd h (by simp [typeName]))

theorem fileNode_of {w : World} (hw : w.Sane) {l : Loc} {n : Node} {c : Bytes} (hl : w.fs l = some n) (hk : n.kind = .file c) : FileNode w l n :=
  ⟨by simp [contentAt, hl, hk], hw.node l n hl, fun m hm => by rw [hl] at hm; cases hm; simp [contentAt, hl, hk]⟩

theorem numericPerm_file {t : Str} {n : Node} (h : n.kind ≠ .dir) : numericPerm t n = octalValue t := by
  unfold numericPerm
  rw [if_neg (fun h' => h h'.1)]

section
variable {sys : Sys} {lost : Nat → Option Bool} {env : Env} {st : St} {w : World}
variable {tools : Tools} {path : Str} {l : Loc} {w0 : World} {n : Node}

theorem chowned_perm {n n' : Node} {v : Nat} (hk : n.kind ≠ .dir) (hv : n.perm = v) (h : Chowned w n n') : FilePerm v n'.perm := by
  rcases h with rfl | ⟨u, g, _, _, rfl⟩
  · exact .inl hv
  · simp only [chownPerm, if_neg hk]
    split
    · rw [hv]; exact .inr (.inl rfl)
    · rw [hv]; exact .inr (.inr rfl)

/-- Mode and owner of an existing file. The states may also tell about other things. -/
theorem file_attributes (hp : PlainAccounts w0) (hw0 : w0.Sane) (hsys : sys.exec = core tools)
    {want attr : Settings} {i : Int} {t : Str} (ht : ModeText i t) (hat : attr.fileMode = some t)
    (ho : UserValue w0 want.owner attr.owner) (hg : GroupValue w0 want.group attr.group)
    (hn : Now path l w0 (some n) w) (hd : FileNode w0 l n)
    {a f : Dict} (hs : States st a f) {md od gd : Option Str}
    (hi1 : a.get p!"mode" = some (.optStr md)) (hf1 : f.get p!"mode" = some (.optStr (some t)))
    (hi2 : a.get p!"owner" = some (.optStr od)) (hf2 : f.get p!"owner" = some (.optStr attr.owner))
    (hi3 : a.get p!"group" = some (.optStr gd)) (hf3 : f.get p!"group" = some (.optStr attr.group))
    (hmd : md = none ∨ md = some (Py.natStr 8 n.perm))
    (hod : od = none ∨ od = some (ownerName w0 n.uid)) (hgd : gd = none ∨ gd = some (groupName w0 n.gid)) :
    Post sys lost (do
      whenChanged p!"mode" (runCommand (chmodCommand attr.fileMode path))
      whenEither p!"owner" p!"group" (runCommand (chownCommand attr path))) env st w
      (fun _ st' w' => st' = st ∧ FileDone path t attr w0 l w' ∧ i = octalValue t ∧ octalValue t < 4096) (FileLeft path w0 l) := by
  have left : ∀ {n w}, Now path l w0 (some n) w → FileNode w0 l n → ∀ s, FileLeft path w0 l { w with started := s } := by
    intro n w hn hd s
    exact ⟨some n, hn.started s, fun m hm => (by cases hm; exact hd), fun hm => by cases hm⟩
  have left' : ∀ {n w}, Now path l w0 (some n) w → FileNode w0 l n → FileLeft path w0 l w := fun hn hd => left hn hd _
  have hk : ∀ {n : Node} {c}, n.kind = .file c → ∀ t, n.kind ≠ .link t := fun h t h' => by rw [h] at h'; cases h'
  have hkd : ∀ {n : Node} {c}, n.kind = .file c → n.kind ≠ .dir := fun h h' => by rw [h] at h'; cases h'
  refine Post.bind ?_
  rw [hat]
  refine mode_step hw0 hd.sane hsys hn (hk hd.kind) ht hs hi1 hf1 hmd (left hn hd) ?_
  intro w1 c h1 h2 h3 hc hn1
  have hd1 : FileNode w0 l { n with perm := numericPerm t n, ctime := c } := ⟨hd.kind, chmod_sane hw0 hd.sane h3 hc, hd.was⟩
  refine ⟨?_, left' hn1 hd1⟩
  refine owner_step hp hw0 hd1.sane hsys hn1 true (fun _ => hk hd1.kind) ho hg hs hi2 hf2 hi3 hf3 hod hgd (left hn1 hd1) ?_
  intro w2 n2 hc2 how hn2
  have hd2 : FileNode w0 l n2 := ⟨hc2.kind.trans hd1.kind, hc2.sane hw0 hd1.sane, hd.was⟩
  exact ⟨⟨rfl, ⟨n2, hn2, hd2, chowned_perm (hkd hd1.kind) (numericPerm_file (hkd hd.kind)) hc2, how⟩, h2, h3⟩, left' hn2 hd2⟩

theorem file_act (hp : PlainAccounts w0) (hw0 : w0.Sane) (hsys : sys.exec = core tools)
    {want attr : Settings} {i : Int} {t : Str} (ht : ModeText i t) (hat : attr.fileMode = some t)
    (ho : UserValue w0 want.owner attr.owner) (hg : GroupValue w0 want.group attr.group) {o : Option Node}
    (hn : Now path l w0 o w0) (hd : ∀ n, o = some n → FileNode w0 l n)
    {touch : Bool} {md od gd : Option Str}
    (hs : States st (pathState o.isSome md od gd false) (pathState true (some t) attr.owner attr.group touch))
    (hmd : md = o.map fun n => Py.natStr 8 n.perm) (hod : od = o.map fun n => ownerName w0 n.uid)
    (hgd : gd = o.map fun n => groupName w0 n.gid) :
    Post sys lost (fileActions path true attr) env st w0
      (fun _ st' w' => st' = st ∧ FileDone path t attr w0 l w' ∧ i = octalValue t ∧ octalValue t < 4096) (FileLeft path w0 l) := by
  unfold fileActions
  rw [if_pos rfl]
  have hat0 := hn.at
  cases o with
  | none =>
    have left0 : ∀ s, FileLeft path w0 l { w0 with started := s } := fun s => ⟨none, hn.started s, fun m hm => (by cases hm), fun _ => hat0⟩
    have hnew : ∀ p, ProcOk p → FileNode w0 l (newFile p w0 l) := fun p hpo =>
      ⟨by simp [newFile, contentAt, hat0], newFile_sane hw0 hpo l, fun m hm => by rw [hat0] at hm; cases hm⟩
    refine Post.bind (Post.whenEither hs rfl rfl rfl rfl ?_ (by intro h; simp [Val.eq] at h))
    intro _
    refine touchNew_step hw0 hsys hn left0 ?_ ?_
    · intro w' p hpo hn'
      exact ⟨_, hn', fun m hm => (by cases hm; exact hnew p hpo), fun hm => (by cases hm)⟩
    · intro w' p hpo hn'
      exact file_attributes hp hw0 hsys ht hat ho hg hn' (hnew p hpo) hs rfl rfl rfl rfl rfl rfl (.inl hmd) (.inl hod) (.inl hgd)
  | some n =>
    have hd' := hd n rfl
    have hk : ∀ t, n.kind ≠ .link t := fun t h' => by rw [hd'.kind] at h'; cases h'
    refine Post.bind (Post.whenEither hs rfl rfl rfl rfl ?_ ?_)
    · intro _
      refine touch_step hw0 hsys hn hk (fun s => ⟨some n, hn.started s, fun m hm => (by cases hm; exact hd'), fun hm => by cases hm⟩) ?_
      intro w' hn'
      have hd'' : FileNode w0 l { n with mtime := w0.clock, ctime := w0.clock } := ⟨hd'.kind, touch_sane hw0 hd'.sane, hd'.was⟩
      refine ⟨?_, ⟨_, hn', fun m hm => (by cases hm; exact hd''), fun hm => by cases hm⟩⟩
      exact file_attributes hp hw0 hsys ht hat ho hg hn' hd'' hs rfl rfl rfl rfl rfl rfl (.inr hmd) (.inr hod) (.inr hgd)
    · intro _
      exact file_attributes hp hw0 hsys ht hat ho hg hn hd' hs rfl rfl rfl rfl rfl rfl (.inr hmd) (.inr hod) (.inr hgd)

/-- `file(path, present=True)`. -/
theorem file_present (hord : Ordinary sys tools w) (ha : isAbs path = true) {want attr : Settings} (he : Effective w want attr)
    {touch : Bool} (h1 : st.op.hasNested = false) (h2 : st.op.initial = none) (h3 : st.op.final = none) {i : Int} {t : Str}
    (ht : ModeText i t) (hat : attr.fileMode = some t) {L : World → Prop}
    (hL : ∀ w', Same w w' → L w') (hL' : ∀ l w', resolve w.fs w.cwd path false = .ok l → FileLeft path w l w' → L w') :
    Post sys lost (fileBody path true touch attr) env st w
      (fun r _ w' => (r.success = true → env.dry = false → ∃ l, resolve w.fs w.cwd path false = .ok l ∧ FileDone path t attr w l w'
        ∧ i = octalValue t ∧ octalValue t < 4096) ∧ L w') L := by
  have hw := hord.sane
  have hsys := hord.exec
  have ho := he.owner
  have hg := he.group
  have hbase : ∀ s, L { w with started := s } := fun s => hL _ rfl
  have hbase' : L w := hbase w.started
  unfold fileBody
  rw [if_pos rfl, hat]
  refine Post.bind (Post.finalState h1 h3 ?_)
  refine Post.bind (Post.stat ?_ hbase')
  intro s hstat
  cases s with
  | none =>
    refine Post.bind (Post.initialState h1 h2 ?_)
    have hs : States { { st with op := { st.op with final := some (pathState true (some t) attr.owner attr.group touch) } } with
        op := { st.op with final := some (pathState true (some t) attr.owner attr.group touch), initial := some (pathState false none none none false) } }
        (pathState false none none none false) (pathState true (some t) attr.owner attr.group touch) := ⟨rfl, h1, rfl, rfl⟩
    refine Post.settle hs ?_ (Post.pure ⟨⟨hs, rfl⟩, rfl⟩) ?_ ?_
    · intro h; rw [pathState_eq] at h; cases h.1
    · intro hd _ _ _; exact ⟨fun _ h => (by rw [hd] at h; cases h), hbase'⟩
    · intro _ _ st' hs' _
      rcases stat_none_cases (stat_none hord.stat hstat) with ⟨e, hr⟩ | ⟨l, hr, hl⟩
      · unfold fileActions
        rw [if_pos rfl]
        refine Post.bind (Post.whenEither hs' rfl rfl rfl rfl ?_ (by intro h; simp [Val.eq] at h))
        intro _
        exact touch_unresolved_step hw hsys ha hr hbase
      · have hn : Now path l w none w := by have := Now.init ha hr; rwa [hl] at this
        refine (file_act hord.accounts hw hsys ht hat ho hg hn (fun _ h => by cases h) hs' rfl rfl rfl).mono ?_ (fun w' h => hL' l w' hr h)
        rintro _ st'' w' ⟨rfl, hdone, hi, hlt⟩
        exact ⟨rfl, fun _ _ => ⟨l, hr, hdone, hi, hlt⟩, hL' l w' hr hdone.left⟩
  | some s =>
    obtain ⟨l, n, hlk, rfl⟩ := stat_some hw hstat
    obtain ⟨hr, hl⟩ := lookup_ok hlk
    simp only
    split
    · refine Post.failure ?_
      intro r hr _
      exact ⟨fun h => (by rw [hr] at h; cases h), hbase'⟩
    · next hk =>
      obtain ⟨c, hk⟩ := fileKind (n := n) (by simpa [Client.described] using hk)
      have hfn := fileNode_of hw hl hk
      refine Post.bind (Post.initialState h1 h2 ?_)
      have hn : Now path l w (some n) w := by have := Now.init ha hr; rwa [hl] at this
      have hs : States { { st with op := { st.op with final := some (pathState true (some t) attr.owner attr.group touch) } } with
          op := { st.op with final := some (pathState true (some t) attr.owner attr.group touch),
                             initial := some (pathState true (some (Py.natStr 8 n.perm)) (some (ownerName w n.uid)) (some (groupName w n.gid)) false) } }
          (pathState true (some (Py.natStr 8 n.perm)) (some (ownerName w n.uid)) (some (groupName w n.gid)) false)
          (pathState true (some t) attr.owner attr.group touch) := ⟨rfl, h1, rfl, rfl⟩
      refine Post.settle hs ?_ (Post.pure ⟨⟨hs, rfl⟩, rfl⟩) ?_ ?_
      · intro h
        rw [pathState_eq] at h
        obtain ⟨_, e1, e2, e3, _⟩ := h
        obtain ⟨_, e4, e5⟩ := same_mode ht e1
        exact ⟨fun _ _ => ⟨l, hr, ⟨n, hn, hfn, .inl e5.symm, owned_of_names hw hord.accounts e2 e3⟩, e4, by rw [e5]; exact hfn.sane.perm⟩, hbase'⟩
      · intro hd _ _ _; exact ⟨fun _ h => (by rw [hd] at h; cases h), hbase'⟩
      · intro _ _ st' hs' _
        refine (file_act hord.accounts hw hsys ht hat ho hg hn (fun _ h => by cases h; exact hfn) hs' rfl rfl rfl).mono ?_ (fun w' h => hL' l w' hr h)
        rintro _ st'' w' ⟨rfl, hdone, hi, hlt⟩
        exact ⟨rfl, fun _ _ => ⟨l, hr, hdone, hi, hlt⟩, hL' l w' hr hdone.left⟩

/-- `file(path, present=False)`. -/
theorem file_absent (hord : Ordinary sys tools w) (ha : isAbs path = true) {attr : Settings}
    {touch : Bool} (h1 : st.op.hasNested = false) (h2 : st.op.initial = none) (h3 : st.op.final = none) {L : World → Prop}
    (hL : ∀ w', Same w w' → L w')
    (hL' : ∀ l n s, resolve w.fs w.cwd path false = .ok l → w.fs l = some n → n.kind ≠ .dir → L { w.set l none with started := s }) :
    Post sys lost (fileBody path false touch attr) env st w
      (fun r _ w' => (r.success = true → env.dry = false → Gone path w w') ∧ L w') L := by
  have hw := hord.sane
  have hsys := hord.exec
  have hbase : ∀ s, L { w with started := s } := fun s => hL _ rfl
  have hbase' : L w := hbase w.started
  unfold fileBody
  rw [if_neg (by decide)]
  refine Post.bind (Post.finalState h1 h3 ?_)
  refine Post.bind (Post.stat ?_ hbase')
  intro s hstat
  cases s with
  | none =>
    refine Post.bind (Post.initialState h1 h2 ?_)
    have hs : States { { st with op := { st.op with final := some (pathState false none none none false) } } with
        op := { st.op with final := some (pathState false none none none false), initial := some (pathState false none none none false) } }
        (pathState false none none none false) (pathState false none none none false) := ⟨rfl, h1, rfl, rfl⟩
    refine Post.settle hs ?_ (Post.pure ⟨⟨hs, rfl⟩, rfl⟩) ?_ ?_
    · intro h; exact ⟨fun _ _ => .inl ⟨stat_none hord.stat hstat, rfl⟩, hbase'⟩
    · intro hd _ _ _; exact ⟨fun _ h => (by rw [hd] at h; cases h), hbase'⟩
    · intro _ h
      have := (pathState_eq false false false false none none none none none none).mpr ⟨rfl, rfl, rfl, rfl, rfl⟩
      rw [this] at h; cases h
  | some s =>
    obtain ⟨l, n, hlk, rfl⟩ := stat_some hw hstat
    obtain ⟨hr, hl⟩ := lookup_ok hlk
    simp only
    split
    · refine Post.failure ?_
      intro r hr _
      exact ⟨fun h => (by rw [hr] at h; cases h), hbase'⟩
    · next hk =>
      have hnd : n.kind ≠ .dir := by
        intro h
        simp [Client.described, h, Client.typeName] at hk
      refine Post.bind (Post.initialState h1 h2 ?_)
      have hn : Now path l w (some n) w := by have := Now.init ha hr; rwa [hl] at this
      have hs : States { { st with op := { st.op with final := some (pathState false none none none false) } } with
          op := { st.op with final := some (pathState false none none none false),
                             initial := some (pathState true (some (Py.natStr 8 n.perm)) (some (ownerName w n.uid)) (some (groupName w n.gid)) false) } }
          (pathState true (some (Py.natStr 8 n.perm)) (some (ownerName w n.uid)) (some (groupName w n.gid)) false)
          (pathState false none none none false) := ⟨rfl, h1, rfl, rfl⟩
      refine Post.settle hs ?_ (Post.pure ⟨⟨hs, rfl⟩, rfl⟩) ?_ ?_
      · intro h; rw [pathState_eq] at h; cases h.1
      · intro hd _ _ _; exact ⟨fun _ h => (by rw [hd] at h; cases h), hbase'⟩
      · intro _ _ st' hs' _
        unfold fileActions
        rw [if_neg (by decide)]
        refine Post.whenChanged hs' rfl rfl ?_ (by intro h; rw [bool_eq] at h; cases h)
        intro _
        refine rm_step hw hsys hn hbase ?_
        intro s
        refine ⟨⟨rfl, fun _ _ => ?_, hL' l n s hr hl hnd⟩, hL' l n s hr hl hnd⟩
        exact .inr ⟨l, n, s, hr, hl, rfl⟩

/-! ### The whole operation -/

theorem checkAbsolutePath_ok {desc : Str} {u : Unit} (h : checkAbsolutePath path desc = .ok u) : isAbs path = true := by
  cases path with
  | nil => cases h
  | cons c p =>
    simp only [checkAbsolutePath] at h
    split at h
    · cases h
    · next hc => simpa [isAbs] using hc

theorem managed (hw : w.Sane) (hm : PlainModes env st) {body : Settings → Op OpResult} {q : Settings} {desc : Str} {check : Bool}
    {Q : OpResult → World → Prop} {E : World → Prop} (hE : E w)
    (hbody : ∀ attr st', isAbs path = true → st'.op.hasNested = false → st'.op.initial = none → st'.op.final = none →
      Effective w (inForce env st q) attr → Modes q (inForce env st q) attr → Post sys lost (body attr) env st' w (fun r _ w' => Q r w' ∧ E w') E) :
    Post sys lost (operation check do
      Op.ofExcept (checkAbsolutePath path desc)
      returned (withDefaults q body)) env st w (fun r _ w' => (Q r w' ∧ E w') ∧ (check = true → r.success = true)) E := by
  refine Post.operation ?_
  refine Post.bind (Post.ofExcept ?_ hE)
  intro u ha
  refine Post.returned (Post.withDefaults hw hE ?_)
  intro q' c rest r hq hs hr
  refine (hbody _ _ (checkAbsolutePath_ok ha) rfl rfl rfl (effective hm hq hs hr).1 (effective hm hq hs hr).2).mono ?_ (fun _ h => h)
  rintro r st' w' ⟨h1, h2⟩
  refine ⟨h2, ?_⟩
  intro res hres hc
  cases hres
  exact ⟨⟨h1, h2⟩, hc⟩

end
end Verif.Ops
