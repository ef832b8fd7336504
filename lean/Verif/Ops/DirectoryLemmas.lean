/-
What `directory` does to a host.
-/
import Verif.Ops.PathLemmas

namespace Verif.Ops

open Script Remote
open Client (Prog direct lostConnection typeName)
open Wire (Packet)

/-- The setuid and setgid bits that a directory keeps, or gets from the directory it is created in. -/
def keptBits (w : World) (l : Loc) : Nat :=
  match w.fs l with
  | some n => n.perm &&& 0o6000
  | none => inheritSetgid w.fs l

/-- The permission bits that a directory ends up with. -/
def dirPerm (t : Str) (w : World) (l : Loc) : Nat := if t.length < 5 then keptBits w l ||| octalValue t else octalValue t

/-- A directory on its way. -/
structure DirNode (t : Str) (w : World) (l : Loc) (n : Node) : Prop where
  kind : n.kind = .dir
  sane : n.Sane
  perm : numericPerm t n = dirPerm t w l
  was : ∀ m, w.fs l = some m → m.kind = .dir

/-- Whatever happened, what is left. -/
def DirLeft (path t : Str) (w : World) (l : Loc) (w' : World) : Prop :=
  ∃ o, Now path l w o w' ∧ (∀ n, o = some n → DirNode t w l n) ∧ (o = none → w.fs l = none)

/-- The directory is as it should be. -/
def DirDone (path t : Str) (attr : Settings) (w : World) (l : Loc) (w' : World) : Prop :=
  ∃ n, Now path l w (some n) w' ∧ DirNode t w l n ∧ n.perm = dirPerm t w l ∧ Owned w attr n

theorem DirDone.left {path t : Str} {attr : Settings} {w : World} {l : Loc} {w' : World} (h : DirDone path t attr w l w') :
    DirLeft path t w l w' := by
  obtain ⟨n, h1, h2, h3, h4⟩ := h
  exact ⟨some n, h1, fun m hm => (by cases hm; exact h2), fun hm => by cases hm⟩

theorem or_and_self (a b m : Nat) : ((a &&& m ||| b) &&& m) ||| b = a &&& m ||| b := by
  apply Nat.eq_of_testBit_eq
  intro i
  simp only [Nat.testBit_or, Nat.testBit_and]
  cases a.testBit i <;> cases b.testBit i <;> cases m.testBit i <;> rfl

theorem numericPerm_idem (t : Str) (n : Node) (c : Int) :
    numericPerm t { n with perm := numericPerm t n, ctime := c } = numericPerm t n := by
  unfold numericPerm
  split
  · next h => simp only [if_pos h]; rw [or_and_self]
  · rfl

theorem numericPerm_congr {t : Str} {n n' : Node} (h1 : n'.kind = n.kind) (h2 : n'.perm = n.perm) : numericPerm t n' = numericPerm t n := by
  unfold numericPerm; rw [h1, h2]

theorem numericPerm_dir {t : Str} {w : World} {l : Loc} {n : Node} (hk : n.kind = .dir) (h : w.fs l = some n) :
    numericPerm t n = dirPerm t w l := by
  unfold numericPerm dirPerm keptBits
  simp only [hk, true_and, h]

theorem numericPerm_new (t : Str) (w : World) (l : Loc) (p : Proc) (h : w.fs l = none) : numericPerm t (newDir p w l) = dirPerm t w l := by
  unfold numericPerm dirPerm keptBits
  simp only [h, newDir, true_and]
  have : (maskOff 0o777 p.umask ||| inheritSetgid w.fs l) &&& 0o6000 = inheritSetgid w.fs l := by
    rw [Nat.and_or_distrib_right]
    have h1 : maskOff 0o777 p.umask &&& 0o6000 = 0 := by
      have : maskOff 0o777 p.umask < 2 ^ 9 := maskOff_lt (by decide)
      apply Nat.eq_of_testBit_eq
      intro i
      rw [Nat.testBit_and, Nat.zero_testBit]
      by_cases hi : i < 9
      · have : (0o6000 : Nat).testBit i = false := by
          have h9 : ∀ i < 9, (0o6000 : Nat).testBit i = false := by decide
          exact h9 i hi
        rw [this, Bool.and_false]
      · rw [Nat.testBit_lt_two_pow (Nat.lt_of_lt_of_le this (Nat.pow_le_pow_right (by decide) (by omega)))]
        rfl
    have h2 : inheritSetgid w.fs l &&& 0o6000 = inheritSetgid w.fs l := by
      unfold inheritSetgid
      split
      · rw [Nat.and_assoc]
        rfl
      · rfl
    rw [h1, h2, Nat.zero_or]
  rw [this]

section
variable {sys : Sys} {lost : Nat → Option Bool} {env : Env} {st : St} {w : World}
variable {tools : Tools} {path : Str} {l : Loc} {w0 : World} {n : Node}

/-- Mode, owner and time stamps of an existing directory. -/
theorem directory_attributes (hp : PlainAccounts w0) (hw0 : w0.Sane) (hsys : sys.exec = core tools)
    {want attr : Settings} {i : Int} {t : Str} (ht : ModeText i t) (hat : attr.dirMode = some t)
    (ho : UserValue w0 want.owner attr.owner) (hg : GroupValue w0 want.group attr.group)
    (hn : Now path l w0 (some n) w) (hd : DirNode t w0 l n)
    {ex touch : Bool} {md od gd : Option Str}
    (hs : States st (pathState ex md od gd false) (pathState true (some t) attr.owner attr.group touch))
    (hmd : md = none ∨ md = some (Py.natStr 8 n.perm))
    (hod : od = none ∨ od = some (ownerName w0 n.uid)) (hgd : gd = none ∨ gd = some (groupName w0 n.gid)) :
    Post sys lost (do
      whenChanged p!"mode" (runCommand (chmodCommand attr.dirMode path))
      whenEither p!"owner" p!"group" (runCommand (chownCommand attr path))
      let e ← changed p!"exists"
      if e then Op.pure () else whenChanged p!"touched" (runCommand [p!"touch", p!"--", path])) env st w
      (fun _ st' w' => st' = st ∧ DirDone path t attr w0 l w' ∧ i = octalValue t ∧ octalValue t < 4096) (DirLeft path t w0 l) := by
  have left : ∀ {n w}, Now path l w0 (some n) w → DirNode t w0 l n → ∀ s, DirLeft path t w0 l { w with started := s } := by
    intro n w hn hd s
    exact ⟨some n, hn.started s, fun m hm => (by cases hm; exact hd), fun hm => by cases hm⟩
  have left' : ∀ {n w}, Now path l w0 (some n) w → DirNode t w0 l n → DirLeft path t w0 l w := fun hn hd => left hn hd _
  have hk : ∀ {n : Node}, n.kind = .dir → ∀ t, n.kind ≠ .link t := fun h t h' => by rw [h] at h'; cases h'
  refine Post.bind ?_
  rw [hat]
  refine mode_step hw0 hd.sane hsys hn (hk hd.kind) ht hs rfl rfl hmd (left hn hd) ?_
  intro w1 c h1 h2 h3 hc hn1
  have hd1 : DirNode t w0 l { n with perm := numericPerm t n, ctime := c } :=
    ⟨hd.kind, chmod_sane hw0 hd.sane h3 hc, (numericPerm_idem t n c).trans hd.perm, hd.was⟩
  refine ⟨?_, left' hn1 hd1⟩
  refine Post.bind ?_
  refine owner_step hp hw0 hd1.sane hsys hn1 true (fun _ => hk hd1.kind) ho hg hs rfl rfl rfl rfl hod hgd (left hn1 hd1) ?_
  intro w2 n2 hc2 how hn2
  have hk2 : n2.kind = .dir := hc2.kind.trans hd1.kind
  have hp2 : n2.perm = dirPerm t w0 l := by
    rcases hc2 with rfl | ⟨u, g, _, _, rfl⟩
    · exact hd.perm
    · show chownPerm _ = _
      unfold chownPerm
      rw [if_pos hd1.kind]
      exact hd.perm
  have hd2 : DirNode t w0 l n2 := ⟨hk2, hc2.sane hw0 hd1.sane, by rw [numericPerm_congr (n := { n with perm := numericPerm t n, ctime := c }) (hc2.kind) (hp2.trans hd.perm.symm)]; exact hd1.perm, hd.was⟩
  refine ⟨?_, left' hn2 hd2⟩
  refine Post.bind (Post.changed hs rfl rfl ?_)
  have hdone : DirDone path t attr w0 l w2 := ⟨n2, hn2, hd2, hp2, how⟩
  split
  · exact Post.pure ⟨rfl, hdone, h2, h3⟩
  · refine Post.whenChanged hs rfl rfl ?_ ?_
    · intro _
      refine touch_step (hn2.sane hw0 (fun m hm => by cases hm; exact hd2.sane)) hsys hn2 (hk hk2) (left hn2 hd2) ?_
      intro w3 hn3
      rw [hn2.clock] at hn3
      have hs3 := touch_sane hw0 hd2.sane
      have hd3 : DirNode t w0 l { n2 with mtime := w0.clock, ctime := w0.clock } := ⟨hk2, hs3, (numericPerm_congr rfl rfl).trans hd2.perm, hd.was⟩
      exact ⟨⟨rfl, ⟨_, hn3, hd3, hp2, how⟩, h2, h3⟩, left' hn3 hd3⟩
    · intro _
      exact ⟨rfl, hdone, h2, h3⟩

theorem directory_act (hp : PlainAccounts w0) (hw0 : w0.Sane) (hsys : sys.exec = core tools)
    {want attr : Settings} {i : Int} {t : Str} (ht : ModeText i t) (hat : attr.dirMode = some t)
    (ho : UserValue w0 want.owner attr.owner) (hg : GroupValue w0 want.group attr.group) {o : Option Node}
    (hn : Now path l w0 o w0) (hd : ∀ n, o = some n → n.kind = .dir)
    {touch : Bool} {md od gd : Option Str}
    (hs : States st (pathState o.isSome md od gd false) (pathState true (some t) attr.owner attr.group touch))
    (hmd : md = o.map fun n => Py.natStr 8 n.perm) (hod : od = o.map fun n => ownerName w0 n.uid)
    (hgd : gd = o.map fun n => groupName w0 n.gid) :
    Post sys lost (directoryActions path true attr) env st w0
      (fun _ st' w' => st' = st ∧ DirDone path t attr w0 l w' ∧ i = octalValue t ∧ octalValue t < 4096) (DirLeft path t w0 l) := by
  unfold directoryActions
  rw [if_pos rfl]
  have hat0 := hn.at
  cases o with
  | none =>
    have left0 : ∀ s, DirLeft path t w0 l { w0 with started := s } := fun s => ⟨none, hn.started s, fun m hm => (by cases hm), fun _ => hat0⟩
    refine Post.bind (Post.whenChanged hs rfl rfl ?_ (by intro h; rw [bool_eq] at h; cases h))
    intro _
    refine mkdir_step hw0 hsys hn left0 ?_
    intro w' p hpo hn'
    have hd' : DirNode t w0 l (newDir p w0 l) := ⟨rfl, newDir_sane hw0 hpo l, numericPerm_new t w0 l p hat0, fun m hm => by rw [hat0] at hm; cases hm⟩
    refine ⟨?_, ⟨_, hn', fun m hm => (by cases hm; exact hd'), fun hm => (by cases hm)⟩⟩
    exact directory_attributes hp hw0 hsys ht hat ho hg hn' hd' hs (.inl hmd) (.inl hod) (.inl hgd)
  | some n =>
    have hd' : DirNode t w0 l n := ⟨hd n rfl, hw0.node l n hat0, numericPerm_dir (hd n rfl) hat0, fun m hm => by rw [hat0] at hm; cases hm; exact hd n rfl⟩
    refine Post.bind (Post.whenChanged hs rfl rfl (by intro h; simp [Val.eq] at h) ?_)
    intro _
    exact directory_attributes hp hw0 hsys ht hat ho hg hn hd' hs (.inr hmd) (.inr hod) (.inr hgd)

/-- What is left if the path leads nowhere. -/
def Same (w w' : World) : Prop := w' = { w with started := w'.started }

/-- There was nothing at the path, or it is gone now. -/
def Gone (path : Str) (w w' : World) : Prop :=
  lookup w.fs w.cwd path false = .error ENOENT ∧ Same w w'
    ∨ ∃ l n s, resolve w.fs w.cwd path false = .ok l ∧ w.fs l = some n ∧ w' = { w.set l none with started := s }

/-- The same for a directory with everything in it. -/
def TreeGone (path : Str) (w w' : World) : Prop :=
  lookup w.fs w.cwd path false = .error ENOENT ∧ Same w w'
    ∨ ∃ l n s, resolve w.fs w.cwd path false = .ok l ∧ w.fs l = some n ∧ w' = { w with fs := removeTree w.fs l, started := s }

theorem Gone.lookup {path : Str} {w w' : World} (h : Gone path w w') : Remote.lookup w'.fs w'.cwd path false = .error ENOENT := by
  rcases h with ⟨h1, h2⟩ | ⟨l, n, s, h1, h2, rfl⟩
  · rw [h2]; exact h1
  · exact lookup_unlink h1

theorem TreeGone.lookup {path : Str} {w w' : World} (h : TreeGone path w w') : Remote.lookup w'.fs w'.cwd path false = .error ENOENT := by
  rcases h with ⟨h1, h2⟩ | ⟨l, n, s, h1, h2, rfl⟩
  · rw [h2]; exact h1
  · exact lookup_remove h1

theorem kind_of_type {n : Node} (h : typeName n.kind = p!"dir") : n.kind = .dir := by
  cases hk : n.kind <;> rw [hk] at h <;> first | rfl | (exact absurd h (by simp [typeName]))

theorem stat_none_cases {path : Str} (h : lookup w.fs w.cwd path false = .error ENOENT) :
    (∃ e, resolve w.fs w.cwd path false = .error e) ∨ ∃ l, resolve w.fs w.cwd path false = .ok l ∧ w.fs l = none := by
  unfold lookup at h
  cases hr : resolve w.fs w.cwd path false with
  | error e => exact .inl ⟨e, rfl⟩
  | ok l =>
    rw [hr] at h
    cases hl : w.fs l with
    | none => exact .inr ⟨l, rfl, hl⟩
    | some n => simp only [hl] at h; cases h

theorem mode_of_stat (hw : w.Sane) {n : Node} (sha : Bool) : (Client.described sys w sha n).mode = Py.natStr 8 n.perm := rfl

/-- `directory(path, present=True)`. -/
theorem directory_present (hord : Ordinary sys tools w) (ha : isAbs path = true) {want attr : Settings} (he : Effective w want attr)
    {touch : Bool} (h1 : st.op.hasNested = false) (h2 : st.op.initial = none) (h3 : st.op.final = none) {i : Int} {t : Str}
    (ht : ModeText i t) (hat : attr.dirMode = some t) {L : World → Prop}
    (hL : ∀ w', Same w w' → L w') (hL' : ∀ l w', resolve w.fs w.cwd path false = .ok l → DirLeft path t w l w' → L w') :
    Post sys lost (directoryBody path true touch attr) env st w
      (fun r _ w' => (r.success = true → env.dry = false → ∃ l, resolve w.fs w.cwd path false = .ok l ∧ DirDone path t attr w l w'
        ∧ i = octalValue t ∧ octalValue t < 4096) ∧ L w') L := by
  have hw := hord.sane
  have hsys := hord.exec
  have ho := he.owner
  have hg := he.group
  have hbase : ∀ s, L { w with started := s } := fun s => hL _ rfl
  have hbase' : L w := hbase w.started
  unfold directoryBody
  rw [if_pos rfl, hat]
  refine Post.bind (Post.finalState h1 h3 ?_)
  refine Post.bind (Post.stat ?_ hbase')
  intro s hstat
  cases s with
  | none =>
    refine Post.bind (Post.initialState h1 h2 ?_)
    have hs : States { { st with op := { st.op with final := some (pathState true (some t) attr.owner attr.group touch) } } with
        op := { st.op with final := some (pathState true (some t) attr.owner attr.group touch), initial := some (pathState false none none none false) } }
        (pathState false none none none false) (pathState true (some t) attr.owner attr.group touch) := ⟨rfl, h1, rfl, rfl⟩
    refine Post.settle hs ?_ (Post.pure ⟨⟨hs, rfl⟩, rfl⟩) ?_ ?_
    · intro h; rw [pathState_eq] at h; cases h.1
    · intro hd _ _ _; exact ⟨fun _ h => (by rw [hd] at h; cases h), hbase'⟩
    · intro _ _ st' hs' _
      rcases stat_none_cases (stat_none hord.stat hstat) with ⟨e, hr⟩ | ⟨l, hr, hl⟩
      · unfold directoryActions
        rw [if_pos rfl]
        refine Post.bind (Post.whenChanged hs' rfl rfl ?_ (by intro h; rw [bool_eq] at h; cases h))
        intro _
        exact mkdir_unresolved_step hw hsys ha hr hbase
      · have hn : Now path l w none w := by have := Now.init ha hr; rwa [hl] at this
        refine (directory_act hord.accounts hw hsys ht hat ho hg hn (fun _ h => by cases h) hs' rfl rfl rfl).mono ?_ (fun w' h => hL' l w' hr h)
        rintro _ st'' w' ⟨rfl, hdone, hi, hlt⟩
        exact ⟨rfl, fun _ _ => ⟨l, hr, hdone, hi, hlt⟩, hL' l w' hr hdone.left⟩
  | some s =>
    obtain ⟨l, n, hlk, rfl⟩ := stat_some hw hstat
    obtain ⟨hr, hl⟩ := lookup_ok hlk
    simp only
    split
    · refine Post.failure ?_
      intro r hr _
      exact ⟨fun h => (by rw [hr] at h; cases h), hbase'⟩
    · next hk =>
      have hk : n.kind = .dir := kind_of_type (by simpa [Client.described] using hk)
      refine Post.bind (Post.initialState h1 h2 ?_)
      have hn : Now path l w (some n) w := by have := Now.init ha hr; rwa [hl] at this
      have hs : States { { st with op := { st.op with final := some (pathState true (some t) attr.owner attr.group touch) } } with
          op := { st.op with final := some (pathState true (some t) attr.owner attr.group touch),
                             initial := some (pathState true (some (Py.natStr 8 n.perm)) (some (ownerName w n.uid)) (some (groupName w n.gid)) false) } }
          (pathState true (some (Py.natStr 8 n.perm)) (some (ownerName w n.uid)) (some (groupName w n.gid)) false)
          (pathState true (some t) attr.owner attr.group touch) := ⟨rfl, h1, rfl, rfl⟩
      refine Post.settle hs ?_ (Post.pure ⟨⟨hs, rfl⟩, rfl⟩) ?_ ?_
      · intro h
        rw [pathState_eq] at h
        obtain ⟨_, e1, e2, e3, _⟩ := h
        obtain ⟨_, e4, e5⟩ := same_mode ht e1
        have hp := numericPerm_same e5
        refine ⟨fun _ _ => ⟨l, hr, ⟨n, hn, ⟨hk, hw.node l n hl, numericPerm_dir hk hl, fun m hm => by rw [hl] at hm; cases hm; exact hk⟩, hp.symm.trans (numericPerm_dir hk hl),
          owned_of_names hw hord.accounts e2 e3⟩, e4, by rw [e5]; exact (hw.node l n hl).perm⟩, hbase'⟩
      · intro hd _ _ _; exact ⟨fun _ h => (by rw [hd] at h; cases h), hbase'⟩
      · intro _ _ st' hs' _
        refine (directory_act hord.accounts hw hsys ht hat ho hg hn (fun _ h => by cases h; exact hk) hs' rfl rfl rfl).mono ?_ (fun w' h => hL' l w' hr h)
        rintro _ st'' w' ⟨rfl, hdone, hi, hlt⟩
        exact ⟨rfl, fun _ _ => ⟨l, hr, hdone, hi, hlt⟩, hL' l w' hr hdone.left⟩

/-- `directory(path, present=False)`. -/
theorem directory_absent (hord : Ordinary sys tools w) (ha : isAbs path = true) {attr : Settings}
    {touch : Bool} (h1 : st.op.hasNested = false) (h2 : st.op.initial = none) (h3 : st.op.final = none) {L : World → Prop}
    (hL : ∀ w', Same w w' → L w')
    (hL' : ∀ l n k s, resolve w.fs w.cwd path false = .ok l → w.fs l = some n → L { w with fs := removeMost w.fs l k, started := s }) :
    Post sys lost (directoryBody path false touch attr) env st w
      (fun r _ w' => (r.success = true → env.dry = false → TreeGone path w w') ∧ L w') L := by
  have hw := hord.sane
  have hsys := hord.exec
  have hbase : ∀ s, L { w with started := s } := fun s => hL _ rfl
  have hbase' : L w := hbase w.started
  unfold directoryBody
  rw [if_neg (by decide)]
  refine Post.bind (Post.finalState h1 h3 ?_)
  refine Post.bind (Post.stat ?_ hbase')
  intro s hstat
  cases s with
  | none =>
    refine Post.bind (Post.initialState h1 h2 ?_)
    have hs : States { { st with op := { st.op with final := some (pathState false none none none false) } } with
        op := { st.op with final := some (pathState false none none none false), initial := some (pathState false none none none false) } }
        (pathState false none none none false) (pathState false none none none false) := ⟨rfl, h1, rfl, rfl⟩
    refine Post.settle hs ?_ (Post.pure ⟨⟨hs, rfl⟩, rfl⟩) ?_ ?_
    · intro h; exact ⟨fun _ _ => .inl ⟨stat_none hord.stat hstat, rfl⟩, hbase'⟩
    · intro hd _ _ _; exact ⟨fun _ h => (by rw [hd] at h; cases h), hbase'⟩
    · intro _ h
      have := (pathState_eq false false false false none none none none none none).mpr ⟨rfl, rfl, rfl, rfl, rfl⟩
      rw [this] at h; cases h
  | some s =>
    obtain ⟨l, n, hlk, rfl⟩ := stat_some hw hstat
    obtain ⟨hr, hl⟩ := lookup_ok hlk
    simp only
    split
    · refine Post.failure ?_
      intro r hr _
      exact ⟨fun h => (by rw [hr] at h; cases h), hbase'⟩
    · next hk =>
      have hk : n.kind = .dir := kind_of_type (by simpa [Client.described] using hk)
      refine Post.bind (Post.initialState h1 h2 ?_)
      have hn : Now path l w (some n) w := by have := Now.init ha hr; rwa [hl] at this
      have hs : States { { st with op := { st.op with final := some (pathState false none none none false) } } with
          op := { st.op with final := some (pathState false none none none false),
                             initial := some (pathState true (some (Py.natStr 8 n.perm)) (some (ownerName w n.uid)) (some (groupName w n.gid)) false) } }
          (pathState true (some (Py.natStr 8 n.perm)) (some (ownerName w n.uid)) (some (groupName w n.gid)) false)
          (pathState false none none none false) := ⟨rfl, h1, rfl, rfl⟩
      refine Post.settle hs ?_ (Post.pure ⟨⟨hs, rfl⟩, rfl⟩) ?_ ?_
      · intro h; rw [pathState_eq] at h; cases h.1
      · intro hd _ _ _; exact ⟨fun _ h => (by rw [hd] at h; cases h), hbase'⟩
      · intro _ _ st' hs' _
        unfold directoryActions
        rw [if_neg (by decide)]
        refine Post.whenChanged hs' rfl rfl ?_ (by intro h; rw [bool_eq] at h; cases h)
        intro _
        refine rmTree_step hw hsys hn hk (fun s k _ => hL' l n k s hr hl) hbase ?_
        intro s hne
        refine ⟨rfl, fun _ _ => ?_, hL' l n _ s hr hl⟩
        have : removeMost w.fs l (fun _ => false) = removeTree w.fs l := by
          funext q
          simp [removeMost, removeTree, wayKept_none]
        exact .inr ⟨l, n, s, hr, hl, by rw [this]⟩

end
end Verif.Ops
