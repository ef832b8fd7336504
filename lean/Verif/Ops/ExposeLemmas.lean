/-
The mode and the owner of a file while content is stored in it.
-/
import Verif.Ops.ManageLemmas
import Verif.Ops.ExposeSpec

namespace Verif.Ops

open Script Remote
open Client (Prog direct lostConnection typeName writtenNode chmodNode chownNode)
open Wire (Packet)

/-- A file with no mode bits but those in `B`, an owner in `I`, and content in `C`. -/
structure Guarded (B I : Nat → Prop) (C : Bytes → Prop) (n : Node) : Prop where
  file : ∃ c, n.kind = .file c ∧ C c
  bits : ∀ k, n.perm.testBit k = true → B k
  owner : I n.uid

/-- There is such a file at the place, or nothing. -/
def GuardLeft (B I : Nat → Prop) (C : Bytes → Prop) (path : Str) (w : World) (l : Loc) (w' : World) : Prop :=
  ∃ o, Now path l w o w' ∧ ∀ n, o = some n → Guarded B I C n

/-- New files may be there. -/
structure Fresh (B I : Nat → Prop) (w : World) : Prop where
  read : B 8
  write : B 7
  owner : I w.uid

section
variable {sys : Sys} {path : Str} {l : Loc} {w0 w : World} {o : Option Node} {content : Bytes} {B I : Nat → Prop} {C : Bytes → Prop}

theorem Guarded.link {n : Node} (h : Guarded B I C n) (t : Str) : n.kind ≠ .link t := by
  obtain ⟨⟨c, hc, _⟩, _⟩ := h
  rw [hc]; intro h; cases h

theorem fresh_bits (hB : Fresh B I w) {k : Nat} (h : (0o600 : Nat).testBit k = true) : B k := by
  have hk : k < 9 := by
    refine Nat.lt_of_not_le fun hle => ?_
    have : (0o600 : Nat).testBit k = false := Nat.testBit_lt_two_pow (Nat.lt_of_lt_of_le (by decide) (Nat.pow_le_pow_right (by decide) hle))
    rw [this] at h; cases h
  match k, hk with
  | 7, _ => exact hB.write
  | 8, _ => exact hB.read
  | 0, _ | 1, _ | 2, _ | 3, _ | 4, _ | 5, _ | 6, _ => exact absurd h (by decide)

theorem chownPerm_bits {n : Node} {k : Nat} (h : (chownPerm n).testBit k = true) : n.perm.testBit k = true := by
  unfold chownPerm at h
  split at h
  · exact h
  · split at h <;> (rw [Nat.testBit_and, Bool.and_eq_true] at h; exact h.1)

theorem Guarded.chown {n : Node} (h : Guarded B I C n) {u g : Nat} {c : Int} (hu : I u) :
    Guarded B I C { n with perm := chownPerm n, uid := u, gid := g, ctime := c } :=
  ⟨h.file, fun k hk => h.bits k (chownPerm_bits hk), hu⟩

theorem osWrite_guarded (hC : ∀ k, C (content.take k)) (hn : Now path l w0 o w) (hf : ∀ n, o = some n → Guarded B I C n) (h0 : o = none → Fresh B I w)
    {r : Except Exn PUnit} {w1 : World} (h : osWrite sys w path content = (r, w1)) :
    w1 = w ∧ (∃ e, r = .error e) ∨ ∃ n, Guarded B I C n ∧ Now path l w0 (some n) w1 := by
  have hfo : resolve w.fs w.cwd path true = .ok l := hn.followed (fun n t hm => (hf n hm).link t) w.cwd
  have hC' : C content := by have := hC content.length; rwa [List.take_length] at this
  unfold osWrite at h
  split at h
  · cases h; exact .inl ⟨rfl, _, rfl⟩
  · rw [hfo] at h
    have hat := hn.at
    simp only [hat] at h
    cases o with
    | none =>
      have hnew : ∀ c : Bytes, C c → Guarded B I C
          { kind := .file c, perm := 0o600, uid := w.uid, gid := inheritGid w.fs l w.gid, mtime := w.clock, ctime := w.clock } :=
        fun c hc => ⟨⟨c, rfl, hc⟩, fun k hk => fresh_bits (h0 rfl) hk, (h0 rfl).owner⟩
      simp only at h
      split at h
      · cases h; exact .inr ⟨_, hnew _ (hC _), hn.create⟩
      · cases h; exact .inr ⟨_, hnew _ hC', hn.create⟩
    | some n =>
      have hg := hf n rfl
      obtain ⟨c0, hc0, _⟩ := hg.file
      simp only [hc0] at h
      have hsh : ∀ c, shape (some ({ n with kind := .file c, mtime := w.clock, ctime := w.clock } : Node)) = shape (some n) := fun c => by
        simp [shape, hc0]
      have hnew : ∀ c, C c → Guarded B I C { n with kind := .file c, mtime := w.clock, ctime := w.clock } := fun c hc => ⟨⟨c, rfl, hc⟩, hg.bits, hg.owner⟩
      split at h
      · cases h; exact .inr ⟨_, hnew _ (hC _), hn.change (hsh _)⟩
      · cases h; exact .inr ⟨_, hnew _ hC', hn.change (hsh _)⟩

theorem osChmod_guarded {n : Node} (hn : Now path l w0 (some n) w) (hf : Guarded B I C n) {m : Int}
    (hm : ∀ k, (m % 4096).toNat.testBit k = true → B k) {r : Except Exn PUnit} {w1 : World} (h : osChmod sys w path m = (r, w1)) :
    ∃ n, Guarded B I C n ∧ Now path l w0 (some n) w1 := by
  unfold osChmod at h
  split at h
  · cases h; exact ⟨n, hf, hn⟩
  · split at h
    · cases h; exact ⟨n, hf, hn⟩
    · rw [hn.lookup_followed hf.link w.cwd] at h
      cases h
      exact ⟨{ n with perm := (m % 4096).toNat, ctime := w.clock }, ⟨hf.file, hm, hf.owner⟩, hn.change rfl⟩

theorem osChown_guarded {n : Node} (hn : Now path l w0 (some n) w) (hf : Guarded B I C n) {u g : Nat} (hu : I u)
    {r : Except Exn PUnit} {w1 : World} (h : osChown sys w path u g = (r, w1)) :
    ∃ n, Guarded B I C n ∧ Now path l w0 (some n) w1 := by
  unfold osChown at h
  split at h
  · cases h; exact ⟨n, hf, hn⟩
  · rw [hn.lookup_followed hf.link w.cwd] at h
    cases h
    exact ⟨_, hf.chown hu, hn.change (n' := { n with perm := chownPerm n, uid := u, gid := g, ctime := w.clock }) rfl⟩

theorem doUpload_guarded (hC : ∀ k, C (content.take k)) (hn : Now path l w0 o w) (hf : ∀ n, o = some n → Guarded B I C n) (h0 : o = none → Fresh B I w) {mo : Option Int}
    {u g : Option Nat} (hm : ∀ m, mo = some m → ∀ k, (m % 4096).toNat.testBit k = true → B k)
    (hu : (u.isSome || g.isSome) = true → I (u.getD 0)) {r : Reply} {w' : World}
    (h : doUpload sys path content mo u g w = (r, w')) : GuardLeft B I C path w0 l w' := by
  have left : ∀ {w}, (∃ n, Guarded B I C n ∧ Now path l w0 (some n) w) → GuardLeft B I C path w0 l w :=
    fun ⟨n, h1, h2⟩ => ⟨some n, h2, fun m hm => by cases hm; exact h1⟩
  unfold doUpload at h
  split at h
  · next e w1 h1 =>
    cases h
    rcases osWrite_guarded hC hn hf h0 h1 with ⟨rfl, _⟩ | hx
    · exact ⟨o, hn, hf⟩
    · exact left hx
  · next w1 h1 =>
    rcases osWrite_guarded hC hn hf h0 h1 with ⟨_, e, he⟩ | ⟨n, hs, hn1⟩
    · cases he
    · split at h
      · next e w2 h2 =>
        cases h
        cases mo with
        | none => cases h2
        | some m => exact left (osChmod_guarded hn1 hs (hm m rfl) h2)
      · next w2 h2 =>
        obtain ⟨n2, hs2, hn2⟩ : ∃ n, Guarded B I C n ∧ Now path l w0 (some n) w2 := by
          cases mo with
          | none => cases h2; exact ⟨n, hs, hn1⟩
          | some m => exact osChmod_guarded hn1 hs (hm m rfl) h2
        by_cases hug : (u.isSome || g.isSome) = true
        · rw [if_pos hug] at h
          split at h
          · next e w3 h3 => cases h; exact left (osChown_guarded hn2 hs2 (hu hug) h3)
          · next w3 h3 => cases h; exact left (osChown_guarded hn2 hs2 (hu hug) h3)
        · rw [if_neg hug] at h
          cases h
          exact left ⟨n2, hs2, hn2⟩

theorem upload_guarded (hC : ∀ k, C (content.take k)) (hw0 : w.Sane) (hp : PlainAccounts w) (hn : Now path l w o w) (hf : ∀ n, o = some n → Guarded B I C n) (h0 : o = none → Fresh B I w)
    {want attr : Settings} {i : Int} {t : Str} (ht : ModeText i t) (hat : attr.fileMode = some t)
    (hB : ∀ k, octalText t = true → i = octalValue t → ((octalValue t : Int) % 4096).toNat.testBit k = true → B k)
    (ho : UserValue w want.owner attr.owner) (hI : ∀ e u, want.owner = some u → DenotesUser w u e → I e.uid) (hset : want.owner = none → ∀ u, I u)
    {r : Except Exn Unit} {w' : World} (h : (Client.Connector.upload path content attr.fileMode attr.owner attr.group).run (direct sys) w = (r, w')) :
    GuardLeft B I C path w l w' := by
  have hws0 : GuardLeft B I C path w l w := ⟨o, hn, hf⟩
  have hworld : w' = (handleUpload sys path content attr.fileMode attr.owner attr.group w).2 := by
    have := congrArg Prod.snd h
    simp only [Client.Connector.upload, Prog.run] at this
    rw [← this, Client.direct_world]
    rfl
  rw [hworld]
  unfold handleUpload
  split
  · exact hws0
  · next mo h1 =>
    split
    · exact hws0
    · next ug h2 =>
      split
      · exact hws0
      · next g h3 =>
        refine doUpload_guarded hC hn hf h0 ?_ ?_ rfl
        · rintro m rfl k hk
          rw [hat] at h1
          simp only [Remote.optional, resolveOct] at h1
          rcases ht with ⟨h4, h5⟩ | ⟨_, j, rfl⟩
          · rw [parseInt_octal h4] at h1
            cases h1
            exact hB k h4 h5 hk
          · rw [parseInt_o j] at h1; cases h1
        · intro _
          cases hwo : want.owner with
          | none => exact hset hwo _
          | some u =>
            rw [hwo] at ho
            obtain ⟨e, he, hoe⟩ := ho
            rw [hoe] at h2
            have hmem := denotes_mem he
            simp only [Remote.optional] at h2
            rw [(Client.resolveUser_eq hw0 e.name).1 e (.inl (find_unique hp.users hmem)) (hw0.users e hmem).2.2.2.2.2.2] at h2
            cases h2
            exact hI e u hwo he

end

section
variable {sys : Sys} {lost : Nat → Option Bool} {env : Env} {st : St} {w : World} {B I : Nat → Prop} {C : Bytes → Prop}
variable {tools : Tools} {path : Str} {l : Loc} {content : Bytes}

theorem act_guarded (hC : ∀ k, C (content.take k)) (hp : PlainAccounts w) (hw : w.Sane) (hsys : sys.exec = core tools)
    {want attr : Settings} {i : Int} {t : Str} (ht : ModeText i t) (hat : attr.fileMode = some t)
    (ho : UserValue w want.owner attr.owner) (hg : GroupValue w want.group attr.group)
    (hB : ∀ k, octalText t = true → i = octalValue t → ((octalValue t : Int) % 4096).toNat.testBit k = true → B k)
    (hI : ∀ e u, want.owner = some u → DenotesUser w u e → I e.uid) (hset : want.owner = none → ∀ u, I u) {o : Option Node}
    (hn : Now path l w o w) (hd : ∀ n, o = some n → Guarded B I C n) (h0 : o = none → Fresh B I w) {md od gd : Option Str} {sum : Option Bytes}
    (hs : States st (contentState o.isSome md od gd sum) (contentState true (some t) attr.owner attr.group (some (sys.sha512 content))))
    (hmd : md = o.map fun n => Py.natStr 8 n.perm) (hod : od = o.map fun n => ownerName w n.uid)
    (hgd : gd = o.map fun n => groupName w n.gid) :
    Post sys lost (saveActions attr content path) env st w
      (fun _ st' w' => st' = st ∧ GuardLeft B I C path w l w') (GuardLeft B I C path w l) := by
  unfold saveActions
  refine Post.bind (Post.changedEither hs rfl rfl rfl rfl ?_)
  by_cases hc : ((Val.bool o.isSome).eq (.bool true) && (Val.optBytes sum).eq (.optBytes (some (sys.sha512 content)))) = true
  · rw [hc]
    show Post sys lost (do
      whenChanged p!"mode" (runCommand (chmodCommand attr.fileMode path))
      whenEither p!"owner" p!"group" (runCommand (chownCommand attr path))) env st w _ _
    simp only [Bool.and_eq_true, bool_eq] at hc
    cases o with
    | none => cases hc.1
    | some n =>
      have hgn := hd n rfl
      have hns : n.Sane := hw.node l n hn.at
      have hkd : n.kind ≠ .dir := by obtain ⟨c, hk, _⟩ := hgn.file; rw [hk]; intro h; cases h
      have left : ∀ {n w'}, Now path l w (some n) w' → Guarded B I C n → ∀ s, GuardLeft B I C path w l { w' with started := s } :=
        fun h1 h2 s => ⟨_, h1.started s, fun m hm => by cases hm; exact h2⟩
      have left' : ∀ {n w'}, Now path l w (some n) w' → Guarded B I C n → GuardLeft B I C path w l w' :=
        fun h1 h2 => ⟨_, h1, fun m hm => by cases hm; exact h2⟩
      refine Post.bind ?_
      rw [hat]
      refine mode_step hw hns hsys hn hgn.link ht hs rfl rfl (.inr hmd) (left hn hgn) ?_
      intro w1 c h1 h2 h3 hc1 hn1
      have hg1 : Guarded B I C { n with perm := numericPerm t n, ctime := c } := by
        refine ⟨hgn.file, fun k hk => hB k h1 h2 ?_, hgn.owner⟩
        have : ((octalValue t : Int) % 4096).toNat = octalValue t := by omega
        rw [this]
        simpa only [numericPerm_file hkd] using hk
      refine ⟨?_, left' hn1 hg1⟩
      refine owner_step hp hw (chmod_sane hw hns h3 hc1) hsys hn1 true (fun _ => hg1.link) ho hg hs rfl rfl rfl rfl (.inr hod) (.inr hgd) (left hn1 hg1) ?_
      intro w2 n2 hc2 how hn2
      have hg2 : Guarded B I C n2 := by
        rcases hc2 with rfl | ⟨u, g, _, _, rfl⟩
        · exact hg1
        · refine hg1.chown ?_
          cases hwo : want.owner with
          | none => exact hset hwo _
          | some s =>
            rw [hwo] at ho
            obtain ⟨e, he, hoe⟩ := ho
            have : u = e.uid := how.1 e (denotes_mem he) hoe
            rw [this]
            exact hI e s hwo he
      exact ⟨⟨rfl, left' hn2 hg2⟩, left' hn2 hg2⟩
  · rw [Bool.not_eq_true] at hc
    rw [hc]
    refine Post.call (single_upload ..) ?_ ?_ ⟨o, hn, hd⟩
    · intro _ w' h
      have := upload_guarded hC hw hp hn hd h0 ht hat hB ho hI hset h
      exact ⟨⟨rfl, this⟩, this⟩
    · intro e w' h
      exact upload_guarded hC hw hp hn hd h0 ht hat hB ho hI hset h

/-- What is at the place that a path denotes. -/
def GuardedAt (B I : Nat → Prop) (C : Bytes → Prop) (path : Str) (w w' : World) : Prop :=
  ∀ l n c, resolve w.fs w.cwd path false = .ok l → w'.fs l = some n → n.kind = .file c → Guarded B I C n

theorem body_guarded (hC : ∀ k, C (content.take k)) (hord : Ordinary sys tools w) (ha : isAbs path = true) {want attr : Settings} (he : Effective w want attr)
    (h1 : st.op.hasNested = false) (h2 : st.op.initial = none) (h3 : st.op.final = none) {i : Int} {t : Str}
    (ht : ModeText i t) (hat : attr.fileMode = some t)
    (hB : ∀ k, octalText t = true → i = octalValue t → ((octalValue t : Int) % 4096).toNat.testBit k = true → B k)
    (hI : ∀ e u, want.owner = some u → DenotesUser w u e → I e.uid) (hset : want.owner = none → ∀ u, I u)
    (hold : GuardedAt B I C path w w) (hnew : ∀ l, resolve w.fs w.cwd path false = .ok l → w.fs l = none → Fresh B I w) :
    Post sys lost (saveBody sys.sha512 content path attr) env st w (fun _ _ w' => GuardedAt B I C path w w') (GuardedAt B I C path w) := by
  have hw := hord.sane
  have hsys := hord.exec
  have left : ∀ l w', resolve w.fs w.cwd path false = .ok l → GuardLeft B I C path w l w' → GuardedAt B I C path w w' := by
    rintro l w' hr ⟨o, hn, hg⟩ l' n c hr' hl hk
    rw [hr] at hr'
    cases hr'
    exact hg n (hn.at.symm.trans hl)
  unfold saveBody
  rw [hat]
  refine Post.bind (Post.finalState h1 h3 ?_)
  refine Post.bind (Post.stat ?_ hold)
  intro s hstat
  cases s with
  | none =>
    refine Post.bind (Post.initialState h1 h2 ?_)
    have hs : States { { st with op := { st.op with final := some (contentState true (some t) attr.owner attr.group (some (sys.sha512 content))) } } with
        op := { st.op with final := some (contentState true (some t) attr.owner attr.group (some (sys.sha512 content))), initial := some (contentState false none none none none) } }
        (contentState false none none none none) (contentState true (some t) attr.owner attr.group (some (sys.sha512 content))) := ⟨rfl, h1, rfl, rfl⟩
    refine Post.settle hs ?_ (Post.saveDiff hs hold) ?_ ?_
    · intro _; exact hold
    · intro hd _ _ _; exact hold
    · intro _ _ st' hs' _
      rcases stat_none_cases (stat_none hord.stat hstat) with ⟨e, hr⟩ | ⟨l, hr, hl⟩
      · unfold saveActions
        refine Post.bind (Post.changedEither hs' rfl rfl rfl rfl ?_)
        rw [show (Val.bool false).eq (.bool true) = false from rfl, Bool.false_and]
        have hr' := resolve_error_follow hr
        refine Post.call (single_upload ..) ?_ ?_ hold
        · intro u w' h
          exact absurd rfl (upload_unresolved hr' h).2
        · intro x w' h
          rw [(upload_unresolved hr' h).1]; exact hold
      · have hn : Now path l w none w := by have := Now.init ha hr; rwa [hl] at this
        refine (act_guarded hC hord.accounts hw hsys ht hat he.owner he.group hB hI hset hn (fun _ h => by cases h) (fun _ => hnew l hr hl) hs' rfl rfl rfl).mono ?_
          (fun w' h => left l w' hr h)
        rintro _ st'' w' ⟨rfl, hdone⟩
        exact ⟨rfl, left l w' hr hdone⟩
  | some s =>
    obtain ⟨l, n, hlk, rfl⟩ := stat_some hw hstat
    obtain ⟨hr, hl⟩ := lookup_ok hlk
    simp only
    split
    · refine Post.failure ?_
      intro r hr _
      exact hold
    · next hk =>
      obtain ⟨c, hk⟩ := fileKind (n := n) (by simpa [Client.described] using hk)
      refine Post.bind (Post.initialState h1 h2 ?_)
      have hn : Now path l w (some n) w := by have := Now.init ha hr; rwa [hl] at this
      have hsum : (Client.described sys w true n).sha512sum = some (sys.sha512 c) := by simp [Client.described, hk]
      rw [hsum]
      have hs : States { { st with op := { st.op with final := some (contentState true (some t) attr.owner attr.group (some (sys.sha512 content))) } } with
          op := { st.op with final := some (contentState true (some t) attr.owner attr.group (some (sys.sha512 content))),
                             initial := some (contentState true (some (Py.natStr 8 n.perm)) (some (ownerName w n.uid)) (some (groupName w n.gid)) (some (sys.sha512 c))) } }
          (contentState true (some (Py.natStr 8 n.perm)) (some (ownerName w n.uid)) (some (groupName w n.gid)) (some (sys.sha512 c)))
          (contentState true (some t) attr.owner attr.group (some (sys.sha512 content))) := ⟨rfl, h1, rfl, rfl⟩
      refine Post.settle hs ?_ (Post.saveDiff hs hold) ?_ ?_
      · intro _; exact hold
      · intro hd _ _ _; exact hold
      · intro _ _ st' hs' _
        refine (act_guarded hC hord.accounts hw hsys ht hat he.owner he.group hB hI hset hn (fun n' h => by cases h; exact hold l n c hr hl hk)
          (fun h => by cases h) hs' rfl rfl rfl).mono ?_ (fun w' h => left l w' hr h)
        rintro _ st'' w' ⟨rfl, hdone⟩
        exact ⟨rfl, left l w' hr hdone⟩

variable {mode owner group : Option Str} {check : Bool}

theorem save_guarded {content : Content} {bytes : Bytes} (hC : ∀ k, C (bytes.take k)) (hord : Ordinary sys tools w) (hm : PlainModes env st) (hc : content.encode = .ok bytes)
    (hset : (inForce env st (fileArgs mode owner group)).owner = none → ∀ u, I u)
    (hB : ∀ m (i : Nat) k, (inForce env st (fileArgs mode owner group)).fileMode = some m → Py.parseInt 8 m = some (i : Int) →
      (i % 4096).testBit k = true → B k)
    (hI : ∀ e u, (inForce env st (fileArgs mode owner group)).owner = some u → DenotesUser w u e → I e.uid)
    (hold : GuardedAt B I C path w w) (hnew : ∀ l, resolve w.fs w.cwd path false = .ok l → w.fs l = none → Fresh B I w) :
    ∀ st', st'.stack = st.stack → st'.op.hasNested = false → st'.op.initial = none → st'.op.final = none → isAbs path = true →
    Post sys lost (saveContent sys.sha512 content path mode owner group) env st' w
      (fun _ _ w' => GuardedAt B I C path w w') (GuardedAt B I C path w) := by
  intro st1 hst h1 h2 h3 ha
  unfold saveContent
  rw [hc]
  refine Post.bind (Post.ofExcept ?_ hold)
  rintro _ ⟨⟩
  refine Post.withDefaults hord.sane hold ?_
  intro q' c rest r hq hs hr
  have hm' : PlainModes env st1 := by simpa only [PlainModes, inForce, hst] using hm
  have hf : inForce env st1 (fileArgs mode owner group) = inForce env st (fileArgs mode owner group) := by simp only [inForce, hst]
  obtain ⟨he, hmo⟩ := effective hm' hq hs hr
  rw [hf] at he hmo
  obtain ⟨m, i, t, hmm, hi, hat, ht⟩ := he.file
  refine body_guarded hC (st := { st1 with stack := r :: st1.stack }) hord ha he h1 h2 h3 ht hat ?_ hI hset hold hnew
  intro k _ h5 h6
  refine hB m (octalValue t) k hmm (by rw [hi, h5]) ?_
  have : ((octalValue t : Int) % 4096).toNat = octalValue t % 4096 := by omega
  rwa [this] at h6

theorem store_guarded {op : Op OpResult} {source : Except Exn Bytes} (hop : Stores sys.sha512 mode owner group check op path source)
    (hC : ∀ bytes k, source = .ok bytes → C (bytes.take k)) (hord : Ordinary sys tools w) (hm : PlainModes env st)
    (hset : (inForce env st (fileArgs mode owner group)).owner = none → ∀ u, I u)
    (hB : ∀ m (i : Nat) k, (inForce env st (fileArgs mode owner group)).fileMode = some m → Py.parseInt 8 m = some (i : Int) →
      (i % 4096).testBit k = true → B k)
    (hI : ∀ e u, (inForce env st (fileArgs mode owner group)).owner = some u → DenotesUser w u e → I e.uid)
    (hold : GuardedAt B I C path w w) (hnew : ∀ l, resolve w.fs w.cwd path false = .ok l → w.fs l = none → Fresh B I w) :
    Post sys lost op env st w (fun _ _ w' => GuardedAt B I C path w w') (GuardedAt B I C path w) := by
  have key : ∀ {content : Content} {bytes : Bytes} {path : Str}, content.encode = .ok bytes → source = .ok bytes → isAbs path = true →
      GuardedAt B I C path w w → (∀ l, resolve w.fs w.cwd path false = .ok l → w.fs l = none → Fresh B I w) →
      Post sys lost (returned (saveContent sys.sha512 content path mode owner group)) env { st with op := {} } w
        (fun r st' w' => GuardedAt B I C path w w' ∧ ∀ res, r = some res → (check = true → res.success = true) → GuardedAt B I C path w w') (GuardedAt B I C path w) := by
    intro content bytes path hc hsrc ha hold hnew
    refine Post.returned ((save_guarded (fun k => hC bytes k hsrc) hord hm hc hset hB hI hold hnew { st with op := {} } rfl rfl rfl rfl ha).mono ?_ (fun w' h => h))
    intro r st' w' h
    exact ⟨h, fun _ _ _ => h⟩
  cases hop with
  | content content dest =>
    refine Post.operation (Post.bind (Post.ofExcept (fun _ ha => ?_) hold))
    cases hc : content.encode with
    | ok bytes => exact key hc hc (checkAbsolutePath_ok ha) hold hnew
    | error e =>
      refine Post.returned ?_
      unfold saveContent
      rw [hc]
      exact Post.bind (Post.ofExcept (fun _ h => by cases h) hold)
  | file src _ dest =>
    refine Post.operation (Post.bind (Post.ofExcept (fun _ ha => ?_) hold))
    refine Post.bind (Post.ofExcept (fun bytes hb => ?_) hold)
    exact key rfl hb (isAbs_destOf (checkAbsolutePath_ok ha)) hold hnew
  | templateContent templ dest vars context host =>
    refine Post.operation (Post.bind (Post.ofExcept (fun _ ha => ?_) hold))
    refine Post.bind (Post.ofExcept (fun bytes hb => ?_) hold)
    exact key rfl hb (checkAbsolutePath_ok ha) hold hnew
  | template src templ dest vars context host =>
    refine Post.operation (Post.bind (Post.ofExcept (fun _ ha => ?_) hold))
    refine Post.bind (Post.ofExcept ?_ hold)
    rintro _ ⟨⟩
    refine Post.bind (Post.ofExcept (fun bytes hb => ?_) hold)
    exact key rfl hb (isAbs_destOf (checkAbsolutePath_ok ha)) hold hnew

end
end Verif.Ops
