/-
What `upload_content` and the other operations that save content do to a host.
-/
import Verif.Ops.FileLemmas

namespace Verif.Ops

open Script Remote
open Client (Prog direct lostConnection typeName writtenNode chmodNode chownNode)
open Wire (Packet)

/-- A regular file, with something in it; proper if the content is of realistic size. -/
structure SomeFile (size : Nat) (n : Node) : Prop where
  kind : ∃ c, n.kind = .file c
  sane : Modest size → n.Sane

/-- Whatever happened, what is left. -/
def SaveLeft (size : Nat) (path : Str) (w : World) (l : Loc) (w' : World) : Prop :=
  ∃ o, Now path l w o w' ∧ (∀ n, o = some n → SomeFile size n) ∧ (o = none → w.fs l = none)

/-- There was nothing, or a file. -/
def WasFile (w : World) (l : Loc) : Prop := ∀ n, w.fs l = some n → ∃ c, n.kind = .file c

/-- The file is as it should be. -/
def SaveDone (sys : Sys) (content : Bytes) (path : Str) (i : Int) (attr : Settings) (w : World) (l : Loc) (w' : World) : Prop :=
  ∃ n c, Now path l w (some n) w' ∧ (Modest content.length → n.Sane) ∧ n.kind = .file c ∧ sys.sha512 c = sys.sha512 content
    ∧ FilePerm (i % 4096).toNat n.perm ∧ Owned w attr n

/-- Exactly this content was stored. -/
def Uploaded (content : Bytes) (path : Str) (i : Int) (attr : Settings) (w : World) (l : Loc) (w' : World) : Prop :=
  ∃ n, Now path l w (some n) w' ∧ (Modest content.length → n.Sane) ∧ n.kind = .file content
    ∧ FilePerm (i % 4096).toNat n.perm ∧ Owned w attr n

theorem Uploaded.done {content : Bytes} {path : Str} {i : Int} {attr : Settings} {w : World} {l : Loc} {w' : World}
    (h : Uploaded content path i attr w l w') (sys : Sys) : SaveDone sys content path i attr w l w' := by
  obtain ⟨n, h1, h2, h3, h4, h5⟩ := h
  exact ⟨n, content, h1, h2, h3, rfl, h4, h5⟩

theorem SaveDone.left {sys : Sys} {content : Bytes} {path : Str} {i : Int} {attr : Settings} {w : World} {l : Loc} {w' : World}
    (h : SaveDone sys content path i attr w l w') : SaveLeft content.length path w l w' := by
  obtain ⟨n, c, h1, h2, h3, _⟩ := h
  exact ⟨some n, h1, fun m hm => (by cases hm; exact ⟨⟨c, h3⟩, h2⟩), fun hm => by cases hm⟩

section
variable {sys : Sys} {path : Str} {l : Loc} {w0 w : World} {o : Option Node} {content : Bytes}

theorem someFile_link {size : Nat} {n : Node} (h : SomeFile size n) (t : Str) : n.kind ≠ .link t := by
  obtain ⟨⟨c, hc⟩, _⟩ := h
  rw [hc]; intro h; cases h

theorem osWrite_now (hw0 : w0.Sane) (hn : Now path l w0 o w) (hf : ∀ n, o = some n → SomeFile content.length n) {r : Except Exn PUnit} {w1 : World}
    (h : osWrite sys w path content = (r, w1)) :
    w1 = w ∧ (∃ e, r = .error e) ∨ ∃ n, SomeFile content.length n ∧ Now path l w0 (some n) w1 ∧ (r = .ok () → n = writtenNode w l content) := by
  have hfo : resolve w.fs w.cwd path true = .ok l := hn.followed (fun n t hm => someFile_link (hf n hm) t) w.cwd
  unfold osWrite at h
  split at h
  · cases h; exact .inl ⟨rfl, _, rfl⟩
  · rw [hfo] at h
    have hat := hn.at
    simp only [hat] at h
    have hw : ∀ c : Bytes, Modest c.length → ∀ n, o = some n → (Modest content.length → n.Sane) →
        Modest content.length → ({ n with kind := .file c, mtime := w.clock, ctime := w.clock } : Node).Sane := by
      intro c hc n _ hs hm
      have hs := hs hm
      exact ⟨hs.perm, hs.uid, hs.gid, by rw [hn.clock]; exact hw0.clock, by rw [hn.clock]; exact hw0.clock, fun _ h => by cases h; exact hc, fun _ h => by cases h⟩
    cases o with
    | none =>
      have hnew : ∀ c : Bytes, (Modest content.length → Modest c.length) → SomeFile content.length
          { kind := .file c, perm := 0o600, uid := w.uid, gid := inheritGid w.fs l w.gid, mtime := w.clock, ctime := w.clock } := by
        intro c hc
        refine ⟨⟨c, rfl⟩, fun hm => ⟨(by decide : (0o600 : Nat) < 4096), by rw [hn.uid]; exact hw0.uid, ?_, by rw [hn.clock]; exact hw0.clock,
          by rw [hn.clock]; exact hw0.clock, fun _ h => by cases h; exact hc hm, fun _ h => by cases h⟩⟩
        have hws : w.Sane := hn.sane hw0 (fun _ h => by cases h)
        exact Ops.inheritGid_ok hws hws.gid l
      simp only at h
      split at h
      · cases h
        refine .inr ⟨_, hnew _ (fun h => h.take _), hn.create, fun h => by cases h⟩
      · cases h
        refine .inr ⟨_, hnew _ (fun h => h), hn.create, fun _ => ?_⟩
        simp only [writtenNode, hat]
    | some n =>
      obtain ⟨⟨c0, hc0⟩, hs⟩ := hf n rfl
      simp only [hc0] at h
      have hsh : ∀ c, shape (some ({ n with kind := .file c, mtime := w.clock, ctime := w.clock } : Node)) = shape (some n) := fun c => by
        simp [shape, hc0]
      split at h
      · cases h
        exact .inr ⟨_, ⟨⟨_, rfl⟩, fun hm => hw _ (hm.take _) n rfl hs hm⟩, hn.change (hsh _), fun h => by cases h⟩
      · cases h
        refine .inr ⟨_, ⟨⟨_, rfl⟩, fun hm => hw _ hm n rfl hs hm⟩, hn.change (hsh _), fun _ => ?_⟩
        simp only [writtenNode, hat]

theorem osChmod_now (hw0 : w0.Sane) {size : Nat} {n : Node} (hn : Now path l w0 (some n) w) (hf : SomeFile size n) {m : Int} {r : Except Exn PUnit} {w1 : World}
    (h : osChmod sys w path m = (r, w1)) :
    w1 = w ∧ (∃ e, r = .error e) ∨ r = .ok () ∧ SomeFile size (chmodNode w0 (some m) n) ∧ Now path l w0 (some (chmodNode w0 (some m) n)) w1 := by
  unfold osChmod at h
  split at h
  · cases h; exact .inl ⟨rfl, _, rfl⟩
  · split at h
    · cases h; exact .inl ⟨rfl, _, rfl⟩
    · rw [hn.lookup_followed (someFile_link hf) w.cwd] at h
      cases h
      refine .inr ⟨rfl, ⟨hf.kind, fun hm => ?_⟩, ?_⟩
      · have hs := hf.sane hm
        exact ⟨emod_lt _, hs.uid, hs.gid, hs.mtime, hw0.clock, hs.content, hs.target⟩
      · have := hn.change (n' := chmodNode w0 (some m) n) rfl
        simp only [chmodNode, hn.clock] at this ⊢
        exact this

theorem osChown_now (hw0 : w0.Sane) {size : Nat} {n : Node} (hn : Now path l w0 (some n) w) (hf : SomeFile size n) {u g : Nat} (hu : IdOk u) (hg : IdOk g)
    {r : Except Exn PUnit} {w1 : World} (h : osChown sys w path u g = (r, w1)) :
    w1 = w ∧ (∃ e, r = .error e) ∨ r = .ok () ∧ SomeFile size { n with perm := chownPerm n, uid := u, gid := g, ctime := w0.clock }
      ∧ Now path l w0 (some { n with perm := chownPerm n, uid := u, gid := g, ctime := w0.clock }) w1 := by
  unfold osChown at h
  split at h
  · cases h; exact .inl ⟨rfl, _, rfl⟩
  · rw [hn.lookup_followed (someFile_link hf) w.cwd] at h
    cases h
    refine .inr ⟨rfl, ⟨hf.kind, fun hm => ?_⟩, ?_⟩
    · have hs := hf.sane hm
      exact ⟨Ops.chownPerm_lt hs.perm, hu, hg, hs.mtime, hw0.clock, hs.content, hs.target⟩
    · have := hn.change (n' := { n with perm := chownPerm n, uid := u, gid := g, ctime := w0.clock }) rfl
      simp only [hn.clock] at this ⊢
      exact this

theorem doUpload_now (hw0 : w0.Sane) (hn : Now path l w0 o w) (hf : ∀ n, o = some n → SomeFile content.length n) (h0 : o = none → w0.fs l = none) {mo : Option Int} {u g : Option Nat}
    (hu : IdOk (u.getD 0)) (hg : IdOk (g.getD 0)) {r : Reply} {w' : World} (h : doUpload sys path content mo u g w = (r, w')) :
    SaveLeft content.length path w0 l w'
      ∧ ∀ raw q, r = .answer raw q → SomeFile content.length (chownNode w0 u g (chmodNode w0 mo (writtenNode w l content)))
        ∧ Now path l w0 (some (chownNode w0 u g (chmodNode w0 mo (writtenNode w l content)))) w' := by
  have left : ∀ {o w}, Now path l w0 o w → (∀ n, o = some n → SomeFile content.length n) → (o = none → w0.fs l = none) → SaveLeft content.length path w0 l w :=
    fun h1 h2 h3 => ⟨_, h1, h2, h3⟩
  have left' : ∀ {n w}, Now path l w0 (some n) w → SomeFile content.length n → SaveLeft content.length path w0 l w :=
    fun h1 h2 => ⟨_, h1, fun m hm => (by cases hm; exact h2), fun hm => (by cases hm)⟩
  unfold doUpload at h
  split at h
  · next e w1 h1 =>
    cases h
    refine ⟨?_, fun _ _ h => by cases h⟩
    rcases osWrite_now hw0 hn hf h1 with ⟨rfl, _⟩ | ⟨n, hs, hn1, _⟩
    · exact left hn hf h0
    · exact left' hn1 hs
  · next w1 h1 =>
    rcases osWrite_now hw0 hn hf h1 with ⟨_, e, he⟩ | ⟨n, hs, hn1, hok⟩
    · cases he
    · obtain rfl := hok rfl
      split at h
      · next e w2 h2 =>
        cases h
        refine ⟨?_, fun _ _ h => by cases h⟩
        cases mo with
        | none => cases h2
        | some m =>
          rcases osChmod_now hw0 hn1 hs h2 with ⟨rfl, _⟩ | ⟨he, _⟩
          · exact left' hn1 hs
          · cases he
      · next w2 h2 =>
        have hs2 : SomeFile content.length (chmodNode w0 mo (writtenNode w l content)) ∧ Now path l w0 (some (chmodNode w0 mo (writtenNode w l content))) w2 := by
          cases mo with
          | none => cases h2; exact ⟨hs, hn1⟩
          | some m =>
            rcases osChmod_now hw0 hn1 hs h2 with ⟨_, e, he⟩ | ⟨_, h⟩
            · cases he
            · exact h
        obtain ⟨hs2, hn2⟩ := hs2
        by_cases hug : (u.isSome || g.isSome) = true
        · rw [if_pos hug] at h
          have hcn : chownNode w0 u g (chmodNode w0 mo (writtenNode w l content)) =
              { chmodNode w0 mo (writtenNode w l content) with perm := chownPerm (chmodNode w0 mo (writtenNode w l content)), uid := u.getD 0, gid := g.getD 0, ctime := w0.clock } := by
            unfold chownNode
            rw [if_pos hug]
          rw [hcn]
          split at h
          · next e w3 h3 =>
            cases h
            refine ⟨?_, fun _ _ h => by cases h⟩
            rcases osChown_now hw0 hn2 hs2 hu hg h3 with ⟨rfl, _⟩ | ⟨he, _⟩
            · exact left' hn2 hs2
            · cases he
          · next w3 h3 =>
            cases h
            rcases osChown_now hw0 hn2 hs2 hu hg h3 with ⟨_, e, he⟩ | ⟨_, h4, h5⟩
            · cases he
            · exact ⟨left' h5 h4, fun _ _ _ => ⟨h4, h5⟩⟩
        · rw [if_neg hug] at h
          have hcn : chownNode w0 u g (chmodNode w0 mo (writtenNode w l content)) = chmodNode w0 mo (writtenNode w l content) := by
            unfold chownNode
            rw [if_neg hug]
          rw [hcn]
          cases h
          exact ⟨left' hn2 hs2, fun _ _ _ => ⟨hs2, hn2⟩⟩

theorem resolve_ids (hw : w.Sane) {s : Str} {u g : Nat} (h : Remote.resolveUser w s = .ok (u, g)) : IdOk u ∧ IdOk g := by
  obtain ⟨e, he, rfl, rfl⟩ := (Client.resolveUser_eq hw s).2.1 u g h
  have := hw.users e (denotes_mem he)
  exact ⟨this.2.2.2.2.1, this.2.2.2.2.2.1⟩

theorem resolve_gid (hw : w.Sane) {s : Str} {g : Nat} (h : Remote.resolveGroup w s = .ok g) : IdOk g := by
  obtain ⟨e, he, rfl⟩ := (Client.resolveGroup_eq hw s).2.1 g h
  exact (hw.groups e (denotes_gmem he)).2.2.2.1

theorem parseInt_o (k : Nat) : Py.parseInt 8 (111 :: Py.natStr 8 k) = none := by
  have hc := octalText_iff.mp (octalText_natStr k)
  unfold Py.parseInt
  rw [Py.strip_eq_self]
  · have h1 : Py.digitVal 111 = none := by decide
    simp [Py.parseNat, Py.parseDigits, h1]
  · intro c hcm
    simp only [List.mem_cons] at hcm
    rcases hcm with rfl | hcm
    · decide
    · exact Py.isSpace_digit (by have := hc.2 c hcm; omega)

theorem idOk_zero : IdOk 0 := by unfold IdOk; omega

theorem upload_now (hp : PlainAccounts w0) (hw0 : w0.Sane) (hn : Now path l w0 o w) (hf : ∀ n, o = some n → SomeFile content.length n)
    (h0 : o = none → w0.fs l = none) {attr : Settings} {i : Int} {t : Str} (ht : ModeText i t) (hat : attr.fileMode = some t)
    {r : Except Exn Unit} {w' : World} (h : (Client.Connector.upload path content attr.fileMode attr.owner attr.group).run (direct sys) w = (r, w')) :
    SaveLeft content.length path w0 l w' ∧ (r = .ok () → 0 ≤ i ∧ Uploaded content path i attr w0 l w') := by
  have hu : w.users = w0.users := hn.users
  have hg : w.groups = w0.groups := hn.groups
  have hws0 : SaveLeft content.length path w0 l w := ⟨o, hn, hf, h0⟩
  have hru : ∀ s, Remote.resolveUser w s = Remote.resolveUser w0 s := by
    intro s; simp only [Remote.resolveUser, getpwnam, getpwuid, hu]
  have hrg : ∀ s, Remote.resolveGroup w s = Remote.resolveGroup w0 s := by
    intro s; simp only [Remote.resolveGroup, getgrnam, getgrgid, hg]
  have hworld : w' = (handleUpload sys path content attr.fileMode attr.owner attr.group w).2 := by
    have := congrArg Prod.snd h
    simp only [Client.Connector.upload, Prog.run] at this
    rw [← this, Client.direct_world]
    rfl
  have hids : ∀ ug g, Remote.optional (Remote.resolveUser w) attr.owner = .ok ug → Remote.optional (Remote.resolveGroup w) attr.group = .ok g →
      IdOk ((ug.map (·.1)).getD 0) ∧ IdOk ((pickGid g ug).getD 0) := by
    intro ug g h1 h2
    have h1' : ∀ x, ug = some x → IdOk x.1 ∧ IdOk x.2 := by
      intro x hx
      subst hx
      cases ho : attr.owner with
      | none => rw [ho] at h1; cases h1
      | some s =>
        rw [ho] at h1
        simp only [Remote.optional] at h1
        rw [hru] at h1
        cases hr : Remote.resolveUser w0 s with
        | error e => rw [hr] at h1; cases h1
        | ok y => rw [hr] at h1; cases h1; exact resolve_ids hw0 hr
    have h2' : ∀ x, g = some x → IdOk x := by
      intro x hx
      subst hx
      cases ho : attr.group with
      | none => rw [ho] at h2; cases h2
      | some s =>
        rw [ho] at h2
        simp only [Remote.optional] at h2
        rw [hrg] at h2
        cases hr : Remote.resolveGroup w0 s with
        | error e => rw [hr] at h2; cases h2
        | ok y => rw [hr] at h2; cases h2; exact resolve_gid hw0 hr
    refine ⟨?_, ?_⟩
    · cases ug with
      | none => exact idOk_zero
      | some x => exact (h1' x rfl).1
    · cases g with
      | some x => exact h2' x rfl
      | none =>
        cases ug with
        | none => exact idOk_zero
        | some x => exact (h1' x rfl).2
  constructor
  · rw [hworld]
    unfold handleUpload
    split
    · exact hws0
    · split
      · exact hws0
      · next ug h1 =>
        split
        · exact hws0
        · next g h2 =>
          obtain ⟨i1, i2⟩ := hids ug g h1 h2
          exact (doUpload_now hw0 hn hf h0 i1 i2 (r := _) (w' := _) rfl).1
  · rintro rfl
    obtain ⟨mo, ug, g, raw, q, h1, h2, h3, h4⟩ := Client.upload_ok h
    obtain ⟨i1, i2⟩ := hids ug g h2 h3
    obtain ⟨hs, hnow⟩ := (doUpload_now hw0 hn hf h0 i1 i2 h4).2 raw q rfl
    rw [hat] at h1
    simp only [Remote.optional, resolveOct] at h1
    have hoct : octalText t = true ∧ i = octalValue t := by
      rcases ht with h | ⟨_, k, rfl⟩
      · exact h
      · exfalso
        have : Py.parseInt 8 (111 :: Py.natStr 8 k) = none := parseInt_o k
        rw [this] at h1
        cases h1
    obtain ⟨ho, hi⟩ := hoct
    rw [parseInt_octal ho] at h1
    cases h1
    have hi0 : 0 ≤ i := by rw [hi]; exact Int.natCast_nonneg _
    refine ⟨hi0, _, hnow, hs.sane, ?_, ?_, ?_⟩
    · unfold chownNode
      split <;> exact Client.writtenNode_kind ..
    · rw [hi]
      unfold chownNode
      split
      · simp only [chownPerm, chmodNode, Client.writtenNode_kind, reduceCtorEq, if_false]
        split
        · exact .inr (.inl rfl)
        · exact .inr (.inr rfl)
      · exact .inl rfl
    · refine ⟨?_, ?_⟩
      · intro e he hname
        rw [hname] at h2
        simp only [Remote.optional] at h2
        rw [hru, (Client.resolveUser_eq hw0 e.name).1 e (.inl (find_unique hp.users he)) (hw0.users e he).2.2.2.2.2.2] at h2
        cases h2
        simp [chownNode]
      · intro e he hname
        rw [hname] at h3
        simp only [Remote.optional] at h3
        rw [hrg, (Client.resolveGroup_eq hw0 e.name).1 e (.inl (find_unique hp.groups he)) (hw0.groups e he).2.2.2.2] at h3
        cases h3
        simp [chownNode, pickGid]

end

section
variable {sys : Sys} {lost : Nat → Option Bool} {env : Env} {st : St} {w : World}
variable {tools : Tools} {path : Str} {l : Loc} {w0 : World} {n : Node} {content : Bytes}

theorem upload_step (hp : PlainAccounts w) (hw : w.Sane) {o : Option Node} (hn : Now path l w o w) (hf : ∀ n, o = some n → SomeFile content.length n)
    {attr : Settings} {i : Int} {t : Str} (ht : ModeText i t) (hat : attr.fileMode = some t) :
    Post sys lost (Connection.upload path content attr.fileMode attr.owner attr.group) env st w
      (fun _ st' w' => st' = st ∧ 0 ≤ i ∧ Uploaded content path i attr w l w') (SaveLeft content.length path w l) := by
  have h0 : o = none → w.fs l = none := fun h => hn.at.trans h
  refine Post.call (single_upload ..) ?_ ?_ ⟨o, hn, hf, h0⟩
  · intro _ w' h
    obtain ⟨h1, h2⟩ := upload_now hp hw hn hf h0 ht hat h
    exact ⟨⟨rfl, h2 rfl⟩, h1⟩
  · intro e w' h
    exact (upload_now hp hw hn hf h0 ht hat h).1

theorem upload_unresolved {e : Int} (hr : resolve w.fs w.cwd path true = .error e) {mode owner group : Option Str} {r : Except Exn Unit} {w' : World}
    (h : (Client.Connector.upload path content mode owner group).run (direct sys) w = (r, w')) : w' = w ∧ r ≠ .ok () := by
  have hw : ∀ mo u g, ∃ x, doUpload sys path content mo u g w = (.raise x, w) := by
    intro mo u g
    unfold doUpload osWrite
    cases guardCall sys w path (.openWrite path) with
    | error e => exact ⟨_, rfl⟩
    | ok _ => simp only [hr]; exact ⟨_, rfl⟩
  have hworld : w' = (handleUpload sys path content mode owner group w).2 := by
    have := congrArg Prod.snd h
    simp only [Client.Connector.upload, Prog.run] at this
    rw [← this, Client.direct_world]
    rfl
  refine ⟨?_, ?_⟩
  · rw [hworld]
    unfold handleUpload
    split
    · rfl
    · split
      · rfl
      · split
        · rfl
        · obtain ⟨x, hx⟩ := hw _ _ _
          rw [hx]
  · rintro rfl
    obtain ⟨mo, ug, g, raw, q, h1, h2, h3, h4⟩ := Client.upload_ok h
    obtain ⟨x, hx⟩ := hw mo (ug.map (·.1)) (pickGid g ug)
    rw [hx] at h4
    cases h4

theorem save_act (hp : PlainAccounts w) (hw : w.Sane) (hsys : sys.exec = core tools)
    {want attr : Settings} {i : Int} {t : Str} (ht : ModeText i t) (hat : attr.fileMode = some t)
    (ho : UserValue w want.owner attr.owner) (hg : GroupValue w want.group attr.group) {o : Option Node}
    (hn : Now path l w o w) (hd : ∀ n, o = some n → ∃ c, n.kind = .file c) {md od gd : Option Str} {sum : Option Bytes}
    (hs : States st (contentState o.isSome md od gd sum) (contentState true (some t) attr.owner attr.group (some (sys.sha512 content))))
    (hmd : md = o.map fun n => Py.natStr 8 n.perm) (hod : od = o.map fun n => ownerName w n.uid)
    (hgd : gd = o.map fun n => groupName w n.gid) (hsum : ∀ n c, o = some n → n.kind = .file c → sum = some (sys.sha512 c)) :
    Post sys lost (saveActions attr content path) env st w
      (fun _ st' w' => st' = st ∧ 0 ≤ i ∧ SaveDone sys content path i attr w l w') (SaveLeft content.length path w l) := by
  have hsn : ∀ n, o = some n → n.Sane := fun n hm => hw.node l n (hn.at.trans hm)
  have hf : ∀ n, o = some n → SomeFile content.length n := fun n hm => ⟨hd n hm, fun _ => hsn n hm⟩
  unfold saveActions
  refine Post.bind (Post.changedEither hs rfl rfl rfl rfl ?_)
  by_cases hc : ((Val.bool o.isSome).eq (.bool true) && (Val.optBytes sum).eq (.optBytes (some (sys.sha512 content)))) = true
  · rw [hc]
    show Post sys lost (do
      whenChanged p!"mode" (runCommand (chmodCommand attr.fileMode path))
      whenEither p!"owner" p!"group" (runCommand (chownCommand attr path))) env st w _ _
    simp only [Bool.and_eq_true, bool_eq, optBytes_eq] at hc
    obtain ⟨h1, h2⟩ := hc
    cases o with
    | none => cases h1
    | some n =>
      obtain ⟨c, hk⟩ := hd n rfl
      have hsum' := hsum n c rfl hk
      rw [h2] at hsum'
      have hfn := fileNode_of hw hn.at hk
      have hca : contentAt w l = c := by have := hfn.kind; rw [hk] at this; exact (NodeKind.file.inj this).symm
      refine (file_attributes hp hw hsys ht hat ho hg hn hfn hs rfl rfl rfl rfl rfl rfl (.inr hmd) (.inr hod) (.inr hgd)).mono ?_ ?_
      · rintro _ st' w' ⟨rfl, ⟨n', hn', hf', hpm, how⟩, hi, hlt⟩
        refine ⟨rfl, by rw [hi]; exact Int.natCast_nonneg _, n', c, hn', fun _ => hf'.sane, by rw [hf'.kind, hca], (Option.some.inj hsum').symm, ?_, how⟩
        have : (i % 4096).toNat = octalValue t := by rw [hi]; omega
        rw [this]; exact hpm
      · rintro w' ⟨o', hn', hf', h0⟩
        exact ⟨o', hn', fun m hm => ⟨⟨_, (hf' m hm).kind⟩, fun _ => (hf' m hm).sane⟩, h0⟩
  · rw [Bool.not_eq_true] at hc
    rw [hc]
    refine (upload_step hp hw hn hf ht hat).mono ?_ (fun _ h => h)
    rintro _ st' w' ⟨rfl, h1, h2⟩
    exact ⟨rfl, h1, h2.done sys⟩

/-- `save_content`. -/
theorem save_body (hord : Ordinary sys tools w) (ha : isAbs path = true) {want attr : Settings} (he : Effective w want attr)
    (h1 : st.op.hasNested = false) (h2 : st.op.initial = none) (h3 : st.op.final = none) {i : Int} {t : Str}
    (ht : ModeText i t) (hat : attr.fileMode = some t) {L : World → Prop}
    (hL : ∀ w', Same w w' → L w') (hL' : ∀ l w', resolve w.fs w.cwd path false = .ok l → WasFile w l → SaveLeft content.length path w l w' → L w') :
    Post sys lost (saveBody sys.sha512 content path attr) env st w
      (fun r _ w' => (r.success = true → env.dry = false → ∃ l, resolve w.fs w.cwd path false = .ok l ∧ 0 ≤ i
        ∧ SaveDone sys content path i attr w l w') ∧ L w') L := by
  have hw := hord.sane
  have hsys := hord.exec
  have ho := he.owner
  have hg := he.group
  have hbase : ∀ s, L { w with started := s } := fun s => hL _ rfl
  have hbase' : L w := hbase w.started
  unfold saveBody
  rw [hat]
  refine Post.bind (Post.finalState h1 h3 ?_)
  refine Post.bind (Post.stat ?_ hbase')
  intro s hstat
  cases s with
  | none =>
    refine Post.bind (Post.initialState h1 h2 ?_)
    have hs : States { { st with op := { st.op with final := some (contentState true (some t) attr.owner attr.group (some (sys.sha512 content))) } } with
        op := { st.op with final := some (contentState true (some t) attr.owner attr.group (some (sys.sha512 content))), initial := some (contentState false none none none none) } }
        (contentState false none none none none) (contentState true (some t) attr.owner attr.group (some (sys.sha512 content))) := ⟨rfl, h1, rfl, rfl⟩
    refine Post.settle hs ?_ (Post.saveDiff hs hbase') ?_ ?_
    · intro h; rw [contentState_eq] at h; cases h.1
    · intro hd _ _ _; exact ⟨fun _ h => (by rw [hd] at h; cases h), hbase'⟩
    · intro _ _ st' hs' _
      rcases stat_none_cases (stat_none hord.stat hstat) with ⟨e, hr⟩ | ⟨l, hr, hl⟩
      · unfold saveActions
        refine Post.bind (Post.changedEither hs' rfl rfl rfl rfl ?_)
        rw [show (Val.bool false).eq (.bool true) = false from rfl, Bool.false_and]
        have hr' := resolve_error_follow hr
        refine Post.call (single_upload ..) ?_ ?_ hbase'
        · intro u w' h
          exact absurd rfl (upload_unresolved hr' h).2
        · intro x w' h
          rw [(upload_unresolved hr' h).1]; exact hbase'
      · have hn : Now path l w none w := by have := Now.init ha hr; rwa [hl] at this
        have hwas : WasFile w l := fun n h => by rw [hl] at h; cases h
        refine (save_act hord.accounts hw hsys ht hat ho hg hn (fun _ h => by cases h) hs' rfl rfl rfl (fun _ _ h => by cases h)).mono ?_ (fun w' h => hL' l w' hr hwas h)
        rintro _ st'' w' ⟨rfl, hi, hdone⟩
        exact ⟨rfl, fun _ _ => ⟨l, hr, hi, hdone⟩, hL' l w' hr hwas hdone.left⟩
  | some s =>
    obtain ⟨l, n, hlk, rfl⟩ := stat_some hw hstat
    obtain ⟨hr, hl⟩ := lookup_ok hlk
    simp only
    split
    · refine Post.failure ?_
      intro r hr _
      exact ⟨fun h => (by rw [hr] at h; cases h), hbase'⟩
    · next hk =>
      obtain ⟨c, hk⟩ := fileKind (n := n) (by simpa [Client.described] using hk)
      refine Post.bind (Post.initialState h1 h2 ?_)
      have hn : Now path l w (some n) w := by have := Now.init ha hr; rwa [hl] at this
      have hwas : WasFile w l := fun n h => by rw [hl] at h; cases h; exact ⟨c, hk⟩
      have hsum : (Client.described sys w true n).sha512sum = some (sys.sha512 c) := by simp [Client.described, hk]
      rw [hsum]
      have hs : States { { st with op := { st.op with final := some (contentState true (some t) attr.owner attr.group (some (sys.sha512 content))) } } with
          op := { st.op with final := some (contentState true (some t) attr.owner attr.group (some (sys.sha512 content))),
                             initial := some (contentState true (some (Py.natStr 8 n.perm)) (some (ownerName w n.uid)) (some (groupName w n.gid)) (some (sys.sha512 c))) } }
          (contentState true (some (Py.natStr 8 n.perm)) (some (ownerName w n.uid)) (some (groupName w n.gid)) (some (sys.sha512 c)))
          (contentState true (some t) attr.owner attr.group (some (sys.sha512 content))) := ⟨rfl, h1, rfl, rfl⟩
      refine Post.settle hs ?_ (Post.saveDiff hs hbase') ?_ ?_
      · intro h
        rw [contentState_eq] at h
        obtain ⟨_, e1, e2, e3, e6⟩ := h
        obtain ⟨_, e4, e5⟩ := same_mode ht e1
        refine ⟨fun _ _ => ⟨l, hr, by rw [e4]; exact Int.natCast_nonneg _, n, c, hn, fun _ => hw.node l n hl, hk, Option.some.inj e6, .inl ?_,
          owned_of_names hw hord.accounts e2 e3⟩, hbase'⟩
        have := (hw.node l n hl).perm
        rw [e4, e5]; omega
      · intro hd _ _ _; exact ⟨fun _ h => (by rw [hd] at h; cases h), hbase'⟩
      · intro _ _ st' hs' _
        refine (save_act hord.accounts hw hsys ht hat ho hg hn (fun _ h => by cases h; exact ⟨c, hk⟩) hs' rfl rfl rfl
          (fun n' c' h h' => by cases h; rw [hk] at h'; cases h'; rfl)).mono ?_ (fun w' h => hL' l w' hr hwas h)
        rintro _ st'' w' ⟨rfl, hi, hdone⟩
        exact ⟨rfl, fun _ _ => ⟨l, hr, hi, hdone⟩, hL' l w' hr hwas hdone.left⟩

end
end Verif.Ops
