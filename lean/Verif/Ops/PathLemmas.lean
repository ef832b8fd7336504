/-
What `directory`, `file` and `upload_content` do to a host, step by step.
-/
import Verif.Ops.HostLemmas

namespace Verif.Ops

open Script Remote
open Client (Prog direct lostConnection typeName)
open Wire (Packet)

/-! ### Comparison of states -/

theorem optStr_eq (a b : Option Str) : (Val.optStr a).eq (Val.optStr b) = true ↔ a = b := by
  cases a <;> cases b <;> simp [Val.optStr, Val.eq]

theorem optBytes_eq (a b : Option Bytes) : (Val.optBytes a).eq (Val.optBytes b) = true ↔ a = b := by
  cases a <;> cases b <;> simp [Val.optBytes, Val.eq]

theorem bool_eq (a b : Bool) : (Val.bool a).eq (Val.bool b) = true ↔ a = b := by
  simp [Val.eq]

theorem pathState_eq (a b t t' : Bool) (m o g m' o' g' : Option Str) :
    Dict.eq (pathState a m o g t) (pathState b m' o' g' t') = true ↔ a = b ∧ m = m' ∧ o = o' ∧ g = g' ∧ t = t' := by
  have : Dict.eq (pathState a m o g t) (pathState b m' o' g' t')
      = ((Val.bool a).eq (.bool b) && ((Val.optStr m).eq (.optStr m') && ((Val.optStr o).eq (.optStr o') && ((Val.optStr g).eq (.optStr g')
        && ((Val.bool t).eq (.bool t') && true))))) := rfl
  rw [this]
  simp only [Bool.and_eq_true, optStr_eq, bool_eq, and_true]

theorem linkState_eq (a b t t' : Bool) (m o g m' o' g' : Option Str) :
    Dict.eq (linkState a m o g t) (linkState b m' o' g' t') = true ↔ a = b ∧ m = m' ∧ o = o' ∧ g = g' ∧ t = t' := by
  have : Dict.eq (linkState a m o g t) (linkState b m' o' g' t')
      = ((Val.bool a).eq (.bool b) && ((Val.optStr m).eq (.optStr m') && ((Val.optStr o).eq (.optStr o') && ((Val.optStr g).eq (.optStr g')
        && ((Val.bool t).eq (.bool t') && true))))) := rfl
  rw [this]
  simp only [Bool.and_eq_true, optStr_eq, bool_eq, and_true]

theorem contentState_eq (a b : Bool) (m o g m' o' g' : Option Str) (s s' : Option Bytes) :
    Dict.eq (contentState a m o g s) (contentState b m' o' g' s') = true ↔ a = b ∧ m = m' ∧ o = o' ∧ g = g' ∧ s = s' := by
  have : Dict.eq (contentState a m o g s) (contentState b m' o' g' s')
      = ((Val.bool a).eq (.bool b) && ((Val.optStr m).eq (.optStr m') && ((Val.optStr o).eq (.optStr o') && ((Val.optStr g).eq (.optStr g')
        && ((Val.optBytes s).eq (.optBytes s') && true))))) := rfl
  rw [this]
  simp only [Bool.and_eq_true, optStr_eq, optBytes_eq, bool_eq, and_true]

section
variable {sys : Sys} {lost : Nat → Option Bool} {env : Env} {st : St} {w : World}
variable {tools : Tools} {path : Str} {l : Loc} {w0 : World} {n : Node} {Q : Unit → St → World → Prop} {E : World → Prop}

/-! ### Mode -/

theorem numericPerm_same {t : Str} {n : Node} (h : octalValue t = n.perm) : numericPerm t n = n.perm := by
  unfold numericPerm
  split
  · rw [h]
    apply Nat.eq_of_testBit_eq
    intro i
    simp only [Nat.testBit_or, Nat.testBit_and]
    cases n.perm.testBit i <;> simp
  · exact h

/-- The mode is set if it differs from what was seen. -/
theorem mode_step (hw0 : w0.Sane) (hns : n.Sane) (hsys : sys.exec = core tools) (hn : Now path l w0 (some n) w) (hk : ∀ t, n.kind ≠ .link t)
    {i : Int} {t : Str} (ht : ModeText i t) {a f : Dict} (hs : States st a f) {md : Option Str}
    (hi : a.get p!"mode" = some (.optStr md)) (hf : f.get p!"mode" = some (.optStr (some t))) (hmd : md = none ∨ md = some (Py.natStr 8 n.perm))
    (hE : ∀ s, E { w with started := s })
    (hok : ∀ w' c, octalText t = true → i = octalValue t → octalValue t < 4096 → (c = n.ctime ∨ c = w0.clock) →
      Now path l w0 (some { n with perm := numericPerm t n, ctime := c }) w' → Q () st w' ∧ E w') :
    Post sys lost (whenChanged p!"mode" (runCommand (chmodCommand (some t) path))) env st w Q E := by
  refine Post.whenChanged hs hi hf ?_ ?_
  · intro _
    refine chmod_step (hn.sane hw0 (fun m hm => by cases hm; exact hns)) hsys hn hk ht hE ?_
    intro w' h1 h2 h3 h4
    exact hok w' w.clock h1 h2 h3 (.inr hn.clock) h4
  · intro heq
    rw [optStr_eq] at heq
    rcases hmd with h | h
    · rw [h] at heq; cases heq
    · rw [h] at heq
      cases heq
      have hv : octalValue (Py.natStr 8 n.perm) = n.perm := octalValue_natStr _
      refine (hok w n.ctime (octalText_natStr _) ?_ (by rw [hv]; exact hns.perm) (.inl rfl) ?_).1
      · rcases ht with ⟨_, h⟩ | ⟨_, k, hk⟩
        · exact h
        · exfalso
          obtain ⟨_, h2⟩ := octalText_iff.mp (octalText_natStr n.perm)
          rw [hk] at h2
          have := h2 111 (List.mem_cons_self ..)
          omega
      · rw [numericPerm_same hv]; exact hn

theorem same_mode {i : Int} {t : Str} (ht : ModeText i t) (h : some (Py.natStr 8 n.perm) = some t) :
    octalText t = true ∧ i = octalValue t ∧ octalValue t = n.perm := by
  cases h
  refine ⟨octalText_natStr _, ?_, octalValue_natStr _⟩
  rcases ht with ⟨_, h⟩ | ⟨_, k, hk⟩
  · exact h
  · exfalso
    obtain ⟨_, h2⟩ := octalText_iff.mp (octalText_natStr n.perm)
    rw [hk] at h2
    have := h2 111 (List.mem_cons_self ..)
    omega

/-! ### Owner and group -/

/-- The object belongs to the owner and group that were asked for. -/
def Owned (w : World) (attr : Settings) (n : Node) : Prop :=
  (∀ e ∈ w.users, attr.owner = some e.name → n.uid = e.uid) ∧ (∀ e ∈ w.groups, attr.group = some e.name → n.gid = e.gid)

theorem owned_of_names (hw : w.Sane) (hp : PlainAccounts w) {attr : Settings} (h1 : some (ownerName w n.uid) = attr.owner)
    (h2 : some (groupName w n.gid) = attr.group) : Owned w attr n := by
  refine ⟨?_, ?_⟩
  · intro e he hname
    rw [hname] at h1
    exact ownerName_inj hw hp he (Option.some.inj h1)
  · intro e he hname
    rw [hname] at h2
    exact groupName_inj hw hp he (Option.some.inj h2)

theorem chownUser_ok (hw : w.Sane) {s : Str} {u : Nat} (h : chownUser w s = some u) : IdOk u := by
  unfold chownUser at h
  split at h
  · next e he => cases h; exact (hw.users e (List.mem_of_find?_eq_some he)).2.2.2.2.1
  · split at h
    · next hd => cases h; exact hd.2
    · cases h

theorem chownGroup_ok (hw : w.Sane) {s : Str} {u : Nat} (h : chownGroup w s = some u) : IdOk u := by
  unfold chownGroup at h
  split at h
  · next e he => cases h; exact (hw.groups e (List.mem_of_find?_eq_some he)).2.2.2.1
  · split at h
    · next hd => cases h; exact hd.2
    · cases h

/-- What setting the owner does to an object: nothing, or owner and group are as given. -/
def Chowned (w : World) (n n' : Node) : Prop :=
  n' = n ∨ ∃ u g, IdOk u ∧ IdOk g ∧ n' = { n with perm := chownPerm n, uid := u, gid := g, ctime := w.clock }

theorem owner_step (hp : PlainAccounts w0) (hw0 : w0.Sane) (hns : n.Sane) (hsys : sys.exec = core tools) (hn : Now path l w0 (some n) w)
    (follow : Bool) (hk : follow = true → ∀ t, n.kind ≠ .link t) {want attr : Settings}
    (ho : UserValue w0 want.owner attr.owner) (hg : GroupValue w0 want.group attr.group) {a f : Dict} (hs : States st a f) {od gd : Option Str}
    (hi1 : a.get p!"owner" = some (.optStr od)) (hf1 : f.get p!"owner" = some (.optStr attr.owner))
    (hi2 : a.get p!"group" = some (.optStr gd)) (hf2 : f.get p!"group" = some (.optStr attr.group))
    (hod : od = none ∨ od = some (ownerName w0 n.uid)) (hgd : gd = none ∨ gd = some (groupName w0 n.gid))
    (hE : ∀ s, E { w with started := s })
    (hok : ∀ w' n', Chowned w0 n n' → Owned w0 attr n' → Now path l w0 (some n') w' → Q () st w' ∧ E w') :
    Post sys lost (whenEither p!"owner" p!"group" (runCommand (if follow then chownCommand attr path else chownLinkCommand attr path)))
      env st w Q E := by
  refine Post.whenEither hs hi1 hf1 hi2 hf2 ?_ ?_
  · intro _
    refine chown_step_any (hn.sane hw0 (fun m hm => by cases hm; exact hns)) hsys hn follow hk (ownerText hp ho) (groupText hp hg) hE ?_
    intro w' u g hu hg' hnow
    refine hok w' _ (.inr ⟨u, g, chownUser_ok hw0 hu, chownGroup_ok hw0 hg', ?_⟩) ⟨?_, ?_⟩ hnow
    · rw [hn.clock]
    · intro e he hname
      rw [hname] at hu
      rw [show text (some e.name) = e.name from rfl, chownUser_name hp he] at hu
      exact (Option.some.inj hu).symm
    · intro e he hname
      rw [hname] at hg'
      rw [show text (some e.name) = e.name from rfl, chownGroup_name hp he] at hg'
      exact (Option.some.inj hg').symm
  · intro heq
    simp only [Bool.and_eq_true, optStr_eq] at heq
    obtain ⟨h1, h2⟩ := heq
    refine (hok w n (.inl rfl) ⟨?_, ?_⟩ hn).1
    · intro e he hname
      rw [hname] at h1
      rcases hod with h | h
      · rw [h] at h1; cases h1
      · rw [h] at h1
        exact ownerName_inj hw0 hp he (Option.some.inj h1)
    · intro e he hname
      rw [hname] at h2
      rcases hgd with h | h
      · rw [h] at h2; cases h2
      · rw [h] at h2
        exact groupName_inj hw0 hp he (Option.some.inj h2)

theorem chownPerm_lt {n : Node} (h : n.perm < 4096) : chownPerm n < 4096 := by
  unfold chownPerm
  split
  · exact h
  · split
    · exact Nat.lt_of_le_of_lt Nat.and_le_left h
    · exact Nat.lt_of_le_of_lt Nat.and_le_left h

theorem Chowned.sane {n' : Node} (hw : w.Sane) (hns : n.Sane) (h : Chowned w n n') : n'.Sane := by
  rcases h with rfl | ⟨u, g, hu, hg, rfl⟩
  · exact hns
  · exact ⟨chownPerm_lt hns.perm, hu, hg, hns.mtime, hw.clock, hns.content, hns.target⟩

theorem Chowned.kind {n' : Node} (h : Chowned w n n') : n'.kind = n.kind := by
  rcases h with rfl | ⟨_, _, _, _, rfl⟩ <;> rfl

theorem chmod_sane (hw : w.Sane) (hns : n.Sane) {t : Str} (ht : octalValue t < 4096) {c : Int} (hc : c = n.ctime ∨ c = w.clock) :
    ({ n with perm := numericPerm t n, ctime := c } : Node).Sane :=
  ⟨numericPerm_lt ht n, hns.uid, hns.gid, hns.mtime, by rcases hc with rfl | rfl; exact hns.ctime; exact hw.clock, hns.content, hns.target⟩

theorem touch_sane (hw : w.Sane) (hns : n.Sane) : ({ n with mtime := w.clock, ctime := w.clock } : Node).Sane :=
  ⟨hns.perm, hns.uid, hns.gid, hw.clock, hw.clock, hns.content, hns.target⟩

theorem maskOff_lt {a b k : Nat} (h : a < 2 ^ k) : maskOff a b < 2 ^ k :=
  Nat.xor_lt_two_pow h (Nat.lt_of_le_of_lt Nat.and_le_left h)

theorem inheritSetgid_le (fs : Loc → Option Node) (l : Loc) : inheritSetgid fs l ≤ 0o2000 := by
  unfold inheritSetgid
  split
  · exact Nat.and_le_right
  · omega

theorem inheritGid_ok (hw : w.Sane) {gid : Nat} (h : IdOk gid) (l : Loc) : IdOk (inheritGid w.fs l gid) := by
  unfold inheritGid
  split
  · next d hd =>
    split
    · exact (hw.node _ d hd).gid
    · exact h
  · exact h

theorem newDir_sane (hw : w.Sane) {p : Proc} (hp : ProcOk p) (l : Loc) : (newDir p w l).Sane :=
  ⟨Nat.or_lt_two_pow (n := 12) (maskOff_lt (by decide)) (Nat.lt_of_le_of_lt (inheritSetgid_le ..) (by decide)),
    hp.uid, inheritGid_ok hw hp.gid l, hw.clock, hw.clock, fun c h => (by cases h), fun c h => (by cases h)⟩

theorem newFile_sane (hw : w.Sane) {p : Proc} (hp : ProcOk p) (l : Loc) : (newFile p w l).Sane :=
  ⟨maskOff_lt (k := 12) (by decide), hp.uid, inheritGid_ok hw hp.gid l, hw.clock, hw.clock, fun c h => (by cases h; unfold Modest; decide),
    fun c h => (by cases h)⟩

end
end Verif.Ops
