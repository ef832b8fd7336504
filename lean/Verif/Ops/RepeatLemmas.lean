/-
File operations on a host that is already as requested.
-/
import Verif.Ops.ManageLemmas

namespace Verif.Ops

open Script Remote
open Client (Prog direct lostConnection)
open Wire (Packet)

section
variable {sys : Sys} {lost : Nat → Option Bool} {env : Env} {st : St} {w w' : World}
variable {tools : Tools} {path target : Str} {l : Loc} {n : Node} {o : Option Node} {mode owner group : Option Str} {present touch check : Bool}

/-- Nothing happened, and the operation says so. -/
def Settled (w : World) (r : OpResult) (w' : World) : Prop :=
  ((r.success = true ∧ r.changed = false) ∧ r.initial.eq r.final = true) ∧ Same w w'

theorem settle_calm {i f : Dict} (hs : States st i f) (heq : i.eq f = true) {between action : Op Unit}
    (hb : Post sys lost between env st w' (fun _ st' w1 => (States st' i f ∧ st'.stack = st.stack) ∧ w1 = w') (Same w)) (h : Same w w') :
    Post sys lost (settle between action) env st w' (fun r _ w2 => Settled w r w2) (Same w) := by
  refine Post.settle hs (fun heq => ⟨⟨⟨rfl, rfl⟩, heq⟩, h⟩) hb ?_ ?_
  · intro _ h; rw [heq] at h; cases h
  · intro _ h; rw [heq] at h; cases h

/-- Owner and group as `stat` would report them. -/
structure Named (w : World) (attr : Settings) (n : Node) : Prop where
  owner : attr.owner = some (ownerName w n.uid)
  group : attr.group = some (groupName w n.gid)

theorem named_of {want attr : Settings} (hw : w.Sane) (hna : NoAliases w) (he : Effective w want attr) (h : OwnedBy w want n)
    (h1 : want.owner ≠ none) (h2 : want.group ≠ none) : Named w attr n := by
  refine ⟨?_, ?_⟩
  · cases hu : want.owner with
    | none => exact absurd hu h1
    | some u =>
      obtain ⟨e, hd, hid⟩ := h.1 u hu
      have := he.owner
      rw [hu] at this
      obtain ⟨e', hd', ha⟩ := this
      rw [ha, ← Client.DenotesUser.unique hd hd', hid, ownerName_eq hw hna (denotes_mem hd)]
  · cases hu : want.group with
    | none => exact absurd hu h2
    | some u =>
      obtain ⟨e, hd, hid⟩ := h.2 u hu
      have := he.group
      rw [hu] at this
      obtain ⟨e', hd', ha⟩ := this
      rw [ha, ← Client.DenotesGroup.unique hd hd', hid, groupName_eq hw hna (denotes_gmem hd)]

theorem mode_again {want : Option Str} {given : Option Str} {m : Str} {v : Nat} (hc : given = none → ∃ i, m = Py.natStr 8 i)
    (hm : want = some m) (hi : Py.parseInt 8 m = some (v : Int)) : want.map (modeAs given) = some (Py.natStr 8 v) := by
  rw [hm]
  cases given with
  | none =>
    obtain ⟨i, rfl⟩ := hc rfl
    rw [parseInt_octal (octalText_natStr i), octalValue_natStr] at hi
    simp only [Option.some.injEq] at hi
    have : i = v := by omega
    rw [this]; rfl
  | some x =>
    simp only [Option.map_some, modeAs, hi, Option.getD_some]
    rfl

theorem directory_again (hord : Ordinary sys tools w) {attr : Settings} (h1 : st.op.hasNested = false) (h2 : st.op.initial = none)
    (h3 : st.op.final = none) (hlk : lookup w.fs w.cwd path false = .ok (l, n)) (hk : n.kind = .dir) (hp : attr.dirMode = some (Py.natStr 8 n.perm))
    (hn : Named w attr n) : Post sys lost (directoryBody path true false attr) env st w (fun r _ w' => Settled w r w') (Same w) := by
  unfold directoryBody
  rw [if_pos rfl]
  refine Post.bind (Post.finalState h1 h3 ?_)
  refine Post.bind (Post.stat ?_ rfl)
  intro s hstat
  cases s with
  | none => have := stat_none hord.stat hstat; rw [hlk] at this; cases this
  | some s =>
    obtain ⟨l', n', hlk', rfl⟩ := stat_some hord.sane hstat
    rw [hlk] at hlk'
    cases hlk'
    simp only
    rw [if_neg (by simp [Client.described, hk, Client.typeName])]
    refine Post.bind (Post.initialState h1 h2 ?_)
    refine settle_calm (w := w) (i := pathState true (some (Py.natStr 8 n.perm)) (some (ownerName w n.uid)) (some (groupName w n.gid)) false)
      (f := pathState true attr.dirMode attr.owner attr.group false) ?_ ?_ ?_ ?_
    · exact ⟨rfl, h1, rfl, rfl⟩
    · rw [pathState_eq]
      exact ⟨rfl, hp.symm, hn.owner.symm, hn.group.symm, rfl⟩
    · exact Post.pure ⟨⟨⟨rfl, h1, rfl, rfl⟩, rfl⟩, rfl⟩
    · rfl

theorem directory_still_absent (hord : Ordinary sys tools w) {attr : Settings} (h1 : st.op.hasNested = false) (h2 : st.op.initial = none)
    (h3 : st.op.final = none) (hlk : lookup w.fs w.cwd path false = .error ENOENT) :
    Post sys lost (directoryBody path false touch attr) env st w (fun r _ w' => Settled w r w') (Same w) := by
  unfold directoryBody
  rw [if_neg (by decide)]
  refine Post.bind (Post.finalState h1 h3 ?_)
  refine Post.bind (Post.stat ?_ rfl)
  intro s hstat
  cases s with
  | some s =>
    obtain ⟨l', n', hlk', rfl⟩ := stat_some hord.sane hstat
    rw [hlk] at hlk'; cases hlk'
  | none =>
    refine Post.bind (Post.initialState h1 h2 ?_)
    refine settle_calm (w := w) (i := pathState false none none none false) (f := pathState false none none none false) ?_ ?_
      ?_ ?_
    · exact ⟨rfl, h1, rfl, rfl⟩
    · rw [pathState_eq]
      exact ⟨rfl, rfl, rfl, rfl, rfl⟩
    · exact Post.pure ⟨⟨⟨rfl, h1, rfl, rfl⟩, rfl⟩, rfl⟩
    · rfl

theorem file_again (hord : Ordinary sys tools w) {attr : Settings} (h1 : st.op.hasNested = false) (h2 : st.op.initial = none)
    (h3 : st.op.final = none) (hlk : lookup w.fs w.cwd path false = .ok (l, n)) {c : Bytes} (hk : n.kind = .file c)
    (hp : attr.fileMode = some (Py.natStr 8 n.perm))
    (hn : Named w attr n) : Post sys lost (fileBody path true false attr) env st w (fun r _ w' => Settled w r w') (Same w) := by
  unfold fileBody
  rw [if_pos rfl]
  refine Post.bind (Post.finalState h1 h3 ?_)
  refine Post.bind (Post.stat ?_ rfl)
  intro s hstat
  cases s with
  | none => have := stat_none hord.stat hstat; rw [hlk] at this; cases this
  | some s =>
    obtain ⟨l', n', hlk', rfl⟩ := stat_some hord.sane hstat
    rw [hlk] at hlk'
    cases hlk'
    simp only
    rw [if_neg (by simp [Client.described, hk, Client.typeName])]
    refine Post.bind (Post.initialState h1 h2 ?_)
    refine settle_calm (w := w) (i := pathState true (some (Py.natStr 8 n.perm)) (some (ownerName w n.uid)) (some (groupName w n.gid)) false)
      (f := pathState true attr.fileMode attr.owner attr.group false) ?_ ?_ ?_ ?_
    · exact ⟨rfl, h1, rfl, rfl⟩
    · rw [pathState_eq]
      exact ⟨rfl, hp.symm, hn.owner.symm, hn.group.symm, rfl⟩
    · exact Post.pure ⟨⟨⟨rfl, h1, rfl, rfl⟩, rfl⟩, rfl⟩
    · rfl

theorem file_still_absent (hord : Ordinary sys tools w) {attr : Settings} (h1 : st.op.hasNested = false) (h2 : st.op.initial = none)
    (h3 : st.op.final = none) (hlk : lookup w.fs w.cwd path false = .error ENOENT) :
    Post sys lost (fileBody path false touch attr) env st w (fun r _ w' => Settled w r w') (Same w) := by
  unfold fileBody
  rw [if_neg (by decide)]
  refine Post.bind (Post.finalState h1 h3 ?_)
  refine Post.bind (Post.stat ?_ rfl)
  intro s hstat
  cases s with
  | some s =>
    obtain ⟨l', n', hlk', rfl⟩ := stat_some hord.sane hstat
    rw [hlk] at hlk'; cases hlk'
  | none =>
    refine Post.bind (Post.initialState h1 h2 ?_)
    refine settle_calm (w := w) (i := pathState false none none none false) (f := pathState false none none none false) ?_ ?_
      ?_ ?_
    · exact ⟨rfl, h1, rfl, rfl⟩
    · rw [pathState_eq]
      exact ⟨rfl, rfl, rfl, rfl, rfl⟩
    · exact Post.pure ⟨⟨⟨rfl, h1, rfl, rfl⟩, rfl⟩, rfl⟩
    · rfl

theorem encode_text {s : Str} (h : Text s) : ∃ b, Py.encodeUtf8 s = some b := by
  have hsome : (Py.encodeUtf8 s).isSome = true := by
    rw [Py.encodeUtf8_isSome, List.all_eq_true]
    intro c hc
    have := h c hc
    simp only [Py.isSurrogate, Bool.and_eq_true, decide_eq_true_eq, Bool.not_eq_true', Bool.and_eq_false_iff, decide_eq_false_iff_not]
    omega
  exact Option.isSome_iff_exists.mp hsome

theorem link_again (hord : Ordinary sys tools w) (ha : isAbs path = true) {attr : Settings} (h1 : st.op.hasNested = false) (h2 : st.op.initial = none)
    (h3 : st.op.final = none) (hlk : lookup w.fs w.cwd path false = .ok (l, n)) {t : Str} (hk : n.kind = .link t) (hpl : Text target)
    (ht : Py.encodeEscape t = Py.encodeEscape target) (hn : Named w attr n) :
    Post sys lost (linkBody path target true false attr) env st w (fun r _ w' => Settled w r w') (Same w) := by
  unfold linkBody
  rw [if_pos rfl]
  refine Post.bind (Post.finalState h1 h3 ?_)
  refine Post.bind (Post.stat ?_ rfl)
  intro s hstat
  cases s with
  | none => have := stat_none hord.stat hstat; rw [hlk] at this; cases this
  | some s =>
    obtain ⟨l', n', hlk', rfl⟩ := stat_some hord.sane hstat
    rw [hlk] at hlk'
    cases hlk'
    simp only
    rw [if_neg (by simp [Client.described, hk, Client.typeName])]
    refine Post.bind (Post.readlink hord.exec ha hlk hk (fun _ => rfl) ?_)
    intro res s hres
    refine Post.bind (Post.ofExcept ?_ rfl)
    intro existing hex
    have hex : existing = target := by
      obtain ⟨b, hb⟩ := encode_text hpl
      rw [hres, ht, Py.encodeEscape_of_encode hb] at hex
      simp only [Option.getD_some, decodeStrict, Py.decode_encode hb] at hex
      cases hex; rfl
    subst hex
    refine Post.bind (Post.initialState h1 h2 ?_)
    refine settle_calm (w := w) (i := linkState true (some existing) (some (ownerName w n.uid)) (some (groupName w n.gid)) false)
      (f := linkState true (some existing) attr.owner attr.group false) ?_ ?_ ?_ ?_
    · exact ⟨rfl, h1, rfl, rfl⟩
    · rw [linkState_eq]
      exact ⟨rfl, rfl, hn.owner.symm, hn.group.symm, rfl⟩
    · exact Post.pure ⟨⟨⟨rfl, h1, rfl, rfl⟩, rfl⟩, rfl⟩
    · rfl

theorem link_still_absent (hord : Ordinary sys tools w) {attr : Settings} (h1 : st.op.hasNested = false) (h2 : st.op.initial = none)
    (h3 : st.op.final = none) (hlk : lookup w.fs w.cwd path false = .error ENOENT) :
    Post sys lost (linkBody path target false touch attr) env st w (fun r _ w' => Settled w r w') (Same w) := by
  unfold linkBody
  rw [if_neg (by decide)]
  refine Post.bind (Post.finalState h1 h3 ?_)
  refine Post.bind (Post.stat ?_ rfl)
  intro s hstat
  cases s with
  | some s =>
    obtain ⟨l', n', hlk', rfl⟩ := stat_some hord.sane hstat
    rw [hlk] at hlk'; cases hlk'
  | none =>
    refine Post.bind (Post.initialState h1 h2 ?_)
    refine settle_calm (w := w) (i := linkState false none none none false) (f := linkState false none none none false) ?_ ?_
      ?_ ?_
    · exact ⟨rfl, h1, rfl, rfl⟩
    · rw [linkState_eq]
      exact ⟨rfl, rfl, rfl, rfl, rfl⟩
    · exact Post.pure ⟨⟨⟨rfl, h1, rfl, rfl⟩, rfl⟩, rfl⟩
    · rfl

theorem save_again (hord : Ordinary sys tools w) {attr : Settings} {content : Bytes} (h1 : st.op.hasNested = false) (h2 : st.op.initial = none)
    (h3 : st.op.final = none) (hlk : lookup w.fs w.cwd path false = .ok (l, n)) {c : Bytes} (hk : n.kind = .file c)
    (hc : sys.sha512 c = sys.sha512 content) (hp : attr.fileMode = some (Py.natStr 8 n.perm)) (hn : Named w attr n) :
    Post sys lost (saveBody sys.sha512 content path attr) env st w (fun r _ w' => Settled w r w') (Same w) := by
  unfold saveBody
  refine Post.bind (Post.finalState h1 h3 ?_)
  refine Post.bind (Post.stat ?_ rfl)
  intro s hstat
  cases s with
  | none => have := stat_none hord.stat hstat; rw [hlk] at this; cases this
  | some s =>
    obtain ⟨l', n', hlk', rfl⟩ := stat_some hord.sane hstat
    rw [hlk] at hlk'
    cases hlk'
    simp only
    rw [if_neg (by simp [Client.described, hk, Client.typeName])]
    have hsum : (Client.described sys w true n).sha512sum = some (sys.sha512 c) := by simp [Client.described, hk]
    rw [hsum]
    refine Post.bind (Post.initialState h1 h2 ?_)
    refine settle_calm (w := w) (i := contentState true (some (Py.natStr 8 n.perm)) (some (ownerName w n.uid)) (some (groupName w n.gid)) (some (sys.sha512 c)))
      (f := contentState true attr.fileMode attr.owner attr.group (some (sys.sha512 content))) ?_ ?_ ?_ ?_
    · exact ⟨rfl, h1, rfl, rfl⟩
    · rw [contentState_eq]
      exact ⟨rfl, hp.symm, hn.owner.symm, hn.group.symm, by rw [hc]⟩
    · refine Post.saveDiff ?_ rfl
      exact ⟨rfl, h1, rfl, rfl⟩
    · rfl

theorem Ordinary.congr (hord : Ordinary sys tools w) (hs : w'.Sane) (hu : w'.users = w.users) (hg : w'.groups = w.groups) : Ordinary sys tools w' :=
  ⟨hord.exec, hord.stat, hs, ⟨by rw [hu]; exact hord.accounts.users, by rw [hg]; exact hord.accounts.groups, by rw [hu]; exact hord.accounts.userNames,
    by rw [hg]; exact hord.accounts.groupNames⟩⟩

theorem Ordinary.now (hord : Ordinary sys tools w) (h : Now path l w o w') (ho : ∀ n, o = some n → n.Sane) : Ordinary sys tools w' :=
  hord.congr (h.sane hord.sane ho) h.users h.groups

theorem NoAliases.now (hna : NoAliases w) (h : Now path l w o w') : NoAliases w' :=
  ⟨by rw [h.users]; exact hna.users, by rw [h.groups]; exact hna.groups⟩

theorem OwnedBy.now {want : Settings} (hob : OwnedBy w want n) (h : Now path l w o w') : OwnedBy w' want n := by
  refine ⟨fun u hu => ?_, fun g hg => ?_⟩
  · obtain ⟨e, h1, h2⟩ := hob.1 u hu
    exact ⟨e, by unfold DenotesUser at h1 ⊢; rw [h.users]; exact h1, h2⟩
  · obtain ⟨e, h1, h2⟩ := hob.2 g hg
    exact ⟨e, by unfold DenotesGroup at h1 ⊢; rw [h.groups]; exact h1, h2⟩

theorem Ordinary.removed {fs : Loc → Option Node} {s : List Proc} (hord : Ordinary sys tools w) (h : ∀ q n, fs q = some n → w.fs q = some n) :
    Ordinary sys tools { w with fs := fs, started := s } :=
  hord.congr { hord.sane with node := fun q n hq => hord.sane.node q n (h q n hq) } rfl rfl

theorem Ordinary.gone (hord : Ordinary sys tools w) (h : Gone path w w') : Ordinary sys tools w' := by
  rcases h with ⟨_, h⟩ | ⟨l, n, s, _, _, rfl⟩
  · rw [h]; exact hord.removed (fun _ _ h => h)
  · refine hord.removed (fs := setNode w.fs l none) (s := s) ?_
    intro q n hq
    unfold setNode at hq
    split at hq
    · cases hq
    · exact hq

theorem Ordinary.treeGone (hord : Ordinary sys tools w) (h : TreeGone path w w') : Ordinary sys tools w' := by
  rcases h with ⟨_, h⟩ | ⟨l, n, s, _, _, rfl⟩
  · rw [h]; exact hord.removed (fun _ _ h => h)
  · refine hord.removed ?_
    intro q n hq
    unfold removeTree at hq
    split at hq
    · cases hq
    · exact hq

theorem inForce_file {owner group : Option Str} (hc : CanonicalModes env st) {m : Str} (hm : (inForce env st (fileArgs none owner group)).fileMode = some m) :
    ∃ i, m = Py.natStr 8 i := hc m (.inl hm)

theorem inForce_dir {owner group : Option Str} (hc : CanonicalModes env st) {m : Str} (hm : (inForce env st (dirArgs none owner group)).dirMode = some m) :
    ∃ i, m = Py.natStr 8 i := hc m (.inr hm)

/-- `directory` on a directory that is as requested. -/
theorem directory_calm (hord : Ordinary sys tools w) (hm : PlainModes env st) (hcm : CanonicalModes env st) (hna : NoAliases w)
    (ho : (inForce env st (dirArgs mode owner group)).owner ≠ none) (hg : (inForce env st (dirArgs mode owner group)).group ≠ none)
    (hlk : lookup w.fs w.cwd path false = .ok (l, n)) (hk : n.kind = .dir) (hob : OwnedBy w (inForce env st (dirArgs mode owner group)) n)
    {m : Str} (hmm : (inForce env st (dirArgs mode owner group)).dirMode = some m) (hi : Py.parseInt 8 m = some (n.perm : Int)) :
    Post sys lost (directory path true false mode owner group check) env st w
      (fun r _ w' => (Settled w r w' ∧ Same w w') ∧ (check = true → r.success = true)) (Same w) := by
  refine managed hord.sane hm rfl ?_
  intro attr st' ha h1 h2 h3 he hmo
  refine (directory_again hord h1 h2 h3 hlk hk ?_ (named_of hord.sane hna he hob ho hg)).mono (fun r _ w' h => ⟨h, h.2⟩) (fun _ h => h)
  rw [hmo.dir]
  refine mode_again ?_ hmm hi
  intro h
  cases (show mode = none from h)
  exact inForce_dir hcm hmm

theorem directory_calm_absent (hord : Ordinary sys tools w) (hm : PlainModes env st) (hlk : lookup w.fs w.cwd path false = .error ENOENT) :
    Post sys lost (directory path false touch mode owner group check) env st w
      (fun r _ w' => (Settled w r w' ∧ Same w w') ∧ (check = true → r.success = true)) (Same w) := by
  refine managed hord.sane hm rfl ?_
  intro attr st' ha h1 h2 h3 he hmo
  exact (directory_still_absent hord h1 h2 h3 hlk).mono (fun r _ w' h => ⟨h, h.2⟩) (fun _ h => h)

theorem file_calm (hord : Ordinary sys tools w) (hm : PlainModes env st) (hcm : CanonicalModes env st) (hna : NoAliases w)
    (ho : (inForce env st (fileArgs mode owner group)).owner ≠ none) (hg : (inForce env st (fileArgs mode owner group)).group ≠ none)
    (hlk : lookup w.fs w.cwd path false = .ok (l, n)) {c : Bytes} (hk : n.kind = .file c) (hob : OwnedBy w (inForce env st (fileArgs mode owner group)) n)
    {m : Str} (hmm : (inForce env st (fileArgs mode owner group)).fileMode = some m) (hi : Py.parseInt 8 m = some (n.perm : Int)) :
    Post sys lost (file path true false mode owner group check) env st w
      (fun r _ w' => (Settled w r w' ∧ Same w w') ∧ (check = true → r.success = true)) (Same w) := by
  refine managed hord.sane hm rfl ?_
  intro attr st' ha h1 h2 h3 he hmo
  refine (file_again hord h1 h2 h3 hlk hk ?_ (named_of hord.sane hna he hob ho hg)).mono (fun r _ w' h => ⟨h, h.2⟩) (fun _ h => h)
  rw [hmo.file]
  refine mode_again ?_ hmm hi
  intro h
  cases (show mode = none from h)
  exact inForce_file hcm hmm

theorem file_calm_absent (hord : Ordinary sys tools w) (hm : PlainModes env st) (hlk : lookup w.fs w.cwd path false = .error ENOENT) :
    Post sys lost (file path false touch mode owner group check) env st w
      (fun r _ w' => (Settled w r w' ∧ Same w w') ∧ (check = true → r.success = true)) (Same w) := by
  refine managed hord.sane hm rfl ?_
  intro attr st' ha h1 h2 h3 he hmo
  exact (file_still_absent hord h1 h2 h3 hlk).mono (fun r _ w' h => ⟨h, h.2⟩) (fun _ h => h)

theorem link_calm (hord : Ordinary sys tools w) (hm : PlainModes env st) (hna : NoAliases w)
    (ho : (inForce env st (linkArgs owner group)).owner ≠ none) (hg : (inForce env st (linkArgs owner group)).group ≠ none)
    (hlk : lookup w.fs w.cwd path false = .ok (l, n)) {t : Str} (hk : n.kind = .link t) (hpl : Text target)
    (ht : Py.encodeEscape t = Py.encodeEscape target) (hob : OwnedBy w (inForce env st (linkArgs owner group)) n) :
    Post sys lost (link path target true false owner group check) env st w
      (fun r _ w' => (Settled w r w' ∧ Same w w') ∧ (check = true → r.success = true)) (Same w) := by
  by_cases hne : target = []
  · subst hne
    refine Post.operation ?_
    refine Post.bind (Post.ofExcept (fun _ _ => ?_) rfl)
    rw [if_pos rfl]
    exact Post.raise rfl
  · have hlink : link path target true false owner group check = operation check (do
        Op.ofExcept (checkAbsolutePath path p!"path")
        returned (withDefaults { owner, group } (linkBody path target true false))) := by
      unfold link; simp only [if_neg hne]
    rw [hlink]
    refine managed hord.sane hm rfl ?_
    intro attr st' ha h1 h2 h3 he hmo
    exact (link_again hord ha h1 h2 h3 hlk hk hpl ht (named_of hord.sane hna he hob ho hg)).mono (fun r _ w' h => ⟨h, h.2⟩) (fun _ h => h)

theorem link_calm_absent (hord : Ordinary sys tools w) (hm : PlainModes env st) (hlk : lookup w.fs w.cwd path false = .error ENOENT) :
    Post sys lost (link path target false touch owner group check) env st w
      (fun r _ w' => (Settled w r w' ∧ Same w w') ∧ (check = true → r.success = true)) (Same w) := by
  by_cases hne : target = []
  · subst hne
    refine Post.operation ?_
    refine Post.bind (Post.ofExcept (fun _ _ => ?_) rfl)
    rw [if_pos rfl]
    exact Post.raise rfl
  · have hlink : link path target false touch owner group check = operation check (do
        Op.ofExcept (checkAbsolutePath path p!"path")
        returned (withDefaults { owner, group } (linkBody path target false touch))) := by
      unfold link; simp only [if_neg hne]
    rw [hlink]
    refine managed hord.sane hm rfl ?_
    intro attr st' ha h1 h2 h3 he hmo
    exact (link_still_absent hord h1 h2 h3 hlk).mono (fun r _ w' h => ⟨h, h.2⟩) (fun _ h => h)

theorem save_calm {content : Content} (hord : Ordinary sys tools w) (hm : PlainModes env st) (hcm : CanonicalModes env st) (hna : NoAliases w)
    {bytes : Bytes} (hc : content.encode = .ok bytes)
    (ho : (inForce env st (fileArgs mode owner group)).owner ≠ none) (hg : (inForce env st (fileArgs mode owner group)).group ≠ none)
    (hlk : lookup w.fs w.cwd path false = .ok (l, n)) {c : Bytes} (hk : n.kind = .file c) (hsum : sys.sha512 c = sys.sha512 bytes)
    (hob : OwnedBy w (inForce env st (fileArgs mode owner group)) n)
    {m : Str} (hmm : (inForce env st (fileArgs mode owner group)).fileMode = some m) (hi : Py.parseInt 8 m = some (n.perm : Int)) :
    ∀ st', st'.stack = st.stack → st'.op.hasNested = false → st'.op.initial = none → st'.op.final = none →
    Post sys lost (saveContent sys.sha512 content path mode owner group) env st' w (fun r _ w' => Settled w r w') (Same w) := by
  intro st1 hst h1 h2 h3
  unfold saveContent
  rw [hc]
  refine Post.bind (Post.ofExcept ?_ rfl)
  rintro _ ⟨⟩
  refine Post.withDefaults hord.sane rfl ?_
  intro q' c rest r hq hs hr
  have hm' : PlainModes env st1 := by simpa only [PlainModes, inForce, hst] using hm
  have hf : inForce env st1 (fileArgs mode owner group) = inForce env st (fileArgs mode owner group) := by simp only [inForce, hst]
  obtain ⟨he, hmo⟩ := effective hm' hq hs hr
  rw [hf] at he hmo
  refine (save_again (st := { st1 with stack := r :: st1.stack }) hord h1 h2 h3 hlk hk hsum ?_ (named_of hord.sane hna he hob ho hg))
  rw [hmo.file]
  refine mode_again ?_ hmm hi
  intro h
  cases (show mode = none from h)
  exact inForce_file hcm hmm

theorem store_calm {op : Op OpResult} {source : Except Exn Bytes} (hop : Stores sys.sha512 mode owner group check op path source)
    (hord : Ordinary sys tools w) (hm : PlainModes env st) (hcm : CanonicalModes env st) (hna : NoAliases w)
    (ho : (inForce env st (fileArgs mode owner group)).owner ≠ none) (hg : (inForce env st (fileArgs mode owner group)).group ≠ none)
    (hlk : lookup w.fs w.cwd path false = .ok (l, n)) {c : Bytes} (hk : n.kind = .file c)
    (hsum : ∀ bytes, source = .ok bytes → sys.sha512 c = sys.sha512 bytes)
    (hob : OwnedBy w (inForce env st (fileArgs mode owner group)) n)
    {m : Str} (hmm : (inForce env st (fileArgs mode owner group)).fileMode = some m) (hi : Py.parseInt 8 m = some (n.perm : Int)) :
    Post sys lost op env st w (fun r _ w' => (Settled w r w' ∧ Same w w') ∧ (check = true → r.success = true)) (Same w) := by
  have key : ∀ {content : Content} {bytes : Bytes}, content.encode = .ok bytes → source = .ok bytes →
      Post sys lost (returned (saveContent sys.sha512 content path mode owner group)) env { st with op := {} } w
        (fun r st' w' => Same w w' ∧ ∀ res, r = some res → (check = true → res.success = true) →
          (Settled w res w' ∧ Same w w') ∧ (check = true → res.success = true)) (Same w) := by
    intro content bytes hc hs
    refine Post.returned ((save_calm hord hm hcm hna hc ho hg hlk hk (hsum bytes hs) hob hmm hi { st with op := {} } rfl rfl rfl rfl).mono ?_ (fun w' h => h))
    rintro r st' w' h
    refine ⟨h.2, ?_⟩
    rintro _ ⟨⟩ hc
    exact ⟨⟨h, h.2⟩, hc⟩
  cases hop with
  | content content dest =>
    refine Post.operation (Post.bind (Post.ofExcept (fun _ ha => ?_) rfl))
    cases hc : content.encode with
    | ok bytes => exact key hc hc
    | error e =>
      refine Post.returned ?_
      unfold saveContent
      rw [hc]
      exact Post.bind (Post.ofExcept (fun _ h => by cases h) rfl)
  | file src _ dest =>
    refine Post.operation (Post.bind (Post.ofExcept (fun _ ha => ?_) rfl))
    refine Post.bind (Post.ofExcept (fun bytes hb => ?_) rfl)
    exact key rfl hb
  | templateContent templ dest vars context host =>
    refine Post.operation (Post.bind (Post.ofExcept (fun _ ha => ?_) rfl))
    refine Post.bind (Post.ofExcept (fun bytes hb => ?_) rfl)
    exact key rfl hb
  | template src templ dest vars context host =>
    refine Post.operation (Post.bind (Post.ofExcept (fun _ ha => ?_) rfl))
    refine Post.bind (Post.ofExcept ?_ rfl)
    rintro _ ⟨⟩
    refine Post.bind (Post.ofExcept (fun bytes hb => ?_) rfl)
    exact key rfl hb

/-! ### Repeating after a failure -/

variable {w0 w1 w2 : World} {n0 n2 : Node}

theorem Same.ordinary (h : Same w w') (hord : Ordinary sys tools w) : Ordinary sys tools w' := by
  rw [h]; exact hord.removed (fun _ _ h => h)

theorem SameFile.refl (n : Node) : SameFile n n := ⟨.inl rfl, fun _ => rfl, rfl, rfl⟩

theorem alike_of_fs (hr : w2 = { w0 with fs := w2.fs, started := w2.started }) (h : w0.fs = w2.fs) : Alike w0 w2 := by
  refine ⟨fun q => ?_, hr⟩
  rw [h]
  cases hq : w2.fs q with
  | none => exact .inl ⟨rfl, rfl⟩
  | some n => exact .inr ⟨n, n, rfl, rfl, SameFile.refl n⟩

/-- The worlds agree but for what is at one place. -/
def Elsewhere (l : Loc) (w w' : World) : Prop := ∃ o s, w' = { w.set l o with started := s }

theorem Elsewhere.of_now (h : Now path l w o w') : Elsewhere l w w' := ⟨o, _, h.eq⟩

theorem Elsewhere.of_same (l : Loc) (h : Same w w') : Elsewhere l w w' := by
  refine ⟨w.fs l, w'.started, ?_⟩
  have : setNode w.fs l (w.fs l) = w.fs := by
    funext q; unfold setNode; split
    · next h => rw [h]
    · rfl
  simp only [World.set, this]
  exact h

theorem alike_of (h0 : Elsewhere l w w0) (h1 : Elsewhere l w w1) (h2 : Elsewhere l w1 w2) (e0 : w0.fs l = some n0) (e2 : w2.fs l = some n2)
    (h : SameFile n0 n2) : Alike w0 w2 := by
  obtain ⟨o0, s0, rfl⟩ := h0
  obtain ⟨o1, s1, rfl⟩ := h1
  obtain ⟨o2, s2, rfl⟩ := h2
  refine ⟨fun q => ?_, rfl⟩
  by_cases hq : q = l
  · subst hq
    exact .inr ⟨n0, n2, e0, e2, h⟩
  · simp only [World.set, setNode_ne _ _ hq]
    cases hx : w.fs q with
    | none => exact .inl ⟨rfl, rfl⟩
    | some n => exact .inr ⟨n, n, rfl, rfl, SameFile.refl n⟩

/-- Two nodes that belong to the wanted owners. -/
theorem owned_same {want : Settings} (hu : w1.users = w.users) (hg : w1.groups = w.groups) (ho : want.owner ≠ none) (hgr : want.group ≠ none)
    (h0 : OwnedBy w want n0) (h2 : OwnedBy w1 want n2) : n0.uid = n2.uid ∧ n0.gid = n2.gid := by
  refine ⟨?_, ?_⟩
  · cases hx : want.owner with
    | none => exact absurd hx ho
    | some u =>
      obtain ⟨e, d, hid⟩ := h0.1 u hx
      obtain ⟨e', d', hid'⟩ := h2.1 u hx
      have d' : DenotesUser w u e' := by unfold DenotesUser at d' ⊢; rw [← hu]; exact d'
      rw [hid, hid', Client.DenotesUser.unique d d']
  · cases hx : want.group with
    | none => exact absurd hx hgr
    | some u =>
      obtain ⟨e, d, hid⟩ := h0.2 u hx
      obtain ⟨e', d', hid'⟩ := h2.2 u hx
      have d' : DenotesGroup w u e' := by unfold DenotesGroup at d' ⊢; rw [← hg]; exact d'
      rw [hid, hid', Client.DenotesGroup.unique d d']

theorem same_fs (h : Same w w') : w'.fs = w.fs := by rw [h]
theorem same_cwd (h : Same w w') : w'.cwd = w.cwd := by rw [h]
theorem same_users (h : Same w w') : w'.users = w.users := by rw [h]
theorem same_groups (h : Same w w') : w'.groups = w.groups := by rw [h]

theorem now_none_fs (h : Now path l w none w') (h0 : w.fs l = none) : w'.fs = w.fs := by
  rw [h.fs]; funext q; unfold setNode; split
  · next e => rw [e, h0]
  · rfl

/-- What is left behind by a first attempt that made something. -/
structure Left (sys : Sys) (tools : Tools) (path : Str) (l : Loc) (w w1 : World) : Prop where
  ordinary : Ordinary sys tools w1
  users : w1.users = w.users
  groups : w1.groups = w.groups
  elsewhere : Elsewhere l w w1
  res : resolve w1.fs w1.cwd path false = .ok l

theorem Left.of_same (hord : Ordinary sys tools w) (hres : resolve w.fs w.cwd path false = .ok l) (h : Same w w1) : Left sys tools path l w w1 :=
  ⟨h.ordinary hord, same_users h, same_groups h, .of_same l h, by rw [same_fs h, same_cwd h]; exact hres⟩

theorem Left.of_now (hord : Ordinary sys tools w) (h : Now path l w o w1) (hs : ∀ n, o = some n → n.Sane) : Left sys tools path l w w1 :=
  ⟨hord.now h hs, h.users, h.groups, .of_now h, h.res _⟩

theorem resolved_eq {a b : Loc} {fs : Loc → Option Node} {cwd : Loc} (h : resolve fs cwd path false = .ok a) (h' : resolve fs cwd path false = .ok b) : a = b := by
  rw [h] at h'; cases h'; rfl

theorem directory_left (hord : Ordinary sys tools w) (hres : resolve w.fs w.cwd path false = .ok l) {attr : Settings} {t : Str}
    (hmo : Modes (dirArgs mode owner group) (inForce env st (dirArgs mode owner group)) attr) (hat : attr.dirMode = some t)
    (h : DirectoryLeft env st path true mode owner group w w1) : Left sys tools path l w w1 ∧ dirPerm t w1 l = dirPerm t w l := by
  rcases h with h | ⟨_, attr', t', l', hmo', hat', hres', o, hn, hd, hnone⟩ | ⟨h, _⟩
  · refine ⟨.of_same hord hres h, ?_⟩
    unfold dirPerm keptBits
    rw [same_fs h]
  · obtain rfl := resolved_eq hres hres'
    have : t' = t := by
      rw [hmo.dir] at hat
      rw [hmo'.dir, hat] at hat'
      cases hat'; rfl
    subst this
    refine ⟨.of_now hord hn (fun n h => (hd n h).sane), ?_⟩
    cases o with
    | none => unfold dirPerm keptBits; rw [now_none_fs hn (hnone rfl)]
    | some n1 => rw [← numericPerm_dir (hd n1 rfl).kind hn.at]; exact (hd n1 rfl).perm
  · cases h

theorem file_left (hord : Ordinary sys tools w) (hres : resolve w.fs w.cwd path false = .ok l) (h : FileRest path true w w1) :
    Left sys tools path l w w1 ∧ contentAt w1 l = contentAt w l := by
  rcases h with h | ⟨_, l', hres', o, hn, hd, hnone⟩ | ⟨h, _⟩
  · refine ⟨.of_same hord hres h, ?_⟩
    unfold contentAt
    rw [same_fs h]
  · obtain rfl := resolved_eq hres hres'
    refine ⟨.of_now hord hn (fun n h => (hd n h).sane), ?_⟩
    cases o with
    | none => unfold contentAt; rw [now_none_fs hn (hnone rfl)]
    | some n1 =>
      have := (hd n1 rfl).kind
      rw [contentAt, hn.at]
      simp only [this]
  · cases h

theorem store_left {source : Except Exn Bytes} (hord : Ordinary sys tools w) (hsize : ∀ c, source = .ok c → Modest c.length)
    (hres : resolve w.fs w.cwd path false = .ok l) (h : StoreRest source path w w1) : Left sys tools path l w w1 := by
  rcases h with h | ⟨b, hb, h | ⟨l', hres', _, o, hn, hd, hnone⟩⟩
  · exact .of_same hord hres h
  · exact .of_same hord hres h
  · obtain rfl := resolved_eq hres hres'
    exact .of_now hord hn (fun n h => (hd n h).2 (hsize b hb))

theorem under_self (l : Loc) : under l l = true := by
  unfold under; simp

theorem Elsewhere.direct (h : Elsewhere l w w1) (hres : resolve w.fs w.cwd path false = .ok l) (hd : Direct w path) : Direct w1 path := by
  obtain ⟨o, s, rfl⟩ := h
  have h1 : resolve (setNode w.fs l o) w.cwd path false = .ok l := hd l _ hres (fun q hq => setNode_ne _ _ (by rintro rfl; rw [under_self] at hq; cases hq))
  intro l' fs hr hfs
  obtain rfl := resolved_eq h1 hr
  refine hd l fs hres (fun q hq => (hfs q hq).trans ?_)
  exact setNode_ne _ _ (by rintro rfl; rw [under_self] at hq; cases hq)

theorem link_left (hord : Ordinary sys tools w) (hpl : Plain target) (hres : resolve w.fs w.cwd path false = .ok l)
    (hnd : HasTarget w path target ∨ NotToDirectory w path) {want : Settings} (honly : ¬ ∃ n t, lookup w.fs w.cwd path false = .ok (l, n) ∧ n.kind = .link t
      ∧ Py.encodeEscape t ≠ Py.encodeEscape target ∧ OwnedBy w want n) (h : LinkRest path target true w w1) :
    Left sys tools path l w w1 ∧ (HasTarget w1 path target ∨ NotToDirectory w1 path)
      ∧ (∀ n t, w1.fs l = some n → n.kind = .link t → Py.encodeEscape t ≠ Py.encodeEscape target → ¬ OwnedBy w want n) := by
  have same : w1.fs = w.fs → w1.cwd = w.cwd → (HasTarget w1 path target ∨ NotToDirectory w1 path)
      ∧ (∀ n t, w1.fs l = some n → n.kind = .link t → Py.encodeEscape t ≠ Py.encodeEscape target → ¬ OwnedBy w want n) := by
    intro hf hc
    refine ⟨?_, ?_⟩
    · simp only [HasTarget, NotToDirectory, hf, hc] at hnd ⊢; exact hnd
    · intro n t hn hk hne hob
      rw [hf] at hn
      exact honly ⟨n, t, lookup_of hres hn, hk, hne, hob⟩
  rcases h with h | ⟨_, l', hres', o, hn, hd⟩ | ⟨h, _⟩
  · exact ⟨.of_same hord hres h, same (same_fs h) (same_cwd h)⟩
  · obtain rfl := resolved_eq hres hres'
    refine ⟨.of_now hord hn (fun n h => (hd n h).sane hpl.2), ?_⟩
    cases o with
    | none =>
      refine ⟨.inr ?_, ?_⟩
      · intro l' n' hlk
        have hf := hn.followed (fun n t h => by cases h) w1.cwd
        obtain ⟨h1, h2⟩ := lookup_ok hlk
        rw [hf] at h1
        cases h1
        rw [hn.at] at h2; cases h2
      · intro n t h; rw [hn.at] at h; cases h
    | some n1 =>
      obtain ⟨t, hk, ht | hw⟩ := (hd n1 rfl).kind
      · refine ⟨.inl ⟨l, n1, t, hn.res _, hn.at, hk, ht⟩, ?_⟩
        intro n t' h hk' hne
        rw [hn.at] at h; cases h
        rw [hk] at hk'; cases hk'
        exact absurd ht hne
      · have hf : w1.fs = w.fs := by
          rw [hn.fs]; funext q; unfold setNode; split
          · next e => rw [e, hw]
          · rfl
        exact same hf (by rw [hn.eq]; rfl)
  · cases h

/-! Removing. -/

theorem lookup_none_of {fs : Loc → Option Node} {cwd : Loc} (h : lookup fs cwd path false = .error ENOENT) (hr : resolve fs cwd path false = .ok l) : fs l = none := by
  unfold lookup at h
  rw [hr] at h
  cases hl : fs l with
  | none => rfl
  | some n => simp only [hl] at h; cases h

theorem gone_alike (h0 : Gone path w w0) (h1 : Same w w1 ∨ ∃ l n s, resolve w.fs w.cwd path false = .ok l ∧ w.fs l = some n ∧ w1 = { w.set l none with started := s })
    (h2 : Gone path w1 w2) : Alike w0 w2 := by
  rcases h1 with h1 | ⟨l, n, s, hres, hl, h1⟩
  · rcases h0 with ⟨e0, h0⟩ | ⟨l, n, s, hres, hl, rfl⟩
    · rcases h2 with ⟨e2, h2⟩ | ⟨l', n', s', hres', hl', rfl⟩
      · refine alike_of_fs ?_ ?_
        · rw [h2, h1, h0]
        · rw [h2, h1, h0]
      · rw [same_fs h1, same_cwd h1] at hres'
        rw [same_fs h1, lookup_none_of e0 hres'] at hl'
        cases hl'
    · rcases h2 with ⟨e2, h2⟩ | ⟨l', n', s', hres', hl', rfl⟩
      · rw [same_fs h1, same_cwd h1] at e2
        rw [lookup_none_of e2 hres] at hl
        cases hl
      · rw [same_fs h1, same_cwd h1] at hres'
        obtain rfl := resolved_eq hres hres'
        refine alike_of_fs ?_ ?_
        · rw [h1]; rfl
        · simp only [World.set, same_fs h1]
  · rcases h0 with ⟨e0, h0⟩ | ⟨l', n', s', hres', hl', rfl⟩
    · rw [lookup_none_of e0 hres] at hl; cases hl
    · obtain rfl := resolved_eq hres hres'
      have hg : Gone path w w1 := .inr ⟨l, n, s, hres, hl, h1⟩
      have e1 := hg.lookup
      rcases h2 with ⟨e2, h2⟩ | ⟨l', n', s', hres', hl', rfl⟩
      · refine alike_of_fs ?_ ?_
        · rw [h2, h1]
        · rw [h2, h1]
      · rw [lookup_none_of e1 hres'] at hl'; cases hl'

theorem under_take {l q : Loc} (h : under l q = true) : q.take l.length = l := by
  unfold under at h
  rw [List.isPrefixOf_iff_prefix] at h
  exact (List.prefix_iff_eq_take.mp h).symm

theorem wayKept_self {l q : Loc} {k : Loc → Bool} (hq : under l q = true) (h : wayKept l k l = false) : wayKept l k q = false := by
  have hkl : k l = false := by
    cases hk : k l with
    | false => rfl
    | true =>
      have : wayKept l k l = true := by
        unfold wayKept
        rw [List.all_eq_true]
        intro i hi
        rw [List.mem_range] at hi
        by_cases hu : under l (l.take i) = true
        · have hlen := congrArg List.length (under_take hu)
          simp only [List.length_take] at hlen
          have : l.take i = l := List.take_of_length_le (by omega)
          rw [this, hk]; simp
        · simp [hu]
      rw [this] at h; cases h
  unfold wayKept
  rw [List.all_eq_false]
  have hp : l.length ≤ q.length := by
    have := congrArg List.length (under_take hq)
    simp only [List.length_take] at this
    omega
  refine ⟨l.length, List.mem_range.mpr (by omega), ?_⟩
  rw [under_take hq, under_self, hkl]
  simp

theorem removeMost_none {fs : Loc → Option Node} {k : Loc → Bool} (hl : fs l = some n) (h : removeMost fs l k l = none) : removeMost fs l k = removeTree fs l := by
  have hk : wayKept l k l = false := by
    unfold removeMost at h
    rw [under_self] at h
    cases hw : wayKept l k l with
    | false => rfl
    | true => simp only [hw, hl] at h; cases h
  funext q
  unfold removeMost removeTree
  by_cases hq : under l q = true
  · rw [wayKept_self hq hk, hq]
    have : l.isPrefixOf q = true := hq
    rw [this]; rfl
  · have hq' : under l q = false := by simpa using hq
    have : l.isPrefixOf q = false := hq'
    rw [hq', this]; rfl

theorem removeTree_removeMost (fs : Loc → Option Node) (l : Loc) (k : Loc → Bool) : removeTree (removeMost fs l k) l = removeTree fs l := by
  funext q
  unfold removeTree removeMost
  cases hq : l.isPrefixOf q with
  | true => rfl
  | false => rw [show under l q = false from hq]; rfl

theorem treeGone_alike (hdir : Direct w path) (h0 : TreeGone path w w0)
    (h1 : Same w w1 ∨ ∃ l n k s, resolve w.fs w.cwd path false = .ok l ∧ w.fs l = some n ∧ w1 = { w with fs := removeMost w.fs l k, started := s })
    (h2 : TreeGone path w1 w2) : Alike w0 w2 := by
  rcases h1 with h1 | ⟨l, n, k, s, hres, hl, rfl⟩
  · rcases h0 with ⟨e0, h0⟩ | ⟨l, n, s, hres, hl, rfl⟩
    · rcases h2 with ⟨e2, h2⟩ | ⟨l', n', s', hres', hl', rfl⟩
      · refine alike_of_fs ?_ ?_
        · rw [h2, h1, h0]
        · rw [h2, h1, h0]
      · rw [same_fs h1, same_cwd h1] at hres'
        rw [same_fs h1, lookup_none_of e0 hres'] at hl'
        cases hl'
    · rcases h2 with ⟨e2, h2⟩ | ⟨l', n', s', hres', hl', rfl⟩
      · rw [same_fs h1, same_cwd h1] at e2
        rw [lookup_none_of e2 hres] at hl
        cases hl
      · rw [same_fs h1, same_cwd h1] at hres'
        obtain rfl := resolved_eq hres hres'
        refine alike_of_fs ?_ ?_
        · rw [h1]
        · simp only [same_fs h1]
  · have hd : resolve (removeMost w.fs l k) w.cwd path false = .ok l := by
      refine hdir l _ hres (fun q hq => ?_)
      unfold removeMost
      rw [hq]; rfl
    rcases h0 with ⟨e0, h0⟩ | ⟨l', n', s', hres', hl', rfl⟩
    · rw [lookup_none_of e0 hres] at hl; cases hl
    · obtain rfl := resolved_eq hres hres'
      rcases h2 with ⟨e2, h2⟩ | ⟨l2, n2, s2, hres2, hl2, rfl⟩
      · have := removeMost_none hl (lookup_none_of e2 hd)
        refine alike_of_fs ?_ ?_
        · rw [h2]
        · rw [h2]; exact this.symm
      · obtain rfl := resolved_eq hd hres2
        exact alike_of_fs rfl (removeTree_removeMost _ _ _).symm

end
end Verif.Ops
