/-
The states that the result of an operation reports: lemmas.
-/
import Verif.Ops.ResultSpec
import Verif.Ops.DiffLemmas
import Verif.Ops.UserLemmas
import Verif.Ops.LinkLemmas
import Verif.Ops.SortLemmas
import Verif.Ops.PackageHostLemmas
import Verif.Ops.GitLemmas
import Verif.Ops.ServiceLemmas

namespace Verif.Ops

open Script Remote
open Client (Prog direct lostConnection ShowsUser ShowsGroup typeName)
open Wire (Packet)

section
variable {sys : Sys} {lost : Nat → Option Bool} {env : Env} {st : St} {w : World} {path : Str} {i f : Dict}

/-- If the operation has succeeded, `R` holds of the states that it reports. -/
def Reported (R : Dict → Dict → Prop) (r : OpResult) : Prop := r.success = true → R r.initial r.final

theorem Post.of_keeps_states {α : Type} {m : Op α} (h : Keeps states m) :
    Post sys lost m env st w (fun _ st' _ => states st' = states st) (fun _ => True) := by
  intro k
  have he := h env st (recorded (flaky sys lost) (m env st) (w, k)) (exec (flaky sys lost) m env st (w, k)).1.1 (exec (flaky sys lost) m env st (w, k)).1.2
    (runs_recorded (flaky sys lost) (m env st) (w, k))
  match hm : exec (flaky sys lost) m env st (w, k) with
  | ((.ok a, st'), s) => rw [hm] at he; exact he
  | ((.error e, st'), s) => trivial

theorem keeps_unchanged {β : Type} {g : St → β} (ig : Bool) : Keeps g (unchanged ig) := .of_ret fun env st => by
  unfold unchanged
  split
  · split
    · exact ⟨_, _, rfl, rfl⟩
    · exact ⟨_, _, rfl, rfl⟩
  · exact ⟨_, _, rfl, rfl⟩

theorem reported_success {R : Dict → Dict → Prop} (hs : states st = (some i, some f)) (hR : R i f) :
    Post sys lost success env st w (fun r _ _ => Reported R r) (fun _ => True) := by
  simp only [states, Prod.mk.injEq] at hs
  intro k
  simp only [exec, Script.success, hs.1, hs.2]
  split
  · next h =>
    split at h
    · cases h
    · cases h; exact fun _ => hR
  · trivial

theorem reported_failure {R : Dict → Dict → Prop} {msg : Str} :
    Post sys lost (failure msg) env st w (fun r _ _ => Reported R r) (fun _ => True) :=
  Post.failure fun r h _ hs => by rw [h] at hs; cases hs

theorem post_unlessDry_states {action : Op Unit} (h : Keeps states action) :
    Post sys lost (unlessDry action) env st w (fun _ st' _ => states st' = states st) (fun _ => True) :=
  Post.of_keeps_states (.unlessDry h)

theorem reported_settle {R : Dict → Dict → Prop} {between action : Op Unit} (hs : states st = (some i, some f)) (hb : Keeps states between)
    (ha : Keeps states action) (hR : R i f) : Post sys lost (settle between action) env st w (fun r _ _ => Reported R r) (fun _ => True) := by
  have hs' := hs
  simp only [states, Prod.mk.injEq] at hs'
  unfold Ops.settle
  refine Post.bind (m := unchanged) ?_
  intro k
  simp only [exec, unchanged, hs'.1, hs'.2, Prog.run, Bool.not_false, if_true]
  split
  · exact reported_success hs hR
  · refine Post.bind ((Post.of_keeps_states hb).mono ?_ fun _ _ => trivial)
    intro _ st1 w1 h1
    refine Post.bind ((post_unlessDry_states ha).mono ?_ fun _ _ => trivial)
    intro _ st2 w2 h2
    exact reported_success (h2.trans (h1.trans hs)) hR

theorem reported_operation {R : Dict → Dict → Prop} {check : Bool} {m : Op (Option OpResult)}
    (h : Post sys lost m env { st with op := {} } w (fun r _ _ => ∀ res, r = some res → Reported R res) (fun _ => True)) :
    Post sys lost (operation check m) env st w (fun r _ _ => Reported R r) (fun _ => True) :=
  Post.operation (h.mono (fun _ _ _ h => ⟨trivial, fun res hr _ => h res hr⟩) fun _ h => h)

theorem reported_returned {R : Dict → Dict → Prop} {m : Op OpResult} (h : Post sys lost m env st w (fun r _ _ => Reported R r) (fun _ => True)) :
    Post sys lost (returned m) env st w (fun r _ _ => ∀ res, r = some res → Reported R res) (fun _ => True) :=
  Post.returned (h.mono (fun _ _ _ h => by rintro _ ⟨⟩; exact h) fun _ h => h)

theorem reported_perform {R : Dict → Dict → Prop} {m : Op OpResult} (h : Post sys lost m env st w (fun r _ _ => Reported R r) (fun _ => True))
    {r : OpResult} (hr : (perform sys lost m env st w).1 = .ok r) (hs : r.success = true) : R r.initial r.final :=
  post_ok (Q := fun r _ => Reported R r) h hr hs

/-! ### Settings -/

theorem mode_shown {b c a a' r : Option Str} (ha : a' = a.bind fun m => (Py.parseInt 8 m).map Client.octStr) (hn : a ≠ none → a' ≠ none)
    (hr : r = pick (pick b c) a') (ho : ∃ m i, pick (pick b c) a' = some m ∧ Py.parseInt 8 m = some i) :
    SameMode (pick (pick b c) a) (pick b r) := by
  obtain ⟨m, i, h1, h2⟩ := ho
  have hbr : pick b r = some m := by rw [hr, h1]; rfl
  cases a with
  | none =>
    cases ha
    exact ⟨m, i, m, h1, h2, hbr, fun _ => h2⟩
  | some x =>
    cases hx : Py.parseInt 8 x with
    | none => rw [Option.bind_some, hx] at ha; exact absurd ha (hn (by simp))
    | some j =>
      rw [Option.bind_some, hx] at ha
      subst ha
      cases h1
      refine ⟨x, j, _, rfl, hx, hbr, fun h0 => ?_⟩
      cases j with
      | ofNat n =>
        show Py.parseInt 8 (Py.natStr 8 n) = _
        rw [parseInt_octal (octalText_natStr n), octalValue_natStr]
        rfl
      | negSucc n => omega

theorem ownerShown {a b : Option Str} (h : UserValue w a b) : OwnerShown w a b := by
  cases a with
  | none => exact .inl ⟨rfl, h⟩
  | some u => obtain ⟨e, h1, h2⟩ := h; exact .inr ⟨u, e, rfl, h1, h2⟩

theorem groupShown {a b : Option Str} (h : GroupValue w a b) : GroupShown w a b := by
  cases a with
  | none => exact .inl ⟨rfl, h⟩
  | some u => obtain ⟨e, h1, h2⟩ := h; exact .inr ⟨u, e, rfl, h1, h2⟩

/-- The settings that the operation uses are those in force. -/
structure Meant (w : World) (want attr : Settings) : Prop where
  owner : OwnerShown w want.owner attr.owner
  group : GroupShown w want.group attr.group
  file : SameMode want.fileMode attr.fileMode
  dir : SameMode want.dirMode attr.dirMode

theorem meant {q q' c r : Settings} {rest : List Settings} (hq : canonicalize q = .ok q')
    (hs : st.stack = c :: rest) (hr : Resolved w ((env.base.overlay c).overlay q') r) :
    Meant w (inForce env st q) (env.base.overlay r) := by
  have hc := canonicalize_ok hq
  obtain ⟨n1, n2⟩ := canonicalize_none hq
  have hf : inForce env st q = (env.base.overlay c).overlay q := by simp [inForce, hs]
  have ho : q'.owner = q.owner := by rw [hc]
  have hg : q'.group = q.group := by rw [hc]
  have k1 := mode_shown (by rw [hc]) n1 hr.fileMode hr.fileOct
  have k2 := mode_shown (by rw [hc]) n2 hr.dirMode hr.dirOct
  refine ⟨?_, ?_, ?_, ?_⟩
  · rw [hf]
    have := hr.owner
    simp only [Settings.overlay, ho] at this ⊢
    exact ownerShown (pick_user this pick_none)
  · rw [hf]
    have := hr.group
    simp only [Settings.overlay, hg] at this ⊢
    exact groupShown (pick_group this pick_none)
  · rw [hf]; exact k1
  · rw [hf]; exact k2

theorem reported_withDefaults (hw : w.Sane) {R : Dict → Dict → Prop} {q : Settings} {body : Settings → Op OpResult} 
    (h : ∀ attr stack, Meant w (inForce env st q) attr →
      Post sys lost (body attr) env { st with stack } w (fun r _ _ => Reported R r) (fun _ => True)) :
    Post sys lost (withDefaults q body) env st w (fun r _ _ => Reported R r) (fun _ => True) :=
  Post.withDefaults hw trivial fun _ _ _ _ hq hs hr => h _ _ (meant hq hs hr)

/-! ### Looking at a path -/

theorem showsUser (hw : w.Sane) {n : Node} : ShowsUser w n.uid (ownerName w n.uid) := by
  simp only [ownerName, ShowsUser]
  rw [Client.getpwuid_eq hw (n.uid : Int)]
  simp only
  cases hfu : w.users.find? (·.uid == n.uid) with
  | none => right; simp
  | some e => left; exact ⟨e, rfl, rfl⟩

theorem showsGroup (hw : w.Sane) {n : Node} : ShowsGroup w n.gid (groupName w n.gid) := by
  simp only [groupName, ShowsGroup]
  rw [Client.getgrgid_eq hw (n.gid : Int)]
  simp only
  cases hfu : w.groups.find? (·.gid == n.gid) with
  | none => right; simp
  | some e => left; exact ⟨e, rfl, rfl⟩

theorem nothingAt_of (h : lookup w.fs w.cwd path false = .error ENOENT) : NothingAt w path := by
  intro x hx; rw [h] at hx; cases hx

theorem pathBefore_none (h : lookup w.fs w.cwd path false = .error ENOENT) {type : Str} :
    PathBefore w path type (pathState false none none none false) := .inl ⟨nothingAt_of h, rfl⟩

theorem pathBefore_some (hw : w.Sane) {l : Loc} {n : Node} (h : lookup w.fs w.cwd path false = .ok (l, n)) :
    PathBefore w path (typeName n.kind) (pathState true (some (Py.natStr 8 n.perm)) (some (ownerName w n.uid)) (some (groupName w n.gid)) false) :=
  .inr ⟨l, n, _, _, h, rfl, showsUser hw, showsGroup hw, rfl⟩

/-- What is reported as the final state of `directory` and `file`. -/
def PathFinal (w : World) (present : Bool) (mode owner group : Option Str) (touch : Bool) (d : Dict) : Prop :=
  if present then PathAfter w mode owner group touch d else d = nothingThere

theorem pathFinal {want attr : Settings} (hm : Meant w want attr) {present touch : Bool} {mode shown : Option Str} (h : SameMode mode shown) :
    PathFinal w present mode want.owner want.group touch
      (if present then pathState true shown attr.owner attr.group touch else pathState false none none none false) := by
  cases present with
  | true => exact ⟨_, _, _, h, hm.owner, hm.group, rfl⟩
  | false => rfl

theorem reported_directory (hord : HonestStat sys) (hw : w.Sane) {present touch : Bool} {mode owner group : Option Str} {check : Bool} :
    Post sys lost (directory path present touch mode owner group check) env st w
      (fun r _ _ => Reported (fun i f => PathBefore w path p!"dir" i
        ∧ PathFinal w present (inForce env st { dirMode := mode, owner, group }).dirMode (inForce env st { dirMode := mode, owner, group }).owner
            (inForce env st { dirMode := mode, owner, group }).group touch f) r) (fun _ => True) := by
  refine reported_operation (Post.bind (Post.ofExcept (fun _ _ => ?_) trivial))
  refine reported_returned (reported_withDefaults hw ?_)
  intro attr stack hm
  have hfin := pathFinal hm (present := present) (touch := touch) hm.dir
  unfold directoryBody
  refine Post.bind (Post.finalState rfl rfl ?_)
  refine Post.bind (Post.stat (fun s hs => ?_) trivial)
  cases s with
  | none =>
    refine Post.bind (Post.initialState rfl rfl ?_)
    exact reported_settle rfl (.pure _) (keeps_directoryActions _ _ _) ⟨pathBefore_none (stat_none hord hs), hfin⟩
  | some s =>
    dsimp only
    split
    · exact reported_failure
    · next hk =>
      obtain ⟨l, n, hl, rfl⟩ := stat_some hw hs
      have hk' : typeName n.kind = p!"dir" := by simpa [Client.described] using hk
      refine Post.bind (Post.initialState rfl rfl ?_)
      exact reported_settle rfl (.pure _) (keeps_directoryActions _ _ _) ⟨hk' ▸ pathBefore_some hw hl, hfin⟩

theorem reported_file (hord : HonestStat sys) (hw : w.Sane) {present touch : Bool} {mode owner group : Option Str} {check : Bool} :
    Post sys lost (file path present touch mode owner group check) env st w
      (fun r _ _ => Reported (fun i f => PathBefore w path p!"file" i
        ∧ PathFinal w present (inForce env st { fileMode := mode, owner, group }).fileMode (inForce env st { fileMode := mode, owner, group }).owner
            (inForce env st { fileMode := mode, owner, group }).group touch f) r) (fun _ => True) := by
  refine reported_operation (Post.bind (Post.ofExcept (fun _ _ => ?_) trivial))
  refine reported_returned (reported_withDefaults hw ?_)
  intro attr stack hm
  have hfin := pathFinal hm (present := present) (touch := touch) hm.file
  unfold fileBody
  refine Post.bind (Post.finalState rfl rfl ?_)
  refine Post.bind (Post.stat (fun s hs => ?_) trivial)
  cases s with
  | none =>
    refine Post.bind (Post.initialState rfl rfl ?_)
    exact reported_settle rfl (.pure _) (keeps_fileActions _ _ _) ⟨pathBefore_none (stat_none hord hs), hfin⟩
  | some s =>
    dsimp only
    split
    · exact reported_failure
    · next hk =>
      obtain ⟨l, n, hl, rfl⟩ := stat_some hw hs
      have hk' : typeName n.kind = p!"file" := by simpa [Client.described] using hk
      refine Post.bind (Post.initialState rfl rfl ?_)
      exact reported_settle rfl (.pure _) (keeps_fileActions _ _ _) ⟨hk' ▸ pathBefore_some hw hl, hfin⟩

/-! ### Links -/

theorem shown_target {t x : Str} (h : decodeStrict ((Py.encodeEscape t).getD []) = .ok x) (ht : Text t) : x = t := by
  unfold decodeStrict at h
  obtain ⟨b, hb⟩ : ∃ b, Py.encodeUtf8 t = some b := encodable_text ht
  rw [Py.encodeEscape_of_encode hb, Option.getD_some, Py.decode_encode hb] at h
  cases h
  rfl

theorem reported_link {tools : Tools} (hsys : sys.exec = core tools) (hord : HonestStat sys) (hw : w.Sane) {target : Str} {present touch : Bool} {owner group : Option Str} {check : Bool} :
    Post sys lost (link path target present touch owner group check) env st w
      (fun r _ _ => Reported (fun i f => LinkBefore w path i
        ∧ if present then LinkAfter w target (inForce env st { owner, group }).owner (inForce env st { owner, group }).group touch f else f = noLink) r)
      (fun _ => True) := by
  refine reported_operation (Post.bind (Post.ofExcept (fun _ ha => ?_) trivial))
  split
  · exact Post.raise trivial
  refine reported_returned (reported_withDefaults hw ?_)
  intro attr stack hm
  have hfin : if present then LinkAfter w target (inForce env st { owner, group }).owner (inForce env st { owner, group }).group touch
      (if present then linkState true (some target) attr.owner attr.group touch else linkState false none none none false)
      else (if present then linkState true (some target) attr.owner attr.group touch else linkState false none none none false) = noLink := by
    cases present with
    | true => exact ⟨_, _, hm.owner, hm.group, rfl⟩
    | false => rfl
  unfold linkBody
  refine Post.bind (Post.finalState rfl rfl ?_)
  refine Post.bind (Post.stat (fun s hs => ?_) trivial)
  cases s with
  | none =>
    refine Post.bind (Post.initialState rfl rfl ?_)
    exact reported_settle rfl (.pure _) (keeps_linkActions _ _ _ _) ⟨.inl ⟨nothingAt_of (stat_none hord hs), rfl⟩, hfin⟩
  | some s =>
    dsimp only
    split
    · exact reported_failure
    · next hk =>
      obtain ⟨l, n, hl, rfl⟩ := stat_some hw hs
      obtain ⟨t, hk'⟩ := linkKind (n := n) (by simpa [Client.described] using hk)
      refine Post.bind (Post.readlink hsys (checkAbsolutePath_ok ha) hl hk' (fun _ => trivial) fun r s hr => ?_)
      rw [hr]
      refine Post.bind (Post.ofExcept (fun x hx => ?_) trivial)
      refine Post.bind (Post.initialState rfl rfl ?_)
      refine reported_settle rfl (.pure _) (keeps_linkActions _ _ _ _) ⟨.inr ⟨l, n, t, x, _, _, hl, hk', shown_target hx, showsUser hw, showsGroup hw, rfl⟩, hfin⟩

/-! ### Content -/

theorem reported_saveContent (hord : HonestStat sys) (hw : w.Sane) {content : Content} {mode owner group : Option Str}
    (h1 : st.op.hasNested = false) (h2 : st.op.initial = none) (h3 : st.op.final = none) :
    Post sys lost (saveContent sys.sha512 content path mode owner group) env st w
      (fun r _ _ => Reported (fun i f => ContentBefore sys w path i ∧ ∃ b, content.encode = .ok b ∧
        ContentAfter sys w b (inForce env st { fileMode := mode, owner, group }).fileMode (inForce env st { fileMode := mode, owner, group }).owner
            (inForce env st { fileMode := mode, owner, group }).group f) r) (fun _ => True) := by
  unfold saveContent
  refine Post.bind (Post.ofExcept (fun b hb => ?_) trivial)
  refine reported_withDefaults hw ?_
  intro attr stack hm
  unfold saveBody
  have hfin : ∃ b', content.encode = .ok b' ∧ ContentAfter sys w b' (inForce env st { fileMode := mode, owner, group }).fileMode
      (inForce env st { fileMode := mode, owner, group }).owner (inForce env st { fileMode := mode, owner, group }).group
      (contentState true attr.fileMode attr.owner attr.group (some (sys.sha512 b))) := ⟨b, hb, _, _, _, hm.file, hm.owner, hm.group, rfl⟩
  refine Post.bind (Post.finalState h1 h3 ?_)
  refine Post.bind (Post.stat (fun s hs => ?_) trivial)
  cases s with
  | none =>
    refine Post.bind (Post.initialState h1 h2 ?_)
    refine reported_settle rfl (keeps_saveDiff _ _) (keeps_saveActions _ _ _) ?_
    exact ⟨.inl ⟨nothingAt_of (stat_none hord hs), rfl⟩, hfin⟩
  | some s =>
    dsimp only
    split
    · exact reported_failure
    · next hk =>
      obtain ⟨l, n, hl, rfl⟩ := stat_some hw hs
      obtain ⟨c, hk'⟩ := fileKind (n := n) (by simpa [Client.described] using hk)
      refine Post.bind (Post.initialState h1 h2 ?_)
      refine reported_settle rfl (keeps_saveDiff _ _) (keeps_saveActions _ _ _) ?_
      refine ⟨.inr ⟨l, n, c, _, _, hl, hk', showsUser hw, showsGroup hw, ?_⟩, hfin⟩
      simp [contentState, Client.described, hk', Val.optStr, Val.optBytes]

theorem reported_store (hord : HonestStat sys) (hw : w.Sane) {mode owner group : Option Str} {check : Bool} {op : Op OpResult} {source : Except Exn Bytes}
    (hop : Stores sys.sha512 mode owner group check op path source) :
    Post sys lost op env st w
      (fun r _ _ => Reported (fun i f => ContentBefore sys w path i ∧ ∃ b, source = .ok b ∧
        ContentAfter sys w b (inForce env st { fileMode := mode, owner, group }).fileMode (inForce env st { fileMode := mode, owner, group }).owner
            (inForce env st { fileMode := mode, owner, group }).group f) r) (fun _ => True) := by
  have key : ∀ {content : Content} {path : Str}, Post sys lost (returned (saveContent sys.sha512 content path mode owner group)) env { st with op := {} } w
      (fun r _ _ => ∀ res, r = some res → Reported (fun i f => ContentBefore sys w path i ∧ ∃ b, content.encode = .ok b ∧
        ContentAfter sys w b (inForce env st { fileMode := mode, owner, group }).fileMode (inForce env st { fileMode := mode, owner, group }).owner
            (inForce env st { fileMode := mode, owner, group }).group f) res) (fun _ => True) := by
    intro content path
    exact reported_returned (reported_saveContent hord hw rfl rfl rfl)
  cases hop with
  | content content dest =>
    exact reported_operation (Post.bind (Post.ofExcept (fun _ ha => key) trivial))
  | file src _ dest =>
    refine reported_operation (Post.bind (Post.ofExcept (fun _ ha => ?_) trivial))
    refine Post.bind (Post.ofExcept (fun bytes hb => ?_) trivial)
    rw [hb]
    exact key
  | templateContent templ dest vars context host =>
    refine reported_operation (Post.bind (Post.ofExcept (fun _ ha => ?_) trivial))
    refine Post.bind (Post.ofExcept (fun bytes hb => ?_) trivial)
    rw [hb]
    exact key
  | template src templ dest vars context host =>
    refine reported_operation (Post.bind (Post.ofExcept (fun _ ha => ?_) trivial))
    refine Post.bind (Post.ofExcept ?_ trivial)
    rintro _ ⟨⟩
    refine Post.bind (Post.ofExcept (fun bytes hb => ?_) trivial)
    rw [hb]
    exact key

/-! ### Lines -/

theorem reported_lineSettle {line : Str} {present : Bool} {regex : Option Regex} {ws : Bool} {backup : Backup} {attr : Settings} {orig : Option Bytes}
    (h1 : st.op.hasNested = false) (h2 : st.op.initial = none) (h3 : st.op.final = some f) :
    Post sys lost (lineSettle path line present regex ws backup attr orig) env st w
      (fun r _ _ => Reported (fun i' f' => i' = [(p!"line_present", .bool (orig.any fun b => linePresent line regex ws (Py.decodeEscape b)))] ∧ f' = f) r)
      (fun _ => True) := by
  unfold lineSettle
  refine Post.bind (Post.initialState h1 h2 ?_)
  generalize ([(p!"line_present", .bool (orig.any fun b => linePresent line regex ws (Py.decodeEscape b)))] : Dict) = i
  refine Post.bind (m := unchanged) ?_
  intro k
  simp only [exec, unchanged, h3, Prog.run, Bool.not_false, if_true]
  split
  · exact reported_success rfl ⟨rfl, rfl⟩
  · refine Post.bind (Post.ofExcept (fun new _ => ?_) trivial)
    refine Post.bind ((Post.of_keeps_states (keeps_lineDiff _ _ _)).mono ?_ fun _ _ => trivial)
    intro _ st1 w1 k1
    refine Post.bind ((post_unlessDry_states (keeps_lineActions _ _ _ _ _)).mono ?_ fun _ _ => trivial)
    intro _ st2 w2 k2
    exact reported_success (k2.trans (k1.trans rfl)) ⟨rfl, rfl⟩

theorem fileAt_unique {a b : Bytes} (ha : FileAt w path a) (hb : FileAt w path b) : a = b := by
  obtain ⟨l, n, h1, h2⟩ := ha
  obtain ⟨l', n', h1', h2'⟩ := hb
  rw [h1] at h1'
  cases h1'
  rw [h2] at h2'
  cases h2'
  rfl

theorem lineThere_iff {line : Str} {regex : Option Regex} {ws : Bool} {b : Bytes} (hfile : FileAt w path b) :
    linePresent line regex ws (Py.decodeEscape b) = true ↔ LineThere w path line regex ws := by
  cases regex with
  | none =>
    rw [linePresent_iff]
    refine ⟨fun h => ⟨b, hfile, h⟩, ?_⟩
    rintro ⟨c, hc, h⟩
    rw [fileAt_unique hfile hc]
    exact h
  | some r =>
    refine ⟨fun h => ⟨b, hfile, h⟩, ?_⟩
    rintro ⟨c, hc, h⟩
    rw [fileAt_unique hfile hc]
    exact h

theorem reported_line (hord : HonestStat sys) (hw : w.Sane) {line : Str} {present : Bool} {regex : Option Regex} {ws : Bool} {backup : Backup} {check : Bool} :
    Post sys lost (Ops.line path line present regex ws backup check) env st w
      (fun r _ _ => Reported (fun i f => (∃ b : Bool, (b = true ↔ LineThere w path line regex ws) ∧ i = [(p!"line_present", .bool b)])
        ∧ f = [(p!"line_present", .bool present)]) r) (fun _ => True) := by
  refine reported_operation (Post.bind (Post.ofExcept (fun _ _ => ?_) trivial))
  refine reported_returned (reported_withDefaults hw ?_)
  intro attr stack hm
  unfold lineBody
  refine Post.bind (Post.finalState rfl rfl ?_)
  refine Post.bind (Post.stat (fun s hs => ?_) trivial)
  cases s with
  | none =>
    refine (reported_lineSettle rfl rfl rfl).mono ?_ fun _ h => h
    rintro r _ _ hr hsucc
    obtain ⟨h1, h2⟩ := hr hsucc
    refine ⟨⟨_, ?_, h1⟩, h2⟩
    simp only [Option.any_none, Bool.false_eq_true, false_iff]
    rintro ⟨c, ⟨l, n, hl, _⟩, _⟩
    exact nothingAt_of (stat_none hord hs) _ hl
  | some s =>
    dsimp only
    split
    · exact reported_failure
    · next hk =>
      obtain ⟨l, n, hl, rfl⟩ := stat_some hw hs
      obtain ⟨c, hk'⟩ := fileKind (n := n) (by simpa [Client.described] using hk)
      refine Post.bind (Post.download (fun b hd => ?_) trivial)
      have hold := download_exact (lookup_follow (fun t ht => by rw [hk'] at ht; cases ht) hl) hk' hd
      subst hold
      refine (reported_lineSettle rfl rfl rfl).mono ?_ fun _ h => h
      rintro r _ _ hr hsucc
      obtain ⟨h1, h2⟩ := hr hsucc
      refine ⟨⟨_, ?_, h1⟩, h2⟩
      have hfile : FileAt w path b := ⟨l, n, hl, hk'⟩
      simp only [Option.any_some]
      exact lineThere_iff hfile

/-! ### Accounts -/

theorem strLe_iff : ∀ {a b : Str}, strLe a b = true ↔ ¬ b < a
  | [], b => by simp [strLe]
  | a :: as, [] => by simp [strLe]
  | a :: as, b :: bs => by
    unfold strLe
    rw [List.cons_lt_cons_iff]
    split
    · next h => subst h; rw [strLe_iff]; simp
    · next h =>
      simp only [decide_eq_true_eq]
      constructor
      · rintro h1 (h2 | ⟨h2, _⟩)
        · omega
        · exact h h2.symm
      · intro h1
        have : ¬ b < a := fun h2 => h1 (.inl h2)
        omega

theorem inOrder_sorted (l : List Str) : InOrder (sorted l) := (sorted_sorted l).imp fun h => strLe_iff.mp h


theorem userBefore (name : Str) : UserBefore w name (currentUser (accountOf w name)) := by
  cases h : accountOf w name with
  | none => exact .inl ⟨h, rfl⟩
  | some u => exact .inr ⟨u, sorted u.groups, h, sorted_perm _, inOrder_sorted _, rfl⟩

theorem orStr_truthy {a b : Option Str} (h : a ≠ some []) : orStr a b = orElse a b := by
  cases a with
  | none => rfl
  | some s => cases s with
    | nil => exact absurd rfl h
    | cons c s => rfl

theorem orInt_truthy {a b : Option Int} (h : a ≠ some 0) : orInt a b = orElse a b := by
  cases a with
  | none => rfl
  | some i =>
    show (if i = 0 then b else some i) = some i
    rw [if_neg (by simpa using h)]

theorem orStr_should {a b : Option Str} {d : Str} (h : a ≠ some []) : (orStr a (some (b.getD d))).getD [] = ShouldBe a b d := by
  rw [orStr_truthy h]
  cases a <;> rfl

theorem userAfter {a : UserArgs} (hp : a.present = true) (ha : NoFalsyArgs a) : UserAfter w a (wantedUser a (userTarget a (accountOf w a.user))) := by
  obtain ⟨h1, h2, h3, h4, h5, h6, h7⟩ := ha
  refine ⟨(userTarget a (accountOf w a.user)).groups, inOrder_sorted _, ?_, ?_⟩
  · intro x
    have hgd : ∀ x, x ∈ ((accountOf w a.user).map (·.groups)).getD [] ↔ ∃ u, accountOf w a.user = some u ∧ x ∈ u.groups := by
      intro x
      cases accountOf w a.user with
      | none => simp
      | some u => simp
    simp only [userTarget, mem_sorted]
    cases hg : a.groups with
    | none =>
      cases a.appendGroups with
      | true => simp only [if_true, mem_distinct, orList, List.nil_append, hgd]
      | false => simp only [Bool.false_eq_true, if_false, orList, hgd]
    | some l =>
      have : ∀ b, orList (some l) b = l := by
        intro b
        cases l with
        | nil => exact absurd hg h3
        | cons x l => rfl
      cases a.appendGroups with
      | true => simp only [if_true, mem_distinct, this, List.mem_append, hgd, true_and]
      | false => simp only [Bool.false_eq_true, if_false, this, false_and, or_false]
  · unfold wantedUser
    rw [if_pos hp]
    simp only [userState, userTarget, orStr_truthy h2, orInt_truthy h1, orStr_truthy h4, orStr_truthy h7, orStr_should h5, orStr_should h6]
    rfl

theorem reported_user {a : UserArgs} (hname : Py.parseInt 10 a.user = none) {check : Bool} :
    Post sys lost (user a check) env st w
      (fun r _ _ => Reported (fun i f => i = currentUser (accountOf w a.user) ∧ f = wantedUser a (userTarget a (accountOf w a.user))) r) (fun _ => True) := by
  refine reported_operation (Post.bind (Post.queryUser hname ?_ trivial))
  refine Post.bind (Post.initialState rfl rfl ?_)
  refine Post.bind (Post.finalState rfl rfl ?_)
  exact reported_returned (reported_settle rfl (.pure _) (keeps_userActions _ _) ⟨rfl, rfl⟩)

theorem reported_group {name : Str} (hname : Py.parseInt 10 name = none) {present : Bool} {gid : Option Int} {system check : Bool} :
    Post sys lost (group name present gid system check) env st w
      (fun r _ _ => Reported (fun i f => i = groupState (groupNamed w name).isSome ((groupNamed w name).map (fun e => (e.gid : Int)))
        ∧ f = if present then groupState true (orInt gid ((groupNamed w name).map (fun e => (e.gid : Int)))) else groupState false none) r) (fun _ => True) := by
  refine reported_operation (Post.bind (Post.queryGroup hname ?_ trivial))
  have h1 : ((groupNamed w name).map fun e => ({ name := e.name, gid := e.gid, members := e.members } : Client.GroupEntry)).isSome = (groupNamed w name).isSome := by
    cases groupNamed w name <;> rfl
  have h2 : ((groupNamed w name).map fun e => ({ name := e.name, gid := e.gid, members := e.members } : Client.GroupEntry)).map (·.gid)
      = (groupNamed w name).map (fun e => (e.gid : Int)) := by
    cases groupNamed w name <;> rfl
  rw [h1, h2]
  refine Post.bind (Post.initialState rfl rfl ?_)
  refine Post.bind (Post.finalState rfl rfl ?_)
  exact reported_returned (reported_settle rfl (.pure _) (keeps_groupActions _ _ _ _) ⟨rfl, rfl⟩)

/-! ### Packages, services and repositories -/

theorem reported_package {order : List Str → List Str} {m : Manager} {query install remove : Str → List Str} {yes : Option Bytes → Int → Prop}
    (hb : Backend m query install remove yes) (H : PackageHost sys query install remove yes) {packages : List Str} {present check : Bool} :
    Post sys lost (packageWith order m packages present check) env st w
      (fun r _ _ => Reported (fun i f => (∃ l, InOrder l ∧ l.Nodup ∧ (∀ p, p ∈ l ↔ p ∈ packages ∧ p ∈ w.packages) ∧ i = [(p!"installed", .list l)])
        ∧ if present then ∃ l, InOrder l ∧ l.Perm packages ∧ f = [(p!"installed", .list l)] else f = [(p!"installed", .list [])]) r) (fun _ => True) := by
  obtain ⟨Y⟩ := hb.queries
  refine reported_operation (reported_returned ?_)
  unfold genericPackage
  refine Post.bind ((queryInstalled_post Y H packages w).mono ?_ fun _ _ => trivial)
  rintro l _ w1 ⟨rfl, _, hl⟩
  refine Post.bind (Post.initialState rfl rfl ?_)
  refine Post.bind (Post.finalState rfl rfl ?_)
  refine reported_settle rfl (.pure _) ?_ ?_
  · exact keeps_ite (keeps_forEach (fun p => by cases hb <;> exact .runCommand _) _) (keeps_forEach (fun p => by cases hb <;> exact .runCommand _) _)
  · refine ⟨⟨_, inOrder_sorted _, (sorted_perm _).nodup_iff.mpr (distinct_nodup _), fun p => ?_, rfl⟩, ?_⟩
    · rw [mem_sorted, mem_distinct, hl]
    · cases present with
      | true => exact ⟨_, inOrder_sorted _, sorted_perm _, rfl⟩
      | false => rfl

theorem reported_service {U : UnitStates} {unit : Str} (T : Systemd sys U unit) {state : Option Str} {enabled : Option Bool} {userMode check : Bool} :
    Post sys lost (systemdService unit state enabled userMode check) env st w
      (fun r _ _ => Reported (fun i f => i = serviceState (some (seenState (U.active false w unit))) (some (decide (U.file false w unit = .enabled)))
        ∧ f = serviceState state enabled) r) (fun _ => True) := by
  by_cases hst : state.any (fun s => (stateAction s).isNone) = true
  · unfold systemdService
    rw [if_pos hst]
    exact reported_operation (Post.raise trivial)
  · rw [systemdService_eq _ _ _ _ _ (by simpa using hst)]
    refine reported_operation (look_post T (fun _ _ => trivial) fun w' hw' a b ha hb => ?_)
    rw [ha, hb]
    generalize hi : serviceState (some (seenState (U.active false w unit))) (some (decide (U.file false w unit = .enabled))) = i
    unfold serviceRest
    rw [hi]
    refine Post.bind (Post.initialState rfl rfl ?_)
    refine Post.bind (Post.finalState rfl rfl ?_)
    have hu : ∀ (st : St) (w : World), Post sys lost (unchanged (ignoreNone := true)) env st w (fun _ st' _ => st' = st) (fun _ => True) :=
      fun st w => Post.of_keeps (keeps_unchanged _)
    refine Post.bind ((hu _ _).mono ?_ fun _ h => h)
    rintro u _ w1 rfl
    refine reported_returned ?_
    split
    · exact reported_success rfl ⟨rfl, rfl⟩
    · refine Post.bind ((post_unlessDry_states (keeps_serviceActions _ _ _ _)).mono ?_ fun _ _ => trivial)
      intro _ st2 w2 k2
      exact reported_success (k2.trans rfl) ⟨rfl, rfl⟩

theorem reported_reload {userMode check : Bool} :
    Post sys lost (daemonReload userMode check) env st w
      (fun r _ _ => Reported (fun i f => i = [(p!"reloaded", .bool false)] ∧ f = [(p!"reloaded", .bool true)]) r) (fun _ => True) := by
  refine reported_operation ?_
  refine Post.bind (Post.initialState rfl rfl ?_)
  refine Post.bind (Post.finalState rfl rfl ?_)
  refine Post.bind ((post_unlessDry_states (.runCommand _)).mono ?_ fun _ _ => trivial)
  intro _ st2 w2 k2
  exact reported_returned (reported_success (k2.trans rfl) ⟨rfl, rfl⟩)

theorem reported_repoSettle {G : Repositories} {a : RepoArgs} (T : GitHost sys G a.path a.url) {c : Option Clone} (hi : st.op.initial = some (repoBefore c))
    (hf : st.op.final = none) (hn : st.op.hasNested = false) :
    Post sys lost (repoSettle a c.isSome (c.map (·.commit))) env st w
      (fun r _ _ => Reported (fun i f => i = repoBefore c ∧
        ((∃ x, c = some x ∧ a.update = false ∧ f = [(p!"initialized", .bool true), (p!"commit", .str x.commit)])
          ∨ (c = none ∨ a.update = true) ∧ ∃ u, G.upstream a.url (refOf a) = some u ∧ f = [(p!"initialized", .bool true), (p!"commit", .str u.object)])) r)
      (fun _ => True) := by
  have href : (orStr a.branchOrTag (some p!"HEAD")).getD [] = (refOf a) := by
    unfold refOf requested
    cases h : a.branchOrTag with
    | none => rfl
    | some s => cases s <;> rfl
  unfold repoSettle
  split
  · next hup =>
    simp only [Bool.and_eq_true, Bool.not_eq_true', Option.isSome_iff_exists] at hup
    obtain ⟨⟨x, rfl⟩, hup⟩ := hup
    refine Post.bind (Post.finalState hn hf ?_)
    exact reported_success (i := repoBefore (some x)) (by rw [states, hi]; rfl) ⟨rfl, .inl ⟨x, rfl, hup, rfl⟩⟩
  · next hup =>
    have hup : c = none ∨ a.update = true := by
      cases c with
      | none => exact .inl rfl
      | some x => simpa using hup
    refine Post.bind (Post.run (fun p out err code w1 hp hx => ?_) trivial)
    rw [href] at hp
    obtain ⟨rfl, hls⟩ := T.lsRemote _ p _ out err code w1 hp hx
    refine ⟨trivial, fun hcode => ?_⟩
    obtain ⟨u, rest, hu, rfl⟩ := hls (hcode rfl)
    refine Post.bind (Post.ofExcept (fun newest hnew => ?_) trivial)
    rw [firstWord_word (T.objects _ _ hu)] at hnew
    replace hnew := (Except.ok.inj hnew).symm
    subst hnew
    refine Post.bind (Post.finalState hn hf ?_)
    have hR : repoBefore c = repoBefore c ∧
        ((∃ x, c = some x ∧ a.update = false ∧ [(p!"initialized", Val.bool true), (p!"commit", .str u.object)] = [(p!"initialized", .bool true), (p!"commit", .str x.commit)])
          ∨ (c = none ∨ a.update = true) ∧ ∃ v, G.upstream a.url (refOf a) = some v ∧ [(p!"initialized", Val.bool true), (p!"commit", .str u.object)] = [(p!"initialized", .bool true), (p!"commit", .str v.object)]) :=
      ⟨rfl, .inr ⟨hup, u, hu, rfl⟩⟩
    have hst : states { st with op := { st.op with final := some [(p!"initialized", .bool true), (p!"commit", .str u.object)] } }
        = (some (repoBefore c), some [(p!"initialized", .bool true), (p!"commit", .str u.object)]) := by rw [states, hi]
    refine Post.bind ((Post.of_keeps (m := unchanged) (keeps_unchanged _)).mono ?_ fun _ h => h)
    rintro un _ w2 rfl
    split
    · exact reported_success hst hR
    refine Post.bind (Post.dry ?_)
    split
    · exact reported_success hst hR
    split
    · refine Post.bind ((Post.of_keeps (.runCommand _)).mono ?_ fun _ h => h)
      rintro _ _ w3 rfl
      refine Post.bind ((Post.of_keeps (keeps_submodules _)).mono ?_ fun _ h => h)
      rintro _ _ w4 rfl
      exact reported_success hst hR
    · refine Post.bind ((Post.of_keeps (.run _ _ _ _ _ _ _ _)).mono ?_ fun _ h => h)
      rintro ret _ w3 rfl
      split
      · exact reported_failure
      · refine Post.bind ((Post.of_keeps (.runCommand _)).mono ?_ fun _ h => h)
        rintro _ _ w4 rfl
        refine Post.bind ((Post.of_keeps (keeps_submodules _)).mono ?_ fun _ h => h)
        rintro _ _ w5 rfl
        exact reported_success hst hR

theorem reported_repo {G : Repositories} {a : RepoArgs} (T : GitHost sys G a.path a.url) (hh : HonestStat sys) {check : Bool} :
    Post sys lost (repo a check) env st w
      (fun r _ _ => Reported (fun i f => i = repoBefore (G.clone w a.path) ∧
        ((∃ x, G.clone w a.path = some x ∧ a.update = false ∧ f = [(p!"initialized", .bool true), (p!"commit", .str x.commit)])
          ∨ (G.clone w a.path = none ∨ a.update = true) ∧ ∃ u, G.upstream a.url (refOf a) = some u ∧ f = [(p!"initialized", .bool true), (p!"commit", .str u.object)])) r)
      (fun _ => True) := by
  unfold repo
  refine reported_operation ?_
  refine Post.bind (Post.ofExcept (fun _ _ => ?_) trivial)
  refine Post.bind (Post.stat (fun s hs => ?_) trivial)
  cases s with
  | none =>
    have hnone := stat_none hh hs
    have hcl : G.clone w a.path = none := by
      cases hc : G.clone w a.path with
      | none => rfl
      | some c =>
        obtain ⟨⟨l, n, h, _⟩, _⟩ := T.directory w c hc
        rw [hnone] at h; cases h
    refine Post.bind (Post.initialState rfl rfl ?_)
    refine reported_returned ?_
    rw [hcl]
    exact reported_repoSettle (c := none) (st := { st with op := { initial := some (repoBefore none) } }) T rfl rfl rfl
  | some s =>
    dsimp only
    split
    · refine Post.bind (Post.stat (fun g hg => ?_) trivial)
      cases g with
      | none => exact reported_returned reported_failure
      | some g =>
        dsimp only
        split
        · exact reported_returned reported_failure
        · refine Post.bind (Post.run (fun p out err code w1 hp hx => ?_) trivial)
          obtain ⟨rfl, hrev⟩ := T.revParse p _ out err code w1 hp hx
          refine ⟨trivial, fun hcode => ?_⟩
          obtain ⟨c, hc, rfl⟩ := hrev (hcode rfl)
          rw [T.history] at hc
          dsimp only
          rw [outputText_word (T.words _ _ hc).1]
          refine Post.bind (Post.initialState rfl rfl ?_)
          refine reported_returned ?_
          rw [hc]
          exact reported_repoSettle (c := some c) (st := { st with op := { initial := some (repoBefore (some c)) } }) T rfl rfl rfl
    · exact reported_returned reported_failure

end
end Verif.Ops
