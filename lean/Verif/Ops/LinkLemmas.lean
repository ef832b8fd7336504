/-
What `link` does to a host.
-/
import Verif.Ops.FileLemmas

namespace Verif.Ops

open Script Remote
open Client (Prog direct lostConnection typeName)
open Wire (Packet)

/-- A symbolic link with the given target, or the one that was there before. -/
structure LinkNode (target : Str) (w : World) (l : Loc) (n : Node) : Prop where
  kind : ∃ t, n.kind = .link t ∧ (Py.encodeEscape t = Py.encodeEscape target ∨ w.fs l = some n)
  sane : Modest target.length → n.Sane

/-- Whatever happened, what is left: `ln -sf` may remove the old link and then fail. -/
def LinkLeft (path target : Str) (w : World) (l : Loc) (w' : World) : Prop :=
  ∃ o, Now path l w o w' ∧ ∀ n, o = some n → LinkNode target w l n

/-- An existing link differs from what is wanted only in its target. -/
def OnlyTarget (target : Str) (attr : Settings) (w : World) (l : Loc) : Prop :=
  ∃ m t, w.fs l = some m ∧ Owned w attr m ∧ m.kind = .link t ∧ Py.encodeEscape t ≠ Py.encodeEscape target

/-- The link is as it should be. -/
def LinkDone (path target : Str) (attr : Settings) (w : World) (l : Loc) (w' : World) : Prop :=
  ∃ n t, Now path l w (some n) w' ∧ LinkNode target w l n ∧ n.kind = .link t ∧ Py.encodeEscape t = Py.encodeEscape target
    ∧ (¬ OnlyTarget target attr w l → Owned w attr n)

theorem LinkDone.left {path target : Str} {attr : Settings} {w : World} {l : Loc} {w' : World} (h : LinkDone path target attr w l w') :
    LinkLeft path target w l w' := by
  obtain ⟨n, _, h1, h2, _⟩ := h
  exact ⟨some n, h1, fun m hm => (by cases hm; exact h2)⟩

theorem linkKind {n : Node} (h : typeName n.kind = p!"link") : ∃ t, n.kind = .link t := by
  cases hk : n.kind <;> rw [hk] at h <;> first | exact ⟨_, rfl⟩ | (exact absurd h (by simp [typeName]))

theorem newLink_sane {w : World} (hw : w.Sane) {p : Proc} (hp : ProcOk p) (l : Loc) {target : Str} (ht : Modest target.length) : (newLink p w l target).Sane :=
  ⟨(by decide : (0o777 : Nat) < 4096), hp.uid, inheritGid_ok hw hp.gid l, hw.clock, hw.clock, fun c h => (by cases h), fun c h => (by cases h; exact ht)⟩

section
variable {sys : Sys} {lost : Nat → Option Bool} {env : Env} {st : St} {w : World}
variable {tools : Tools} {path target : Str} {l : Loc} {w0 : World} {n : Node} {o : Option Node}

theorem now_replace (hdir : Direct w0 path) (hr : resolve w0.fs w0.cwd path false = .ok l) (ha : isAbs path = true)
    (hn : Now path l w0 o w) (b : Option Node) : Now path l w0 b (w.set l b) := by
  refine ⟨hn.set_eq b, fun c => ?_⟩
  have : (w.set l b).fs = setNode w0.fs l b := by
    show setNode w.fs l b = _
    rw [hn.fs]; funext q; unfold setNode; split <;> rfl
  rw [this, resolve_abs ha c w0.cwd]
  refine hdir l _ hr fun q hq => setNode_ne _ _ ?_
  rintro rfl
  have : under q q = true := List.isPrefixOf_iff_prefix.mpr (List.prefix_refl _)
  rw [this] at hq; cases hq

theorem linkPlace_eq (hnd : NotToDirectory w0 path) (ha : isAbs path = true)
    (hn : Now path l w0 o w) (hsame : w.fs = w0.fs) (p : Proc) : linkPlace w p target path = .ok l := by
  unfold linkPlace
  have h1 : resolve w.fs p.cwd path false = .ok l := hn.res p.cwd
  have h2 : lookup w.fs p.cwd path true = lookup w0.fs w0.cwd path true := by
    unfold lookup
    rw [hsame, resolve_abs ha p.cwd w0.cwd]
  cases hl : lookup w.fs p.cwd path true with
  | error e => exact h1
  | ok x =>
    obtain ⟨l', n'⟩ := x
    rw [h2] at hl
    simp only [if_neg (hnd l' n' hl)]
    exact h1

theorem ln_outcome (hdir : Direct w0 path) (hr : resolve w0.fs w0.cwd path false = .ok l) (ha : isAbs path = true)
    (hnd : NotToDirectory w0 path) (hn : Now path l w0 o w) (hsame : w.fs = w0.fs) (p : Proc) :
    Outcome (fun w' => Now path l w0 (some (newLink p w l target)) w') (fun w' => Now path l w0 o w' ∨ Now path l w0 none w')
      (runLn tools p w target path) := by
  unfold runLn
  rw [linkPlace_eq hnd ha hn hsame p]
  simp only
  split
  · exact .broken (.inl hn)
  · rw [hn.at]
    cases o with
    | none =>
      simp only
      split
      · exact .broken (.inl hn)
      · exact .fine (now_replace hdir hr ha hn _)
    | some n =>
      simp only
      split
      · exact .broken (.inl hn)
      · split
        · exact .broken (.inl hn)
        · split
          · exact .broken (.inr (now_replace hdir hr ha hn _))
          · exact .fine (now_replace hdir hr ha hn _)

theorem ln_unresolved {e : Int} (hr : resolve w.fs w.cwd path false = .error e) (ha : isAbs path = true) (p : Proc) :
    Outcome (fun _ => False) (fun w' => w' = w) (runLn tools p w target path) := by
  unfold runLn linkPlace
  have h1 : resolve w.fs p.cwd path false = .error e := (resolve_abs ha p.cwd w.cwd false).trans hr
  have h2 : lookup w.fs p.cwd path true = .error e := by
    unfold lookup
    rw [resolve_error_follow h1]
  rw [h2]
  simp only [h1]
  exact .broken rfl

theorem ln_step (hw0 : w0.Sane) (hdir : Direct w0 path) (hr : resolve w0.fs w0.cwd path false = .ok l) (ha : isAbs path = true)
    (hnd : NotToDirectory w0 path) (hsys : sys.exec = core tools) (hn : Now path l w0 o w) (ho : ∀ n, o = some n → n.Sane) (hsame : w.fs = w0.fs)
    {Q : Unit → St → World → Prop} {E : World → Prop} (hE : ∀ w', Now path l w0 o w' → E w') (hE' : ∀ w', Now path l w0 none w' → E w')
    (hok : ∀ w' p, ProcOk p → Now path l w0 (some (newLink p w0 l target)) w' → Q () st w' ∧ E w') :
    Post sys lost (runCommand [p!"ln", p!"-sf", p!"--", target, path]) env st w Q E := by
  refine Post.runCommand (hn.sane hw0 ho) hsys (t := .ln target path) rfl
    (okP := fun w' => ∃ p, ProcOk p ∧ Now path l w0 (some (newLink p w0 l target)) w') (errP := E) ?_ ?_ (fun _ h => h) (hE _ hn)
  · intro p _ hpo
    have h := ln_outcome (tools := tools) (target := target) hdir hr ha hnd (hn.started (p :: w.started)) hsame p
    show Outcome _ _ (runLn _ _ _ _ _)
    refine h.mono (fun w' h1 => ?_) (fun w' h2 => ?_)
    · refine ⟨p, hpo, ?_⟩
      have : newLink p { w with started := p :: w.started } l target = newLink p w0 l target := by
        unfold newLink
        simp only [hsame]
        rw [show (World.clock { w with started := p :: w.started }) = w0.clock from hn.clock]
      rwa [this] at h1
    · rcases h2 with h | h
      · exact hE _ h
      · exact hE' _ h
  · rintro w' ⟨p, hp, h⟩
    exact hok w' p hp h

theorem ln_unresolved_step (hw : w.Sane) {e : Int} (hr : resolve w.fs w.cwd path false = .error e) (ha : isAbs path = true) (hsys : sys.exec = core tools)
    {Q : Unit → St → World → Prop} {E : World → Prop} (hE : ∀ s, E { w with started := s }) :
    Post sys lost (runCommand [p!"ln", p!"-sf", p!"--", target, path]) env st w Q E := by
  refine Post.runCommand hw hsys (t := .ln target path) rfl (okP := fun _ => False) (errP := E) ?_ (fun _ h => h.elim) (fun _ h => h) (hE w.started)
  intro p _ _
  have h := ln_unresolved (tools := tools) (target := target) (w := { w with started := p :: w.started }) hr ha p
  show Outcome _ _ (runLn _ _ _ _ _)
  refine h.mono (fun w' h1 => h1) (fun w' h2 => ?_)
  rw [h2]; exact hE _

/-- `readlink -n`. -/
theorem Post.readlink (hsys : sys.exec = core tools) (ha : isAbs path = true) {t : Str}
    (hl : lookup w.fs w.cwd path false = .ok (l, n)) (hk : n.kind = .link t) {Q : Client.Completed → St → World → Prop} {E : World → Prop}
    (hE : ∀ s, E { w with started := s })
    (hok : ∀ r s, r.stdout = some ((Py.encodeEscape t).getD []) → Q r st { w with started := s }) :
    Post sys lost (Connection.run [p!"readlink", p!"-n", path]) env st w Q E := by
  have hE0 : E w := hE w.started
  unfold Connection.run
  refine Post.bind (Post.currentDefaults ?_ hE0)
  intro c rest _
  have hopt : isOption path = false := by
    cases path with
    | nil => cases ha
    | cons x r =>
      have hx : x = 47 := by simpa [isAbs] using ha
      subst hx
      rfl
  have hparse : parseTool [p!"readlink", p!"-n", path] = some (.readlink path) := by
    simp only [parseTool, hopt]; rfl
  have key : ∀ r w', (Client.Connector.run [p!"readlink", p!"-n", path] none true true (pick c.asUser none) (pick c.asGroup none) (pick c.umask none)
      (pick c.cwd none)).run (direct sys) w = (r, w') → (∀ a, r = .ok a → Q a st w') ∧ E w' := by
    intro r w' h
    rw [Client.run_eq] at h
    split at h
    · next r' hp =>
      cases h
      refine ⟨?_, hE0⟩
      intro a ha
      exfalso
      rcases Client.plan_error hp with ⟨f, m, rfl⟩ | ⟨m, rfl⟩ | ⟨e, rfl⟩
      · simp only [Client.refused, Client.unpackResponse] at ha
        cases hga : Packet.getattr _ f <;> rw [hga] at ha <;> cases ha
      · cases ha
      · cases e with
        | osError n s m => cases n <;> cases ha
        | _ => cases ha
    · next proc hp =>
      obtain ⟨h1, _, _⟩ := plan_argv hp
      rw [hsys] at h
      unfold core at h
      cases hm : tools.missing proc { w with started := proc :: w.started } with
      | some e =>
        rw [hm] at h
        cases h
        exact ⟨fun a ha => (by cases ha), hE0⟩
      | none =>
        rw [hm, h1, hparse] at h
        simp only [runTool, runReadlink] at h
        have hl' : lookup w.fs proc.cwd path false = .ok (l, n) := by
          have : lookup w.fs proc.cwd path false = lookup w.fs w.cwd path false := by
            unfold lookup
            rw [resolve_abs ha proc.cwd w.cwd]
          rw [this, hl]
        simp only [hl', hk] at h
        cases hf : tools.fault proc { w with started := proc :: w.started } 0 with
        | some m =>
          simp only [hf, broken] at h
          cases h
          exact ⟨fun a ha => (by cases ha), hE _⟩
        | none =>
          simp only [hf] at h
          cases h
          refine ⟨fun a ha => ?_, hE _⟩
          cases ha
          exact hok _ _ rfl
  refine Post.call (single_run _ _ _ _ _ _ _ _) ?_ ?_ hE0
  · intro a w' h
    obtain ⟨h1, h2⟩ := key _ _ h
    exact ⟨h1 a rfl, h2⟩
  · intro e w' h
    exact (key _ _ h).2

/-- Setting the owner of a link, unless the owner it had before is the right one. -/
theorem relink_step (hp : PlainAccounts w0) (hw0 : w0.Sane) (hns : n.Sane) (hsys : sys.exec = core tools) (hn : Now path l w0 (some n) w)
    {Q : Unit → St → World → Prop} {E : World → Prop} {want attr : Settings}
    (ho : UserValue w0 want.owner attr.owner) (hg : GroupValue w0 want.group attr.group) {a f : Dict} (hs : States st a f) {od gd : Option Str}
    (hi1 : a.get p!"owner" = some (.optStr od)) (hf1 : f.get p!"owner" = some (.optStr attr.owner))
    (hi2 : a.get p!"group" = some (.optStr gd)) (hf2 : f.get p!"group" = some (.optStr attr.group))
    (hE : ∀ s, E { w with started := s })
    (hok : ∀ w' n', Chowned w0 n n' → (Owned w0 attr n' ∨ od = attr.owner ∧ gd = attr.group ∧ n' = n) → Now path l w0 (some n') w' → Q () st w' ∧ E w') :
    Post sys lost (whenEither p!"owner" p!"group" (runCommand (chownLinkCommand attr path))) env st w Q E := by
  refine Post.whenEither hs hi1 hf1 hi2 hf2 ?_ ?_
  · intro _
    refine chown_step_any (hn.sane hw0 (fun m hm => by cases hm; exact hns)) hsys hn false (fun h => by cases h) (ownerText hp ho) (groupText hp hg) hE ?_
    intro w' u g hu hg' hnow
    refine hok w' _ (.inr ⟨u, g, chownUser_ok hw0 hu, chownGroup_ok hw0 hg', ?_⟩) (.inl ⟨?_, ?_⟩) hnow
    · rw [hn.clock]
    · intro e he hname
      rw [hname] at hu
      rw [show text (some e.name) = e.name from rfl, chownUser_name hp he] at hu
      exact (Option.some.inj hu).symm
    · intro e he hname
      rw [hname] at hg'
      rw [show text (some e.name) = e.name from rfl, chownGroup_name hp he] at hg'
      exact (Option.some.inj hg').symm
  · intro heq
    simp only [Bool.and_eq_true, optStr_eq] at heq
    exact (hok w n (.inl rfl) (.inr ⟨heq.1, heq.2, rfl⟩) hn).1

/-- Owner and time stamps of a link. -/
theorem link_attributes (hp : PlainAccounts w0) (hw0 : w0.Sane) (hsys : sys.exec = core tools) (hm : Modest target.length)
    {want attr : Settings} (ho : UserValue w0 want.owner attr.owner) (hg : GroupValue w0 want.group attr.group)
    (hn : Now path l w0 (some n) w) (hd : LinkNode target w0 l n) {t : Str} (hk : n.kind = .link t) (ht : Py.encodeEscape t = Py.encodeEscape target)
    {ex touch : Bool} {td od gd tg : Option Str}
    (hcase : ¬ OnlyTarget target attr w0 l → (od = some (ownerName w0 n.uid) ∧ gd = some (groupName w0 n.gid)) ∨ (od = none ∧ gd = none)
      ∨ ¬ (od = attr.owner ∧ gd = attr.group))
    (hs : States st (linkState ex td od gd false) (linkState true tg attr.owner attr.group touch)) :
    Post sys lost (do
      whenEither p!"owner" p!"group" (runCommand (chownLinkCommand attr path))
      let e ← changed p!"exists"
      if e then Op.pure () else whenChanged p!"touched" (runCommand [p!"touch", p!"--no-dereference", p!"--", path])) env st w
      (fun _ st' w' => st' = st ∧ LinkDone path target attr w0 l w') (LinkLeft path target w0 l) := by
  have left : ∀ {n w}, Now path l w0 (some n) w → LinkNode target w0 l n → ∀ s, LinkLeft path target w0 l { w with started := s } := by
    intro n w hn hd s
    exact ⟨some n, hn.started s, fun m hm => (by cases hm; exact hd)⟩
  have left' : ∀ {n w}, Now path l w0 (some n) w → LinkNode target w0 l n → LinkLeft path target w0 l w := fun hn hd => left hn hd _
  refine Post.bind ?_
  refine relink_step hp hw0 (hd.sane hm) hsys hn ho hg hs rfl rfl rfl rfl (left hn hd) ?_
  intro w2 n2 hc2 how hn2
  have how : ¬ OnlyTarget target attr w0 l → Owned w0 attr n2 := by
    intro hx
    rcases how with h | ⟨h1, h2, rfl⟩
    · exact h
    · rcases hcase hx with ⟨h3, h4⟩ | ⟨h3, h4⟩ | h3
      · exact owned_of_names hw0 hp (h3.symm.trans h1) (h4.symm.trans h2)
      · refine ⟨fun e _ h => ?_, fun e _ h => ?_⟩
        · rw [← h1, h3] at h; cases h
        · rw [← h2, h4] at h; cases h
      · exact absurd ⟨h1, h2⟩ h3
  have hk2 : n2.kind = .link t := hc2.kind.trans hk
  have hd2 : LinkNode target w0 l n2 := ⟨⟨t, by rw [hc2.kind]; exact hk, .inl ht⟩, fun hm => hc2.sane hw0 (hd.sane hm)⟩
  refine ⟨?_, left' hn2 hd2⟩
  refine Post.bind (Post.changed hs rfl rfl ?_)
  have hdone : LinkDone path target attr w0 l w2 := ⟨n2, t, hn2, hd2, hk2, ht, how⟩
  split
  · exact Post.pure ⟨rfl, hdone⟩
  · refine Post.whenChanged hs rfl rfl ?_ ?_
    · intro _
      refine touchLink_step (hn2.sane hw0 (fun m hm' => by cases hm'; exact hd2.sane hm)) hsys hn2 (left hn2 hd2) ?_
      intro w3 hn3
      rw [hn2.clock] at hn3
      have hd3 : LinkNode target w0 l { n2 with mtime := w0.clock, ctime := w0.clock } := ⟨⟨t, (hc2.kind.trans hk : n2.kind = _), .inl ht⟩, fun hm => touch_sane hw0 (hd2.sane hm)⟩
      exact ⟨⟨rfl, ⟨_, t, hn3, hd3, hk2, ht, how⟩⟩, left' hn3 hd3⟩
    · intro _
      exact ⟨rfl, hdone⟩

theorem link_act (hdir : Direct w0 path) (hr : resolve w0.fs w0.cwd path false = .ok l) (ha : isAbs path = true)
    (hp : PlainAccounts w0) (hw0 : w0.Sane) (hsys : sys.exec = core tools) (hm : Modest target.length)
    {want attr : Settings} (ho : UserValue w0 want.owner attr.owner) (hg : GroupValue w0 want.group attr.group)
    (h0 : w0.fs l = o) (hn : Now path l w0 o w) (hsame : w.fs = w0.fs) (hd : ∀ n, o = some n → ∃ t, n.kind = .link t)
    {touch : Bool} {td od gd : Option Str}
    (hs : States st (linkState o.isSome td od gd false) (linkState true (some target) attr.owner attr.group touch))
    (htd : ∀ n t, o = some n → n.kind = .link t → (td = some target ↔ Py.encodeEscape t = Py.encodeEscape target))
    (htn : o = none → td = none) (hnd : td ≠ some target → NotToDirectory w0 path)
    (hod : od = o.map fun n => ownerName w0 n.uid) (hgd : gd = o.map fun n => groupName w0 n.gid) :
    Post sys lost (linkActions path target true attr) env st w
      (fun _ st' w' => st' = st ∧ LinkDone path target attr w0 l w') (LinkLeft path target w0 l) := by
  have hsn : ∀ n, o = some n → n.Sane := fun n h => hw0.node l n (h0.trans h)
  have hln : ∀ n, o = some n → LinkNode target w0 l n := by
    intro n h
    obtain ⟨t, ht⟩ := hd n h
    exact ⟨⟨t, ht, .inr (h0.trans h)⟩, fun _ => hsn n h⟩
  unfold linkActions
  rw [if_pos rfl]
  refine Post.bind (Post.whenChanged hs rfl rfl ?_ ?_)
  · intro hne
    have hne : td ≠ some target := by
      intro h
      rw [(optStr_eq td (some target)).mpr h] at hne
      cases hne
    refine ln_step hw0 hdir hr ha (hnd hne) hsys hn hsn hsame (fun w' h => ⟨o, h, hln⟩) (fun w' h => ⟨none, h, fun _ h => by cases h⟩) ?_
    intro w' p hpo hn'
    have hnew : LinkNode target w0 l (newLink p w0 l target) := ⟨⟨target, rfl, .inl rfl⟩, fun hm => newLink_sane hw0 hpo l hm⟩
    refine ⟨?_, ⟨_, hn', fun m hm => (by cases hm; exact hnew)⟩⟩
    cases o with
    | none =>
      exact link_attributes hp hw0 hsys hm ho hg hn' hnew rfl rfl (fun _ => .inr (.inl ⟨hod, hgd⟩)) hs
    | some m =>
      obtain ⟨t, ht⟩ := hd m rfl
      refine link_attributes hp hw0 hsys hm ho hg hn' hnew rfl rfl (fun hx => ?_) hs
      by_cases hsm : od = attr.owner ∧ gd = attr.group
      · exfalso
        rw [hod, hgd] at hsm
        exact hx ⟨m, t, h0, owned_of_names hw0 hp hsm.1 hsm.2, ht, fun h => hne ((htd m t rfl ht).mpr h)⟩
      · exact .inr (.inr hsm)
  · intro heq
    rw [optStr_eq] at heq
    cases o with
    | none => rw [htn rfl] at heq; cases heq
    | some n =>
      obtain ⟨t, ht⟩ := hd n rfl
      exact link_attributes hp hw0 hsys hm ho hg hn (hln n rfl) ht ((htd n t rfl ht).mp heq) (fun _ => .inl ⟨hod, hgd⟩) hs

/-- `link(path, target, present=True)`. -/
theorem link_present (hord : Ordinary sys tools w) (ha : isAbs path = true) (hdir : Direct w path) (hnd : HasTarget w path target ∨ NotToDirectory w path)
    (hpl : Plain target) (hne : target ≠ []) {want attr : Settings} (he : Effective w want attr)
    {touch : Bool} (h1 : st.op.hasNested = false) (h2 : st.op.initial = none) (h3 : st.op.final = none) {L : World → Prop}
    (hL : ∀ w', Same w w' → L w') (hL' : ∀ l w', resolve w.fs w.cwd path false = .ok l → LinkLeft path target w l w' → L w') :
    Post sys lost (linkBody path target true touch attr) env st w
      (fun r _ w' => (r.success = true → env.dry = false → ∃ l, resolve w.fs w.cwd path false = .ok l ∧ LinkDone path target attr w l w') ∧ L w') L := by
  have hw := hord.sane
  have hsys := hord.exec
  have ho := he.owner
  have hg := he.group
  have hbase : ∀ s, L { w with started := s } := fun s => hL _ rfl
  have hbase' : L w := hbase w.started
  unfold linkBody
  rw [if_pos rfl]
  refine Post.bind (Post.finalState h1 h3 ?_)
  refine Post.bind (Post.stat ?_ hbase')
  intro s hstat
  cases s with
  | none =>
    refine Post.bind (Post.initialState h1 h2 ?_)
    have hs : States { { st with op := { st.op with final := some (linkState true (some target) attr.owner attr.group touch) } } with
        op := { st.op with final := some (linkState true (some target) attr.owner attr.group touch), initial := some (linkState false none none none false) } }
        (linkState false none none none false) (linkState true (some target) attr.owner attr.group touch) := ⟨rfl, h1, rfl, rfl⟩
    refine Post.settle hs ?_ (Post.pure ⟨⟨hs, rfl⟩, rfl⟩) ?_ ?_
    · intro h; rw [linkState_eq] at h; cases h.1
    · intro hd _ _ _; exact ⟨fun _ h => (by rw [hd] at h; cases h), hbase'⟩
    · intro _ _ st' hs' _
      rcases stat_none_cases (stat_none hord.stat hstat) with ⟨e, hr⟩ | ⟨l, hr, hl⟩
      · unfold linkActions
        rw [if_pos rfl]
        refine Post.bind (Post.whenChanged hs' rfl rfl ?_ (by intro h; rw [optStr_eq] at h; cases h))
        intro _
        exact ln_unresolved_step hw hr ha hsys hbase
      · have hn : Now path l w none w := by have := Now.init ha hr; rwa [hl] at this
        refine (link_act hdir hr ha hord.accounts hw hsys hpl.2 ho hg hl hn rfl (fun _ h => by cases h) hs' (fun _ _ h => by cases h) (fun _ => rfl)
          (fun _ => hnd.resolve_left (fun ⟨l', m, t, h1, h2, _⟩ => by rw [hr] at h1; cases h1; rw [hl] at h2; cases h2)) rfl rfl).mono ?_
          (fun w' h => hL' l w' hr h)
        rintro _ st'' w' ⟨rfl, hdone⟩
        exact ⟨rfl, fun _ _ => ⟨l, hr, hdone⟩, hL' l w' hr hdone.left⟩
  | some s =>
    obtain ⟨l, n, hlk, rfl⟩ := stat_some hw hstat
    obtain ⟨hr, hl⟩ := lookup_ok hlk
    simp only
    split
    · refine Post.failure ?_
      intro r hr _
      exact ⟨fun h => (by rw [hr] at h; cases h), hbase'⟩
    · next hk =>
      obtain ⟨t, hk⟩ := linkKind (n := n) (by simpa [Client.described] using hk)
      have hn : Now path l w (some n) w := by have := Now.init ha hr; rwa [hl] at this
      have hln : LinkNode target w l n := ⟨⟨t, hk, .inr hl⟩, fun _ => hw.node l n hl⟩
      refine Post.bind (Post.readlink hsys ha hlk hk hbase ?_)
      intro res s hres
      refine Post.bind (Post.ofExcept ?_ (hbase s))
      intro existing hex
      have hex : Py.decodeUtf8 ((Py.encodeEscape t).getD []) = some existing := by
        rw [hres] at hex
        simp only [Option.getD_some, decodeStrict] at hex
        split at hex
        · next x hx => cases hex; exact hx
        · cases hex
      have htd : some existing = some target ↔ Py.encodeEscape t = Py.encodeEscape target := by
        have hsome : (Py.encodeUtf8 target).isSome = true := by
          rw [Py.encodeUtf8_isSome, List.all_eq_true]
          intro c hc
          have := hpl.1 c hc
          simp only [Py.isSurrogate, Bool.and_eq_true, decide_eq_true_eq, Bool.not_eq_true', Bool.and_eq_false_iff, decide_eq_false_iff_not]
          omega
        obtain ⟨b, hb⟩ := Option.isSome_iff_exists.mp hsome
        rw [Py.encodeEscape_of_encode hb]
        constructor
        · intro h
          cases h
          have h4 := Py.encode_decode hex
          rw [hb] at h4
          cases he : Py.encodeEscape t with
          | some x => rw [he] at h4; exact h4.symm
          | none =>
            exfalso
            rw [he] at h4
            cases h4
            have h5 := Py.decode_encode hb
            rw [show Py.decodeUtf8 ((none : Option Bytes).getD []) = some [] from rfl] at h5
            exact hne (Option.some.inj h5).symm
        · intro h
          rw [h] at hex
          simp only [Option.getD_some] at hex
          rw [Py.decode_encode hb] at hex
          exact hex.symm
      refine Post.bind (Post.initialState h1 h2 ?_)
      have hs : States { { st with op := { st.op with final := some (linkState true (some target) attr.owner attr.group touch) } } with
          op := { st.op with final := some (linkState true (some target) attr.owner attr.group touch),
                             initial := some (linkState true (some existing) (some (ownerName w n.uid)) (some (groupName w n.gid)) false) } }
          (linkState true (some existing) (some (ownerName w n.uid)) (some (groupName w n.gid)) false)
          (linkState true (some target) attr.owner attr.group touch) := ⟨rfl, h1, rfl, rfl⟩
      refine Post.settle hs ?_ (Post.pure ⟨⟨hs, rfl⟩, rfl⟩) ?_ ?_
      · intro h
        rw [linkState_eq] at h
        obtain ⟨_, e1, e2, e3, _⟩ := h
        exact ⟨fun _ _ => ⟨l, hr, ⟨n, t, hn.started s, hln, hk, htd.mp e1, fun _ => owned_of_names hw hord.accounts e2 e3⟩⟩, hbase s⟩
      · intro hd _ _ _; exact ⟨fun _ h => (by rw [hd] at h; cases h), hbase s⟩
      · intro _ _ st' hs' _
        refine (link_act hdir hr ha hord.accounts hw hsys hpl.2 ho hg hl (hn.started s) rfl (fun _ h => by cases h; exact ⟨t, hk⟩) hs'
          (fun m t' h h' => by cases h; rw [hk] at h'; cases h'; exact htd) (fun h => by cases h)
          (fun hne => hnd.resolve_left (fun ⟨l', m, t', h1, h2, h3, h4⟩ => by
            rw [hr] at h1; cases h1; rw [hl] at h2; cases h2; rw [hk] at h3; cases h3; exact hne (htd.mpr h4))) rfl rfl).mono ?_ (fun w' h => hL' l w' hr h)
        rintro _ st'' w' ⟨rfl, hdone⟩
        exact ⟨rfl, fun _ _ => ⟨l, hr, hdone⟩, hL' l w' hr hdone.left⟩

/-- `link(path, target, present=False)`. -/
theorem link_absent (hord : Ordinary sys tools w) (ha : isAbs path = true) {attr : Settings}
    {touch : Bool} (h1 : st.op.hasNested = false) (h2 : st.op.initial = none) (h3 : st.op.final = none) {L : World → Prop}
    (hL : ∀ w', Same w w' → L w')
    (hL' : ∀ l n s, resolve w.fs w.cwd path false = .ok l → w.fs l = some n → n.kind ≠ .dir → L { w.set l none with started := s }) :
    Post sys lost (linkBody path target false touch attr) env st w
      (fun r _ w' => (r.success = true → env.dry = false → Gone path w w') ∧ L w') L := by
  have hw := hord.sane
  have hsys := hord.exec
  have hbase : ∀ s, L { w with started := s } := fun s => hL _ rfl
  have hbase' : L w := hbase w.started
  unfold linkBody
  rw [if_neg (by decide)]
  refine Post.bind (Post.finalState h1 h3 ?_)
  refine Post.bind (Post.stat ?_ hbase')
  intro s hstat
  cases s with
  | none =>
    refine Post.bind (Post.initialState h1 h2 ?_)
    have hs : States { { st with op := { st.op with final := some (linkState false none none none false) } } with
        op := { st.op with final := some (linkState false none none none false), initial := some (linkState false none none none false) } }
        (linkState false none none none false) (linkState false none none none false) := ⟨rfl, h1, rfl, rfl⟩
    refine Post.settle hs ?_ (Post.pure ⟨⟨hs, rfl⟩, rfl⟩) ?_ ?_
    · intro h; exact ⟨fun _ _ => .inl ⟨stat_none hord.stat hstat, rfl⟩, hbase'⟩
    · intro hd _ _ _; exact ⟨fun _ h => (by rw [hd] at h; cases h), hbase'⟩
    · intro _ h
      have := (linkState_eq false false false false none none none none none none).mpr ⟨rfl, rfl, rfl, rfl, rfl⟩
      rw [this] at h; cases h
  | some s =>
    obtain ⟨l, n, hlk, rfl⟩ := stat_some hw hstat
    obtain ⟨hr, hl⟩ := lookup_ok hlk
    simp only
    split
    · refine Post.failure ?_
      intro r hr _
      exact ⟨fun h => (by rw [hr] at h; cases h), hbase'⟩
    · next hk =>
      obtain ⟨t, hk⟩ := linkKind (n := n) (by simpa [Client.described] using hk)
      have hn : Now path l w (some n) w := by have := Now.init ha hr; rwa [hl] at this
      refine Post.bind (Post.readlink hsys ha hlk hk hbase ?_)
      intro res s hres
      refine Post.bind (Post.ofExcept ?_ (hbase s))
      intro existing _
      refine Post.bind (Post.initialState h1 h2 ?_)
      have hs : States { { st with op := { st.op with final := some (linkState false none none none false) } } with
          op := { st.op with final := some (linkState false none none none false),
                             initial := some (linkState true (some existing) (some (ownerName w n.uid)) (some (groupName w n.gid)) false) } }
          (linkState true (some existing) (some (ownerName w n.uid)) (some (groupName w n.gid)) false)
          (linkState false none none none false) := ⟨rfl, h1, rfl, rfl⟩
      refine Post.settle hs ?_ (Post.pure ⟨⟨hs, rfl⟩, rfl⟩) ?_ ?_
      · intro h; rw [linkState_eq] at h; cases h.1
      · intro hd _ _ _; exact ⟨fun _ h => (by rw [hd] at h; cases h), hbase s⟩
      · intro _ _ st' hs' _
        unfold linkActions
        rw [if_neg (by decide)]
        refine Post.whenChanged hs' rfl rfl ?_ (by intro h; rw [bool_eq] at h; cases h)
        intro _
        refine rm_step ((hn.started s).sane hw (fun m hm => by cases hm; exact hw.node l n hl)) hsys (hn.started s) (fun s' => hbase s') ?_
        intro s'
        have hnd : n.kind ≠ .dir := by rw [hk]; exact nofun
        refine ⟨⟨rfl, fun _ _ => ?_, hL' l n s' hr hl hnd⟩, hL' l n s' hr hl hnd⟩
        exact .inr ⟨l, n, s', hr, hl, rfl⟩

end
end Verif.Ops
