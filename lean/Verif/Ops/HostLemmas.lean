/-
Lemmas for operations on a host with the standard tools: commands, stat results, settings in force.
-/
import Verif.Ops.Post
import Verif.Remote.CoreLemmas
import Verif.Client.FileProps

namespace Verif.Ops

open Script Remote
open Client (Prog direct lostConnection plan typeName ShowsUser ShowsGroup)
open Wire (Packet)

section
variable {sys : Sys} {lost : Nat → Option Bool} {env : Env} {st : St} {w : World}

theorem plan_argv {command : List Str} {stdin : Option Bytes} {capture : Bool} {user group umask cwd : Option Str} {proc : Proc}
    (h : plan sys command stdin capture user group umask cwd w = .ok proc) :
    proc.argv = command ∧ (∀ a ∈ command, hasNul a = false) ∧ proc.umask < 512
      ∧ ∃ ug g, Remote.optional (Remote.resolveUser w) user = .ok ug ∧ Remote.optional (Remote.resolveGroup w) group = .ok g
        ∧ proc.uid = (ug.map (·.1)).getD w.uid ∧ proc.gid = (pickGid g ug).getD w.gid := by
  unfold plan at h
  cases hum : Remote.optional resolveOct umask with
  | error e => rw [hum] at h; cases h
  | ok um =>
  cases hu : Remote.optional (Remote.resolveUser w) user with
  | error e => rw [hum, hu] at h; cases h
  | ok ug =>
  cases hg : Remote.optional (Remote.resolveGroup w) group with
  | error e => rw [hum, hu, hg] at h; cases h
  | ok g =>
  simp only [hum, hu, hg] at h
  split at h
  · cases h
  · split at h
    · cases h
    · split at h
      · cases h
      · next hnul =>
        split at h
        · cases h
        · cases h
        · next um' u gi dir hs =>
          cases h
          have key : um' < 512 ∧ u = (ug.map (·.1)).getD w.uid ∧ gi = (pickGid g ug).getD w.gid := by
            unfold startChild at hs
            have : ∀ i : Int, (i % 512).toNat < 512 := fun i => by omega
            split at hs
            · cases hs
            · split at hs
              · cases hs
              · split at hs
                · cases hs
                · split at hs
                  · cases hs
                  · split at hs
                    · cases hs; exact ⟨this _, rfl, rfl⟩
                    · split at hs
                      · cases hs
                      · cases hs; exact ⟨this _, rfl, rfl⟩
          refine ⟨rfl, ?_, key.1, ug, g, rfl, rfl, key.2.1, key.2.2⟩
          intro a ha
          simp only [List.any_eq_true, not_exists, not_and, Bool.not_eq_true] at hnul
          exact hnul a ha

/-- What every process has. -/
structure ProcOk (p : Proc) : Prop where
  umask : p.umask < 512
  uid : IdOk p.uid
  gid : IdOk p.gid

theorem plan_procOk (hw : w.Sane) {command : List Str} {stdin : Option Bytes} {capture : Bool} {user group umask cwd : Option Str} {proc : Proc}
    (h : plan sys command stdin capture user group umask cwd w = .ok proc) : ProcOk proc := by
  obtain ⟨_, _, hum, ug, g, hu, hg, h1, h2⟩ := plan_argv h
  have hug : ∀ x, ug = some x → IdOk x.1 ∧ IdOk x.2 := by
    intro x hx
    subst hx
    cases user with
    | none => cases hu
    | some s =>
      simp only [Remote.optional] at hu
      cases hr : Remote.resolveUser w s with
      | error e => rw [hr] at hu; cases hu
      | ok y => rw [hr] at hu; cases hu; exact resolveUser_ids hw hr
  have hgg : ∀ x, g = some x → IdOk x := by
    intro x hx
    subst hx
    cases group with
    | none => cases hg
    | some s =>
      simp only [Remote.optional] at hg
      cases hr : Remote.resolveGroup w s with
      | error e => rw [hr] at hg; cases hg
      | ok y => rw [hr] at hg; cases hg; exact resolveGroup_ids hw hr
  refine ⟨hum, ?_, ?_⟩
  · rw [h1]
    cases hx : ug with
    | none => exact hw.uid
    | some x => exact (hug x hx).1
  · rw [h2]
    cases hy : g with
    | some y => exact hgg y hy
    | none =>
      cases hx : ug with
      | none => exact hw.gid
      | some x => exact (hug x hx).2

/-- Running a tool. -/
theorem Post.runCommand {tools : Tools} (hw : w.Sane) (hsys : sys.exec = core tools) {argv : List Str} {t : Tool} (ht : parseTool argv = some t)
    {Q : Unit → St → World → Prop} {E okP errP : World → Prop}
    (ho : ∀ p : Proc, p.argv = argv → ProcOk p →
      Outcome okP errP (runTool tools p { w with started := p :: w.started } t))
    (hok : ∀ w', okP w' → Q () st w' ∧ E w') (herr : ∀ w', errP w' → E w') (hE : E w) :
    Post sys lost (runCommand argv) env st w Q E := by
  unfold Ops.runCommand Connection.run
  refine Post.bind ?_
  refine Post.bind (Post.currentDefaults ?_ hE)
  intro c rest _
  have key : ∀ r w', (Client.Connector.run argv none true true (pick c.asUser none) (pick c.asGroup none) (pick c.umask none)
      (pick c.cwd none)).run (direct sys) w = (r, w') → (∀ a, r = .ok a → Q () st w' ∧ E w') ∧ E w' := by
    intro r w' h
    rw [Client.run_eq] at h
    split at h
    · next r' hp =>
      cases h
      refine ⟨?_, hE⟩
      intro a ha
      exfalso
      rcases Client.plan_error hp with ⟨f, m, rfl⟩ | ⟨m, rfl⟩ | ⟨e, rfl⟩
      · simp only [Client.refused, Client.unpackResponse] at ha
        cases hga : Packet.getattr _ f <;> rw [hga] at ha <;> cases ha
      · cases ha
      · cases e with
        | osError n s m => cases n <;> cases ha
        | _ => cases ha
    · next proc hp =>
      obtain ⟨h1, _, _⟩ := plan_argv hp
      have hout := ho proc h1 (plan_procOk hw hp)
      rw [hsys] at h
      unfold core at h
      cases hm : tools.missing proc { w with started := proc :: w.started } with
      | some e =>
        rw [hm] at h
        cases h
        exact ⟨fun a ha => (by cases ha), hE⟩
      | none =>
        rw [hm, h1, ht] at h
        simp only at h
        match hx : runTool tools proc { w with started := proc :: w.started } t with
        | (.failed e, w1) =>
          rw [hx] at h
          cases h
          exact ⟨fun a ha => (by cases ha), hE⟩
        | (.done out err code, w1) =>
          rw [hx] at h hout
          cases h
          by_cases hc : code = 0
          · exact ⟨fun _ _ => hok _ (hout.1 hc), (hok _ (hout.1 hc)).2⟩
          · refine ⟨fun a ha => ?_, herr _ (hout.2 hc)⟩
            simp [Client.delivered, hc] at ha
  refine Post.call (single_run _ _ _ _ _ _ _ _) ?_ ?_ hE
  · intro a w' h
    obtain ⟨h1, h2⟩ := key _ _ h
    exact ⟨Post.ret (h1 a rfl).1, h2⟩
  · intro e w' h
    exact (key _ _ h).2

theorem stat_none {path : Str} {sha : Bool} (hh : HonestStat sys)
    (h : (Client.Connector.stat path false sha).run (direct sys) w = (.ok none, w)) : lookup w.fs w.cwd path false = .error ENOENT := by
  have hn : NoNul path := by
    by_cases hn : NoNul path
    · exact hn
    · exfalso
      have := hasNul_iff.mpr hn
      simp [Client.Connector.stat, Prog.run, direct, handle, handleStat, osStat, guardCall, this, nulError, isENOENT, lostConnection, Exn.isValueError] at h
  rcases (Client.C14_none_iff sys w path false sha hn).mp (by rw [h]) with ⟨e, he, h2⟩ | ⟨_, h⟩
  · exact absurd h2 (hh _ _ _ _ he)
  · exact h

theorem stat_some (hw : w.Sane) {path : Str} {sha : Bool} {s : Client.StatResult}
    (h : (Client.Connector.stat path false sha).run (direct sys) w = (.ok (some s), w)) :
    ∃ l n, lookup w.fs w.cwd path false = .ok (l, n) ∧ s = Client.described sys w sha n := by
  simp only [Client.Connector.stat, Prog.run, direct, handle, handleStat, osStat, guardCall] at h
  cases hn : hasNul path with
  | true => simp [hn, nulError, isENOENT, lostConnection, Exn.isValueError] at h
  | false =>
    rw [hn] at h
    simp only [Bool.false_eq_true, if_false] at h
    cases hf : sys.fault w (.stat path false) with
    | some e =>
      simp only [hf, OSErr.exn, isENOENT] at h
      by_cases he : e.errno = ENOENT
      · simp [he, Client.unpackResponse, Packet.getattr, Packet.kind, Packet.vals, Wire.schema, Wire.fieldText, Exn.isValueError] at h
      · simp [he, Exn.isValueError] at h
    | none =>
      cases hl : lookup w.fs w.cwd path false with
      | error n =>
        simp only [hf, hl, OSErr.exn, osErr, isENOENT] at h
        by_cases he : n = ENOENT
        · simp [he, Client.unpackResponse, Packet.getattr, Packet.kind, Packet.vals, Wire.schema, Wire.fieldText, Exn.isValueError] at h
        · simp [he, Exn.isValueError] at h
      | ok x =>
        obtain ⟨l, n⟩ := x
        refine ⟨l, n, rfl, ?_⟩
        obtain ⟨h1, h2⟩ := Client.ftype_eq (hw.node l n (lookup_ok hl).2).perm
        simp only [hf, hl, h1, h2] at h
        have key : ∀ y, (if sha && typeName n.kind == p!"file" then Remote.optional (osRead sys w) (some path) else .ok none) = .ok y →
            y.map sys.sha512 = match n.kind with
              | .file c => if sha then some (sys.sha512 c) else none
              | _ => none := by
          intro y hy
          cases sha with
          | false => cases hy; cases n.kind <;> rfl
          | true =>
            cases hk : n.kind with
            | file c =>
              have hl' : lookup w.fs w.cwd path true = .ok (l, n) := lookup_follow (fun t ht => by rw [hk] at ht; cases ht) hl
              rw [hk] at hy
              simp only [typeName, Bool.true_and] at hy
              rw [if_pos (by decide)] at hy
              simp only [Remote.optional, osRead, guardCall, hn, hl', hk, Bool.false_eq_true, if_false] at hy
              cases ho : sys.fault w (.openRead path) with
              | some e => simp [ho] at hy
              | none =>
                cases hr : sys.fault w (.read path) with
                | some e => simp [ho, hr] at hy
                | none => simp only [ho, hr] at hy; cases hy; rfl
            | _ => rw [hk] at hy; cases hy; rfl
        generalize hx : (if sha && typeName n.kind == p!"file" then Remote.optional (osRead sys w) (some path) else .ok none) = x at h key
        cases x with
        | error e =>
          exfalso
          cases e with
          | osError n s m => cases n <;> simp [lostConnection, Exn.isValueError] at h
          | _ => simp [lostConnection, Exn.isValueError] at h
        | ok y =>
          have hk := key y rfl
          simp only [Client.unpackResponse, Prod.mk.injEq, Except.ok.injEq, Option.some.injEq, and_true] at h
          rw [← h, hk]
          rfl

/-! ### Owners -/

theorem find_unique {α β : Type} [BEq β] [LawfulBEq β] {f : α → β} {l : List α} (hn : (l.map f).Nodup) {e : α} (he : e ∈ l) :
    l.find? (fun x => f x == f e) = some e := by
  induction l with
  | nil => cases he
  | cons a l ih =>
    simp only [List.map_cons, List.nodup_cons] at hn
    rcases Classical.em (f a = f e) with ha | ha
    · rw [List.find?_cons_of_pos (by simpa using ha)]
      rcases List.mem_cons.mp he with rfl | hm
      · rfl
      · exact absurd (List.mem_map.mpr ⟨e, hm, ha.symm⟩) hn.1
    · rw [List.find?_cons_of_neg (by simpa using ha)]
      rcases List.mem_cons.mp he with rfl | hm
      · exact absurd rfl ha
      · exact ih hn.2 hm

theorem eq_of_name {α β : Type} [BEq β] [LawfulBEq β] {f : α → β} {l : List α} (hn : (l.map f).Nodup) {a b : α} (ha : a ∈ l) (hb : b ∈ l)
    (h : f a = f b) : a = b := by
  have h1 := find_unique hn ha
  have h2 := find_unique hn hb
  rw [h] at h1
  rw [h1] at h2
  exact Option.some.inj h2

theorem denotes_mem {s : Str} {e : PwEntry} (h : DenotesUser w s e) : e ∈ w.users := by
  rcases h with h | ⟨_, _, _, h⟩ <;> exact List.mem_of_find?_eq_some h

theorem denotes_gmem {s : Str} {e : GrEntry} (h : DenotesGroup w s e) : e ∈ w.groups := by
  rcases h with h | ⟨_, _, _, h⟩ <;> exact List.mem_of_find?_eq_some h

theorem decimalText_natStr (n : Nat) : ∀ c ∈ Py.natStr 10 n, 48 ≤ c ∧ c ≤ 57 := Py.natStr_chars (by omega) (by omega) n

/-- The name shown for an owner determines the owner. -/
theorem ownerName_inj (hw : w.Sane) (hp : PlainAccounts w) {uid : Nat} {e : PwEntry} (he : e ∈ w.users) (h : ownerName w uid = e.name) :
    uid = e.uid := by
  unfold ownerName at h
  rw [Client.getpwuid_eq hw (uid : Int)] at h
  simp only at h
  cases hf : w.users.find? (·.uid == uid) with
  | some e' =>
    rw [hf] at h
    have hm := List.mem_of_find?_eq_some hf
    have hu := List.find?_some hf
    have := eq_of_name hp.users hm he h
    subst this
    simpa using (by simpa using hu : _ = _).symm
  | none =>
    rw [hf] at h
    obtain ⟨c, hc, hc2⟩ := (hp.userNames e he).2.2.1
    rw [← h] at hc
    exact absurd (decimalText_natStr _ c hc) hc2

theorem groupName_inj (hw : w.Sane) (hp : PlainAccounts w) {gid : Nat} {e : GrEntry} (he : e ∈ w.groups) (h : groupName w gid = e.name) :
    gid = e.gid := by
  unfold groupName at h
  rw [Client.getgrgid_eq hw (gid : Int)] at h
  simp only at h
  cases hf : w.groups.find? (·.gid == gid) with
  | some e' =>
    rw [hf] at h
    have hm := List.mem_of_find?_eq_some hf
    have hu := List.find?_some hf
    have := eq_of_name hp.groups hm he h
    subst this
    simpa using (by simpa using hu : _ = _).symm
  | none =>
    rw [hf] at h
    obtain ⟨c, hc, hc2⟩ := (hp.groupNames e he).2.2.1
    rw [← h] at hc
    exact absurd (decimalText_natStr _ c hc) hc2

theorem ownerName_eq (hw : w.Sane) (hp : NoAliases w) {e : PwEntry} (he : e ∈ w.users) : ownerName w e.uid = e.name := by
  unfold ownerName
  rw [Client.getpwuid_eq hw (e.uid : Int)]
  simp only
  rw [find_unique hp.users he]

theorem groupName_eq (hw : w.Sane) (hp : NoAliases w) {e : GrEntry} (he : e ∈ w.groups) : groupName w e.gid = e.name := by
  unfold groupName
  rw [Client.getgrgid_eq hw (e.gid : Int)]
  simp only
  rw [find_unique hp.groups he]

/-- A name that `chown` reads as an owner or a group. -/
structure ChownName (s : Str) : Prop where
  ne : s ≠ []
  colon : 58 ∉ s
  minus : s.head? ≠ some 45
  plus : s.head? ≠ some 43

theorem splitOnce_colon {a b : Str} (h : 58 ∉ a) : Py.splitOnce 58 (a ++ 58 :: b) = (a, some b) := by
  induction a with
  | nil => rfl
  | cons c a ih =>
    simp only [List.mem_cons, not_or] at h
    show Py.splitOnce 58 (c :: (a ++ 58 :: b)) = _
    unfold Py.splitOnce
    rw [if_neg (Ne.symm h.1), ih h.2]

theorem chownIds_names {tools : Tools} {a b : Str} (ha : ChownName a) (hb : ChownName b) :
    chownIds tools w (a ++ p!":" ++ b) = match chownUser w a, chownGroup w b with
      | some x, some y => some (some x, some y)
      | _, _ => none := by
  have : a ++ p!":" ++ b = a ++ 58 :: b := by simp [List.append_assoc]
  unfold chownIds
  rw [this, splitOnce_colon ha.colon]
  simp only
  rw [if_neg (by simp [ha.ne, hb.ne, ha.plus, hb.plus])]
  cases chownUser w a <;> cases chownGroup w b <;> rfl

/-- The names in force are plain. -/
theorem ownerText (hp : PlainAccounts w) {given actual : Option Str} (h : UserValue w given actual) : ChownName (text actual) := by
  cases given with
  | none => cases h; exact ⟨by decide, by decide, by decide, by decide⟩
  | some u =>
    obtain ⟨e, he, rfl⟩ := h
    obtain ⟨h1, h2, _, h4, h5⟩ := hp.userNames e (denotes_mem he)
    exact ⟨h1, h2, h4, h5⟩

theorem groupText (hp : PlainAccounts w) {given actual : Option Str} (h : GroupValue w given actual) : ChownName (text actual) := by
  cases given with
  | none => cases h; exact ⟨by decide, by decide, by decide, by decide⟩
  | some u =>
    obtain ⟨e, he, rfl⟩ := h
    obtain ⟨h1, h2, _, h4, h5⟩ := hp.groupNames e (denotes_gmem he)
    exact ⟨h1, h2, h4, h5⟩

theorem chownUser_name (hp : PlainAccounts w) {e : PwEntry} (he : e ∈ w.users) : chownUser w e.name = some e.uid := by
  unfold chownUser
  rw [find_unique hp.users he]

theorem chownGroup_name (hp : PlainAccounts w) {e : GrEntry} (he : e ∈ w.groups) : chownGroup w e.name = some e.gid := by
  unfold chownGroup
  rw [find_unique hp.groups he]

/-! ### Settings in force -/

/-- How a mode is written when it is sent: octal digits, or for a negative number something that is not a mode. -/
def ModeText (i : Int) (t : Str) : Prop := (octalText t = true ∧ i = octalValue t) ∨ (i < 0 ∧ ∃ k, t = 111 :: Py.natStr 8 k)

theorem modeText_octStr (i : Int) : ModeText i (Client.octStr i) := by
  cases i with
  | ofNat n => exact .inl ⟨octalText_natStr n, by simp [Client.octStr, octalValue_natStr]⟩
  | negSucc n => exact .inr ⟨Int.negSucc_lt_zero n, n + 1, rfl⟩

theorem ModeText.isOption {i : Int} {t : Str} (h : ModeText i t) : isOption t = false := by
  rcases h with ⟨h, _⟩ | ⟨_, k, rfl⟩
  · obtain ⟨h1, h2⟩ := octalText_iff.mp h
    cases t with
    | nil => exact absurd rfl h1
    | cons c t =>
      have := h2 c (List.mem_cons_self ..)
      simp [Remote.isOption]
      omega
  · rfl

/-- The settings an operation uses, in relation to those that are in force. -/
structure Effective (w : World) (want attr : Settings) : Prop where
  owner : UserValue w want.owner attr.owner
  group : GroupValue w want.group attr.group
  file : ∃ m i t, want.fileMode = some m ∧ Py.parseInt 8 m = some i ∧ attr.fileMode = some t ∧ ModeText i t
  dir : ∃ m i t, want.dirMode = some m ∧ Py.parseInt 8 m = some i ∧ attr.dirMode = some t ∧ ModeText i t

/-- How a mode is written in a command: as it was configured, or in octal digits if it is an argument. -/
def modeAs (given : Option Str) (m : Str) : Str :=
  match given with
  | none => m
  | some _ => Client.octStr ((Py.parseInt 8 m).getD 0)

structure Modes (q want attr : Settings) : Prop where
  file : attr.fileMode = want.fileMode.map (modeAs q.fileMode)
  dir : attr.dirMode = want.dirMode.map (modeAs q.dirMode)

theorem mode_effective {b c a a' r : Option Str} (hp : ∀ m, pick b c = some m → OctalText m)
    (ha : a' = a.bind fun m => (Py.parseInt 8 m).map Client.octStr) (hn : a ≠ none → a' ≠ none) (hr : r = pick (pick b c) a')
    (ho : ∃ m i, pick (pick b c) a' = some m ∧ Py.parseInt 8 m = some i) :
    (∃ m i t, pick (pick b c) a = some m ∧ Py.parseInt 8 m = some i ∧ pick b r = some t ∧ ModeText i t)
      ∧ pick b r = (pick (pick b c) a).map (modeAs a) := by
  obtain ⟨m, i, h1, h2⟩ := ho
  have hbr : pick b r = some m := by rw [hr, h1]; rfl
  cases a with
  | none =>
    cases ha
    refine ⟨⟨m, i, m, h1, h2, hbr, ?_⟩, by rw [hbr, show pick (pick b c) none = some m from h1]; rfl⟩
    have := octalText_iff.mpr (hp m h1)
    have h3 := parseInt_octal this
    rw [h2] at h3
    exact .inl ⟨this, Option.some.inj h3⟩
  | some x =>
    cases hx : Py.parseInt 8 x with
    | none => rw [Option.bind_some, hx] at ha; exact absurd ha (hn (by simp))
    | some j =>
      rw [Option.bind_some, hx] at ha
      subst ha
      cases h1
      exact ⟨⟨x, j, _, rfl, hx, hbr, modeText_octStr j⟩, by rw [hbr]; simp [pick, modeAs, hx]⟩

theorem canonicalize_none {q q' : Settings} (h : canonicalize q = .ok q') :
    (q.fileMode ≠ none → q'.fileMode ≠ none) ∧ (q.dirMode ≠ none → q'.dirMode ≠ none) := by
  unfold canonicalize at h
  split at h
  · cases h
  · next a ha =>
    split at h
    · cases h
    · next b hb =>
      split at h
      · cases h
      · cases h
        refine ⟨?_, ?_⟩
        · intro hn
          unfold canonicalizeMode at ha
          split at ha
          · next he => exact absurd he hn
          · split at ha
            · cases ha
            · cases ha; simp
        · intro hn
          unfold canonicalizeMode at hb
          split at hb
          · next he => exact absurd he hn
          · split at hb
            · cases hb
            · cases hb; simp

theorem pick_user {b n r : Option Str} (h : UserValue w n r) (hb : n = none → b = none) : UserValue w n (pick b r) := by
  cases n with
  | none => cases h; rw [hb rfl]; rfl
  | some u => obtain ⟨e, he, rfl⟩ := h; exact ⟨e, he, rfl⟩

theorem pick_group {b n r : Option Str} (h : GroupValue w n r) (hb : n = none → b = none) : GroupValue w n (pick b r) := by
  cases n with
  | none => cases h; rw [hb rfl]; rfl
  | some u => obtain ⟨e, he, rfl⟩ := h; exact ⟨e, he, rfl⟩

theorem pick_none {b c a : Option Str} (h : pick (pick b c) a = none) : b = none := by
  cases a <;> cases c <;> simp_all [pick]

theorem effective {q q' c r : Settings} {rest : List Settings} (hm : PlainModes env st) (hq : canonicalize q = .ok q')
    (hs : st.stack = c :: rest) (hr : Resolved w ((env.base.overlay c).overlay q') r) :
    Effective w (inForce env st q) (env.base.overlay r) ∧ Modes q (inForce env st q) (env.base.overlay r) := by
  have hc := canonicalize_ok hq
  obtain ⟨n1, n2⟩ := canonicalize_none hq
  have hf : inForce env st q = (env.base.overlay c).overlay q := by simp [inForce, hs]
  have h0 : inForce env st {} = env.base.overlay c := by simp [inForce, hs, Settings.overlay, pick]
  unfold PlainModes at hm
  rw [h0] at hm
  have ho : q'.owner = q.owner := by rw [hc]
  have hg : q'.group = q.group := by rw [hc]
  have k1 := mode_effective (fun m h => hm m (.inl h)) (by rw [hc]) n1 hr.fileMode hr.fileOct
  have k2 := mode_effective (fun m h => hm m (.inr h)) (by rw [hc]) n2 hr.dirMode hr.dirOct
  refine ⟨⟨?_, ?_, ?_, ?_⟩, ⟨?_, ?_⟩⟩
  · rw [hf]
    have := hr.owner
    simp only [Settings.overlay, ho] at this ⊢
    exact pick_user this pick_none
  · rw [hf]
    have := hr.group
    simp only [Settings.overlay, hg] at this ⊢
    exact pick_group this pick_none
  · rw [hf]; exact k1.1
  · rw [hf]; exact k2.1
  · rw [hf]; exact k1.2
  · rw [hf]; exact k2.2

/-! ### Steps -/

section
variable {tools : Tools} {path : Str} {l : Loc} {w0 : World} {n : Node} {Q : Unit → St → World → Prop} {E : World → Prop}

theorem _root_.Verif.Remote.Now.sane {o : Option Node} (h : Now path l w0 o w) (hw : w0.Sane) (ho : ∀ n, o = some n → n.Sane) : w.Sane := by
  rw [h.eq]
  refine { hw with node := ?_ }
  intro q m hq
  by_cases hql : q = l
  · subst hql
    have : (setNode w0.fs q o) q = some m := hq
    rw [setNode_same] at this
    exact ho m this
  · have : (setNode w0.fs l o) q = some m := hq
    rw [setNode_ne _ _ hql] at this
    exact hw.node q m this

theorem _root_.Verif.Remote.Now.plain {o : Option Node} (h : Now path l w0 o w) (hp : PlainAccounts w0) : PlainAccounts w := by
  refine ⟨?_, ?_, ?_, ?_⟩
  · rw [h.users]; exact hp.users
  · rw [h.groups]; exact hp.groups
  · rw [h.users]; exact hp.userNames
  · rw [h.groups]; exact hp.groupNames

/-- What a numeric mode makes of the permission bits of a node. -/
def numericPerm (t : Str) (n : Node) : Nat :=
  if n.kind = .dir ∧ t.length < 5 then (n.perm &&& 0o6000) ||| octalValue t else octalValue t

theorem numericPerm_lt {t : Str} (ht : octalValue t < 4096) (n : Node) : numericPerm t n < 4096 := by
  unfold numericPerm
  split
  · exact Nat.or_lt_two_pow (n := 12) (Nat.lt_of_le_of_lt Nat.and_le_right (by decide)) ht
  · exact ht

theorem chmod_step (hw : w.Sane) (hsys : sys.exec = core tools) (hn : Now path l w0 (some n) w) (hk : ∀ t, n.kind ≠ .link t)
    {i : Int} {t : Str} (ht : ModeText i t) (hE : ∀ s, E { w with started := s })
    (hok : ∀ w', octalText t = true → i = octalValue t → octalValue t < 4096 →
      Now path l w0 (some { n with perm := numericPerm t n, ctime := w.clock }) w' → Q () st w' ∧ E w') :
    Post sys lost (runCommand (chmodCommand (some t) path)) env st w Q E := by
  refine Post.runCommand hw hsys (t := .chmod t path) ?_
    (okP := fun w' => octalText t = true ∧ i = octalValue t ∧ octalValue t < 4096
      ∧ Now path l w0 (some { n with perm := numericPerm t n, ctime := w.clock }) w') (errP := E) ?_ ?_ ?_ (hE w.started)
  · have := ht.isOption
    simp [parseTool, chmodCommand, text, this]
  · intro p _ _
    have h := chmod_outcome (tools := tools) (p := p) (mode := t) (hn.started (p :: w.started)) hk
    show Outcome _ _ (runChmod _ _ _ _ _)
    refine h.mono (fun w' h1 => ?_) (fun w' h2 => ?_)
    · obtain ⟨b, hb, hnow⟩ := h1
      rcases ht with ⟨h3, h4⟩ | ⟨_, k, rfl⟩
      · unfold chmodBits at hb
        rw [if_pos h3] at hb
        split at hb
        · next hlt =>
          cases hb
          exact ⟨h3, h4, hlt, hnow⟩
        · cases hb
      · rw [chmodBits_negative] at hb; cases hb
    · rw [h2]; exact hE _
  · rintro w' ⟨h1, h2, h3, h4⟩
    exact hok w' h1 h2 h3 h4
  · exact fun _ h => h

theorem ChownName.isOption {a b : Str} (h : ChownName a) : Remote.isOption (a ++ p!":" ++ b) = false := by
  have h1 := h.ne
  have h2 := h.minus
  cases a with
  | nil => exact absurd rfl h1
  | cons c a => simpa [Remote.isOption] using h2

theorem chown_step_any (hw : w.Sane) (hsys : sys.exec = core tools) (hn : Now path l w0 (some n) w) (follow : Bool)
    (hk : follow = true → ∀ t, n.kind ≠ .link t) {attr : Settings} (ho : ChownName (text attr.owner)) (hg : ChownName (text attr.group))
    (hE : ∀ s, E { w with started := s })
    (hok : ∀ w' u g, chownUser w0 (text attr.owner) = some u → chownGroup w0 (text attr.group) = some g →
      Now path l w0 (some { n with perm := chownPerm n, uid := u, gid := g, ctime := w.clock }) w' → Q () st w' ∧ E w') :
    Post sys lost (runCommand (if follow then chownCommand attr path else chownLinkCommand attr path)) env st w Q E := by
  refine Post.runCommand hw hsys (t := .chown (text attr.owner ++ p!":" ++ text attr.group) path follow) ?_
    (okP := fun w' => ∃ u g, chownUser w0 (text attr.owner) = some u ∧ chownGroup w0 (text attr.group) = some g
      ∧ Now path l w0 (some { n with perm := chownPerm n, uid := u, gid := g, ctime := w.clock }) w') (errP := E) ?_ ?_ ?_ (hE w.started)
  · have := ho.isOption (b := text attr.group)
    cases follow
    · simp only [Bool.false_eq_true, if_false, parseTool, chownLinkCommand, this]; rfl
    · simp only [if_true, parseTool, chownCommand, this]; rfl
  · intro p _ _
    have h : Outcome (fun w' => ∃ u g, chownIds tools { w with started := p :: w.started } (text attr.owner ++ p!":" ++ text attr.group) = some (u, g)
        ∧ Now path l w0 (some { n with perm := chownPerm n, uid := u.getD n.uid, gid := g.getD n.gid, ctime := w.clock }) w')
      (fun w' => w' = { w with started := p :: w.started })
      (runChown tools p { w with started := p :: w.started } (text attr.owner ++ p!":" ++ text attr.group) path follow) := by
      cases follow
      · exact chownLink_outcome (hn.started _)
      · exact chown_outcome (hn.started _) (hk rfl)
    show Outcome _ _ (runChown _ _ _ _ _ _)
    refine h.mono (fun w' h1 => ?_) (fun w' h2 => ?_)
    · obtain ⟨u, g, hb, hnow⟩ := h1
      rw [chownIds_names ho hg] at hb
      have e1 : chownUser { w with started := p :: w.started } (text attr.owner) = chownUser w0 (text attr.owner) := by
        unfold chownUser; rw [show (World.users { w with started := p :: w.started }) = w0.users from hn.users]
      have e2 : chownGroup { w with started := p :: w.started } (text attr.group) = chownGroup w0 (text attr.group) := by
        unfold chownGroup; rw [show (World.groups { w with started := p :: w.started }) = w0.groups from hn.groups]
      rw [e1, e2] at hb
      cases hcu : chownUser w0 (text attr.owner) with
      | none => rw [hcu] at hb; cases hb
      | some x =>
        cases hcg : chownGroup w0 (text attr.group) with
        | none => rw [hcu, hcg] at hb; cases hb
        | some y =>
          rw [hcu, hcg] at hb
          cases hb
          exact ⟨x, y, rfl, rfl, hnow⟩
    · rw [h2]; exact hE _
  · rintro w' ⟨u, g, h1, h2, h3⟩
    exact hok w' u g h1 h2 h3
  · exact fun _ h => h

theorem touch_step (hw : w.Sane) (hsys : sys.exec = core tools) (hn : Now path l w0 (some n) w) (hk : ∀ t, n.kind ≠ .link t)
    (hE : ∀ s, E { w with started := s })
    (hok : ∀ w', Now path l w0 (some { n with mtime := w.clock, ctime := w.clock }) w' → Q () st w' ∧ E w') :
    Post sys lost (runCommand [p!"touch", p!"--", path]) env st w Q E := by
  refine Post.runCommand hw hsys (t := .touch path) rfl
    (okP := fun w' => Now path l w0 (some { n with mtime := w.clock, ctime := w.clock }) w') (errP := E) ?_ hok (fun _ h => h) (hE w.started)
  intro p _ _
  have h := touch_outcome (tools := tools) (p := p) (hn.started (p :: w.started)) hk
  show Outcome _ _ (runTouch _ _ _ _)
  refine h.mono (fun w' h1 => ?_) (fun w' h2 => ?_)
  · exact h1
  · rw [h2]; exact hE _

theorem touchLink_step (hw : w.Sane) (hsys : sys.exec = core tools) (hn : Now path l w0 (some n) w)
    (hE : ∀ s, E { w with started := s })
    (hok : ∀ w', Now path l w0 (some { n with mtime := w.clock, ctime := w.clock }) w' → Q () st w' ∧ E w') :
    Post sys lost (runCommand [p!"touch", p!"--no-dereference", p!"--", path]) env st w Q E := by
  refine Post.runCommand hw hsys (t := .touchLink path) rfl
    (okP := fun w' => Now path l w0 (some { n with mtime := w.clock, ctime := w.clock }) w') (errP := E) ?_ hok (fun _ h => h) (hE w.started)
  intro p _ _
  have h := touchLink_outcome (tools := tools) (p := p) (hn.started (p :: w.started))
  show Outcome _ _ (runTouchLink _ _ _ _)
  refine h.mono (fun w' h1 => ?_) (fun w' h2 => ?_)
  · exact h1
  · rw [h2]; exact hE _

theorem touchNew_step (hw : w.Sane) (hsys : sys.exec = core tools) (hn : Now path l w0 none w)
    (hE : ∀ s, E { w with started := s })
    (hE' : ∀ w' p, ProcOk p → Now path l w0 (some (newFile p w l)) w' → E w')
    (hok : ∀ w' p, ProcOk p → Now path l w0 (some (newFile p w l)) w' → Q () st w') :
    Post sys lost (runCommand [p!"touch", p!"--", path]) env st w Q E := by
  refine Post.runCommand hw hsys (t := .touch path) rfl
    (okP := fun w' => ∃ p, ProcOk p ∧ Now path l w0 (some (newFile p w l)) w') (errP := E) ?_ ?_ (fun _ h => h) (hE w.started)
  · intro p _ hp
    have h := touch_create_outcome (tools := tools) (p := p) (hn.started (p :: w.started))
    show Outcome _ _ (runTouch _ _ _ _)
    refine h.mono (fun w' h1 => ?_) (fun w' h2 => ?_)
    · exact ⟨p, hp, h1⟩
    · rcases h2 with rfl | h
      · exact hE _
      · exact hE' w' p hp h
  · rintro w' ⟨p, hp, h⟩
    exact ⟨hok w' p hp h, hE' w' p hp h⟩

theorem touch_unresolved_step (hw : w.Sane) (hsys : sys.exec = core tools) {e : Int} (ha : isAbs path = true)
    (hr : resolve w.fs w.cwd path false = .error e) (hE : ∀ s, E { w with started := s }) :
    Post sys lost (runCommand [p!"touch", p!"--", path]) env st w Q E := by
  refine Post.runCommand hw hsys (t := .touch path) rfl (okP := fun _ => False) (errP := E) ?_ (fun _ h => h.elim) (fun _ h => h) (hE w.started)
  intro p _ _
  have h := touch_unresolved (tools := tools) (p := p) (w := { w with started := p :: w.started }) ((resolve_abs ha p.cwd w.cwd false).trans hr)
  show Outcome _ _ (runTouch _ _ _ _)
  refine h.mono (fun w' h1 => ?_) (fun w' h2 => ?_)
  · exact h1
  · rw [h2]; exact hE _

theorem mkdir_step (hw : w.Sane) (hsys : sys.exec = core tools) (hn : Now path l w0 none w)
    (hE : ∀ s, E { w with started := s })
    (hok : ∀ w' p, ProcOk p → Now path l w0 (some (newDir p w l)) w' → Q () st w' ∧ E w') :
    Post sys lost (runCommand [p!"mkdir", p!"--", path]) env st w Q E := by
  refine Post.runCommand hw hsys (t := .mkdir path) rfl
    (okP := fun w' => ∃ p, ProcOk p ∧ Now path l w0 (some (newDir p w l)) w') (errP := E) ?_ ?_ (fun _ h => h) (hE w.started)
  · intro p _ hp
    have h := mkdir_outcome (tools := tools) (p := p) (hn.started (p :: w.started))
    show Outcome _ _ (runMkdir _ _ _ _)
    refine h.mono (fun w' h1 => ?_) (fun w' h2 => ?_)
    · exact ⟨p, hp, h1.2⟩
    · rw [h2]; exact hE _
  · rintro w' ⟨p, hp, h⟩
    exact hok w' p hp h

theorem mkdir_unresolved_step (hw : w.Sane) (hsys : sys.exec = core tools) {e : Int} (ha : isAbs path = true)
    (hr : resolve w.fs w.cwd path false = .error e) (hE : ∀ s, E { w with started := s }) :
    Post sys lost (runCommand [p!"mkdir", p!"--", path]) env st w Q E := by
  refine Post.runCommand hw hsys (t := .mkdir path) rfl (okP := fun _ => False) (errP := E) ?_ (fun _ h => h.elim) (fun _ h => h) (hE w.started)
  intro p _ _
  have h := mkdir_unresolved (tools := tools) (p := p) (w := { w with started := p :: w.started }) ((resolve_abs ha p.cwd w.cwd false).trans hr)
  show Outcome _ _ (runMkdir _ _ _ _)
  refine h.mono (fun w' h1 => ?_) (fun w' h2 => ?_)
  · exact h1
  · rw [h2]; exact hE _

theorem rm_step (hw : w.Sane) (hsys : sys.exec = core tools) (hn : Now path l w0 (some n) w)
    (hE : ∀ s, E { w with started := s })
    (hok : ∀ s, Q () st { w.set l none with started := s } ∧ E { w.set l none with started := s }) :
    Post sys lost (runCommand [p!"rm", p!"--", path]) env st w Q E := by
  refine Post.runCommand hw hsys (t := .rm path) rfl
    (okP := fun w' => ∃ s, w' = { w.set l none with started := s }) (errP := E) ?_ ?_ (fun _ h => h) (hE w.started)
  · intro p _ hp
    have h := rm_outcome (tools := tools) (p := p) (hn.started (p :: w.started))
    show Outcome _ _ (runRm _ _ _ _)
    refine h.mono (fun w' h1 => ?_) (fun w' h2 => ?_)
    · exact ⟨p :: w.started, h1.2⟩
    · rw [h2]; exact hE _
  · rintro w' ⟨s, rfl⟩
    exact hok s

theorem rmTree_step (hw : w.Sane) (hsys : sys.exec = core tools) (hn : Now path l w0 (some n) w) (hd : n.kind = .dir)
    (hE : ∀ s k, l ≠ [] → E { w with fs := removeMost w.fs l k, started := s }) (hE0 : ∀ s, E { w with started := s })
    (hok : ∀ s, l ≠ [] → Q () st { w with fs := removeMost w.fs l fun _ => false, started := s }) :
    Post sys lost (runCommand [p!"rm", p!"-rf", p!"--", path]) env st w Q E := by
  refine Post.runCommand hw hsys (t := .rmTree path) rfl
    (okP := fun w' => l ≠ [] ∧ ∃ s, w' = { w with fs := removeMost w.fs l fun _ => false, started := s }) (errP := E) ?_ ?_ (fun _ h => h)
    (hE0 w.started)
  · intro p _ hp
    have h := rmTree_outcome (tools := tools) (p := p) (hn.started (p :: w.started)) hd
    show Outcome _ _ (runRmTree _ _ _ _)
    refine h.mono (fun w' h1 => ?_) (fun w' h2 => ?_)
    · exact ⟨h1.1, p :: w.started, h1.2⟩
    · rcases h2 with rfl | ⟨hl, k, rfl⟩
      · exact hE0 _
      · exact hE _ k hl
  · rintro w' ⟨hl, s, rfl⟩
    exact ⟨hok s hl, hE s _ hl⟩

end

end
end Verif.Ops
