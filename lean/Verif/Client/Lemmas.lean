/-
Helper lemmas about requests and their effects.
-/
import Verif.Client.Spec
import Verif.Remote.LoopLemmas

namespace Verif.Client

open Wire (Packet Kind encoding)
open Remote

/-! ### The tunnel -/

theorem receive_response {p q : Packet} (hq : q.Sendable) (r : Bytes) :
    Wire.receivePacket (some p) (encoding q ++ r) = (unpackResponse p q, r) := by
  have := (Wire.writePacket_ok hq).2 r
  unfold Wire.receivePacket
  rw [this]
  cases q with
  | invalidField f m =>
    simp only [unpackResponse, Option.bind_some]
    cases p.getattr f <;> rfl
  | _ => rfl

theorem tunnel_step {sys : Sys} {p : Packet} (hr : p.kind.isRequest = true) (hs : p.Sendable) (w : World) :
    tunnel sys p (idle w) =
      ((Wire.receivePacket (some p) (dispatch sys p w).1.1).1,
        { input := [], output := (Wire.receivePacket (some p) (dispatch sys p w).1.1).2, status := (dispatch sys p w).1.2,
          world := (dispatch sys p w).2 }) := by
  have h1 := (Wire.writePacket_ok hs).1
  have h2 := serveOne_request (sys := sys) hr hs [] [] .next w
  rw [List.append_nil] at h2
  simp only [tunnel, h1, idle, if_true, List.nil_append, h2]

theorem tunnel_good {sys : Sys} (hs : sys.Sane) {w : World} (hw : w.Sane) {p : Packet} (hp : Packet.Proper p) (ht : Tame p)
    (hc : Captured p) (hne : p ≠ .exit) :
    tunnel sys p (idle w) = ((direct sys p w).1, idle (direct sys p w).2) ∧ (direct sys p w).2.Sane := by
  have hg := handle_good hs hw hp
  rw [tunnel_step hp.1 hp.sendable]
  unfold dispatch direct
  cases hh : handle sys p w with
  | mk r w' =>
    rw [hh] at hg
    cases r with
    | answer raw q =>
      obtain rfl := (handle_answers hh).2 hc
      refine ⟨?_, hg.2⟩
      have := receive_response (p := p) hg.1.1 []
      rw [List.append_nil] at this
      simp only [respond, (Wire.writePacket_ok hg.1.1).1, List.nil_append, this, idle]
    | close => exact absurd hg.1 hne
    | raise e =>
      obtain ⟨n, s, m, rfl, hsend⟩ := hg.1 ht
      refine ⟨?_, hg.2⟩
      have := receive_response (p := p) hsend []
      rw [List.append_nil] at this
      simp only [respond, (Wire.writePacket_ok hsend).1, List.nil_append, this, idle, unpackResponse]

/-! ### Fields named in error reports -/

theorem handle_field {sys : Sys} {w w' : World} {p : Packet} {raw : Bytes} {f m : Str}
    (h : handle sys p w = (.answer raw (.invalidField f m), w')) : ∃ v, p.getattr f = some v := by
  cases p with
  | checkAlive => cases h
  | exit => cases h
  | processRun command stdin capture user group umask cwd =>
    simp only [handle, handleRun, invalid] at h
    repeat' split at h
    all_goals first
      | (cases h; done)
      | (cases h; exact ⟨_, rfl⟩)
  | stat path fo sha =>
    simp only [handle, handleStat] at h
    repeat' split at h
    all_goals first
      | (cases h; done)
      | (cases h; exact ⟨_, rfl⟩)
  | resolveUser user =>
    simp only [handle, handleResolveUser] at h
    repeat' split at h
    all_goals first
      | (cases h; done)
      | (cases h; exact ⟨_, rfl⟩)
  | resolveGroup group =>
    simp only [handle, handleResolveGroup] at h
    repeat' split at h
    all_goals first
      | (cases h; done)
      | (cases h; exact ⟨_, rfl⟩)
  | upload file content mode owner group =>
    simp only [handle, handleUpload, doUpload, invalid] at h
    repeat' split at h
    all_goals first
      | (cases h; done)
      | (cases h; exact ⟨_, rfl⟩)
  | download file =>
    simp only [handle, handleDownload] at h
    repeat' split at h
    all_goals first
      | (cases h; done)
      | (cases h; exact ⟨_, rfl⟩)
  | queryUser user hash =>
    simp only [handle, handleQueryUser, userEntry] at h
    repeat' split at h
    all_goals first
      | (cases h; done)
      | (cases h; exact ⟨_, rfl⟩)
  | queryGroup group =>
    simp only [handle, handleQueryGroup] at h
    repeat' split at h
    all_goals first
      | (cases h; done)
      | (cases h; exact ⟨_, rfl⟩)
  | _ => cases h

/-! ### Accounts -/

theorem getpwuid_eq {w : World} (hw : w.Sane) (i : Int) :
    getpwuid w i = match i with
      | .ofNat n => (match w.users.find? (·.uid == n) with | some e => .ok e | none => .error .keyError)
      | .negSucc _ => .error .keyError := by
  unfold getpwuid
  cases i with
  | ofNat n =>
    have : (fun e : PwEntry => ((e.uid : Int) == if Int.ofNat n = -1 then 4294967295 else Int.ofNat n)) = (fun e => e.uid == n) := by
      funext e
      rw [if_neg (by simp)]
      rw [Bool.eq_iff_iff, beq_iff_eq, beq_iff_eq]
      constructor
      · intro h; exact Int.ofNat.inj h
      · intro h; exact congrArg Int.ofNat h
    simp only [this]
    cases w.users.find? (fun e => e.uid == n) <;> rfl
  | negSucc n =>
    have : w.users.find? (fun e => ((e.uid : Int) == if Int.negSucc n = -1 then 4294967295 else Int.negSucc n)) = none := by
      rw [List.find?_eq_none]
      intro e he hh
      have := (hw.users e he).2.2.2.2.1
      unfold IdOk at this
      simp only [beq_iff_eq] at hh
      split at hh <;> omega
    rw [this]

theorem getgrgid_eq {w : World} (hw : w.Sane) (i : Int) :
    getgrgid w i = match i with
      | .ofNat n => (match w.groups.find? (·.gid == n) with | some e => .ok e | none => .error .keyError)
      | .negSucc _ => .error .keyError := by
  unfold getgrgid
  cases i with
  | ofNat n =>
    have : (fun e : GrEntry => ((e.gid : Int) == if Int.ofNat n = -1 then 4294967295 else Int.ofNat n)) = (fun e => e.gid == n) := by
      funext e
      rw [if_neg (by simp)]
      rw [Bool.eq_iff_iff, beq_iff_eq, beq_iff_eq]
      constructor
      · intro h; exact Int.ofNat.inj h
      · intro h; exact congrArg Int.ofNat h
    simp only [this]
    cases w.groups.find? (fun e => e.gid == n) <;> rfl
  | negSucc n =>
    have : w.groups.find? (fun e => ((e.gid : Int) == if Int.negSucc n = -1 then 4294967295 else Int.negSucc n)) = none := by
      rw [List.find?_eq_none]
      intro e he hh
      have := (hw.groups e he).2.2.2.1
      unfold IdOk at this
      simp only [beq_iff_eq] at hh
      split at hh <;> omega
    rw [this]

theorem DenotesUser.unique {w : World} {s : Str} {a b : PwEntry} (ha : DenotesUser w s a) (hb : DenotesUser w s b) : a = b := by
  rcases ha with ha | ⟨ha, n, hn, hna⟩ <;> rcases hb with hb | ⟨hb, m, hm, hmb⟩
  · rw [ha] at hb; exact Option.some.inj hb
  · rw [ha] at hb; cases hb
  · rw [ha] at hb; cases hb
  · rw [hn] at hm
    have : n = m := by have := Option.some.inj hm; omega
    subst this
    rw [hna] at hmb; exact Option.some.inj hmb

theorem DenotesGroup.unique {w : World} {s : Str} {a b : GrEntry} (ha : DenotesGroup w s a) (hb : DenotesGroup w s b) : a = b := by
  rcases ha with ha | ⟨ha, n, hn, hna⟩ <;> rcases hb with hb | ⟨hb, m, hm, hmb⟩
  · rw [ha] at hb; exact Option.some.inj hb
  · rw [ha] at hb; cases hb
  · rw [ha] at hb; cases hb
  · rw [hn] at hm
    have : n = m := by have := Option.some.inj hm; omega
    subst this
    rw [hna] at hmb; exact Option.some.inj hmb

/-- The lookup that all handlers use for users, as a function. -/
def findUser (w : World) (s : Str) : Option PwEntry :=
  match w.users.find? (·.name == s) with
  | some e => some e
  | none => match Py.parseInt 10 s with
    | some (.ofNat n) => w.users.find? (·.uid == n)
    | _ => none

def findGroup (w : World) (s : Str) : Option GrEntry :=
  match w.groups.find? (·.name == s) with
  | some e => some e
  | none => match Py.parseInt 10 s with
    | some (.ofNat n) => w.groups.find? (·.gid == n)
    | _ => none

theorem findUser_iff {w : World} {s : Str} {e : PwEntry} : findUser w s = some e ↔ DenotesUser w s e := by
  unfold findUser DenotesUser
  cases h : w.users.find? (·.name == s) with
  | some e' => simp
  | none =>
    simp only [false_or, true_and, reduceCtorEq]
    cases hp : Py.parseInt 10 s with
    | none => simp
    | some i =>
      cases i with
      | ofNat n =>
        simp only [Option.some.injEq]
        constructor
        · intro h; exact ⟨n, rfl, h⟩
        · rintro ⟨m, hm, h⟩
          have : n = m := Int.ofNat.inj hm
          exact this ▸ h
      | negSucc n =>
        simp only [Option.some.injEq, reduceCtorEq, false_iff, not_exists, not_and]
        intro m hm; cases hm

theorem findGroup_iff {w : World} {s : Str} {e : GrEntry} : findGroup w s = some e ↔ DenotesGroup w s e := by
  unfold findGroup DenotesGroup
  cases h : w.groups.find? (·.name == s) with
  | some e' => simp
  | none =>
    simp only [false_or, true_and, reduceCtorEq]
    cases hp : Py.parseInt 10 s with
    | none => simp
    | some i =>
      cases i with
      | ofNat n =>
        simp only [Option.some.injEq]
        constructor
        · intro h; exact ⟨n, rfl, h⟩
        · rintro ⟨m, hm, h⟩
          have : n = m := Int.ofNat.inj hm
          exact this ▸ h
      | negSucc n =>
        simp only [Option.some.injEq, reduceCtorEq, false_iff, not_exists, not_and]
        intro m hm; cases hm

theorem noNul_hasNul {s : Str} (h : NoNul s) : hasNul s = false := by
  cases hn : hasNul s with
  | false => rfl
  | true => exact absurd h (hasNul_iff.mp hn)

theorem handleResolveUser_eq {w : World} (hw : w.Sane) {u : Option Str} (hn : NoNul (u.getD (Py.natStr 10 w.uid))) :
    handleResolveUser u w = (match findUser w (u.getD (Py.natStr 10 w.uid)) with
      | some e => (.answer [] (.resolveResult e.name), w)
      | none => (.answer [] (.invalidField p!"user" p!"The user does not exist"), w)) := by
  unfold handleResolveUser getpwnam findUser
  simp only [noNul_hasNul hn]
  cases h : w.users.find? (·.name == u.getD (Py.natStr 10 w.uid)) with
  | some e => simp
  | none =>
    simp only [Bool.false_eq_true, if_false]
    cases hp : Py.parseInt 10 (u.getD (Py.natStr 10 w.uid)) with
    | none => rfl
    | some i =>
      simp only [getpwuid_eq hw]
      cases i with
      | ofNat n =>
        simp only
        cases w.users.find? (·.uid == n) <;> rfl
      | negSucc n => rfl

theorem handleResolveGroup_eq {w : World} (hw : w.Sane) {g : Option Str} (hn : NoNul (g.getD (Py.natStr 10 w.gid))) :
    handleResolveGroup g w = (match findGroup w (g.getD (Py.natStr 10 w.gid)) with
      | some e => (.answer [] (.resolveResult e.name), w)
      | none => (.answer [] (.invalidField p!"group" p!"The group does not exist"), w)) := by
  unfold handleResolveGroup getgrnam findGroup
  simp only [noNul_hasNul hn]
  cases h : w.groups.find? (·.name == g.getD (Py.natStr 10 w.gid)) with
  | some e => simp
  | none =>
    simp only [Bool.false_eq_true, if_false]
    cases hp : Py.parseInt 10 (g.getD (Py.natStr 10 w.gid)) with
    | none => rfl
    | some i =>
      simp only [getgrgid_eq hw]
      cases i with
      | ofNat n =>
        simp only
        cases w.groups.find? (·.gid == n) <;> rfl
      | negSucc n => rfl

theorem noNul_natStr (n : Nat) : NoNul (Py.natStr 10 n) := fun h0 => by
  have := Py.natStr_chars (b := 10) (by decide) (by decide) _ _ h0
  omega

theorem resolveUser_eq {w : World} (hw : w.Sane) (s : Str) :
    (∀ e, DenotesUser w s e → NoNul s → Remote.resolveUser w s = .ok (e.uid, e.gid))
    ∧ (∀ u g, Remote.resolveUser w s = .ok (u, g) → ∃ e, DenotesUser w s e ∧ u = e.uid ∧ g = e.gid)
    ∧ ((∀ e, ¬ DenotesUser w s e) → ∃ m, Remote.resolveUser w s = .error (.valueError m)) := by
  have key : hasNul s = false → Remote.resolveUser w s = (match findUser w s with
      | some e => .ok (e.uid, e.gid)
      | none => .error (.valueError (p!"The user with the name '" ++ s ++ p!"' does not exist."))) := by
    intro hn
    unfold Remote.resolveUser getpwnam findUser
    simp only [hn]
    cases h : w.users.find? (·.name == s) with
    | some e => simp
    | none =>
      simp only [Bool.false_eq_true, if_false]
      cases hp : Py.parseInt 10 s with
      | none => rfl
      | some i =>
        simp only [getpwuid_eq hw]
        cases i with
        | ofNat n =>
          simp only
          cases w.users.find? (·.uid == n) <;> rfl
        | negSucc n => rfl
  have hnul : hasNul s = true → Remote.resolveUser w s = .error nulError := by
    intro hn
    simp [Remote.resolveUser, getpwnam, hn, nulError]
  refine ⟨?_, ?_, ?_⟩
  · intro e he hn
    rw [key (noNul_hasNul hn), findUser_iff.mpr he]
  · intro u g h
    cases hn : hasNul s with
    | true => rw [hnul hn] at h; cases h
    | false =>
      rw [key hn] at h
      cases hf : findUser w s with
      | none => rw [hf] at h; cases h
      | some e => rw [hf] at h; cases h; exact ⟨e, findUser_iff.mp hf, rfl, rfl⟩
  · intro h
    cases hn : hasNul s with
    | true => exact ⟨_, hnul hn⟩
    | false =>
      rw [key hn]
      cases hf : findUser w s with
      | none => exact ⟨_, rfl⟩
      | some e => exact absurd (findUser_iff.mp hf) (h e)

theorem resolveGroup_eq {w : World} (hw : w.Sane) (s : Str) :
    (∀ e, DenotesGroup w s e → NoNul s → Remote.resolveGroup w s = .ok e.gid)
    ∧ (∀ g, Remote.resolveGroup w s = .ok g → ∃ e, DenotesGroup w s e ∧ g = e.gid)
    ∧ ((∀ e, ¬ DenotesGroup w s e) → ∃ m, Remote.resolveGroup w s = .error (.valueError m)) := by
  have key : hasNul s = false → Remote.resolveGroup w s = (match findGroup w s with
      | some e => .ok e.gid
      | none => .error (.valueError (p!"The group with the name '" ++ s ++ p!"' does not exist."))) := by
    intro hn
    unfold Remote.resolveGroup getgrnam findGroup
    simp only [hn]
    cases h : w.groups.find? (·.name == s) with
    | some e => simp
    | none =>
      simp only [Bool.false_eq_true, if_false]
      cases hp : Py.parseInt 10 s with
      | none => rfl
      | some i =>
        simp only [getgrgid_eq hw]
        cases i with
        | ofNat n =>
          simp only
          cases w.groups.find? (·.gid == n) <;> rfl
        | negSucc n => rfl
  have hnul : hasNul s = true → Remote.resolveGroup w s = .error nulError := by
    intro hn
    simp [Remote.resolveGroup, getgrnam, hn, nulError]
  refine ⟨?_, ?_, ?_⟩
  · intro e he hn
    rw [key (noNul_hasNul hn), findGroup_iff.mpr he]
  · intro g h
    cases hn : hasNul s with
    | true => rw [hnul hn] at h; cases h
    | false =>
      rw [key hn] at h
      cases hf : findGroup w s with
      | none => rw [hf] at h; cases h
      | some e => rw [hf] at h; cases h; exact ⟨e, findGroup_iff.mp hf, rfl⟩
  · intro h
    cases hn : hasNul s with
    | true => exact ⟨_, hnul hn⟩
    | false =>
      rw [key hn]
      cases hf : findGroup w s with
      | none => exact ⟨_, rfl⟩
      | some e => exact absurd (findGroup_iff.mp hf) (h e)

theorem find_name_self {w : World} {s : Str} {e : PwEntry} (h : DenotesUser w s e) : ∃ e', w.users.find? (·.name == e.name) = some e' ∧ e'.name = e.name ∧ e ∈ w.users := by
  have hm : e ∈ w.users := by
    rcases h with h | ⟨_, n, _, h⟩ <;> exact List.mem_of_find?_eq_some h
  cases hf : w.users.find? (·.name == e.name) with
  | none => exact absurd (List.find?_eq_none.mp hf e hm) (by simp)
  | some e' => exact ⟨e', rfl, by simpa using List.find?_some hf, hm⟩

theorem find_gname_self {w : World} {s : Str} {e : GrEntry} (h : DenotesGroup w s e) : ∃ e', w.groups.find? (·.name == e.name) = some e' ∧ e'.name = e.name ∧ e ∈ w.groups := by
  have hm : e ∈ w.groups := by
    rcases h with h | ⟨_, n, _, h⟩ <;> exact List.mem_of_find?_eq_some h
  cases hf : w.groups.find? (·.name == e.name) with
  | none => exact absurd (List.find?_eq_none.mp hf e hm) (by simp)
  | some e' => exact ⟨e', rfl, by simpa using List.find?_some hf, hm⟩

/-! ### Uploading -/

/-- The file before anything else: overwritten, or newly created. -/
def writtenNode (w : World) (l : Loc) (content : Bytes) : Node :=
  match w.fs l with
  | some n => { n with kind := .file content, mtime := w.clock, ctime := w.clock }
  | none => { kind := .file content, perm := 0o600, uid := w.uid, gid := inheritGid w.fs l w.gid, mtime := w.clock, ctime := w.clock }

def chmodNode (w : World) (mo : Option Int) (n : Node) : Node :=
  match mo with
  | none => n
  | some m => { n with perm := (m % 4096).toNat, ctime := w.clock }

def chownNode (w : World) (u g : Option Nat) (n : Node) : Node :=
  if u.isSome || g.isSome then { n with perm := chownPerm n, uid := u.getD 0, gid := g.getD 0, ctime := w.clock } else n

theorem writtenNode_kind (w : World) (l : Loc) (content : Bytes) : (writtenNode w l content).kind = .file content := by
  unfold writtenNode; split <;> rfl

theorem set_set (w : World) (l : Loc) (a b : Option Node) : (w.set l a).set l b = w.set l b := by
  simp only [World.set]
  congr 1
  funext q
  simp only [setNode]
  split <;> rfl

theorem osWrite_ok {sys : Sys} {w w1 : World} {file : Str} {content : Bytes}
    (ht : ∀ l n, lookup w.fs w.cwd file true = .ok (l, n) → ∃ c, n.kind = .file c)
    (h : osWrite sys w file content = (.ok (), w1)) :
    ∃ l, resolve w.fs w.cwd file true = .ok l ∧ w1 = w.set l (some (writtenNode w l content))
      ∧ lookup w1.fs w1.cwd file true = .ok (l, writtenNode w l content) := by
  unfold osWrite at h
  split at h
  · cases h
  · split at h
    · cases h
    · rename_i l hl
      split at h
      · rename_i hnone
        simp only at h
        split at h
        · cases h
        · cases h
          have hw : writtenNode w l content = { kind := .file content, perm := 0o600, uid := w.uid, gid := inheritGid w.fs l w.gid, mtime := w.clock, ctime := w.clock } := by
            simp only [writtenNode, hnone]
          refine ⟨l, hl, by rw [hw], ?_⟩
          rw [hw]
          refine lookup_of ?_ (setNode_same _ _ _)
          exact resolve_create hnone (fun _ t h => by cases h) hl
      · rename_i n hn
        obtain ⟨c, hc⟩ := ht l n (lookup_of hl hn)
        rw [hc] at h
        simp only at h
        split at h
        · cases h
        · cases h
          have hw : writtenNode w l content = { n with kind := .file content, mtime := w.clock, ctime := w.clock } := by
            simp only [writtenNode, hn]
          refine ⟨l, hl, by rw [hw], ?_⟩
          rw [hw]
          exact lookup_set (lookup_of hl hn) (by simp [shape, hc])

theorem osChmod_ok {sys : Sys} {w w1 : World} {file : Str} {m : Int} {l : Loc} {n : Node}
    (hl : lookup w.fs w.cwd file true = .ok (l, n)) (h : osChmod sys w file m = (.ok (), w1)) :
    w1 = w.set l (some { n with perm := (m % 4096).toNat, ctime := w.clock }) := by
  unfold osChmod at h
  split at h
  · cases h
  · split at h
    · cases h
    · simp only [hl] at h
      cases h
      rfl

theorem osChown_ok {sys : Sys} {w w1 : World} {file : Str} {u g : Nat} {l : Loc} {n : Node}
    (hl : lookup w.fs w.cwd file true = .ok (l, n)) (h : osChown sys w file u g = (.ok (), w1)) :
    w1 = w.set l (some { n with perm := chownPerm n, uid := u, gid := g, ctime := w.clock }) := by
  unfold osChown at h
  split at h
  · cases h
  · simp only [hl] at h
    cases h
    rfl

theorem doUpload_ok {sys : Sys} {w w' : World} {file : Str} {content : Bytes} {mo : Option Int} {u g : Option Nat} {raw : Bytes} {q : Packet}
    (ht : ∀ l n, lookup w.fs w.cwd file true = .ok (l, n) → ∃ c, n.kind = .file c)
    (h : doUpload sys file content mo u g w = (.answer raw q, w')) :
    ∃ l, resolve w.fs w.cwd file true = .ok l
      ∧ w' = w.set l (some (chownNode w u g (chmodNode w mo (writtenNode w l content))))
      ∧ lookup w'.fs w'.cwd file true = .ok (l, chownNode w u g (chmodNode w mo (writtenNode w l content))) := by
  unfold doUpload at h
  split at h
  · cases h
  · rename_i w1 h1
    obtain ⟨l, hl, rfl, hlk⟩ := osWrite_ok ht h1
    split at h
    · cases h
    · rename_i w2 h2
      have hw2 : w2 = w.set l (some (chmodNode w mo (writtenNode w l content)))
          ∧ lookup w2.fs w2.cwd file true = .ok (l, chmodNode w mo (writtenNode w l content)) := by
        cases mo with
        | none => cases h2; exact ⟨rfl, hlk⟩
        | some m =>
          have := osChmod_ok hlk h2
          subst this
          refine ⟨set_set _ _ _ _, ?_⟩
          rw [set_set]
          have := lookup_set hlk (n' := chmodNode w (some m) (writtenNode w l content)) (by simp [shape, chmodNode, writtenNode_kind])
          have hset : setNode (w.set l (some (writtenNode w l content))).fs l (some (chmodNode w (some m) (writtenNode w l content)))
              = (w.set l (some (chmodNode w (some m) (writtenNode w l content)))).fs := congrArg World.fs (set_set w l _ _)
          rw [hset] at this
          exact this
      obtain ⟨rfl, hlk2⟩ := hw2
      split at h
      · cases h
      · rename_i w3 h3
        cases h
        have hk : (chmodNode w mo (writtenNode w l content)).kind = .file content := by
          unfold chmodNode
          split <;> exact writtenNode_kind _ _ _
        refine ⟨l, hl, ?_⟩
        split at h3
        · rename_i hug
          have hcn : chownNode w u g (chmodNode w mo (writtenNode w l content)) =
              { chmodNode w mo (writtenNode w l content) with perm := chownPerm (chmodNode w mo (writtenNode w l content)), uid := u.getD 0, gid := g.getD 0, ctime := w.clock } := by
            unfold chownNode
            rw [if_pos hug]
          have := osChown_ok hlk2 h3
          subst this
          rw [set_set]
          have hwe : (w.set l (some (chmodNode w mo (writtenNode w l content)))).clock = w.clock := rfl
          rw [hwe, ← hcn]
          refine ⟨rfl, ?_⟩
          have := lookup_set hlk2 (n' := chownNode w u g (chmodNode w mo (writtenNode w l content))) (by rw [hcn]; simp [shape, hk])
          have hset : setNode (w.set l (some (chmodNode w mo (writtenNode w l content)))).fs l (some (chownNode w u g (chmodNode w mo (writtenNode w l content))))
              = (w.set l (some (chownNode w u g (chmodNode w mo (writtenNode w l content))))).fs := congrArg World.fs (set_set w l _ _)
          rw [hset] at this
          exact this
        · rename_i hug
          cases h3
          have hcn : chownNode w u g (chmodNode w mo (writtenNode w l content)) = chmodNode w mo (writtenNode w l content) := by
            unfold chownNode
            rw [if_neg hug]
          rw [hcn]
          exact ⟨rfl, hlk2⟩

/-- What a successful upload means: the arguments were resolved and the file was written. -/
theorem upload_ok {sys : Sys} {w w' : World} {file : Str} {content : Bytes} {mode owner group : Option Str}
    (h : (Connector.upload file content mode owner group).run (direct sys) w = (.ok (), w')) :
    ∃ mo ug g raw q, optional resolveOct mode = .ok mo ∧ optional (Remote.resolveUser w) owner = .ok ug
      ∧ optional (Remote.resolveGroup w) group = .ok g
      ∧ doUpload sys file content mo (ug.map (·.1)) (pickGid g ug) w = (.answer raw q, w') := by
  simp only [Connector.upload, Prog.run, direct, handle, handleUpload, invalid] at h
  cases hmo : optional resolveOct mode with
  | error e => rw [hmo] at h; cases h
  | ok mo =>
    cases hug : optional (Remote.resolveUser w) owner with
    | error e => rw [hmo, hug] at h; cases h
    | ok ug =>
      cases hg : optional (Remote.resolveGroup w) group with
      | error e => rw [hmo, hug, hg] at h; cases h
      | ok g =>
        simp only [hmo, hug, hg] at h
        refine ⟨mo, ug, g, ?_⟩
        cases hd : doUpload sys file content mo (ug.map (·.1)) (pickGid g ug) w with
        | mk r w1 =>
          rw [hd] at h
          cases r with
          | answer raw q => exact ⟨raw, q, rfl, rfl, rfl, by rw [Prod.ext_iff] at h; exact congrArg _ h.2⟩
          | close => cases h
          | raise e =>
            exfalso
            cases e with
            | osError n s m => cases n <;> cases h
            | _ => cases h

/-- What an upload leaves unchanged, whether it succeeds or fails. -/
theorem osWrite_frame {sys : Sys} {w : World} {file : Str} {content : Bytes} {r : Except Exn PUnit} {w1 : World}
    (h : osWrite sys w file content = (r, w1)) :
    w1 = w ∨ ∃ l n, resolve w.fs w.cwd file true = .ok l ∧ w1 = w.set l (some n)
      ∧ ((w.fs l = none ∧ ∀ t, n.kind ≠ .link t) ∨ shape (some n) = shape (w.fs l)) := by
  unfold osWrite at h
  split at h
  · cases h; exact .inl rfl
  · split at h
    · cases h; exact .inl rfl
    · rename_i l hl
      split at h
      · rename_i hnone
        simp only at h
        split at h <;> (cases h; exact .inr ⟨l, _, hl, rfl, .inl ⟨hnone, fun t ht => by cases ht⟩⟩)
      · rename_i n hn
        split at h
        · cases h; exact .inl rfl
        · rename_i c hc
          simp only at h
          split at h <;> (cases h; exact .inr ⟨l, _, hl, rfl, .inr (by simp [shape, hn, hc])⟩)
        · split at h <;> (cases h; exact .inl rfl)

end Verif.Client

namespace Verif.Client

open Wire (Packet Kind encoding)
open Remote

/-! ### Programs -/

theorem Prog.All.bind {α β : Type} {P : Packet → Prop} {m : Prog α} {f : α → Prog β} (hm : m.All P) (hf : ∀ a, (f a).All P) :
    (m >>= f).All P := by
  induction hm with
  | ret a => exact hf a
  | req p k hp _ ih => exact .req p _ hp ih

theorem Prog.All.pure {α : Type} {P : Packet → Prop} (a : α) : (Pure.pure a : Prog α).All P := .ret a

/-- A connector call sends exactly one request. -/
theorem Prog.All.one {α : Type} {P : Packet → Prop} {p : Packet} {g : Except Exn Packet → α} (h : P p) :
    (Prog.req p fun r => .ret (g r)).All P := .req _ _ h fun _ => .ret _

theorem Prog.run_bind {α β σ : Type} (remote : Packet → σ → Except Exn Packet × σ) (m : Prog α) (f : α → Prog β) (s : σ) :
    (m >>= f).run remote s = (f (m.run remote s).1).run remote (m.run remote s).2 := by
  induction m generalizing s with
  | ret a => rfl
  | req p k ih => exact ih _ _

end Verif.Client

namespace Verif.Client

open Wire (Packet Kind encoding)
open Remote

/-! ### Running commands -/

/-- Everything `handleRun` does before the program is executed. -/
def plan (sys : Sys) (command : List Str) (stdin : Option Bytes) (capture : Bool) (user group umask cwd : Option Str) (w : World) :
    Except Reply Proc :=
  match Remote.optional resolveOct umask with
  | .error e => .error (invalid p!"umask" e)
  | .ok umaskOct =>
    match Remote.optional (Remote.resolveUser w) user with
    | .error e => .error (invalid p!"user" e)
    | .ok ug =>
      match Remote.optional (Remote.resolveGroup w) group with
      | .error e => .error (invalid p!"group" e)
      | .ok g =>
        if cwd.any (fun c => !osIsdir sys w c) then
          .error (.answer [] (.invalidField p!"cwd" p!"The directory does not exist"))
        else
          match command with
          | [] => .error (.raise .indexError)
          | arg0 :: args =>
            if (arg0 :: args).any hasNul then .error (.raise nulError)
            else
              match startChild sys w cwd (umaskOct.getD 0o077) (ug.map (·.1)) (pickGid g ug) with
              | .error (.subprocessError m) => .error (.answer [] (.processError m))
              | .error e => .error (.raise e)
              | .ok (um, u, gi, dir) =>
                .ok { argv := arg0 :: args, stdin := stdin, capture := capture, uid := u, gid := gi, supp := w.supp, umask := um, cwd := dir }

/-- What `handleRun` makes of the result of the program. -/
def finish (capture : Bool) (w : World) : ExecRes × World → Reply × World
  | (.failed e, _) => (.raise e.exn, w)
  | (.done out err code, w') =>
    if capture then (.answer [] (.processCompleted (some out) (some err) code), w')
    else (.answer out (.processCompleted none none code), w')

theorem handleRun_eq (sys : Sys) (command : List Str) (stdin : Option Bytes) (capture : Bool) (user group umask cwd : Option Str)
    (w : World) :
    handleRun sys command stdin capture user group umask cwd w =
      match plan sys command stdin capture user group umask cwd w with
      | .error r => (r, w)
      | .ok proc => finish capture w (sys.exec proc { w with started := proc :: w.started }) := by
  unfold handleRun plan
  cases Remote.optional resolveOct umask with
  | error e => rfl
  | ok um =>
    cases Remote.optional (Remote.resolveUser w) user with
    | error e => rfl
    | ok ug =>
      cases Remote.optional (Remote.resolveGroup w) group with
      | error e => rfl
      | ok g =>
        simp only
        split
        · rfl
        · cases command with
          | nil => rfl
          | cons arg0 args =>
            simp only
            split
            · rfl
            · cases startChild sys w cwd (um.getD 0o077) (ug.map (·.1)) (pickGid g ug) with
              | error e => cases e <;> rfl
              | ok x =>
                obtain ⟨a, b, c, d⟩ := x
                simp only
                cases sys.exec _ _ with
                | mk r w' => cases r <;> rfl

/-- What `run` returns when the program was executed. -/
def delivered (check capture : Bool) (out err : Bytes) (code : Int) : Except Exn Completed :=
  let o := if capture then some out else none
  let e := if capture then some err else none
  if check && code != 0 then .error (.calledProcessError code o e) else .ok { stdout := o, stderr := e, returncode := code }

/-- What `run` returns when the program was not executed. -/
def refused (p : Packet) : Reply → Except Exn Completed
  | .answer _ (.processError m) => .error (.valueError m)
  | .answer _ q => match unpackResponse p q with
    | .error e => .error e
    | .ok _ => .error unexpectedResponse
  | .raise (.osError (some n) s m) => .error (.remoteOSError n s m)
  | _ => .error lostConnection

theorem plan_error {sys : Sys} {command : List Str} {stdin : Option Bytes} {capture : Bool} {user group umask cwd : Option Str}
    {w : World} {r : Reply} (h : plan sys command stdin capture user group umask cwd w = .error r) :
    (∃ f m, r = .answer [] (.invalidField f m)) ∨ (∃ m, r = .answer [] (.processError m)) ∨ ∃ e, r = .raise e := by
  unfold plan at h
  repeat' split at h
  all_goals first
    | (cases h; done)
    | (cases h; exact .inl ⟨_, _, rfl⟩)
    | (cases h; exact .inr (.inl ⟨_, rfl⟩))
    | (cases h; exact .inr (.inr ⟨_, rfl⟩))

theorem run_eq (sys : Sys) (command : List Str) (stdin : Option Bytes) (capture check : Bool) (user group umask cwd : Option Str)
    (w : World) :
    (Connector.run command stdin capture check user group umask cwd).run (direct sys) w =
      match plan sys command stdin capture user group umask cwd w with
      | .error r => (refused (.processRun command stdin capture user group umask cwd) r, w)
      | .ok proc =>
        match sys.exec proc { w with started := proc :: w.started } with
        | (.failed e, _) => (.error (.remoteOSError e.errno e.strerror e.msg), w)
        | (.done out err code, w') => (delivered check capture out err code, w') := by
  simp only [Connector.run, Prog.run, direct, handle, handleRun_eq]
  cases hp : plan sys command stdin capture user group umask cwd w with
  | error r =>
    rcases plan_error hp with ⟨f, m, rfl⟩ | ⟨m, rfl⟩ | ⟨e, rfl⟩
    · simp only [unpackResponse, refused]
      cases Packet.getattr _ f <;> rfl
    · rfl
    · cases e with
      | osError n s m => cases n <;> rfl
      | _ => rfl
  | ok proc =>
    simp only
    cases sys.exec proc { w with started := proc :: w.started } with
    | mk r w' =>
      cases r with
      | failed e => rfl
      | done out err code => cases capture <;> rfl

/-- The directory that was asked for. -/
def InDir (w : World) (cwd : Option Str) (d : Loc) : Prop :=
  match cwd with
  | none => d = w.cwd
  | some c => ∃ n, lookup w.fs w.cwd c true = .ok (d, n) ∧ n.kind = .dir

theorem startChild_ok {sys : Sys} {w : World} {cwd : Option Str} {um : Int} {uid gid : Option Nat} {a b c : Nat} {d : Loc}
    (hcwd : ∀ c ∈ cwd, isAbs c = true) (hs : startChild sys w cwd um uid gid = .ok (a, b, c, d)) :
    a = (um % 512).toNat ∧ b = uid.getD w.uid ∧ c = gid.getD w.gid ∧ InDir w cwd d := by
  unfold startChild at hs
  split at hs
  · cases hs
  · split at hs
    · cases hs
    · split at hs
      · cases hs
      · split at hs
        · cases hs
        · cases cwd with
          | none => cases hs; exact ⟨rfl, rfl, rfl, rfl⟩
          | some p =>
            simp only at hs
            split at hs
            · cases hs
            · rename_i d' hd
              cases hs
              refine ⟨rfl, rfl, rfl, ?_⟩
              unfold osChdir at hd
              split at hd
              · cases hd
              · split at hd
                · cases hd
                · rename_i l n hl
                  split at hd
                  · rename_i hk
                    cases hd
                    refine ⟨n, ?_, hk⟩
                    have habs := hcwd p rfl
                    unfold lookup resolve at hl ⊢
                    rw [habs] at hl ⊢
                    exact hl
                  · cases hd

/-- The process that is planned is the one that was requested. -/
theorem plan_ok {sys : Sys} {command : List Str} {stdin : Option Bytes} {capture : Bool} {user group umask cwd : Option Str}
    {w : World} {proc : Proc} (hw : w.Sane) (hcwd : ∀ c ∈ cwd, isAbs c = true)
    (h : plan sys command stdin capture user group umask cwd w = .ok proc) :
    Requested w command stdin capture user group umask cwd proc ∧ proc.supp = w.supp := by
  unfold plan at h
  cases hu : Remote.optional resolveOct umask with
  | error e => rw [hu] at h; cases h
  | ok um =>
    cases hus : Remote.optional (Remote.resolveUser w) user with
    | error e => rw [hu, hus] at h; cases h
    | ok ug =>
      cases hg : Remote.optional (Remote.resolveGroup w) group with
      | error e => rw [hu, hus, hg] at h; cases h
      | ok g =>
        simp only [hu, hus, hg] at h
        split at h
        · cases h
        · cases command with
          | nil => cases h
          | cons arg0 args =>
            simp only at h
            split at h
            · cases h
            · cases hs : startChild sys w cwd (um.getD 0o077) (ug.map (·.1)) (pickGid g ug) with
              | error e => rw [hs] at h; cases e <;> cases h
              | ok x =>
                obtain ⟨a, b, c, d⟩ := x
                rw [hs] at h
                cases h
                have hids := startChild_ok hcwd hs
                obtain ⟨rfl, rfl, rfl, hd⟩ := hids
                refine ⟨⟨rfl, rfl, rfl, ?_, ?_, ?_, by cases cwd <;> exact hd⟩, rfl⟩
                · cases user with
                  | none => cases hus; rfl
                  | some u =>
                    simp only [Remote.optional] at hus
                    cases hr : Remote.resolveUser w u with
                    | error e => rw [hr] at hus; cases hus
                    | ok x =>
                      rw [hr] at hus; cases hus
                      obtain ⟨e, he, h1, h2⟩ := (resolveUser_eq hw u).2.1 x.1 x.2 hr
                      exact ⟨e, he, h1⟩
                · cases group with
                  | some gn =>
                    simp only [Remote.optional] at hg
                    cases hr : Remote.resolveGroup w gn with
                    | error e => rw [hr] at hg; cases hg
                    | ok x =>
                      rw [hr] at hg; cases hg
                      obtain ⟨e, he, h1⟩ := (resolveGroup_eq hw gn).2.1 x hr
                      exact ⟨e, he, h1⟩
                  | none =>
                    cases hg
                    cases user with
                    | none => cases hus; rfl
                    | some u =>
                      simp only [Remote.optional] at hus
                      cases hr : Remote.resolveUser w u with
                      | error e => rw [hr] at hus; cases hus
                      | ok x =>
                        rw [hr] at hus; cases hus
                        obtain ⟨e, he, h1, h2⟩ := (resolveUser_eq hw u).2.1 x.1 x.2 hr
                        exact ⟨e, he, h2⟩
                · cases umask with
                  | none => cases hu; rfl
                  | some m =>
                    simp only [Remote.optional, resolveOct] at hu
                    cases hr : Py.parseInt 8 m with
                    | none => rw [hr] at hu; cases hu
                    | some i => rw [hr] at hu; cases hu; exact ⟨i, hr, rfl⟩

end Verif.Client

namespace Verif.Client

open Wire (Packet Kind encoding)
open Remote

/-! ### What an upload leaves alone -/

/-- Worlds that differ at most in what is at one place. -/
def OnlyAt (l : Loc) (w w' : World) : Prop := ∃ o, w' = w.set l o

theorem OnlyAt.refl (l : Loc) (w : World) : OnlyAt l w w := by
  refine ⟨w.fs l, ?_⟩
  unfold World.set
  have : setNode w.fs l (w.fs l) = w.fs := by
    funext q
    simp only [setNode]
    split
    · rename_i h; rw [h]
    · rfl
  rw [this]

theorem OnlyAt.trans {l : Loc} {w w' w'' : World} (h : OnlyAt l w w') (h' : OnlyAt l w' w'') : OnlyAt l w w'' := by
  obtain ⟨o, rfl⟩ := h
  obtain ⟨o', rfl⟩ := h'
  exact ⟨o', set_set _ _ _ _⟩

/-- The path still leads to the same place after the place was created or overwritten. -/
theorem osWrite_same_place {sys : Sys} {w w1 : World} {file : Str} {content : Bytes} {r : Except Exn PUnit}
    (h : osWrite sys w file content = (r, w1)) :
    (w1 = w ∨ ∃ l, resolve w.fs w.cwd file true = .ok l ∧ OnlyAt l w w1 ∧ resolve w1.fs w1.cwd file true = .ok l
      ∧ ∃ n, w1.fs l = some n) := by
  rcases osWrite_frame h with h | ⟨l, n, hl, rfl, hn⟩
  · exact .inl h
  · refine .inr ⟨l, hl, ⟨_, rfl⟩, ?_, n, setNode_same _ _ _⟩
    rcases hn with ⟨hnone, hk⟩ | hsh
    · exact resolve_create hnone (fun _ t ht => by exact absurd ht (hk t)) hl
    · have := resolve_set_shape hsh w.cwd file true
      exact this.trans hl

theorem osChmod_frame {sys : Sys} {w w1 : World} {file : Str} {m : Int} {r : Except Exn PUnit} {l : Loc}
    (hl : resolve w.fs w.cwd file true = .ok l) (h : osChmod sys w file m = (r, w1)) :
    OnlyAt l w w1 ∧ resolve w1.fs w1.cwd file true = .ok l := by
  unfold osChmod at h
  split at h
  · cases h; exact ⟨.refl _ _, hl⟩
  · split at h
    · cases h; exact ⟨.refl _ _, hl⟩
    · split at h
      · cases h; exact ⟨.refl _ _, hl⟩
      · rename_i l' n hn
        cases h
        obtain ⟨h1, h2⟩ := lookup_ok hn
        rw [hl] at h1
        cases h1
        refine ⟨⟨_, rfl⟩, ?_⟩
        have := resolve_set_shape (fs := w.fs) (l := l) (o := some { n with perm := (m % 4096).toNat, ctime := w.clock })
          (by rw [h2]; rfl) w.cwd file true
        exact this.trans hl

theorem osChown_frame {sys : Sys} {w w1 : World} {file : Str} {u g : Nat} {r : Except Exn PUnit} {l : Loc}
    (hl : resolve w.fs w.cwd file true = .ok l) (h : osChown sys w file u g = (r, w1)) : OnlyAt l w w1 := by
  unfold osChown at h
  split at h
  · cases h; exact .refl _ _
  · split at h
    · cases h; exact .refl _ _
    · rename_i l' n hn
      cases h
      obtain ⟨h1, h2⟩ := lookup_ok hn
      rw [hl] at h1
      cases h1
      exact ⟨_, rfl⟩

/-- An upload that ends in any way changes at most the place its path leads to. -/
theorem doUpload_frame (sys : Sys) (w : World) (file : Str) (content : Bytes) (mo : Option Int) (u g : Option Nat) :
    (doUpload sys file content mo u g w).2 = w
    ∨ ∃ l, resolve w.fs w.cwd file true = .ok l ∧ OnlyAt l w (doUpload sys file content mo u g w).2 := by
  by_cases hres : ∃ l, resolve w.fs w.cwd file true = .ok l
  · obtain ⟨l, hl⟩ := hres
    refine .inr ⟨l, hl, ?_⟩
    unfold doUpload
    cases h1 : osWrite sys w file content with
    | mk r1 w1 =>
      have hw1 : OnlyAt l w w1 ∧ resolve w1.fs w1.cwd file true = .ok l := by
        rcases osWrite_same_place h1 with rfl | ⟨l', hl', ho, hr, _⟩
        · exact ⟨.refl _ _, hl⟩
        · rw [hl] at hl'; cases hl'; exact ⟨ho, hr⟩
      cases r1 with
      | error e => exact hw1.1
      | ok _ =>
        simp only
        split
        · rename_i e w2 h2
          cases mo with
          | none => cases h2
          | some m => exact hw1.1.trans (osChmod_frame hw1.2 h2).1
        · rename_i w2 h2
          have hw2 : OnlyAt l w w2 ∧ resolve w2.fs w2.cwd file true = .ok l := by
            cases mo with
            | none => cases h2; exact hw1
            | some m => exact ⟨hw1.1.trans (osChmod_frame hw1.2 h2).1, (osChmod_frame hw1.2 h2).2⟩
          split
          · rename_i e w3 h3
            split at h3
            · exact hw2.1.trans (osChown_frame hw2.2 h3)
            · cases h3
          · rename_i w3 h3
            split at h3
            · exact hw2.1.trans (osChown_frame hw2.2 h3)
            · cases h3; exact hw2.1
  · -- the path leads nowhere: nothing is written
    left
    unfold doUpload
    cases h1 : osWrite sys w file content with
    | mk r1 w1 =>
      have hw1 : w1 = w ∧ ∃ e, r1 = .error e := by
        unfold osWrite at h1
        split at h1
        · cases h1; exact ⟨rfl, _, rfl⟩
        · split at h1
          · cases h1; exact ⟨rfl, _, rfl⟩
          · rename_i l hl
            exact absurd ⟨l, hl⟩ hres
      obtain ⟨rfl, e, rfl⟩ := hw1
      rfl

theorem direct_upload (sys : Sys) (w : World) (file : Str) (content : Bytes) (mode owner group : Option Str) :
    (∃ m, direct sys (.upload file content mode owner group) w = (.error (.valueError m), w)
      ∧ ((∃ e, Remote.optional resolveOct mode = .error e) ∨ (∃ e, Remote.optional (Remote.resolveUser w) owner = .error e)
        ∨ ∃ e, Remote.optional (Remote.resolveGroup w) group = .error e))
    ∨ ∃ mo ug g, Remote.optional resolveOct mode = .ok mo ∧ Remote.optional (Remote.resolveUser w) owner = .ok ug
      ∧ Remote.optional (Remote.resolveGroup w) group = .ok g
      ∧ handle sys (.upload file content mode owner group) w = doUpload sys file content mo (ug.map (·.1)) (pickGid g ug) w := by
  simp only [direct, handle, handleUpload, invalid]
  cases h1 : Remote.optional resolveOct mode with
  | error e => exact .inl ⟨_, rfl, .inl ⟨e, rfl⟩⟩
  | ok mo =>
    cases h2 : Remote.optional (Remote.resolveUser w) owner with
    | error e => exact .inl ⟨_, rfl, .inr (.inl ⟨e, rfl⟩)⟩
    | ok ug =>
      cases h3 : Remote.optional (Remote.resolveGroup w) group with
      | error e => exact .inl ⟨_, rfl, .inr (.inr ⟨e, rfl⟩)⟩
      | ok g => exact .inr ⟨mo, ug, g, rfl, rfl, rfl, rfl⟩

theorem direct_world (sys : Sys) (p : Packet) (w : World) : (direct sys p w).2 = (handle sys p w).2 := by
  unfold direct
  cases handle sys p w with
  | mk r w' =>
    cases r with
    | answer raw q => rfl
    | close => rfl
    | raise e =>
      cases e with
      | osError n s m => cases n <;> rfl
      | _ => rfl

theorem and_low {p : Nat} (k : Nat) (h : p < 2 ^ k) : p &&& (2 ^ k - 1) = p := by
  rw [Nat.and_two_pow_sub_one_eq_mod, Nat.mod_eq_of_lt h]

end Verif.Client

namespace Verif.Client

open Wire (Packet Kind encoding)
open Remote

/-- Once the arguments are accepted an upload does not end with a ValueError. -/
theorem doUpload_no_valueError {sys : Sys} {w : World} {p : Packet} {file : Str} {content : Bytes} {mo : Option Int} {u g : Option Nat}
    (hh : handle sys p w = doUpload sys file content mo u g w) (m : Str) (w' : World) : direct sys p w ≠ (.error (.valueError m), w') := by
  intro h
  simp only [direct, hh] at h
  have hk : ∀ r, (doUpload sys file content mo u g w).1 = r → r = .answer [] .ok ∨ ∃ e, r = .raise e := by
    intro r hr
    subst hr
    unfold doUpload
    repeat' split
    all_goals first | exact .inl rfl | exact .inr ⟨_, rfl⟩
  revert h hk
  cases doUpload sys file content mo u g w with
  | mk r w1 =>
    intro h hk
    rcases hk r rfl with rfl | ⟨e, rfl⟩
    · cases h
    · cases e with
      | osError n s m => cases n <;> cases h
      | _ => cases h

theorem upload_run_error {sys : Sys} {w w' : World} {file : Str} {content : Bytes} {mode owner group : Option Str} {m : Str} :
    (Connector.upload file content mode owner group).run (direct sys) w = (.error (.valueError m), w')
      ↔ direct sys (.upload file content mode owner group) w = (.error (.valueError m), w') := by
  simp only [Connector.upload, Prog.run]
  cases direct sys (.upload file content mode owner group) w with
  | mk r w1 =>
    cases r with
    | error e => simp
    | ok q => cases q <;> simp [unexpectedResponse]

end Verif.Client
