/-
Lemmas about entering defaults contexts.
-/
import Verif.Script.Lemmas
import Verif.Client.AccountProps
import Verif.Client.FileProps

namespace Verif.Script

open Client (Prog direct)
open Remote
open Wire (Packet)

/-- What the dispatcher answers to a request to resolve a user. -/
theorem resolveUser_ok {sys : Sys} {w w' : World} (hw : w.Sane) {u y : Str}
    (h : (Client.Connector.resolveUser (some u)).run (direct sys) w = (.ok y, w')) : w' = w ∧ ∃ e, DenotesUser w u e ∧ y = e.name := by
  have hn : NoNul u := by
    by_cases hn : NoNul u
    · exact hn
    · exfalso
      have := hasNul_iff.mpr hn
      simp [Client.Connector.resolveUser, Prog.run, direct, handle, handleResolveUser, getpwnam, this, nulError] at h
  rw [Client.resolveUser_run hw sys (u := some u) hn] at h
  cases hf : Client.findUser w ((some u).getD (Py.natStr 10 w.uid)) with
  | none => rw [hf] at h; cases h
  | some e => rw [hf] at h; cases h; exact ⟨rfl, e, Client.findUser_iff.mp hf, rfl⟩

theorem resolveGroup_ok {sys : Sys} {w w' : World} (hw : w.Sane) {u y : Str}
    (h : (Client.Connector.resolveGroup (some u)).run (direct sys) w = (.ok y, w')) : w' = w ∧ ∃ e, DenotesGroup w u e ∧ y = e.name := by
  have hn : NoNul u := by
    by_cases hn : NoNul u
    · exact hn
    · exfalso
      have := hasNul_iff.mpr hn
      simp [Client.Connector.resolveGroup, Prog.run, direct, handle, handleResolveGroup, getgrnam, this, nulError] at h
  rw [Client.resolveGroup_run hw sys (u := some u) hn] at h
  cases hf : Client.findGroup w ((some u).getD (Py.natStr 10 w.gid)) with
  | none => rw [hf] at h; cases h
  | some e => rw [hf] at h; cases h; exact ⟨rfl, e, Client.findGroup_iff.mp hf, rfl⟩

/-- The resolved value of a user setting: nothing if nothing is set, otherwise the name of the account that is meant. -/
def UserValue (w : World) (given actual : Option Str) : Prop :=
  match given with
  | none => actual = none
  | some u => ∃ e, DenotesUser w u e ∧ actual = some e.name

def GroupValue (w : World) (given actual : Option Str) : Prop :=
  match given with
  | none => actual = none
  | some g => ∃ e, DenotesGroup w g e ∧ actual = some e.name

section
variable {sys : Sys} {env : Env} {st st' : St} {w w' : World}

theorem mapOpt_user_ok (hw : w.Sane) {x y : Option Str}
    (h : exec (direct sys) (mapOpt Connection.resolveUser x) env st w = ((.ok y, st'), w')) : st' = st ∧ w' = w ∧ UserValue w x y := by
  cases x with
  | none => cases h; exact ⟨rfl, rfl, rfl⟩
  | some u =>
    obtain ⟨a, st1, w1, h1, h2⟩ := exec_bind_ok.mp h
    cases h2
    simp only [Connection.resolveUser, exec_call] at h1
    cases hr : (Client.Connector.resolveUser (some u)).run (direct sys) w with
    | mk r w2 =>
      rw [hr] at h1
      cases h1
      obtain ⟨rfl, e, he, rfl⟩ := resolveUser_ok hw hr
      exact ⟨rfl, rfl, e, he, rfl⟩

theorem mapOpt_group_ok (hw : w.Sane) {x y : Option Str}
    (h : exec (direct sys) (mapOpt Connection.resolveGroup x) env st w = ((.ok y, st'), w')) : st' = st ∧ w' = w ∧ GroupValue w x y := by
  cases x with
  | none => cases h; exact ⟨rfl, rfl, rfl⟩
  | some u =>
    obtain ⟨a, st1, w1, h1, h2⟩ := exec_bind_ok.mp h
    cases h2
    simp only [Connection.resolveGroup, exec_call] at h1
    cases hr : (Client.Connector.resolveGroup (some u)).run (direct sys) w with
    | mk r w2 =>
      rw [hr] at h1
      cases h1
      obtain ⟨rfl, e, he, rfl⟩ := resolveGroup_ok hw hr
      exact ⟨rfl, rfl, e, he, rfl⟩

theorem stat_world (path : Str) (a b : Bool) : ((Client.Connector.stat path a b).run (direct sys) w).2 = w :=
  (Client.C15_api sys w path none a b).1

theorem checkCwd_ok {c : Option Str} {u : Unit} (h : exec (direct sys) (checkCwd c) env st w = ((.ok u, st'), w')) : st' = st ∧ w' = w := by
  unfold checkCwd at h
  split at h
  · cases h; exact ⟨rfl, rfl⟩
  · cases h; exact ⟨rfl, rfl⟩
  · next c _ =>
    obtain ⟨a, st1, w1, h1, h2⟩ := exec_bind_ok.mp h
    have hs := stat_world (sys := sys) (w := w) c false false
    simp only [Connection.stat, exec_call] at h1
    simp only [Prod.mk.injEq] at h1
    obtain ⟨⟨_, rfl⟩, rfl⟩ := h1
    rw [hs] at h2
    cases a with
    | none => cases h2
    | some s =>
      simp only at h2
      split at h2
      · cases h2
      · cases h2; exact ⟨rfl, rfl⟩

theorem currentDefaults_ok {σ : Type} {remote : Packet → σ → Except Exn Packet × σ} {w w' : σ} {s : Settings}
    (h : exec remote currentDefaults env st w = ((.ok s, st'), w')) : st' = st ∧ w' = w ∧ ∃ r, st.stack = s :: r := by
  simp only [exec, currentDefaults] at h
  split at h
  · cases h
  · next s' r hs => cases h; exact ⟨rfl, rfl, r, hs⟩

/-- The effect of resolving settings. -/
structure Resolved (w : World) (n s : Settings) : Prop where
  asUser : UserValue w n.asUser s.asUser
  asGroup : GroupValue w n.asGroup s.asGroup
  owner : UserValue w n.owner s.owner
  group : GroupValue w n.group s.group
  fileMode : s.fileMode = n.fileMode
  dirMode : s.dirMode = n.dirMode
  umask : s.umask = n.umask
  cwd : s.cwd = n.cwd
  fileOct : ∃ m i, n.fileMode = some m ∧ Py.parseInt 8 m = some i
  dirOct : ∃ m i, n.dirMode = some m ∧ Py.parseInt 8 m = some i
  umaskOct : ∃ m i, n.umask = some m ∧ Py.parseInt 8 m = some i

theorem checkMask_ok {m : Option Str} {n : Str} {u : Unit} (h : checkMask m n = .ok u) : ∃ x i, m = some x ∧ Py.parseInt 8 x = some i := by
  unfold checkMask at h
  split at h
  · cases h
  · split at h
    · cases h
    · next i hi => exact ⟨_, i, rfl, hi⟩

theorem exec_ofExcept_ok {σ α : Type} {remote : Packet → σ → Except Exn Packet × σ} {w w' : σ} {x : Except Exn α} {a : α}
    (h : exec remote (Op.ofExcept x) env st w = ((.ok a, st'), w')) : x = .ok a ∧ st' = st ∧ w' = w := by
  rw [exec_ofExcept] at h
  cases h
  exact ⟨rfl, rfl, rfl⟩

theorem resolveDefaults_ok (hw : w.Sane) {s r : Settings}
    (h : exec (direct sys) (resolveDefaults s) env st w = ((.ok r, st'), w')) :
    st' = st ∧ w' = w ∧ ∃ c rest, st.stack = c :: rest ∧ Resolved w (c.overlay s) r := by
  unfold resolveDefaults at h
  obtain ⟨c, st1, w1, j1, k1⟩ := exec_bind_ok.mp h
  obtain ⟨rfl, rfl, rest, hs⟩ := currentDefaults_ok j1
  obtain ⟨x1, st2, w2, j2, k2⟩ := exec_bind_ok.mp k1
  obtain ⟨rfl, rfl, v1⟩ := mapOpt_user_ok hw j2
  obtain ⟨x2, st3, w3, j3, k3⟩ := exec_bind_ok.mp k2
  obtain ⟨rfl, rfl, v2⟩ := mapOpt_group_ok hw j3
  obtain ⟨x3, st4, w4, j4, k4⟩ := exec_bind_ok.mp k3
  obtain ⟨rfl, rfl, v3⟩ := mapOpt_user_ok hw j4
  obtain ⟨x4, st5, w5, j5, k5⟩ := exec_bind_ok.mp k4
  obtain ⟨rfl, rfl, v4⟩ := mapOpt_group_ok hw j5
  obtain ⟨x5, st6, w6, j6, k6⟩ := exec_bind_ok.mp k5
  obtain ⟨m1, rfl, rfl⟩ := exec_ofExcept_ok j6
  obtain ⟨x6, st7, w7, j7, k7⟩ := exec_bind_ok.mp k6
  obtain ⟨m2, rfl, rfl⟩ := exec_ofExcept_ok j7
  obtain ⟨x7, st8, w8, j8, k8⟩ := exec_bind_ok.mp k7
  obtain ⟨m3, rfl, rfl⟩ := exec_ofExcept_ok j8
  obtain ⟨x8, st9, w9, j9, k9⟩ := exec_bind_ok.mp k8
  obtain ⟨rfl, rfl⟩ := checkCwd_ok j9
  cases k9
  exact ⟨rfl, rfl, c, rest, hs, v1, v2, v3, v4, rfl, rfl, rfl, rfl, checkMask_ok m1, checkMask_ok m2, checkMask_ok m3⟩

theorem pick_absorb (b c r : Option Str) : pick c (pick (pick b c) r) = pick (pick b c) r := by
  cases r <;> cases c <;> cases b <;> rfl

theorem overlay_absorb (b c r : Settings) : c.overlay ((b.overlay c).overlay r) = (b.overlay c).overlay r := by
  simp only [Settings.overlay, pick_absorb]

theorem canonicalizeMode_ok {m c : Option Str} (h : canonicalizeMode m = .ok c) :
    c = m.bind fun m => (Py.parseInt 8 m).map Client.octStr := by
  unfold canonicalizeMode at h
  split at h
  · cases h; rfl
  · split at h
    · cases h
    · next i hi => cases h; simp [hi]

/-- Entering a context successfully and executing its body. -/
theorem withDefaults_ok {α : Type} (hw : w.Sane) {q : Settings} {body : Settings → Op α} {a : α}
    (h : exec (direct sys) (withDefaults q body) env st w = ((.ok a, st'), w')) :
    ∃ q' c rest r st2, canonicalize q = .ok q' ∧ st.stack = c :: rest ∧ Resolved w ((env.base.overlay c).overlay q') r
      ∧ exec (direct sys) (body (env.base.overlay r)) env { st with stack := r :: st.stack } w = ((.ok a, st2), w')
      ∧ st' = { st2 with stack := st2.stack.tail } := by
  unfold withDefaults at h
  obtain ⟨q', st1, w1, j1, k1⟩ := exec_bind_ok.mp h
  obtain ⟨hq, rfl, rfl⟩ := exec_ofExcept_ok j1
  obtain ⟨x1, st2, w2, j2, k2⟩ := exec_bind_ok.mp k1
  cases j2
  obtain ⟨c, st3, w3, j3, k3⟩ := exec_bind_ok.mp k2
  obtain ⟨rfl, rfl, rest, hs⟩ := currentDefaults_ok j3
  obtain ⟨r, st4, w4, j4, k4⟩ := exec_bind_ok.mp k3
  obtain ⟨rfl, rfl, c', rest', hs', hr⟩ := resolveDefaults_ok hw j4
  rw [hs] at hs'
  cases hs'
  rw [overlay_absorb] at hr
  obtain ⟨x2, st5, w5, j5, k5⟩ := exec_bind_ok.mp k4
  cases j5
  rw [exec_finally] at k5
  generalize hb : exec (direct sys) (body _) env _ _ = y at k5
  obtain ⟨⟨y1, st6⟩, w6⟩ := y
  simp only [Prod.mk.injEq] at k5
  obtain ⟨⟨rfl, rfl⟩, rfl⟩ := k5
  exact ⟨q', c, rest, r, st6, hq, hs, hr, hb, rfl⟩

theorem canonicalize_ok {q q' : Settings} (h : canonicalize q = .ok q') :
    q' = { q with fileMode := q.fileMode.bind fun m => (Py.parseInt 8 m).map Client.octStr,
                  dirMode := q.dirMode.bind fun m => (Py.parseInt 8 m).map Client.octStr,
                  umask := q.umask.bind fun m => (Py.parseInt 8 m).map Client.octStr } := by
  unfold canonicalize at h
  split at h
  · cases h
  · next a ha =>
    split at h
    · cases h
    · next b hb =>
      split at h
      · cases h
      · next c hc =>
        cases h
        simp only [← canonicalizeMode_ok ha, ← canonicalizeMode_ok hb, ← canonicalizeMode_ok hc]

theorem denotes_name {s : Str} {e e' : PwEntry} (h : DenotesUser w s e) (h' : DenotesUser w e.name e') : e'.name = e.name := by
  obtain ⟨a, h1, h2, _⟩ := Client.find_name_self h
  rcases h' with h' | ⟨h', _⟩
  · rw [h1] at h'; cases h'; exact h2
  · rw [h1] at h'; cases h'

theorem denotes_gname {s : Str} {e e' : GrEntry} (h : DenotesGroup w s e) (h' : DenotesGroup w e.name e') : e'.name = e.name := by
  obtain ⟨a, h1, h2, _⟩ := Client.find_gname_self h
  rcases h' with h' | ⟨h', _⟩
  · rw [h1] at h'; cases h'; exact h2
  · rw [h1] at h'; cases h'

theorem UserValue.step {base g q cur r : Option Str} (hb : pick base g = g) (h1 : UserValue w g cur)
    (h2 : UserValue w (pick (pick base cur) q) r) : UserValue w (pick g q) r := by
  cases q with
  | some q => exact h2
  | none =>
    cases g with
    | none =>
      cases h1
      cases base with
      | none => exact h2
      | some b => cases hb
    | some x =>
      obtain ⟨e, he, rfl⟩ := h1
      obtain ⟨e', he', rfl⟩ := h2
      exact ⟨e, he, by rw [denotes_name he he']⟩

theorem GroupValue.step {base g q cur r : Option Str} (hb : pick base g = g) (h1 : GroupValue w g cur)
    (h2 : GroupValue w (pick (pick base cur) q) r) : GroupValue w (pick g q) r := by
  cases q with
  | some q => exact h2
  | none =>
    cases g with
    | none =>
      cases h1
      cases base with
      | none => exact h2
      | some b => cases hb
    | some x =>
      obtain ⟨e, he, rfl⟩ := h1
      obtain ⟨e', he', rfl⟩ := h2
      exact ⟨e, he, by rw [denotes_gname he he']⟩

theorem Resolved.step {base g q cur r : Settings} (hb : base.overlay g = g) (h1 : Resolved w g cur)
    (h2 : Resolved w ((base.overlay cur).overlay q) r) : Resolved w (g.overlay q) r := by
  have hb' := hb
  rw [show g = ⟨g.asUser, g.asGroup, g.owner, g.group, g.fileMode, g.dirMode, g.umask, g.cwd⟩ from rfl] at hb'
  simp only [Settings.overlay, Settings.mk.injEq] at hb'
  obtain ⟨b1, b2, b3, b4, b5, b6, b7, b8⟩ := hb'
  have e5 : (g.overlay q).fileMode = ((base.overlay cur).overlay q).fileMode := by
    simp only [Settings.overlay, h1.fileMode, b5]
  have e6 : (g.overlay q).dirMode = ((base.overlay cur).overlay q).dirMode := by
    simp only [Settings.overlay, h1.dirMode, b6]
  have e7 : (g.overlay q).umask = ((base.overlay cur).overlay q).umask := by
    simp only [Settings.overlay, h1.umask, b7]
  exact {
    asUser := h1.asUser.step b1 h2.asUser
    asGroup := h1.asGroup.step b2 h2.asGroup
    owner := h1.owner.step b3 h2.owner
    group := h1.group.step b4 h2.group
    fileMode := by rw [h2.fileMode, e5]
    dirMode := by rw [h2.dirMode, e6]
    umask := by rw [h2.umask, e7]
    cwd := by rw [h2.cwd]; simp only [Settings.overlay, h1.cwd, b8]
    fileOct := by rw [e5]; exact h2.fileOct
    dirOct := by rw [e6]; exact h2.dirOct
    umaskOct := by rw [e7]; exact h2.umaskOct }

/-- Settings with canonical modes. -/
def canonicalModes (q : Settings) : Settings :=
  { q with fileMode := q.fileMode.bind fun m => (Py.parseInt 8 m).map Client.octStr,
           dirMode := q.dirMode.bind fun m => (Py.parseInt 8 m).map Client.octStr,
           umask := q.umask.bind fun m => (Py.parseInt 8 m).map Client.octStr }

theorem pick_foldl (f : Settings → Option Str) (x : Option Str) (l : List Settings) :
    l.foldl (fun g q => pick g (f q)) x = pick x (l.reverse.findSome? f) := by
  induction l generalizing x with
  | nil => rfl
  | cons q l ih =>
    rw [List.foldl_cons, ih, List.reverse_cons, List.findSome?_append]
    cases l.reverse.findSome? f with
    | some y => rfl
    | none =>
      simp only [List.findSome?_cons, List.findSome?_nil, Option.none_or]
      cases f q <;> rfl

end

end Verif.Script
