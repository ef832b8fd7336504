/-
Property theorems about resolving users and groups (C10).
-/
import Verif.Client.Lemmas
import Verif.Remote.Example

namespace Verif.Client

open Wire (Packet Kind encoding)
open Remote

theorem resolveUser_run {w : World} (hw : w.Sane) (sys : Sys) {u : Option Str} (hn : NoNul (u.getD (Py.natStr 10 w.uid))) :
    (Connector.resolveUser u).run (direct sys) w =
      match findUser w (u.getD (Py.natStr 10 w.uid)) with
      | some e => (.ok e.name, w)
      | none => (.error (.valueError (Wire.invalidFieldMsg (u.getD p!"None") p!"user" p!"The user does not exist")), w) := by
  simp only [Connector.resolveUser, Prog.run, direct, handle, handleResolveUser_eq hw hn]
  cases findUser w (u.getD (Py.natStr 10 w.uid)) <;> cases u <;> rfl

/-- C10, users: what resolves is the account the name denotes, and the answer is the name of that account. A NUL
character in the name crashes the dispatcher (C09) and is excluded. -/
theorem C10_user_resolves (sys : Sys) (w : World) (hw : w.Sane) (s : Str) (hn : NoNul s) (e : PwEntry) (h : DenotesUser w s e) :
    (Connector.resolveUser (some s)).run (direct sys) w = (.ok e.name, w) := by
  rw [resolveUser_run hw sys (u := some s) hn]
  simp only [Option.getD_some, findUser_iff.mpr h]

/-- C10, users: the name wins. If an account has the given name, that one is meant, whatever number the name looks like. -/
theorem C10_user_name_wins (sys : Sys) (w : World) (hw : w.Sane) (e : PwEntry) (he : e ∈ w.users) :
    (Connector.resolveUser (some e.name)).run (direct sys) w = (.ok e.name, w) := by
  obtain ⟨e', h1, h2⟩ : ∃ e', w.users.find? (·.name == e.name) = some e' ∧ e'.name = e.name := by
    cases hf : w.users.find? (·.name == e.name) with
    | none => exact absurd (List.find?_eq_none.mp hf e he) (by simp)
    | some e' => exact ⟨e', rfl, by simpa using List.find?_some hf⟩
  rw [C10_user_resolves sys w hw e.name (hw.users e he).2.2.2.2.2.2 e' (.inl h1), h2]

/-- C10, users: an account that does not exist is a ValueError that quotes it. -/
theorem C10_user_unknown (sys : Sys) (w : World) (hw : w.Sane) (s : Str) (hn : NoNul s) (h : ∀ e, ¬ DenotesUser w s e) :
    (Connector.resolveUser (some s)).run (direct sys) w
      = (.error (.valueError (p!"Invalid value '" ++ s ++ p!"' given for field 'user': The user does not exist")), w) := by
  rw [resolveUser_run hw sys (u := some s) hn]
  cases hf : findUser w ((some s).getD (Py.natStr 10 w.uid)) with
  | none => simp [Wire.invalidFieldMsg]
  | some e => exact absurd (findUser_iff.mp hf) (h e)

/-- C10, users: without argument the dispatcher's own user is returned, provided that no account has a name that reads like
the dispatcher's uid. -/
theorem C10_user_self (sys : Sys) (w : World) (hw : w.Sane) (e : PwEntry) (h : w.users.find? (·.uid == w.uid) = some e)
    (hno : ∀ x ∈ w.users, x.name ≠ Py.natStr 10 w.uid) :
    (Connector.resolveUser none).run (direct sys) w = (.ok e.name, w) := by
  rw [resolveUser_run hw sys (u := none) (noNul_natStr _)]
  have : DenotesUser w (Py.natStr 10 w.uid) e := by
    refine .inr ⟨?_, w.uid, Py.parseInt_natStr (.inr rfl) _, h⟩
    rw [List.find?_eq_none]
    intro x hx
    simpa using hno x hx
  simp only [Option.getD_none, findUser_iff.mpr this]

/-- C10, users: resolving is idempotent. -/
theorem C10_user_idempotent (sys : Sys) (w w' : World) (hw : w.Sane) (u : Option Str) (s : Str)
    (h : (Connector.resolveUser u).run (direct sys) w = (.ok s, w')) :
    (Connector.resolveUser (some s)).run (direct sys) w = (.ok s, w) := by
  have hn : NoNul (u.getD (Py.natStr 10 w.uid)) := by
    by_cases hn : NoNul (u.getD (Py.natStr 10 w.uid))
    · exact hn
    · exfalso
      have := hasNul_iff.mpr hn
      simp [Connector.resolveUser, Prog.run, direct, handle, handleResolveUser, getpwnam, this, nulError] at h
  rw [resolveUser_run hw sys hn] at h
  cases hf : findUser w (u.getD (Py.natStr 10 w.uid)) with
  | none => rw [hf] at h; cases h
  | some e =>
    rw [hf] at h; cases h
    obtain ⟨e', h1, h2, h3⟩ := find_name_self (findUser_iff.mp hf)
    rw [C10_user_resolves sys w hw e.name (hw.users e h3).2.2.2.2.2.2 e' (.inl h1), h2]

/-- C10, users: if names are unique the answer denotes the same account as the input did. -/
theorem C10_user_same_account (w : World) (hu : ∀ a ∈ w.users, ∀ b ∈ w.users, a.name = b.name → a = b) (s : Str) (e : PwEntry)
    (h : DenotesUser w s e) : DenotesUser w e.name e := by
  obtain ⟨e', h1, h2, h3⟩ := find_name_self h
  have := hu e' (List.mem_of_find?_eq_some h1) e h3 h2
  subst this
  exact .inl h1

theorem resolveGroup_run {w : World} (hw : w.Sane) (sys : Sys) {u : Option Str} (hn : NoNul (u.getD (Py.natStr 10 w.gid))) :
    (Connector.resolveGroup u).run (direct sys) w =
      match findGroup w (u.getD (Py.natStr 10 w.gid)) with
      | some e => (.ok e.name, w)
      | none => (.error (.valueError (Wire.invalidFieldMsg (u.getD p!"None") p!"group" p!"The group does not exist")), w) := by
  simp only [Connector.resolveGroup, Prog.run, direct, handle, handleResolveGroup_eq hw hn]
  cases findGroup w (u.getD (Py.natStr 10 w.gid)) <;> cases u <;> rfl

/-- C10, groups: what resolves is the group the name denotes, and the answer is the name of that group. A NUL
character in the name crashes the dispatcher (C09) and is excluded. -/
theorem C10_group_resolves (sys : Sys) (w : World) (hw : w.Sane) (s : Str) (hn : NoNul s) (e : GrEntry) (h : DenotesGroup w s e) :
    (Connector.resolveGroup (some s)).run (direct sys) w = (.ok e.name, w) := by
  rw [resolveGroup_run hw sys (u := some s) hn]
  simp only [Option.getD_some, findGroup_iff.mpr h]

/-- C10, groups: the name wins. If a group has the given name, that one is meant, whatever number the name looks like. -/
theorem C10_group_name_wins (sys : Sys) (w : World) (hw : w.Sane) (e : GrEntry) (he : e ∈ w.groups) :
    (Connector.resolveGroup (some e.name)).run (direct sys) w = (.ok e.name, w) := by
  obtain ⟨e', h1, h2⟩ : ∃ e', w.groups.find? (·.name == e.name) = some e' ∧ e'.name = e.name := by
    cases hf : w.groups.find? (·.name == e.name) with
    | none => exact absurd (List.find?_eq_none.mp hf e he) (by simp)
    | some e' => exact ⟨e', rfl, by simpa using List.find?_some hf⟩
  rw [C10_group_resolves sys w hw e.name (hw.groups e he).2.2.2.2 e' (.inl h1), h2]

/-- C10, groups: a group that does not exist is a ValueError that quotes it. -/
theorem C10_group_unknown (sys : Sys) (w : World) (hw : w.Sane) (s : Str) (hn : NoNul s) (h : ∀ e, ¬ DenotesGroup w s e) :
    (Connector.resolveGroup (some s)).run (direct sys) w
      = (.error (.valueError (p!"Invalid value '" ++ s ++ p!"' given for field 'group': The group does not exist")), w) := by
  rw [resolveGroup_run hw sys (u := some s) hn]
  cases hf : findGroup w ((some s).getD (Py.natStr 10 w.gid)) with
  | none => simp [Wire.invalidFieldMsg]
  | some e => exact absurd (findGroup_iff.mp hf) (h e)

/-- C10, groups: without argument the dispatcher's own group is returned, provided that no group has a name that reads like
the dispatcher's gid. -/
theorem C10_group_self (sys : Sys) (w : World) (hw : w.Sane) (e : GrEntry) (h : w.groups.find? (·.gid == w.gid) = some e)
    (hno : ∀ x ∈ w.groups, x.name ≠ Py.natStr 10 w.gid) :
    (Connector.resolveGroup none).run (direct sys) w = (.ok e.name, w) := by
  rw [resolveGroup_run hw sys (u := none) (noNul_natStr _)]
  have : DenotesGroup w (Py.natStr 10 w.gid) e := by
    refine .inr ⟨?_, w.gid, Py.parseInt_natStr (.inr rfl) _, h⟩
    rw [List.find?_eq_none]
    intro x hx
    simpa using hno x hx
  simp only [Option.getD_none, findGroup_iff.mpr this]

/-- C10, groups: resolving is idempotent. -/
theorem C10_group_idempotent (sys : Sys) (w w' : World) (hw : w.Sane) (u : Option Str) (s : Str)
    (h : (Connector.resolveGroup u).run (direct sys) w = (.ok s, w')) :
    (Connector.resolveGroup (some s)).run (direct sys) w = (.ok s, w) := by
  have hn : NoNul (u.getD (Py.natStr 10 w.gid)) := by
    by_cases hn : NoNul (u.getD (Py.natStr 10 w.gid))
    · exact hn
    · exfalso
      have := hasNul_iff.mpr hn
      simp [Connector.resolveGroup, Prog.run, direct, handle, handleResolveGroup, getgrnam, this, nulError] at h
  rw [resolveGroup_run hw sys hn] at h
  cases hf : findGroup w (u.getD (Py.natStr 10 w.gid)) with
  | none => rw [hf] at h; cases h
  | some e =>
    rw [hf] at h; cases h
    obtain ⟨e', h1, h2, h3⟩ := find_gname_self (findGroup_iff.mp hf)
    rw [C10_group_resolves sys w hw e.name (hw.groups e h3).2.2.2.2 e' (.inl h1), h2]

/-- C10, groups: if names are unique the answer denotes the same group as the input did. -/
theorem C10_group_same_account (w : World) (hu : ∀ a ∈ w.groups, ∀ b ∈ w.groups, a.name = b.name → a = b) (s : Str) (e : GrEntry)
    (h : DenotesGroup w s e) : DenotesGroup w e.name e := by
  obtain ⟨e', h1, h2, h3⟩ := find_gname_self h
  have := hu e' (List.mem_of_find?_eq_some h1) e h3 h2
  subst this
  exact .inl h1

/-! Concrete cases: a number, a name, an unknown user. -/
example : Example.world.Sane ∧ NoNul p!"1000" ∧ DenotesUser Example.world p!"1000" Example.alice :=
  ⟨Example.world_sane, by unfold NoNul; decide, .inr ⟨rfl, 1000, rfl, rfl⟩⟩
example : (Connector.resolveUser (some p!"1000")).run (direct Example.sys) Example.world = (.ok p!"alice", Example.world) := rfl
example : ∀ e, ¬ DenotesUser Example.world p!"bob" e := by
  intro e h
  have := findUser_iff.mpr h
  cases this
example : Example.world.users.find? (·.uid == Example.world.uid) = some Example.root
    ∧ ∀ x ∈ Example.world.users, x.name ≠ Py.natStr 10 Example.world.uid := ⟨rfl, by decide⟩
example : ∀ a ∈ Example.world.users, ∀ b ∈ Example.world.users, a.name = b.name → a = b := by decide
example : DenotesGroup Example.world p!"100" Example.usersG ∧ DenotesGroup Example.world p!"users" Example.usersG :=
  ⟨.inr ⟨rfl, 100, rfl, rfl⟩, .inl rfl⟩
example : ∀ e, ¬ DenotesGroup Example.world p!"wheel" e := by
  intro e h
  have := findGroup_iff.mpr h
  cases this

end Verif.Client
