/-
C51: users.
-/
import Verif.Ops.UserExample

namespace Verif.Ops

open Script Remote

/-- C51: what `user` achieves for a user that is to be present. If it ends normally, the account is complete and has every requested
attribute; attributes that were not asked for are as before, or have their defaults if the user is new. Excluded, here and in `UserAs`,
are values that Python takes for false (see `C51_false_values_refuted`), groups given by their gid (see `C51_group_by_gid_refuted`),
and group entries that already list a user that does not exist (see `C51_stale_membership_refuted`). -/
theorem C51_converges_partial (sys : Sys) (ht : UserTools sys) (a : UserArgs) (hpl : PlainUserArgs a) (hpres : a.present = true) (check : Bool) (env : Env)
    (hdry : env.dry = false) (st : St) (w : World) (hu : UniqueGroups w) (hstale : userNamed w a.user = none → memberOf w a.user = [])
    (lost : Nat → Option Bool) (r : OpResult) (hr : (perform sys lost (user a check) env st w).1 = .ok r) :
    r.success = true ∧ UserAs a w (perform sys lost (user a check) env st w).2 := by
  have h := post_ok (user_post ht hpl hu hstale (by rw [hpres]; intro h; cases h)) hr
  have h2 := h.2 hdry
  rw [if_pos hpres] at h2
  obtain ⟨u, hs, hreach⟩ := h2
  refine ⟨h.1.1, hreach.userAs rfl ?_ hs⟩
  intro c hc
  obtain ⟨_, _, _, _, _, _, h4⟩ := accountOf_iff.mp hc
  rw [h4]; simp

/-- C51: what `user` achieves for a user that is to be absent, if the account is complete (see `C51_incomplete_account_refuted`) or
already absent. -/
theorem C51_removed_partial (sys : Sys) (ht : UserTools sys) (a : UserArgs) (hname : Py.parseInt 10 a.user = none) (hpres : a.present = false) (check : Bool)
    (env : Env) (hdry : env.dry = false) (st : St) (w : World) (hcomplete : accountOf w a.user ≠ none ∨ userNamed w a.user = none)
    (lost : Nat → Option Bool) (r : OpResult) (hr : (perform sys lost (user a check) env st w).1 = .ok r) :
    r.success = true ∧ userNamed (perform sys lost (user a check) env st w).2 a.user = none := by
  have h := post_ok (user_frame ht hname) hr
  exact ⟨h.1.1, h.2 hdry hpres hcomplete⟩

/-- C51: other accounts are untouched, however the operation ends and whatever there is on the host. -/
theorem C51_other_accounts (sys : Sys) (ht : UserTools sys) (a : UserArgs) (hname : Py.parseInt 10 a.user = none) (check : Bool) (env : Env) (st : St)
    (w : World) (lost : Nat → Option Bool) : OtherAccountsSame a.user w (perform sys lost (user a check) env st w).2 :=
  post_world (user_frame ht hname) fun _ _ _ h => h.1.2

/-- C51: nothing is done if the account is as requested. -/
theorem C51_nothing_to_do (sys : Sys) (a : UserArgs) (hname : Py.parseInt 10 a.user = none) (check : Bool) (env : Env) (st : St) (w : World)
    (hu : a.present = true → UniqueGroups w) (h : if a.present then ∃ u, accountOf w a.user = some u ∧ Fits a u else userNamed w a.user = none) :
    NothingToDo sys (user a check) env st w := by
  intro lost
  have hc := user_calm (sys := sys) (lost := lost) (env := env) (st := st) (check := check) hname hu h
  have hs : Same w (perform sys lost (user a check) env st w).2 := post_world hc (fun _ _ _ h => h.2)
  exact ⟨untouched_same hs, fun r hr => (post_ok hc hr).1⟩

/-- C51: once it has succeeded, doing it again has no effect and reports no change. Excluded are, as above, false values, groups given
by their gid and stale memberships; and groups that are given twice (see `C51_duplicate_groups_refuted`). -/
theorem C51_idempotent_partial (sys : Sys) (ht : UserTools sys) (a : UserArgs) (hpl : PlainUserArgs a) (check : Bool) (env : Env)
    (hdry : env.dry = false) (st : St) (w : World) (hu : UniqueGroups w) (hstale : userNamed w a.user = none → memberOf w a.user = [])
    (hcomplete : a.present = false → accountOf w a.user ≠ none ∨ userNamed w a.user = none)
    (hdup : ∀ l, a.groups = some l → a.appendGroups = false → l.Nodup)
    (lost : Nat → Option Bool) (r : OpResult) (hr : (perform sys lost (user a check) env st w).1 = .ok r) :
    NothingToDo sys (user a check) env st (perform sys lost (user a check) env st w).2 := by
  cases hpres : a.present with
  | false =>
    have h := C51_removed_partial sys ht a hpl.user.2.2 hpres check env hdry st w (hcomplete hpres) lost r hr
    exact C51_nothing_to_do sys a hpl.user.2.2 check env st _ (by rw [hpres]; intro h; cases h) (by rw [hpres]; exact h.2)
  | true =>
    have h := (post_ok (user_post ht hpl hu hstale (by rw [hpres]; intro h; cases h)) hr).2 hdry
    rw [if_pos hpres] at h
    generalize (perform sys lost (user a check) env st w).2 = w' at h
    obtain ⟨u, hs, hreach⟩ := h
    refine C51_nothing_to_do sys a hpl.user.2.2 check env st w' (fun _ => hs.unique) ?_
    rw [if_pos hpres]
    obtain ⟨gid, gs, hacc, hgs⟩ := hs.account
    refine ⟨_, hacc, Reached.fits (cur := accountOf w a.user) ?_ ?_ hdup⟩
    · exact ⟨hreach.uid, hreach.group, hreach.ownGroup, fun x => (hgs x).trans (hreach.groups x), hreach.gecos, hreach.home, hreach.shell, hreach.hash⟩
    · obtain ⟨_, _, _, _, _, _, h4⟩ := accountOf_iff.mp hacc
      rw [h4]; exact memberOf_nodup hs.unique _

/-! Cases that meet the hypotheses, and counterexamples. -/

namespace Example

/-- The host, with a password entry for alice. -/
def fullHost : World := { host with shadow := host.shadow ++ [(p!"alice", p!"$6$x")] }

/-- What is in the databases about a user. -/
structure Account where
  uid : Int
  group : Str
  groups : List Str
  comment : Str
  home : Str
  shell : Str
  hash : Option Str
deriving DecidableEq

def account (w : World) (name : Str) : Option Account :=
  (accountOf w name).map fun u => ⟨u.uid, u.group, u.groups, u.gecos, u.home, u.shell, u.passwordHash⟩

/-- What an operation reports: success and change. -/
def report (op : Op OpResult) (w : World) : Option (Bool × Bool) :=
  match (perform userSys always op env st w).1 with
    | .ok r => some (r.success, r.changed)
    | .error _ => none

def after (op : Op OpResult) (w : World) : World := (perform userSys always op env st w).2

def bob : UserArgs := { user := p!"bob", uid := some 1001, groups := some [p!"users", p!"root"], comment := some p!"B", passwordHash := some p!"$6$y" }

def alice2 : UserArgs := { user := p!"alice", group := some p!"root", groups := some [p!"root"], appendGroups := true, shell := some p!"/bin/bash" }

theorem uniqueGroups : UniqueGroups fullHost := by
  refine ⟨by decide, by decide, ?_⟩
  intro e he
  have he : e ∈ [Remote.Example.rootG, Remote.Example.usersG] := he
  simp only [List.mem_cons, List.not_mem_nil, or_false] at he
  rcases he with rfl | rfl <;> exact ⟨by decide, by decide, by decide⟩

theorem plain_bob : PlainUserArgs bob := by
  refine ⟨⟨by decide, by decide, by decide⟩, (by intro g h; cases h), ?_⟩
  intro l hl
  cases hl
  intro x hx
  simp only [List.mem_cons, List.not_mem_nil, or_false] at hx
  rcases hx with rfl | rfl <;> exact ⟨by decide, by decide, by decide⟩

theorem plain_alice2 : PlainUserArgs alice2 := by
  refine ⟨⟨by decide, by decide, by decide⟩, (by intro g h; cases h; decide), ?_⟩
  intro l hl
  cases hl
  intro x hx
  simp only [List.mem_cons, List.not_mem_nil, or_false] at hx
  subst hx
  exact ⟨by decide, by decide, by decide⟩

example : userNamed fullHost bob.user = none ∧ memberOf fullHost bob.user = [] := by decide
example : accountOf fullHost p!"alice" ≠ none := by decide

/-- A new user. -/
example : report (user bob true) fullHost = some (true, true)
    ∧ account (after (user bob true) fullHost) p!"bob"
      = some ⟨1001, p!"bob", [p!"root", p!"users"], p!"B", p!"/dev/null", p!"/sbin/nologin", some p!"$6$y"⟩
    ∧ account (after (user bob true) fullHost) p!"alice" = account fullHost p!"alice" := by decide +kernel

/-- A user that is changed. -/
example : report (user alice2 true) fullHost = some (true, true)
    ∧ account (after (user alice2 true) fullHost) p!"alice"
      = some ⟨1000, p!"root", [p!"root", p!"users"], p!"A", p!"/home/alice", p!"/bin/bash", some p!"$6$x"⟩
    ∧ report (user alice2 true) (after (user alice2 true) fullHost) = some (true, false) := by decide +kernel

/-- A user that is removed. -/
example : report (user { user := p!"alice", present := false } true) fullHost = some (true, true)
    ∧ userNamed (after (user { user := p!"alice", present := false } true) fullHost) p!"alice" = none := by decide +kernel

end Example

/-- C51, the part that is false: requests for the uid 0, an empty comment or no groups are ignored, and success is reported. -/
theorem C51_false_values_refuted :
    Example.report (user { user := p!"alice", uid := some 0, comment := some [], groups := some [] } true) Example.fullHost = some (true, false)
    ∧ Example.account Example.fullHost p!"alice"
      = some ⟨1000, p!"users", [p!"users"], p!"A", p!"/home/alice", p!"/bin/sh", some p!"$6$x"⟩ := by decide +kernel

/-- C51, the part that is false: if the group is given by its gid, which the documentation allows, every run reports a change. -/
theorem C51_group_by_gid_refuted :
    let op := user { user := p!"alice", group := some p!"0" } true
    Example.report op Example.fullHost = some (true, true)
    ∧ (Example.account (Example.after op Example.fullHost) p!"alice").map (·.group) = some p!"root"
    ∧ Example.report op (Example.after op Example.fullHost) = some (true, true) := by decide +kernel

/-- C51, the part that is false: if a group is given twice, every run reports a change. -/
theorem C51_duplicate_groups_refuted :
    let op := user { user := p!"alice", groups := some [p!"root", p!"root"] } true
    Example.report op Example.fullHost = some (true, true) ∧ Example.report op (Example.after op Example.fullHost) = some (true, true) := by decide +kernel

/-- C51, the part that is false: a user without a password entry is taken for absent; its removal is reported as a success although it is
still there, and its creation fails. -/
theorem C51_incomplete_account_refuted :
    Example.report (user { user := p!"alice", present := false } true) Example.host = some (true, false)
    ∧ (userNamed (Example.after (user { user := p!"alice", present := false } true) Example.host) p!"alice").isSome = true
    ∧ Example.report (user { user := p!"alice" } true) Example.host = none := by decide +kernel

/-- C51, the part that is false: a new user is a member of the groups that already listed its name, whatever groups are requested. -/
theorem C51_stale_membership_refuted :
    let w := { Example.fullHost with groups := Example.fullHost.groups ++ [{ name := p!"wheel", gid := 10, members := [p!"bob"] }] }
    Example.report (user { user := p!"bob", groups := some [p!"users"] } true) w = some (true, true)
    ∧ (Example.account (Example.after (user { user := p!"bob", groups := some [p!"users"] } true) w) p!"bob").map (·.groups)
      = some [p!"users", p!"wheel"] := by decide +kernel

end Verif.Ops
