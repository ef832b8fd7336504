/-
Property theorems about the connection's fallbacks: C69.
-/
import Verif.Script.Lemmas
import Verif.Client.AccountProps
import Verif.Client.FileProps
import Verif.Remote.Example

namespace Verif.Script

open Client (Prog direct UserEntry GroupEntry)
open Remote
open Wire (Packet)

/-- What `download_or`, `query_user` and `query_group` do with what a call gave. -/
def fallback {α : Type} (r : Except Exn α) (default : Option α) : Except Exn (Option α) :=
  match r with
  | .ok a => .ok (some a)
  | .error e => if e.isValueError then .ok default else .error e

theorem exec_orDefault {α σ : Type} {remote : Packet → σ → Except Exn Packet × σ} {p : Prog (Except Exn α)} {d : Option α}
    {env : Env} {st : St} {w : σ} :
    exec remote (Connection.orDefault (do let c ← Op.call p; return some c) d) env st w
      = ((fallback (p.run remote w).1 d, st), (p.run remote w).2) := by
  unfold Connection.orDefault
  rw [exec_tryCatch, exec_bind, exec_call]
  cases h : (p.run remote w).1 with
  | ok a => rfl
  | error e =>
    simp only [fallback]
    split
    · rfl
    · rfl

/-- C69. Whatever the remote answers: `download_or` returns the content if there is one, the default if the answer is that
an argument is invalid (a ValueError), and passes on every other error. -/
theorem C69_download_any_answer (file : Str) (default : Option Bytes) (env : Env) (st st' : St) (t : Trace) (r : Except Exn (Option Bytes))
    (h : Execution (Connection.downloadOr file default) env st t r st') :
    ∃ answer, t = [(.download file, answer)] ∧
      (∀ c, answer = .ok (.downloadResult c) → r = .ok (some c))
      ∧ (∀ m, answer = .error (.valueError m) → r = .ok default)
      ∧ (∀ e, answer = .error e → e.isValueError = false → r = .error e) := by
  unfold Connection.downloadOr Connection.orDefault at h
  rcases execution_tryCatch.mp h with ⟨a, rfl, h1⟩ | ⟨t1, t2, e, st1, h1, h2, rfl⟩
  · rcases execution_bind.mp h1 with ⟨e, he, _⟩ | ⟨t1, t2, c, st1, h2, h3, rfl⟩
    · cases he
    · obtain ⟨h4, rfl⟩ := execution_call.mp h2
      obtain ⟨x, rfl, hx⟩ := runs_one.mp h4
      obtain ⟨rfl, h5, rfl⟩ := execution_pure.mp h3
      cases h5
      refine ⟨x, rfl, ?_, ?_, ?_⟩
      · rintro c' rfl; cases hx; rfl
      · rintro m rfl; cases hx
      · rintro e rfl; cases hx
  · rcases execution_bind.mp h1 with ⟨e', he, h3⟩ | ⟨t1', t2', c, st1', h3, h4, rfl⟩
    · cases he
      obtain ⟨h4, rfl⟩ := execution_call.mp h3
      obtain ⟨x, rfl, hx⟩ := runs_one.mp h4
      have ht2 : t2 = [] ∧ r = if e.isValueError then .ok default else .error e := by
        split at h2
        · next hv =>
          obtain ⟨h5, h6, _⟩ := execution_pure.mp h2
          rw [if_pos hv]
          exact ⟨h5, h6⟩
        · next hv =>
          obtain ⟨h5, h6, _⟩ := execution_raise.mp h2
          rw [if_neg hv]
          exact ⟨h5, h6⟩
      obtain ⟨rfl, rfl⟩ := ht2
      refine ⟨x, rfl, ?_, ?_, ?_⟩
      · rintro c' rfl; cases hx
      · rintro m rfl; cases hx; rfl
      · rintro e'' rfl hv; cases hx; simp [hv]
    · obtain ⟨_, h5, _⟩ := execution_pure.mp h4
      cases h5

/-- C69. Against a host: `download_or` returns the default exactly if the file is missing (the system call reports ENOENT),
the content if it is a file that can be read, and raises otherwise. -/
theorem C69_download_or (sys : Sys) (w : World) (file : Str) (hn : NoNul file) (default : Option Bytes) (env : Env) (st : St)
    (hf : sys.fault w (.openRead file) = none) (hr : sys.fault w (.read file) = none) :
    ∃ r, exec (direct sys) (Connection.downloadOr file default) env st w = ((r, st), w) ∧
      (lookup w.fs w.cwd file true = .error ENOENT → r = .ok default)
      ∧ (∀ l n c, lookup w.fs w.cwd file true = .ok (l, n) → n.kind = .file c → r = .ok (some c))
      ∧ (∀ errno, errno ≠ ENOENT → lookup w.fs w.cwd file true = .error errno → ∃ s m, r = .error (.remoteOSError errno s m))
      ∧ (∀ l n, lookup w.fs w.cwd file true = .ok (l, n) → n.kind = .dir → ∃ s m, r = .error (.remoteOSError EISDIR s m)) := by
  have hn' := Client.noNul_hasNul hn
  unfold Connection.downloadOr Connection.download
  rw [exec_orDefault]
  have hd : ∀ x, osRead sys w file = x → ((Client.Connector.download file).run (direct sys) w).2 = w ∧
      ((Client.Connector.download file).run (direct sys) w).1 = match x with
        | .ok c => .ok c
        | .error (.osError (some n) s m) => if n = ENOENT then .error (.valueError (Wire.invalidFieldMsg file p!"file" m)) else .error (.remoteOSError n s m)
        | .error _ => .error Client.lostConnection := by
    intro x hx
    simp only [Client.Connector.download, Prog.run, direct, handle, handleDownload, hx]
    rcases x with e | c
    · cases e with
      | osError n s m =>
        cases n with
        | none => exact ⟨rfl, rfl⟩
        | some n =>
          by_cases he : n = ENOENT
          · subst he; exact ⟨rfl, rfl⟩
          · have : isENOENT (.osError (some n) s m) = false := by simpa [isENOENT] using he
            simp only [this, Bool.false_eq_true, if_false, if_neg he]
            exact ⟨trivial, trivial⟩
      | _ => exact ⟨rfl, rfl⟩
    · exact ⟨rfl, rfl⟩
  have hos : osRead sys w file = match lookup w.fs w.cwd file true with
      | .error n => .error (osErr n file).exn
      | .ok (_, n) => match n.kind with
        | .dir => .error (osErr EISDIR file).exn
        | .file c => .ok c
        | _ => .ok [] := by
    simp only [osRead, guardCall, hn', Bool.false_eq_true, if_false, hf, hr]
    cases lookup w.fs w.cwd file true with
    | error n => rfl
    | ok x =>
      obtain ⟨l, n⟩ := x
      simp only
      cases n.kind <;> rfl
  obtain ⟨h1, h2⟩ := hd _ hos
  refine ⟨_, by rw [h1], ?_, ?_, ?_, ?_⟩
  · intro h; rw [h2, h]; rfl
  · intro l n c h hk; rw [h2, h]; simp only [hk]; rfl
  · intro errno he h
    rw [h2, h]
    simp only [osErr, OSErr.exn, if_neg he]
    exact ⟨_, _, rfl⟩
  · intro l n h hk; rw [h2, h]; simp only [hk]; exact ⟨_, _, rfl⟩

theorem handleQueryGroup_eq {w : World} (hw : w.Sane) {g : Str} (hn : NoNul g) :
    handleQueryGroup g w = match Client.findGroup w g with
      | some e => (.answer [] (.groupEntry e.name e.gid e.members), w)
      | none => (.answer [] (.invalidField p!"group" p!"The group does not exist"), w) := by
  unfold handleQueryGroup Client.findGroup getgrnam
  simp only [Client.noNul_hasNul hn, Bool.false_eq_true, if_false]
  cases w.groups.find? (·.name == g) with
  | some e => rfl
  | none =>
    simp only
    cases hp : Py.parseInt 10 g with
    | none => rfl
    | some i =>
      simp only [Client.getgrgid_eq hw]
      cases i with
      | ofNat n =>
        simp only
        cases w.groups.find? (·.gid == n) <;> rfl
      | negSucc n => rfl

theorem handleQueryUser_eq {w : World} (hw : w.Sane) {g : Str} (hn : NoNul g) (hash : Bool) :
    handleQueryUser g hash w = match Client.findUser w g with
      | some e => userEntry e hash w
      | none => (.answer [] (.invalidField p!"user" p!"The user does not exist"), w) := by
  unfold handleQueryUser Client.findUser getpwnam
  simp only [Client.noNul_hasNul hn, Bool.false_eq_true, if_false]
  cases w.users.find? (·.name == g) with
  | some e => rfl
  | none =>
    simp only
    cases hp : Py.parseInt 10 g with
    | none => rfl
    | some i =>
      simp only [Client.getpwuid_eq hw]
      cases i with
      | ofNat n =>
        simp only
        cases w.users.find? (·.uid == n) <;> rfl
      | negSucc n => rfl

/-- C69. `query_group` returns the entry of the group that is meant if there is one, and the default otherwise. -/
theorem C69_query_group (sys : Sys) (w : World) (hw : w.Sane) (g : Str) (hn : NoNul g) (default : Option GroupEntry) (env : Env) (st : St) :
    ∃ r, exec (direct sys) (Connection.queryGroup g default) env st w = ((.ok r, st), w) ∧
      (∀ e, DenotesGroup w g e → r = some { name := e.name, gid := e.gid, members := e.members })
      ∧ ((∀ e, ¬ DenotesGroup w g e) → r = default) := by
  unfold Connection.queryGroup
  rw [exec_orDefault]
  simp only [Client.Connector.queryGroup, Prog.run, direct, handle, handleQueryGroup_eq hw hn]
  cases hf : Client.findGroup w g with
  | some e =>
    refine ⟨_, rfl, ?_, ?_⟩
    · intro e' he'
      rw [Client.findGroup_iff.mpr he'] at hf
      cases hf; rfl
    · intro h; exact absurd (Client.findGroup_iff.mp hf) (h e)
  | none =>
    refine ⟨_, rfl, ?_, ?_⟩
    · intro e' he'
      rw [Client.findGroup_iff.mpr he'] at hf
      cases hf
    · intro _; rfl

/-- The property for users. -/
def C69_Statement_user : Prop :=
  ∀ (sys : Sys) (w : World) (u : Str) (default : Option UserEntry) (env : Env) (st : St), w.Sane → NoNul u →
    ∃ r, exec (direct sys) (Connection.queryUser u false default) env st w = ((.ok r, st), w) ∧
      (∀ e, DenotesUser w u e → ∃ x, r = some x ∧ x.name = e.name) ∧ ((∀ e, ¬ DenotesUser w u e) → r = default)

/-- C69. `query_user` for an account that has a primary group: its entry; and the default if there is no such account. What is
missing: accounts whose primary group does not exist. -/
theorem C69_query_user_partial (sys : Sys) (w : World) (hw : w.Sane) (u : Str) (hn : NoNul u) (default : Option UserEntry) (env : Env) (st : St) :
    ∃ r, exec (direct sys) (Connection.queryUser u false default) env st w = ((.ok r, st), w) ∧
      (∀ e g, DenotesUser w u e → w.groups.find? (·.gid == e.gid) = some g →
        r = some { name := e.name, uid := e.uid, group := g.name, gid := e.gid,
                   groups := (w.groups.filter fun g => g.members.contains e.name).map (·.name), passwordHash := none,
                   gecos := e.gecos, home := e.home, shell := e.shell })
      ∧ ((∀ e, ¬ DenotesUser w u e) → r = default) := by
  unfold Connection.queryUser
  rw [exec_orDefault]
  simp only [Client.Connector.queryUser, Prog.run, direct, handle, handleQueryUser_eq hw hn]
  cases hf : Client.findUser w u with
  | some e =>
    simp only [userEntry, Bool.false_eq_true, if_false, Client.getgrgid_eq hw]
    cases hg : w.groups.find? (·.gid == e.gid) with
    | some g =>
      refine ⟨_, rfl, ?_, ?_⟩
      · intro e' g' he' hg'
        rw [Client.findUser_iff.mpr he'] at hf
        cases hf
        rw [hg] at hg'
        cases hg'
        rfl
      · intro h; exact absurd (Client.findUser_iff.mp hf) (h e)
    | none =>
      refine ⟨default, rfl, ?_, fun _ => rfl⟩
      intro e' g' he' hg'
      rw [Client.findUser_iff.mpr he'] at hf
      cases hf
      rw [hg] at hg'
      cases hg'
  | none =>
    refine ⟨_, rfl, ?_, fun _ => rfl⟩
    intro e' g' he' _
    rw [Client.findUser_iff.mpr he'] at hf
    cases hf

/-- A host with an account whose primary group was deleted. -/
def groupless : World := { Example.world with groups := [Example.rootG] }

theorem groupless_sane : groupless.Sane := by
  have h := Example.world_sane
  exact { h with ngroups := by unfold Modest; decide, groups := fun e he => h.groups e (by
    simp only [groupless, List.mem_cons, List.not_mem_nil, or_false] at he
    rw [he]
    show Example.rootG ∈ [Example.rootG, Example.usersG]
    simp) }

/-- C69. The property for users is false: an account whose primary group does not exist is reported as missing. -/
theorem C69_query_user_refuted : ¬ C69_Statement_user := by
  intro h
  obtain ⟨r, h1, h2, _⟩ := h Example.sys groupless p!"alice" none { base := {} } { stack := [{}] } groupless_sane (by unfold NoNul; decide)
  obtain ⟨x, hx, _⟩ := h2 Example.alice (.inl (by decide))
  have hr : r = none := by
    have : ((Except.ok none, ({ stack := [{}] } : St)), groupless) = ((Except.ok r, { stack := [{}] }), groupless) := h1
    simp only [Prod.mk.injEq, Except.ok.injEq, and_true] at this
    exact this.symm
  rw [hr] at hx
  cases hx

/-- C69. `home_dir` returns the home directory of the account that is meant; if there is no such account a ValueError is
raised. -/
theorem C69_home_dir (sys : Sys) (w : World) (hw : w.Sane) (u : Str) (hn : NoNul u) (env : Env) (st : St) :
    (∀ e g, DenotesUser w u e → w.groups.find? (·.gid == e.gid) = some g →
      exec (direct sys) (Connection.homeDir (some u)) env st w = ((.ok e.home, st), w))
    ∧ ((∀ e, ¬ DenotesUser w u e) → ∃ m, exec (direct sys) (Connection.homeDir (some u)) env st w = ((.error (.valueError m), st), w)) := by
  have hrun : ∀ x, (Client.Connector.queryUser u).run (direct sys) w = x →
      exec (direct sys) (Connection.homeDir (some u)) env st w = ((match x.1 with | .ok e => .ok e.home | .error e => .error e, st), x.2) := by
    intro x hx
    show exec (direct sys) (Op.call (Client.Connector.queryUser u) >>= fun e => pure e.home) env st w = _
    rw [exec_bind, exec_call, hx]
    cases x.1 <;> rfl
  constructor
  · intro e g he hg
    have : ∃ x : UserEntry, (Client.Connector.queryUser u).run (direct sys) w = (.ok x, w) ∧ x.home = e.home := by
      simp only [Client.Connector.queryUser, Prog.run, direct, handle, handleQueryUser_eq hw hn, Client.findUser_iff.mpr he, userEntry,
        Bool.false_eq_true, if_false, Client.getgrgid_eq hw, hg]
      exact ⟨_, rfl, rfl⟩
    obtain ⟨x, hx, hh⟩ := this
    rw [hrun _ hx, ← hh]
  · intro h
    have hf : Client.findUser w u = none := by
      cases hf : Client.findUser w u with
      | none => rfl
      | some e => exact absurd (Client.findUser_iff.mp hf) (h e)
    have : ∃ m, (Client.Connector.queryUser u).run (direct sys) w = (.error (.valueError m), w) := by
      simp only [Client.Connector.queryUser, Prog.run, direct, handle, handleQueryUser_eq hw hn, hf]
      exact ⟨_, rfl⟩
    obtain ⟨m, hm⟩ := this
    exact ⟨m, hrun _ hm⟩

/-- C69. `home_dir()` without a user returns the home directory of the user that the dispatcher runs as, provided that no account has a name
that reads like the dispatcher's uid. -/
theorem C69_home_dir_self (sys : Sys) (w : World) (hw : w.Sane) (env : Env) (st : St) (e : PwEntry) (g : GrEntry)
    (hno : ∀ x ∈ w.users, x.name ≠ Py.natStr 10 w.uid) (he : w.users.find? (·.uid == w.uid) = some e) (hn : NoNul e.name) (hname : DenotesUser w e.name e) (hg : w.groups.find? (·.gid == e.gid) = some g) :
    exec (direct sys) (Connection.homeDir none) env st w = ((.ok e.home, st), w) := by
  have h1 : exec (direct sys) (Connection.resolveUser none) env st w = ((.ok e.name, st), w) := by
    show exec (direct sys) (Op.call (Client.Connector.resolveUser none)) env st w = _
    rw [exec_call, Client.C10_user_self sys w hw e he hno]
  have h2 := (C69_home_dir sys w hw e.name hn env st).1 e g hname hg
  unfold Connection.homeDir at h2 ⊢
  rw [exec_bind] at h2 ⊢
  rw [h1]
  exact h2

/-- C69. `getenv` returns the value of the variable in the dispatcher's environment, and the default if it is not set. -/
theorem C69_getenv (sys : Sys) (w : World) (key : Str) (default : Option Str) (env : Env) (st : St) :
    (∀ v, w.env.find? (·.1 == key) = some (key, v) → exec (direct sys) (Connection.getenv key default) env st w = ((.ok (some v), st), w))
    ∧ (w.env.find? (·.1 == key) = none → exec (direct sys) (Connection.getenv key default) env st w = ((.ok default, st), w)) := by
  unfold Connection.getenv
  constructor <;>
  · intros
    rw [exec_bind, exec_call]
    simp only [Client.Connector.getenv, Prog.run, direct, handle, handleGetenv, *]
    rfl

/-- The hypotheses are met: a file that exists, one that does not, and a known user. -/
example : lookup Example.world.fs Example.world.cwd p!"/etc/nothing" true = .error ENOENT
    ∧ DenotesUser Example.world p!"1000" Example.alice ∧ Example.world.groups.find? (·.gid == Example.alice.gid) = some Example.usersG
    ∧ Example.world.env.find? (·.1 == p!"HOME") = some (p!"HOME", p!"/root") :=
  ⟨rfl, .inr ⟨by decide, 1000, by decide, by decide⟩, by decide, by decide⟩

end Verif.Script
