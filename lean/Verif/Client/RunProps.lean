/-
Property theorems about running commands (C16, C17).
-/
import Verif.Client.Lemmas
import Verif.Remote.Example

namespace Verif.Client

open Wire (Packet Kind encoding)
open Remote

/-- Programs cannot rewrite history: which processes the dispatcher started. -/
def Honest (sys : Sys) : Prop := ∀ p w, (sys.exec p w).2.started = w.started

/-! ### C16 -/

/-- C16. `run` starts at most one process, and that one has exactly the arguments, input, user, group, umask and working
directory that were asked for. Missing from the full claim: supplementary groups, and relative working directories. -/
theorem C16_started_as_requested_partial (sys : Sys) (hs : Honest sys) (w w' : World) (hw : w.Sane) (command : List Str)
    (input : Option Bytes) (capture check : Bool) (user group umask cwd : Option Str) (r : Except Exn Completed)
    (hcwd : ∀ c ∈ cwd, isAbs c = true)
    (h : (Connector.run command input capture check user group umask cwd).run (direct sys) w = (r, w')) :
    (w' = w ∧ ∃ e, r = .error e)
    ∨ ∃ proc, w'.started = proc :: w.started ∧ Requested w command input capture user group umask cwd proc := by
  rw [run_eq] at h
  cases hp : plan sys command input capture user group umask cwd w with
  | error rep =>
    rw [hp] at h
    have h1 := congrArg Prod.fst h
    have h2 := congrArg Prod.snd h
    simp only at h1 h2
    refine .inl ⟨h2.symm, ?_⟩
    rcases plan_error hp with ⟨f, m, rfl⟩ | ⟨m, rfl⟩ | ⟨e, rfl⟩
    · simp only [refused, unpackResponse] at h1
      cases hg : Packet.getattr (.processRun command input capture user group umask cwd) f with
      | none => rw [hg] at h1; exact ⟨_, h1.symm⟩
      | some v => rw [hg] at h1; exact ⟨_, h1.symm⟩
    · exact ⟨_, h1.symm⟩
    · cases e with
      | osError n s m => cases n <;> exact ⟨_, h1.symm⟩
      | _ => exact ⟨_, h1.symm⟩
  | ok proc =>
    rw [hp] at h
    simp only at h
    have hst := hs proc { w with started := proc :: w.started }
    cases he : sys.exec proc { w with started := proc :: w.started } with
    | mk res w1 =>
      rw [he] at h hst
      cases res with
      | failed e => cases h; exact .inl ⟨rfl, _, rfl⟩
      | done out err code =>
        cases h
        exact .inr ⟨proc, hst, (plan_ok hw hcwd hp).1⟩

/-- The arguments that `run` must refuse: a umask that is not octal, an unknown user or group, a working directory that is
not a directory. -/
def BadRun (w : World) (user group umask cwd : Option Str) : Prop :=
  (∃ m ∈ umask, Py.parseInt 8 m = none)
  ∨ (∃ u ∈ user, ∀ e, ¬ DenotesUser w u e)
  ∨ (∃ g ∈ group, ∀ e, ¬ DenotesGroup w g e)
  ∨ (∃ c ∈ cwd, ∀ l n, lookup w.fs w.cwd c true = .ok (l, n) → n.kind ≠ .dir)

/-- C16. If one of them is invalid, nothing is started and nothing changes, and the caller gets a ValueError. -/
theorem C16_invalid_not_started (sys : Sys) (w : World) (hw : w.Sane) (command : List Str) (input : Option Bytes) (capture check : Bool)
    (user group umask cwd : Option Str) (hbad : BadRun w user group umask cwd) :
    ∃ m, (Connector.run command input capture check user group umask cwd).run (direct sys) w = (.error (.valueError m), w) := by
  have hp : ∃ f m, plan sys command input capture user group umask cwd w = .error (.answer [] (.invalidField f m))
      ∧ (f = p!"umask" ∨ f = p!"user" ∨ f = p!"group" ∨ f = p!"cwd") := by
    unfold plan
    cases hu : Remote.optional resolveOct umask with
    | error e => exact ⟨_, _, rfl, .inl rfl⟩
    | ok um =>
      cases hus : Remote.optional (Remote.resolveUser w) user with
      | error e => exact ⟨_, _, rfl, .inr (.inl rfl)⟩
      | ok ug =>
        cases hg : Remote.optional (Remote.resolveGroup w) group with
        | error e => exact ⟨_, _, rfl, .inr (.inr (.inl rfl))⟩
        | ok g =>
          rcases hbad with ⟨m, hm, hbad⟩ | ⟨u, hm, hbad⟩ | ⟨gn, hm, hbad⟩ | ⟨c, hm, hbad⟩
          · cases hm
            simp [Remote.optional, resolveOct, hbad] at hu
          · cases hm
            obtain ⟨m, hr⟩ := (resolveUser_eq hw u).2.2 hbad
            simp [Remote.optional, hr] at hus
          · cases hm
            obtain ⟨m, hr⟩ := (resolveGroup_eq hw gn).2.2 hbad
            simp [Remote.optional, hr] at hg
          · cases hm
            have : osIsdir sys w c = false := by
              unfold osIsdir osStat
              cases hgc : guardCall sys w c (.stat c true) with
              | error e => rfl
              | ok _ =>
                simp only
                cases hl : lookup w.fs w.cwd c true with
                | error n => rfl
                | ok x =>
                  obtain ⟨l, n⟩ := x
                  simpa using hbad l n hl
            simp only [Option.any_some, this, Bool.not_false, if_true]
            exact ⟨_, _, rfl, .inr (.inr (.inr rfl))⟩
  obtain ⟨f, m, hp, hf⟩ := hp
  rw [run_eq, hp]
  have hattr : ∃ v, Packet.getattr (.processRun command input capture user group umask cwd) f = some v := by
    rcases hf with rfl | rfl | rfl | rfl <;> exact ⟨_, rfl⟩
  obtain ⟨v, hv⟩ := hattr
  exact ⟨Wire.invalidFieldMsg v f m, by simp [refused, unpackResponse, hv]⟩

theorem example_honest : Honest Example.sys := by
  intro p w
  simp only [Example.sys]
  repeat' split
  all_goals rfl

/-- Cases that meet the hypotheses: a command run as alice in /home, and one with an unknown user. -/
example : Honest Example.sys ∧ Example.world.Sane := ⟨example_honest, Example.world_sane⟩
example : ((Connector.run [p!"id"] (user := some p!"alice") (umask := some p!"022") (cwd := some p!"/home")).run
      (direct Example.sys) Example.world).2.started
    = [{ argv := [p!"id"], stdin := none, capture := true, uid := 1000, gid := 100, supp := [0, 10], umask := 0o022, cwd := [p!"home"] }] := rfl
example : BadRun Example.world (some p!"bob") none none none :=
  .inr (.inl ⟨_, rfl, fun e h => by cases findUser_iff.mpr h⟩)
example : BadRun Example.world none none none (some p!"/etc/motd") :=
  .inr (.inr (.inr ⟨_, rfl, fun l n h => by
    have : lookup Example.world.fs Example.world.cwd p!"/etc/motd" true
      = .ok ([p!"etc", p!"motd"], { kind := .file [104, 105, 10], perm := 0o644, uid := 1000, gid := 100, mtime := 5, ctime := 6 }) := rfl
    rw [this] at h; cases h; simp⟩))

/-- The full statement of C16 about groups: a process started as another user belongs to no other groups than that user:
its group, and the groups that list the user as member. -/
def C16_Statement_groups : Prop :=
  ∀ (sys : Sys) (w w' : World) (command : List Str) (u : Str) (e : PwEntry) (r : Except Exn Completed) (proc : Proc),
    sys.Sane → w.Sane → DenotesUser w u e →
    (Connector.run command (user := some u)).run (direct sys) w = (r, w') → w'.started = proc :: w.started →
    ∀ g ∈ proc.supp, g = e.gid ∨ ∃ ge ∈ w.groups, ge.gid = g ∧ e.name ∈ ge.members

/-- C16 is false of the code, 1: the process keeps the supplementary groups of the dispatcher. On the example host a command
run as alice is a member of group 0. -/
theorem C16_supplementary_groups_refuted : ¬ C16_Statement_groups := by
  intro h
  have := h Example.sys Example.world _ [p!"id"] p!"alice" Example.alice _
    { argv := [p!"id"], stdin := none, capture := true, uid := 1000, gid := 100, supp := [0, 10], umask := 0o077, cwd := [] }
    Example.sys_sane Example.world_sane (.inl rfl) rfl rfl 0 (by decide)
  revert this
  decide

/-- On every host the supplementary groups of a process are those of the dispatcher. -/
theorem C16_supplementary_groups_inherited (sys : Sys) (hs : Honest sys) (w w' : World) (command : List Str) (input : Option Bytes)
    (capture check : Bool) (user group umask cwd : Option Str) (r : Except Exn Completed) (proc : Proc)
    (h : (Connector.run command input capture check user group umask cwd).run (direct sys) w = (r, w'))
    (hp : w'.started = proc :: w.started) : proc.supp = w.supp := by
  rw [run_eq] at h
  have hne : ∀ l : List Proc, l ≠ proc :: l := fun l hl => by
    have := congrArg List.length hl
    simp at this
  cases hpl : plan sys command input capture user group umask cwd w with
  | error rep =>
    rw [hpl] at h
    have h2 := congrArg Prod.snd h
    simp only at h2
    subst h2
    exact absurd hp (hne _)
  | ok pr =>
    rw [hpl] at h
    simp only at h
    have hst := hs pr { w with started := pr :: w.started }
    cases he : sys.exec pr { w with started := pr :: w.started } with
    | mk res w1 =>
      rw [he] at h hst
      cases res with
      | failed e => cases h; exact absurd hp (hne _)
      | done out err code =>
        cases h
        simp only at hst
        rw [hst] at hp
        cases hp
        unfold plan at hpl
        repeat' split at hpl
        all_goals first
          | (cases hpl; done)
          | (cases hpl; rfl)

/-- A host with the directories `/`, `/a` and `/a/a`, or without the last one. -/
def cwdWorld (inner : Bool) : World :=
  { Example.world with fs := fun l =>
      if l = [] ∨ l = [p!"a"] ∨ (inner ∧ l = [p!"a", p!"a"]) then some (Example.dirNode 0o755) else none }

/-- C16 is false of the code, 2: a relative working directory is entered twice. The command asked to run in `a` (an existing
directory) runs in `a/a` if that exists, and otherwise is not started at all. -/
theorem C16_relative_cwd_refuted :
    (∃ n, lookup (cwdWorld true).fs (cwdWorld true).cwd p!"a" true = .ok ([p!"a"], n) ∧ n.kind = .dir)
    ∧ (((Connector.run [p!"pwd"] (cwd := some p!"a")).run (direct Example.sys) (cwdWorld true)).2.started.map (·.cwd))
      = [[p!"a", p!"a"]]
    ∧ (∃ n, lookup (cwdWorld false).fs (cwdWorld false).cwd p!"a" true = .ok ([p!"a"], n) ∧ n.kind = .dir)
    ∧ ((Connector.run [p!"pwd"] (cwd := some p!"a")).run (direct Example.sys) (cwdWorld false)).1
      = .error (.valueError preexecMsg) :=
  ⟨⟨_, rfl, rfl⟩, rfl, ⟨_, rfl, rfl⟩, rfl⟩

/-! ### C17 -/

/-- C17. With captured output, `run` either fails without having run anything to its end, or the command ran to its end and
its output, error output and exit code are delivered exactly: with `check` and an exit code other than 0 as
`CalledProcessError`, otherwise as the result. -/
theorem C17_delivered_partial (sys : Sys) (w w' : World) (command : List Str) (input : Option Bytes) (check : Bool)
    (user group umask cwd : Option Str) (r : Except Exn Completed)
    (h : (Connector.run command input true check user group umask cwd).run (direct sys) w = (r, w')) :
    (w' = w ∧ ∃ e, r = .error e ∧ ∀ c o er, e ≠ .calledProcessError c o er)
    ∨ ∃ proc out err code, proc.argv = command ∧ proc.stdin = input ∧ proc.capture = true
      ∧ sys.exec proc { w with started := proc :: w.started } = (.done out err code, w')
      ∧ r = if check = true ∧ code ≠ 0 then .error (.calledProcessError code (some out) (some err))
            else .ok { stdout := some out, stderr := some err, returncode := code } := by
  rw [run_eq] at h
  cases hp : plan sys command input true user group umask cwd w with
  | error rep =>
    rw [hp] at h
    have h1 := congrArg Prod.fst h
    have h2 := congrArg Prod.snd h
    simp only at h1 h2
    refine .inl ⟨h2.symm, ?_⟩
    rcases plan_error hp with ⟨f, m, rfl⟩ | ⟨m, rfl⟩ | ⟨e, rfl⟩
    · simp only [refused, unpackResponse] at h1
      cases hg : Packet.getattr (.processRun command input true user group umask cwd) f with
      | none => rw [hg] at h1; exact ⟨_, h1.symm, fun _ _ _ h => by cases h⟩
      | some v => rw [hg] at h1; exact ⟨_, h1.symm, fun _ _ _ h => by cases h⟩
    · exact ⟨_, h1.symm, fun _ _ _ h => by cases h⟩
    · cases e with
      | osError n s m => cases n <;> exact ⟨_, h1.symm, fun _ _ _ h => by cases h⟩
      | _ => exact ⟨_, h1.symm, fun _ _ _ h => by cases h⟩
  | ok proc =>
    rw [hp] at h
    simp only at h
    have hproc : proc.argv = command ∧ proc.stdin = input ∧ proc.capture = true := by
      unfold plan at hp
      repeat' split at hp
      all_goals first
        | (cases hp; done)
        | (cases hp; exact ⟨rfl, rfl, rfl⟩)
    cases he : sys.exec proc { w with started := proc :: w.started } with
    | mk res w1 =>
      rw [he] at h
      cases res with
      | failed e => cases h; exact .inl ⟨rfl, _, rfl, fun _ _ _ h => by cases h⟩
      | done out err code =>
        cases h
        refine .inr ⟨proc, out, err, code, hproc.1, hproc.2.1, hproc.2.2, he, ?_⟩
        cases check
        · simp [delivered]
        · by_cases hc : code = 0 <;> simp [delivered, hc]

example : (Connector.run [p!"false"] (check := false)).run (direct Example.sys) Example.world
    = (.ok { stdout := some [], stderr := some [], returncode := 1 },
       { Example.world with started := [{ argv := [p!"false"], stdin := none, capture := true, uid := 0, gid := 0, supp := [0, 10], umask := 0o077, cwd := [] }] }) := rfl
example : ((Connector.run [p!"false"]).run (direct Example.sys) Example.world).1 = .error (.calledProcessError 1 (some []) (some [])) := rfl

/-- The full statement of C17 for commands whose output is not captured: the return code is that of the command. -/
def C17_Statement : Prop :=
  ∀ (sys : Sys) (w : World) (command : List Str) (code : Int) (c : Completed), sys.Sane → w.Sane →
    (∀ p w, p.argv = command → ∃ out err w', sys.exec p w = (.done out err code, w')) →
    ((Connector.run command (captureOutput := false) (check := false)).run (tunnel sys) (idle w)).1 = .ok c → c.returncode = code

/-- A program that fails, after printing the bytes of a response packet that reports success. -/
def forger : Sys :=
  { Example.sys with exec := fun _ w => (.done (encoding (.processCompleted none none 0)) [] 1, w) }

theorem forger_sane : forger.Sane where
  fault := by intro w c e h; cases h
  failed := by intro p w e w' h; cases h
  done := by
    intro p w o e c w' h
    simp only [forger, Prod.mk.injEq, ExecRes.done.injEq] at h
    obtain ⟨⟨rfl, rfl, rfl⟩, rfl⟩ := h
    exact ⟨by unfold Modest; decide, by unfold Modest; decide, by decide⟩
  world := by intro p w hw; exact hw
  sha512 := by intro c; simp [forger, Example.sys]

/-- C17 is false of the code without capturing: what the command prints goes into the protocol stream, so that a failing
command can report success. -/
theorem C17_uncaptured_refuted : ¬ C17_Statement := by
  intro h
  have := h forger Example.world [p!"evil"] 1 { stdout := none, stderr := none, returncode := 0 } forger_sane Example.world_sane
    (fun p w _ => ⟨_, _, _, rfl⟩) (by rfl)
  revert this
  decide

end Verif.Client
