/-
Password hashes that nobody asked to set (C96).
-/
import Verif.Ops.PasswordLemmas
import Verif.Ops.UserProps
import Verif.Ops.Record
import Verif.Ops.ReportProps

namespace Verif.Ops

open Script Remote

/-- C96, password hashes: unless -v is given, `user` without a password hash reveals nothing about the hash of the account,
whether it changes or removes the account, fails, or leaves it as it is: if the host answers the same but for the hash, it makes
the same requests, prints the same texts, and ends in the same way, up to the states in the result. Together with `C96_hashes`,
this covers all operations; what is missing is -v (see `C96_password_refuted`). -/
theorem C96_password_partial (a : UserArgs) (hnone : a.passwordHash = none) (check : Bool) (env : Env) (st st1 : St) (t t' : Trace)
    (r : Except Exn OpResult) (he : Execution (user a check) env st t r st1) (hsame : SameButHash t t') :
    ∃ r' st1', Execution (user a check) env st t' r' st1' ∧ SameEnd r r' ∧ SamePrinted (fun o => o.verbose = 0) st1.shown st1'.shown := by
  obtain ⟨⟨r', s'⟩, h1, h2, ⟨_, old, p, p', h3, h4, h5⟩, _⟩ := (hides_user a (.inl hnone) check st).runs he hsame
  refine ⟨r', s', h1, h2, fun udiff repr o level title ho => ?_⟩
  rw [show st1.shown = _ from h3, show s'.shown = _ from h4, List.map_append, List.map_append, List.map_singleton, List.map_singleton,
    h5.printed udiff repr o level title ho]

namespace Example

/-- The host with another password hash for alice. -/
def rehashed : World := { fullHost with shadow := host.shadow ++ [(p!"alice", p!"$6$y")] }

/-- What an operation prints. -/
def printedBy (o : Run.Options) (op : Op OpResult) (w : World) : List Str :=
  (exec (flaky userSys always) op env st (w, 0)).1.2.shown.map fun p =>
    (Run.printOperation (fun _ b => b) (fun _ => []) o 0 ⟨p!"user", p!"alice", none⟩ p).1

end Example

/-- Answers can be compared. -/
instance : DecidableEq (Except Exn Wire.Packet)
  | .ok a, .ok b => decidable_of_iff (a = b) (by simp)
  | .error a, .error b => decidable_of_iff (a = b) (by simp)
  | .ok _, .error _ => isFalse (by simp)
  | .error _, .ok _ => isFalse (by simp)

/-- The conversation with a host on which alice has some password hash, if the shell is changed. -/
def Example.dialogue (hash : Str) : Trace :=
  [(.queryUser p!"alice" true, .ok (.userEntry p!"alice" 1000 p!"users" 100 [p!"users"] (some hash) p!"A" p!"/home/alice" p!"/bin/sh")),
   (.processRun [p!"usermod", p!"--shell", p!"/bin/zsh", p!"--", p!"alice"] none true none none none none, .ok (.processCompleted (some []) (some []) 0))]

/-- An account whose shell is changed, on two hosts with different hashes: the conversations are the same but for the hash. -/
example : conversation Example.userSys Example.always (user { user := p!"alice", shell := some p!"/bin/zsh" } true) Example.env Example.st Example.fullHost
      = Example.dialogue p!"$6$x"
    ∧ conversation Example.userSys Example.always (user { user := p!"alice", shell := some p!"/bin/zsh" } true) Example.env Example.st Example.rehashed
      = Example.dialogue p!"$6$y"
    ∧ SameButHash (Example.dialogue p!"$6$x") (Example.dialogue p!"$6$y") :=
  ⟨by decide +kernel, by decide +kernel, .cons _ (.entry ..) (.cons _ (.same _) .nil)⟩

/-- What is printed is the same, whether the shell is changed or the account is removed, and shows the change, but not with -v. -/
example : Example.printedBy { noColor := true } (user { user := p!"alice", shell := some p!"/bin/zsh" } true) Example.fullHost
      = [p!"\ruser alice\n└ shell: /bin/sh → /bin/zsh\n"]
    ∧ Example.printedBy { noColor := true } (user { user := p!"alice", shell := some p!"/bin/zsh" } true) Example.rehashed
      = [p!"\ruser alice\n└ shell: /bin/sh → /bin/zsh\n"]
    ∧ Example.printedBy { noColor := true } (user { user := p!"alice", present := false } true) Example.fullHost
      = Example.printedBy { noColor := true } (user { user := p!"alice", present := false } true) Example.rehashed
    ∧ Example.printedBy { noColor := true, verbose := 1 } (user { user := p!"alice", shell := some p!"/bin/zsh" } true) Example.fullHost
      ≠ Example.printedBy { noColor := true, verbose := 1 } (user { user := p!"alice", shell := some p!"/bin/zsh" } true) Example.rehashed := by
  decide +kernel

end Verif.Ops
