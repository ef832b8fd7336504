/-
What is stored in files does not reach the screen (C96).
-/
import Verif.Ops.SecrecyLemmas
import Verif.Ops.SecrecyHash
import Verif.Ops.ReportProps
import Verif.Ops.UserProps
import Verif.Run.Report

namespace Verif.Ops

open Script Remote

/-- C96. Without --diff, what a script stores in files can not be learned from what it prints, from how it ends or from its
other requests: take two scripts whose operations differ in nothing but the contents that they upload or render, such that the
checksums of these contents are the same. (The two scripts may use different checksum functions, so this says nothing about the
contents themselves.) Whatever the host answers to the first, the second does the same if it gets the same answers: it makes
the same requests in the same order, but for the contents of files that it writes, prints the same, and ends in the same way. -/
theorem C96_contents (ops ops' : List (Op OpResult)) (hops : SameScript ops ops') (env : Env) (hdiff : env.diff = false) (st st' : St) (t : Trace)
    (r : Except Exn (List OpResult)) (he : Execution (deploy ops) env st t r st') :
    ∃ t', Execution (deploy ops') env st t' r st' ∧ SameButContents t t' :=
  (veils_deploy hdiff hops st).runs he

/-- C96, line: without --diff, the one summary of `line` says nothing about the file, the line or the expression other than
whether the line is there: its states are empty or consist of this one value, and there is no diff. -/
theorem C96_line (path text : Str) (present : Bool) (regex : Option Regex) (ignoreWhitespace : Bool) (backup : Backup) (check : Bool)
    (env : Env) (hdiff : env.diff = false) (st st' : St) (t : Trace) (r : Except Exn OpResult)
    (he : Execution (line path text present regex ignoreWhitespace backup check) env st t r st') :
    ∃ p, st'.shown = st.shown ++ [p] ∧ p.diffs = []
      ∧ (p.result.initial = [] ∨ ∃ b, p.result.initial = [(p!"line_present", .bool b)])
      ∧ (p.result.final = [] ∨ ∃ b, p.result.final = [(p!"line_present", .bool b)]) := by
  let Q : Dict → Prop := fun d => d = [] ∨ ∃ b, d = [(p!"line_present", .bool b)]
  obtain ⟨x, d, h1, h2, _, _⟩ := says_line path text present regex ignoreWhitespace backup check _ _ _ _ he
  refine ⟨_, h1, h2 hdiff, ?_⟩
  obtain ⟨r0, st0, h3, h4, _⟩ := execution_operation.mp he
  have hf : Formed Q st.shown st0 := Forms.line (.inl rfl) (fun b => .inr ⟨b, rfl⟩) _ _ _ _ _ _ _ _ _ _ _ _ h3
    ⟨fun _ h => (by cases h), fun _ h => (by cases h), [], by simp, by simp⟩
  have hs : ∃ new, st'.shown = st.shown ++ new ∧ ∀ p ∈ new, Q p.result.initial ∧ Q p.result.final := by
    subst h4
    rcases r0 with e | o
    · exact (hf.failed (.inl rfl) (errorText e)).shown
    · exact hf.shown
  obtain ⟨new, h5, h6⟩ := hs
  rw [h1] at h5
  exact h6 _ (List.append_cancel_left h5 ▸ List.mem_singleton.mpr rfl)

/-- C96, password hashes: of all operations, only `user` asks a host for the password hashes of accounts. -/
theorem C96_hashes (env : Env) (opts : List Str) (op : Op OpResult) (hop : Operation opts op) (hnot : ∀ a check, op ≠ user a check) (st st' : St) (t : Trace)
    (r : Except Exn OpResult) (he : Execution op env st t r st') : ∀ e ∈ t, ¬ AsksForHash e.1 :=
  nohash_operation hop hnot _ _ _ _ he

namespace Example

/-- Some function that gives different checksums. -/
def someHash (b : Bytes) : Bytes := b.map (· + 1)
/-- Another one, under which another content has the checksum of "AB". -/
def otherHash (b : Bytes) : Bytes := b.map (· - 1)

/-- A script that stores a content in a file, uploads a tree, and stores a rendered template. -/
def store (sha512 : Bytes → Bytes) (c : Bytes) (vars : List (Str × Str)) : List (Op OpResult) :=
  [uploadContent sha512 (.bytes c) p!"/etc/secret" none none none true,
   directory p!"/srv" true false none none none true,
   uploadDir sha512 p!"keys" (.dir [(p!"id", .file (.ok c)), (p!"old", .dir [])]) p!"/srv/" none none none none true,
   templateContent sha512 (fun v => .text ((v.map (·.2)).headD [])) p!"/etc/conf" vars none p!"host" none none none true]

theorem stores : SameScript (store someHash [65, 66] [(p!"password", p!"AB")]) (store otherHash [67, 68] [(p!"password", p!"CD")]) :=
  .cons (.uploadContent _ _ _ _ [65, 66] [67, 68] _ _ _ _ _ rfl rfl (by decide))
    (.cons (.same _)
      (.cons (.uploadDir _ _ _ _ _ _ _ _ _ _ _ (.dir _ _ (.cons _ _ _ _ _ (.file _ _ (by decide)) (.cons _ _ _ _ _ (.dir _ _ .nil) .nil))))
        (.cons (.templateContent _ _ _ _ _ _ _ _ _ _ _ p!"AB" p!"CD" [65, 66] [67, 68] _ _ _ _ rfl (by decide) rfl (by decide) (by decide)) .nil)))

/-- What is printed by a script. -/
def printed (o : Run.Options) (ops : List (Op OpResult)) : List Str :=
  (exec (flaky Example.sys Example.always) (deploy ops) { Example.env with diff := o.diff } Example.st (Example.host, 0)).1.2.shown.map fun p =>
    (Run.printOperation (fun _ b => [[], []] ++ b) (fun _ => []) o 0 ⟨p!"op", p!"what", none⟩ p).1

end Example

/-- Both scripts are carried out; what they print is the same, even with -v, unless --diff is given. -/
example : (Example.printed { verbose := 1 } (Example.store Example.someHash [65, 66] [(p!"password", p!"AB")])).length = 6
    ∧ Example.printed { verbose := 1 } (Example.store Example.someHash [65, 66] [(p!"password", p!"AB")])
      = Example.printed { verbose := 1 } (Example.store Example.otherHash [67, 68] [(p!"password", p!"CD")])
    ∧ Example.printed { diff := true } (Example.store Example.someHash [65, 66] [(p!"password", p!"AB")])
      ≠ Example.printed { diff := true } (Example.store Example.otherHash [67, 68] [(p!"password", p!"CD")]) := by
  decide +kernel

/-- A line that is added. -/
example : Example.outcomes (shownBy Example.sys Example.always (line p!"/etc/motd" p!"secret" true none true .no true) Example.env Example.st Example.host)
    = [(true, true)] := by decide +kernel

/-- C96 is false of password hashes: `user` shows the hash of an account on the screen if -v is given, even if the script neither
mentions a hash nor changes anything about the account. -/
theorem C96_password_refuted :
    let op := user { user := p!"alice" } true
    let r := shownBy Example.userSys Example.always op Example.env Example.st Example.fullHost
    (r.map fun p => (p.result.success, p.result.changed)) = [(true, false)]
    ∧ (r.map fun p => (Run.printOperation (fun _ b => b) (fun _ => []) { verbose := 1, noColor := true } 0 ⟨p!"user", p!"alice", none⟩ p).1)
      = [p!"\ruser alice\n└ exists: True, uid: 1000, group: users, groups: , comment: A, home: /home/alice, shell: /bin/sh, password_hash: $6$x\n"] := by
  decide +kernel

end Verif.Ops
