/-
C107: no failure passes unnoticed.
-/
import Verif.Ops.FailLemmas
import Verif.Ops.Record
import Verif.Ops.Example

namespace Verif.Ops

open Script
open Wire (Packet)

/-- A request either succeeds or fails, and not both. -/
theorem C107_alternatives (request : Packet) (answer : Except Exn Packet) (h : Succeeds request answer) (e : Exn) : ¬ Fails request answer e := by
  intro hf
  cases hf with
  | status command stdin capture user group umask cwd out err code hc hs =>
    cases h with
    | run => exact hc rfl
    | status _ _ _ _ h => exact hs h
    | answered _ _ _ h => exact h _ _ _ _ _ _ _ rfl
  | unstarted =>
    cases h with
    | answered _ _ _ h => exact h _ _ _ _ _ _ _ rfl
  | exception _ _ hn =>
    cases h with
    | missing _ _ ha hv => exact hn ⟨ha, hv⟩
  | nonsense _ _ hn =>
    cases h with
    | run => exact hn (.run _ _ _ _ _ _ _ _ _ _)
    | status _ _ _ _ h => cases h; exact hn (.run _ _ _ _ _ _ _ _ _ _)
    | answered _ _ ha _ => exact hn ha

/-- C107: however the host answers, every operation stops at the first request that fails and raises that failure. With `check` or
without. -/
theorem C107_noticed (opts : List Str) (op : Op OpResult) (hop : Operation opts op) (env : Env) (st st' : St) (t : Trace) (r : Except Exn OpResult)
    (h : Execution op env st t r st') : Noticed t r := firm_operation hop _ _ _ _ h

/-- C107: if an operation returns, everything it asked the host for was done: all commands ended with the status zero, all uploads were
confirmed, and all questions were answered. -/
theorem C107_returned (opts : List Str) (op : Op OpResult) (hop : Operation opts op) (env : Env) (st st' : St) (t : Trace) (result : OpResult)
    (h : Execution op env st t (.ok result) st') :
    (∀ request answer, (request, answer) ∈ t → Succeeds request answer)
      ∧ (∀ command stdin capture user group umask cwd answer, (.processRun command stdin capture user group umask cwd, answer) ∈ t →
          ¬ LooksOnly command → ∃ out err, answer = .ok (.processCompleted out err 0))
      ∧ (∀ file content mode owner group answer, (.upload file content mode owner group, answer) ∈ t → answer = .ok .ok) := by
  have hall := (firm_operation hop _ _ _ _ h).all
  refine ⟨hall, fun command stdin capture user group umask cwd answer hm hl => ?_, fun file content mode owner group answer hm => ?_⟩
  · cases hall _ _ hm with
    | run => exact ⟨_, _, rfl⟩
    | status _ _ _ _ hs => cases hs; exact absurd (.pacmanInstalled _) hl
    | answered _ _ _ h => exact absurd rfl (h _ _ _ _ _ _ _)
    | missing _ _ ha => cases ha
  · cases hall _ _ hm with
    | status _ _ _ _ hs => cases hs
    | answered _ _ ha => cases ha; rfl
    | missing _ _ ha => cases ha

/-- C107 for what is run on a host: the first request that fails is the last one of the script, and what is raised is that failure. -/
theorem C107_script (ops : List (Op OpResult)) (hops : ∀ op ∈ ops, ∃ opts, Operation opts op) (env : Env) (st st' : St) (t : Trace)
    (r : Except Exn (List OpResult)) (h : Execution (Program.runCmdline ops) env st t r st') : Noticed t r :=
  firm_withDefaults (fun _ => firm_deploy hops) _ _ _ _ h

/-- An operation that does not succeed, although it is called with `check=False`: the command fails, and it is the last request. -/
example :
    let op := directory p!"/missing/d" true false none none none false
    let t := conversation Example.sys Example.always op Example.env Example.st Example.host
    (perform Example.sys Example.always op Example.env Example.st Example.host).1.toOption = none
      ∧ t.length = 7 ∧ (t.drop 6).map (fun e => match e with | (.processRun c .., .ok (.processCompleted _ _ code)) => (c, code != 0) | _ => ([], false))
        = [([p!"mkdir", p!"--", p!"/missing/d"], true)] := by
  decide +kernel

/-- One that does: all of its requests have succeeded. -/
example :
    let op := directory p!"/tmp/new" true false none none none true
    let t := conversation Example.sys Example.always op Example.env Example.st Example.host
    (perform Example.sys Example.always op Example.env Example.st Example.host).1.toOption.isSome = true
      ∧ t.length = 9 ∧ ∀ request answer, (request, answer) ∈ t → Succeeds request answer := by
  have hs : (perform Example.sys Example.always (directory p!"/tmp/new" true false none none none true) Example.env Example.st Example.host).1.toOption.isSome = true := by
    decide +kernel
  refine ⟨hs, by decide +kernel, ?_⟩
  obtain ⟨st', h⟩ := execution_conversation Example.sys Example.always (directory p!"/tmp/new" true false none none none true) Example.env Example.st Example.host
  cases hr : (perform Example.sys Example.always (directory p!"/tmp/new" true false none none none true) Example.env Example.st Example.host).1 with
  | error e => rw [hr] at hs; cases hs
  | ok a =>
    rw [hr] at h
    exact (C107_returned [] _ (.directory ..) _ _ _ _ _ h).1

/-- Where the connection breaks, the script ends. -/
example :
    let ops := [directory p!"/tmp/new" true false none none none true, directory p!"/tmp/other" true false none none none true]
    let lost := fun n => if n = 7 then some true else none
    let t := conversation Example.sys lost (Program.runCmdline ops) Example.env Example.st Example.host
    t.length = 8 ∧ (perform Example.sys lost (Program.runCmdline ops) Example.env Example.st Example.host).1.toOption = none := by
  decide +kernel

end Verif.Ops
