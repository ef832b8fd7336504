/-
C100: what is printed about a script tells whether the host was changed, whatever the control flow of the script.
-/
import Verif.Ops.ScriptedLemmas
import Verif.Ops.DryProps

namespace Verif.Ops

open Script Remote
open Wire (Packet)

variable {α : Type}

/-- C100, dry runs. With `--dry`, no script sends a request that can modify the host, whatever the remote answers. -/
theorem C100_dry_run_only_looks (m : Op α) (hm : Scripted m) (env : Env) (hd : env.dry = true) (st st' : St) (t : Trace) (r : Except Exn α)
    (h : Execution m env st t r st') : ∀ request answer, (request, answer) ∈ t → ReadOnly request := by
  exact fun request answer he => sends_scripted hm hd _ _ _ _ h _ he

/-- C100, on a host whose programs that only look do not change it: after a dry run of any script, however it ended and wherever the
connection broke, the host is exactly as before. (Only the history of started processes is longer.) -/
theorem C100_dry_run_changes_nothing (sys : Sys) (hlook : ∀ p w, LooksOnly p.argv → (sys.exec p w).2 = w) (lost : Nat → Option Bool)
    (m : Op α) (hm : Scripted m) (env : Env) (hd : env.dry = true) (st : St) (w : World) :
    let w' := (perform sys lost m env st w).2
    w' = { w with started := w'.started } :=
  perform_same (readOnly_same hlook) fun _ _ _ h _ e he => C100_dry_run_only_looks m hm env hd _ _ _ _ h e.1 e.2 he

/-- C100, what is printed. Whatever a script does and however it ends, earlier output stays as it is. If all summaries that were printed
meanwhile say that an operation has succeeded without a change, then no request was sent that can modify the host, whatever the
remote answered. -/
theorem C100_screen_only_looks (m : Op α) (hm : Scripted m) (env : Env) (st st' : St) (t : Trace) (r : Except Exn α) (h : Execution m env st t r st') :
    ∃ new, st'.shown = st.shown ++ new ∧ ((∀ p ∈ new, Report.Unchanged p) → ∀ request answer, (request, answer) ∈ t → ReadOnly request) := by
  obtain ⟨new, h1, h2⟩ := fair_scripted hm env _ _ _ _ h
  exact ⟨new, h1, fun hall request answer he => h2 hall _ he⟩

/-- C100, on such a host: if nothing but operations without a change were printed, the host is exactly as before. -/
theorem C100_screen_changes_nothing (sys : Sys) (hlook : ∀ p w, LooksOnly p.argv → (sys.exec p w).2 = w) (lost : Nat → Option Bool)
    (m : Op α) (hm : Scripted m) (env : Env) (st : St) (w : World)
    (hall : ∀ p ∈ (exec (flaky sys lost) m env { st with shown := [] } (w, 0)).1.2.shown, Report.Unchanged p) :
    let w' := (perform sys lost m env { st with shown := [] } w).2
    w' = { w with started := w'.started } := by
  refine run_same (readOnly_same hlook) (m env { st with shown := [] }) (w, 0) fun e he => ?_
  obtain ⟨new, h1, h2⟩ := C100_screen_only_looks m hm env _ _ _ _ (runs_recorded (flaky sys lost) (m env { st with shown := [] }) (w, 0))
  refine h2 (fun p hp => hall p ?_) e.1 e.2 he
  show p ∈ ((m env { st with shown := [] }).run (flaky sys lost) (w, 0)).1.2.shown
  rw [h1]
  simpa using hp

/-- C100, defaults: however a script ends, the defaults that are in force afterwards are those before it. -/
theorem C100_defaults (m : Op α) (hm : Scripted m) (env : Env) (st st' : St) (t : Trace) (r : Except Exn α) (h : Execution m env st t r st') :
    st'.stack = st.stack := by
  exact balanced_scripted hm _ _ _ _ _ h

/-! ### An example -/

namespace Example

/-- A script: it looks for `/tmp/d`; makes this directory if it is missing, inside of a block of defaults; tries to make a directory in a
place that does not exist, and goes on if this fails; and calls another script that makes `/tmp/e` if the first directory was changed. -/
def makeFirst : Option Client.StatResult → Op Bool
  | none => withDefaults { dirMode := some p!"750" } fun _ => do
      let r ← directory p!"/tmp/d" true false none none none true
      Op.pure r.changed
  | some _ => Op.pure false

def branching : Op Unit := do
  let s ← Connection.stat p!"/tmp/d"
  let changed ← makeFirst s
  let _ ← Op.tryCatch (directory p!"/missing/d" true false none none none true) fun _ => directory p!"/tmp" true false (some p!"1777") none none true
  if changed then
    localScript (do
      let _ ← directory p!"/tmp/e" true false none none none true
      Op.pure ())
  else Op.pure ()

theorem looks_pure {α : Type} (a : α) : OnlyLooks (Op.pure a) := fun _ _ _ _ _ h => by
  obtain ⟨rfl, _, rfl⟩ := execution_pure.mp h
  exact ⟨fun _ _ h => absurd h List.not_mem_nil, rfl⟩

theorem looks_stat (path : Str) : OnlyLooks (Connection.stat path) := fun env _ _ _ _ h =>
  ⟨fun request answer he => Sends.stat (P := ReadOnly) (env := env) (fun _ h => .inl h) path false false _ _ _ _ h _ he, Keeps.call (f := id) _ _ _ _ _ _ h⟩

theorem scripted_pure {α : Type} (a : α) : Scripted (Op.pure a) := .look _ (looks_pure a)

theorem scripted_directory (path : Str) (present touch : Bool) (mode owner group : Option Str) (check : Bool) :
    Scripted (directory path present touch mode owner group check) := .operation [] _ (.directory path present touch mode owner group check)

theorem makeFirst_scripted (s : Option Client.StatResult) : Scripted (makeFirst s) := by
  unfold makeFirst
  split
  · exact .defaults _ _ fun _ => .andThen _ _ (scripted_directory _ _ _ _ _ _ _) fun r => scripted_pure _
  · exact scripted_pure _

theorem branching_scripted : Scripted branching := by
  refine .andThen _ _ (.look _ (looks_stat _)) fun s => .andThen _ _ (makeFirst_scripted s) fun changed => .andThen _ _ ?_ fun _ => ?_
  · exact .attempt _ _ (scripted_directory _ _ _ _ _ _ _) fun _ => scripted_directory _ _ _ _ _ _ _
  · cases changed with
    | true => exact .script _ (.andThen _ _ (scripted_directory _ _ _ _ _ _ _) fun _ => scripted_pure _)
    | false => exact scripted_pure _

/-- The host after a run, and what was printed. -/
def hostAfter (env : Env) (w : World) : World := (perform sys always branching env st w).2
def printedLines (env : Env) (w : World) : List (Bool × Bool) := outcomes (exec (flaky sys always) branching env st (w, 0)).1.2.shown

/-- On the example host the script makes the two directories, with the mode of the defaults for the first one only; one of the operations
fails. With `--dry` the same is printed (except that what is missing is not noticed), and nothing is changed. A second run finds nothing to do,
and prints this, apart from the failure. -/
example : printedLines env host = [(true, true), (false, false), (true, false), (true, true)]
    ∧ (hostAfter env host).fs [p!"tmp", p!"e"] ≠ host.fs [p!"tmp", p!"e"]
    ∧ (hostAfter { env with dry := true } host).fs [p!"tmp", p!"e"] = host.fs [p!"tmp", p!"e"]
    ∧ printedLines env (hostAfter env host) = [(false, false), (true, false)] := by
  decide +kernel

end Example

end Verif.Ops
