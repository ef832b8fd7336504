/-
C101: runs at the same time.
-/
import Verif.Ops.TogetherLemmas
import Verif.Ops.LineProps

namespace Verif.Ops

open Script Remote
open Client (Prog direct)
open Wire (Packet)

/-- C101: dry runs are not noticed. While a script is run on a host, any number of dry runs of any scripts may be made for the same host, at
whatever pace. At every moment the run is where it would be, and the host is as it would be, without them; if the run has come to its end,
its outcome, the screen (which is part of the state) and the host are those of the script when it is run alone. Assumed of the host: programs that
only look do not change it, and what programs do does not depend on the history of processes. -/
theorem C101_dry_runs_unnoticed (sys : Sys) (hlook : ∀ p w, LooksOnly p.argv → (sys.exec p w).2 = w) (hn : NoHistory sys) {α β : Type}
    (m : Op α) (env : Env) (st : St) (lost : Nat → Option Bool) (w : World)
    (dry : Nat → Op β) (envs : Nat → Env) (sts : Nat → St) (losts : Nat → Nat → Option Bool) (hdry : ∀ i, Scripted (dry i) ∧ (envs i).dry = true)
    (schedule : List (Option Nat)) :
    let run := Process.start m env st lost
    let others := fun i => Process.start (dry i) (envs i) (sts i) (losts i)
    let amidst := amid sys schedule run others w
    let alone := amid sys (schedule.filter Option.isNone) run others w
    (amidst.1 = alone.1 ∧ SameHost alone.2.2 amidst.2.2)
    ∧ ∀ r, amidst.1.todo = .ret r → (exec (flaky sys lost) m env st (w, 0)).1 = r ∧ SameHost (exec (flaky sys lost) m env st (w, 0)).2.1 amidst.2.2 := by
  have hasks : ∀ i, (Process.start (dry i) (envs i) (sts i) (losts i)).Asks sys (fun _ => True) ReadOnly := fun i =>
    asks_start fun t r st' he _ request answer hm => sends_scripted (hdry i).1 (hdry i).2 _ _ _ _ he (request, answer) hm
  refine ⟨amid_alone hlook hn schedule _ _ _ _ _ hasks (.refl w), fun r hr => ?_⟩
  obtain ⟨h1, h2⟩ := amid_looking hlook hn schedule (Process.start m env st lost) _ w hasks
  rw [Process.run_start] at h1 h2
  simp only [Process.run, hr, Prog.run] at h1 h2
  exact ⟨h1.symm, h2⟩

/-- C101 (partially): runs that do not get in each other's way. Two scripts are run on the same host at the same time, in real runs. If on hosts of this kind
every request of the one can be exchanged with every request of the other, then with every schedule and however the connections break, the
outcome of both, their screens, and the host are the same as when the second script is run after the first one, and as when the first is run after the second. (This is
not so for all scripts, even if they have different aims: `C101_lost_line_refuted`.) -/
theorem C101_serial_partial (sys : Sys) (hn : NoHistory sys) (I : World → Prop) (A B : Packet → Prop) (hx : Exchangeable sys I A B) {α β : Type}
    (m : Op α) (env : Env) (st : St) (lost : Nat → Option Bool) (hA : AsksOnly sys I A m env st)
    (m' : Op β) (env' : Env) (st' : St) (lost' : Nat → Option Bool) (hB : AsksOnly sys I B m' env' st')
    (w : World) (hi : I w) (schedule : List Bool) (r : Except Exn α × St) (r' : Except Exn β × St)
    (hr : (together sys schedule (Process.start m env st lost) (Process.start m' env' st' lost') w).1.todo = .ret r)
    (hr' : (together sys schedule (Process.start m env st lost) (Process.start m' env' st' lost') w).2.1.todo = .ret r') :
    let host := (together sys schedule (Process.start m env st lost) (Process.start m' env' st' lost') w).2.2
    (∃ w1 k1 w2 k2, exec (flaky sys lost) m env st (w, 0) = (r, (w1, k1)) ∧ exec (flaky sys lost') m' env' st' (w1, 0) = (r', (w2, k2)) ∧ SameHost w2 host)
    ∧ ∃ w1 k1 w2 k2, exec (flaky sys lost') m' env' st' (w, 0) = (r', (w1, k1)) ∧ exec (flaky sys lost) m env st (w1, 0) = (r, (w2, k2)) ∧ SameHost w2 host := by
  refine ⟨?_, ?_⟩
  · obtain ⟨h1, h2, h3⟩ := together_serial hn hx schedule (Process.start m env st lost) (Process.start m' env' st' lost') w (asks_start hA) (asks_start hB) hi
    simp only [Process.run_start] at h1 h2 h3
    simp only [Process.run, hr, hr', Prog.run] at h1 h2 h3
    exact ⟨_, _, _, _, Prod.ext h1.symm rfl, Prod.ext h2.symm rfl, h3⟩
  · rw [together_swap] at hr hr' ⊢
    dsimp only at hr hr' ⊢
    obtain ⟨h1, h2, h3⟩ := together_serial hn hx.swap (schedule.map (!·)) (Process.start m' env' st' lost') (Process.start m env st lost) w (asks_start hB) (asks_start hA) hi
    simp only [Process.run_start] at h1 h2 h3
    simp only [Process.run, hr, hr', Prog.run] at h1 h2 h3
    exact ⟨_, _, _, _, Prod.ext h1.symm rfl, Prod.ext h2.symm rfl, h3⟩

/-- C101 is false: two runs at the same time, each of which adds a line of its own to the same file. Both come to their end and report success
and a change, with no connection broken. Nevertheless one of the lines is not in the file: `line` reads the file and writes it back as a whole
(/repo/src/fora/operations/files.py:668-716). One after the other they would both be there. -/
theorem C101_lost_line_refuted :
    let one := Process.start (Ops.line p!"/etc/motd" p!"a" true none true .no true) Example.env Example.st Example.always
    let two := Process.start (Ops.line p!"/etc/motd" p!"b" true none true .no true) Example.env Example.st Example.always
    let content := fun w : World => (w.fs [p!"etc", p!"motd"]).map (·.kind)
    let reports := fun p : Process (Except Exn OpResult × St) => match p.todo with
      | .ret (.ok r, _) => r.success && r.changed
      | _ => false
    let both := together Example.sys (List.replicate 7 true ++ List.replicate 8 false ++ [true]) one two Example.host
    let serial := together Example.sys (List.replicate 8 true ++ List.replicate 8 false) one two Example.host
    (reports both.1 = true ∧ reports both.2.1 = true ∧ content both.2.2 = some (.file [104, 105, 10, 97, 10]))
    ∧ reports serial.1 = true ∧ reports serial.2.1 = true ∧ content serial.2.2 = some (.file [104, 105, 10, 97, 10, 98, 10]) := by
  decide +kernel

/-! ### A concrete case -/

namespace Example

theorem forget : ToolsForget tools := ⟨fun _ _ _ => rfl, fun _ _ _ _ => rfl, fun _ _ _ => rfl, fun _ _ _ => rfl, fun _ _ _ => rfl, fun _ _ _ => rfl, fun _ _ l => ⟨rfl, ⟨l, rfl⟩⟩⟩

theorem noHistory : NoHistory sys := noHistory_core forget rfl (fun _ _ _ => rfl) (fun _ _ _ => rfl)

/-- Programs that only look do not change anything here. -/
theorem onlyLook : ∀ p w, LooksOnly p.argv → (sys.exec p w).2 = w := by
  intro p w h
  show (core tools p w).2 = w
  unfold core
  generalize ha : p.argv = argv at h
  have key : ∀ t, parseTool argv = some t → (runTool tools p w t).2 = w := by
    intro t ht
    cases h with
    | readlink path =>
      have hp : parseTool [p!"readlink", p!"-n", path] = if isOption path = false then some (.readlink path) else none := by simp [parseTool]
      rw [hp] at ht
      split at ht
      · cases ht
        show (runReadlink tools p w path).2 = w
        unfold runReadlink
        cases lookup w.fs p.cwd path false with
        | error e => rfl
        | ok x => obtain ⟨_, n⟩ := x; simp only; cases n.kind <;> rfl
      · cases ht
    | _ => cases ht
  cases ht : parseTool argv with
  | none => rfl
  | some t => exact key t ht

/-- A directory is created while two dry runs of other scripts look at the host; all come to their end. -/
def busy := amid sys ((List.range 10).flatMap fun _ => [some 0, none, some 1, some 0])
  (Process.start (directory p!"/srv" true false (some p!"755") none none true) env st always)
  (fun i => Process.start (if i = 0 then directory p!"/srv" true false (some p!"700") none none true else Ops.line p!"/etc/motd" p!"b" true none true .no true)
    { env with dry := true } st always) host

end Example

/-- The hypotheses of `C101_dry_runs_unnoticed` are met, see also `Example.noHistory` and `Example.onlyLook`. -/
example : Scripted (directory p!"/srv" true false (some p!"700") none none true) ∧ Scripted (Ops.line p!"/etc/motd" p!"b" true none true .no true)
    ∧ (Example.busy.2.2.fs [p!"srv"]).map (fun n => (n.kind == .dir, n.perm)) = some (true, 0o755)
    ∧ (Example.busy.2.2.fs [p!"etc", p!"motd"]).map (·.kind) = some (.file [104, 105, 10]) :=
  ⟨.operation [] _ (.directory ..), .operation [] _ (.line ..), by decide +kernel, by decide +kernel⟩

end Verif.Ops
