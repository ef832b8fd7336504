/-
Operations that only look leave the host as it is.
-/
import Verif.Ops.SafetyProps
import Verif.Ops.Record
import Verif.Ops.DirectoryLemmas

namespace Verif.Ops

open Script Remote
open Client (Prog direct lostConnection isQuery)
open Wire (Packet)

section
variable {sys : Sys} {lost : Nat → Option Bool} {env : Env} {st : St} {w w' : World}

theorem Same.refl (w : World) : Same w w := rfl

theorem Same.trans {a b c : World} (h1 : Same a b) (h2 : Same b c) : Same a c := by
  unfold Same at *
  rw [h2, h1]

/-- Requests with the property `P` leave the host alone; so do programs that send no others. -/
theorem run_same {α : Type} {P : Packet → Prop} (hP : ∀ p w, P p → Same w (direct sys p w).2) :
    ∀ (m : Prog α) (s : World × Nat), (∀ e ∈ recorded (flaky sys lost) m s, P e.1) → Same s.1 (m.run (flaky sys lost) s).2.1
  | .ret _, s, _ => .refl _
  | .req p k, s, h => by
    have h0 : P p := h (p, (flaky sys lost p s).1) (by simp [recorded])
    have h1 : Same s.1 (flaky sys lost p s).2.1 := by
      unfold flaky
      split
      · exact hP p s.1 h0
      · exact .refl _
      · exact hP p s.1 h0
    refine h1.trans (run_same hP (k (flaky sys lost p s).1) (flaky sys lost p s).2 fun e he => h e ?_)
    simp only [recorded, List.mem_cons]
    exact .inr he

theorem perform_same {α : Type} {P : Packet → Prop} (hP : ∀ p w, P p → Same w (direct sys p w).2) {m : Op α}
    (h : ∀ t r st', Execution m env st t r st' → r = (perform sys lost m env st w).1 → ∀ e ∈ t, P e.1) : Same w (perform sys lost m env st w).2 := by
  refine run_same hP (m env st) (w, 0) ?_
  exact h _ _ _ (runs_recorded (flaky sys lost) (m env st) (w, 0)) rfl

theorem query_same {p : Packet} (h : isQuery p = true) (w : World) : Same w (direct sys p w).2 := by
  rw [Client.direct_world, Client.C15_query_changes_nothing sys w p h]
  exact .refl _

/-- Programs that only look do not change the host. -/
def Looking (sys : Sys) : Prop := ∀ p w, LooksOnly p.argv → (sys.exec p w).2 = w

theorem readOnly_same (hl : Looking sys) (p : Packet) (w : World) (h : ReadOnly p) : Same w (direct sys p w).2 := by
  rcases h with h | ⟨command, stdin, capture, user, group, umask, cwd, rfl, hc⟩
  · exact query_same h w
  · rw [Client.direct_world]
    show Same w (handleRun sys command stdin capture user group umask cwd w).2
    rw [Client.handleRun_eq]
    cases hp : Client.plan sys command stdin capture user group umask cwd w with
    | error r => exact .refl _
    | ok proc =>
      have hargv : proc.argv = command := (plan_argv hp).1
      simp only
      have := hl proc { w with started := proc :: w.started } (by rw [hargv]; exact hc)
      match he : sys.exec proc { w with started := proc :: w.started } with
      | (.failed e, w') => exact .refl _
      | (.done out err code, w') =>
        rw [he] at this
        have hw : w' = { w with started := proc :: w.started } := this
        subst hw
        cases capture <;> exact rfl

end
end Verif.Ops
