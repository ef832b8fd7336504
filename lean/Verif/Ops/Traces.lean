/-
A calculus for what can be said about every execution of a program, whatever the host answers.
-/
import Verif.Ops.RunLemmas
import Verif.Ops.Honest
import Verif.Script.ApiProps

namespace Verif.Ops

open Script Remote
open Client (Prog Completed)
open Wire (Packet)

/-- `Q` holds for the requests and answers, the result and the final state of every execution. -/
def Traces {α : Type} (m : Op α) (env : Env) (st : St) (Q : Trace → Except Exn α → St → Prop) : Prop :=
  ∀ t r st', Execution m env st t r st' → Q t r st'

section
variable {α β : Type} {env : Env} {st : St}

theorem Traces.mono {m : Op α} {Q Q' : Trace → Except Exn α → St → Prop} (h : Traces m env st Q) (hq : ∀ t r st', Q t r st' → Q' t r st') :
    Traces m env st Q' := fun t r st' he => hq t r st' (h t r st' he)

theorem Traces.pure {a : α} {Q : Trace → Except Exn α → St → Prop} (h : Q [] (.ok a) st) : Traces (Op.pure a) env st Q := by
  intro t r st' he
  obtain ⟨rfl, rfl, rfl⟩ := execution_pure.mp he
  exact h

theorem Traces.ret {a : α} {Q : Trace → Except Exn α → St → Prop} (h : Q [] (.ok a) st) : Traces (Pure.pure a : Op α) env st Q := Traces.pure h

theorem Traces.raise {e : Exn} {Q : Trace → Except Exn α → St → Prop} (h : Q [] (.error e) st) : Traces (Op.raise e) env st Q := by
  intro t r st' he
  obtain ⟨rfl, rfl, rfl⟩ := execution_raise.mp he
  exact h

theorem Traces.ofExcept {x : Except Exn α} {Q : Trace → Except Exn α → St → Prop} (h : Q [] x st) : Traces (Op.ofExcept x) env st Q := by
  intro t r st' he
  obtain ⟨rfl, rfl, rfl⟩ := execution_ofExcept.mp he
  exact h

/-- Whatever happens next is appended to the trace. -/
theorem Traces.bind {m : Op α} {f : α → Op β} {Q : Trace → Except Exn β → St → Prop}
    (h : Traces m env st fun t r st' => (∀ e, r = .error e → Q t (.error e) st') ∧ ∀ a, r = .ok a → Traces (f a) env st' fun t' r' st'' => Q (t ++ t') r' st'') :
    Traces (m >>= f) env st Q := by
  intro t r st' he
  rcases execution_bind.mp he with ⟨e, rfl, h1⟩ | ⟨t1, t2, a, st1, h1, h2, rfl⟩
  · exact (h _ _ _ h1).1 e rfl
  · exact (h _ _ _ h1).2 a rfl _ _ _ h2

theorem Traces.operation {check : Bool} {f : Op (Option OpResult)} {Q : Trace → Except Exn OpResult → St → Prop}
    (h : Traces f env { st with op := {} } fun t r st' => ∀ r', (∀ e, r = .error e → r' = .error e) → (r = .ok none → ∃ e, r' = .error e) →
      (∀ x, r = .ok (some x) → (r' = .ok x ∧ (check = true → x.success = true)) ∨ (check = true ∧ x.success = false ∧ ∃ e, r' = .error e)) →
      Q t r' (afterwards st st' r)) :
    Traces (operation check f) env st Q := by
  intro t r st' he
  obtain ⟨r0, st0, h0, rfl, hr⟩ := execution_operation.mp he
  refine h _ _ _ h0 r ?_ ?_ ?_
  · rintro e rfl; exact hr
  · rintro rfl; exact ⟨_, hr⟩
  · rintro x rfl
    simp only at hr
    split at hr
    · rename_i hc
      simp only [Bool.and_eq_true, Bool.not_eq_true', Bool.not_eq_eq_eq_not, Bool.not_true] at hc
      exact .inr ⟨by simp [hc], by simp [hc], _, hr⟩
    · rename_i hc
      exact .inl ⟨hr, fun hch => by simpa [hch] using hc⟩

theorem Traces.returned {m : Op OpResult} {Q : Trace → Except Exn (Option OpResult) → St → Prop}
    (h : Traces m env st fun t r st' => Q t (r.map some) st') : Traces (returned m) env st Q :=
  Traces.bind (h.mono fun t r st' hq => ⟨fun e he => by subst he; exact hq, fun a ha => by
    subst ha; exact Traces.ret (by rw [List.append_nil]; exact hq)⟩)

theorem Traces.local_ {m : Op α} (hm : ∀ env st, ∃ r st', m env st = .ret (r, st')) {Q : Trace → Except Exn α → St → Prop} (h : ∀ r st', m env st = .ret (r, st') → Q [] r st') :
    Traces m env st Q := by
  intro t r st' he
  obtain ⟨r0, st0, h0⟩ := hm env st
  obtain ⟨rfl, rfl, rfl⟩ := (execution_ret h0).mp he
  exact h _ _ h0

theorem Traces.asks {m : Op α} {argv : List Str} {f : Except Exn Packet → Except Exn α} (hm : Asks m argv f) {Q : Trace → Except Exn α → St → Prop}
    (h0 : ∀ e, Q [] (.error e) st) (h1 : ∀ pk a, argvOf pk = some argv → Q [(pk, a)] (f a) st) : Traces m env st Q := by
  intro t r st' he
  obtain ⟨rfl, ⟨rfl, e, rfl⟩ | ⟨pk, a, rfl, hp, rfl⟩⟩ := hm _ _ _ _ _ he
  · exact h0 e
  · exact h1 pk a hp

end
end Verif.Ops
