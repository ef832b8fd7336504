/-
Pre- and postconditions for all executions whose answers satisfy an assumption.
-/
import Verif.Ops.Honest
import Verif.Script.DefaultsLemmas

namespace Verif.Ops

open Script
open Client (isQuery)
open Wire (Packet)

variable {α β : Type}

/-- If all defaults on the stack satisfy `J` and all requests and answers satisfy `H` then all requests satisfy `P` and a
result satisfies `Q`. -/
def Triple (H : Packet × Except Exn Packet → Prop) (J : Settings → Prop) (P : Packet → Prop) (env : Env) (m : Op α) (Q : α → Prop) : Prop :=
  ∀ st t r st', (∀ s ∈ st.stack, J s) → Execution m env st t r st' → (∀ e ∈ t, H e) →
    (∀ e ∈ t, P e.1) ∧ (∀ s ∈ st'.stack, J s) ∧ ∀ x, r = .ok x → Q x

namespace Triple

variable {H : Packet × Except Exn Packet → Prop} {J : Settings → Prop} {P : Packet → Prop} {env : Env}

theorem of_sends {m : Op α} (hs : Sends P env m) (hb : Balanced m) : Triple H J P env m fun _ => True := by
  intro st t r st' hj he _
  refine ⟨hs _ _ _ _ he, ?_, fun _ _ => trivial⟩
  rw [hb _ _ _ _ _ he]
  exact hj

theorem weaken {m : Op α} {Q Q' : α → Prop} (h : Triple H J P env m Q) (hq : ∀ a, Q a → Q' a) : Triple H J P env m Q' := by
  intro st t r st' hj he hh
  obtain ⟨h1, h2, h3⟩ := h _ _ _ _ hj he hh
  exact ⟨h1, h2, fun x hx => hq _ (h3 x hx)⟩

theorem of_ret {m : Op α} {Q : α → Prop} (h : ∀ st, ∃ r st', m env st = .ret (r, st') ∧ st'.stack = st.stack ∧ ∀ x, r = .ok x → Q x) :
    Triple H J P env m Q := by
  intro st t r st' hj he _
  obtain ⟨r0, st0, h1, h2, h3⟩ := h st
  obtain ⟨rfl, rfl, rfl⟩ := (execution_ret h1).mp he
  rw [h2]
  exact ⟨by simp, hj, h3⟩

theorem pure {Q : α → Prop} {a : α} (h : Q a) : Triple H J P env (Op.pure a) Q :=
  .of_ret fun st => ⟨_, st, rfl, rfl, fun x hx => by cases hx; exact h⟩
theorem pure' {Q : α → Prop} {a : α} (h : Q a) : Triple H J P env (Pure.pure a : Op α) Q := .pure h
theorem raise {Q : α → Prop} (e : Exn) : Triple H J P env (Op.raise e : Op α) Q :=
  .of_ret fun st => ⟨_, st, rfl, rfl, fun x hx => by cases hx⟩

theorem ofExcept {Q : α → Prop} {x : Except Exn α} (h : ∀ a, x = .ok a → Q a) : Triple H J P env (Op.ofExcept x) Q := by
  cases x
  · exact .raise _
  · exact .pure (h _ rfl)

theorem bind {m : Op α} {f : α → Op β} {Q : α → Prop} {R : β → Prop} (hm : Triple H J P env m Q) (hf : ∀ a, Q a → Triple H J P env (f a) R) :
    Triple H J P env (m >>= f) R := by
  intro st t r st' hj he hh
  rcases execution_bind.mp he with ⟨e, rfl, h⟩ | ⟨t1, t2, a, st1, h1, h2, rfl⟩
  · obtain ⟨h1, h2, _⟩ := hm _ _ _ _ hj h hh
    exact ⟨h1, h2, fun x hx => by cases hx⟩
  · obtain ⟨g1, g2, g3⟩ := hm _ _ _ _ hj h1 fun e he => hh e (by simp [he])
    obtain ⟨k1, k2, k3⟩ := hf a (g3 a rfl) _ _ _ _ g2 h2 fun e he => hh e (by simp [he])
    refine ⟨fun e he => ?_, k2, k3⟩
    rcases List.mem_append.mp he with he | he
    · exact g1 e he
    · exact k1 e he

theorem seq {m : Op α} {f : α → Op β} {R : β → Prop} (hs : Sends P env m) (hb : Balanced m) (hf : ∀ a, Triple H J P env (f a) R) :
    Triple H J P env (m >>= f) R := .bind (.of_sends hs hb) fun a _ => hf a

theorem ite {c : Prop} [Decidable c] {a b : Op α} {Q : α → Prop} (ha : c → Triple H J P env a Q) (hb : ¬ c → Triple H J P env b Q) :
    Triple H J P env (if c then a else b) Q := by
  split
  · exact ha ‹_›
  · exact hb ‹_›

/-- One request; what its answer says can be used. -/
theorem one {p : Packet} {g : Except Exn Packet → Except Exn α} {Q : α → Prop} (h : P p) (hq : ∀ r x, H (p, r) → g r = .ok x → Q x) :
    Triple H J P env (Op.call (.req p fun r => .ret (g r))) Q := by
  intro st t r st' hj he hh
  obtain ⟨h1, rfl⟩ := execution_call.mp he
  obtain ⟨x, rfl, h2⟩ := runs_one.mp h1
  refine ⟨by simpa using h, hj, fun y hy => hq x y (hh _ (by simp)) (h2 ▸ hy)⟩

theorem operation {check : Bool} {f : Op (Option OpResult)} {Q : OpResult → Prop}
    (h : Triple H J P env f fun o => ∀ x, o = some x → (check && !x.success) = false → Q x) : Triple H J P env (operation check f) Q := by
  intro st t r st' hj he hh
  obtain ⟨r0, st0, h1, rfl, h3⟩ := execution_operation.mp he
  obtain ⟨g1, g2, g3⟩ := h { st with op := {} } _ _ _ hj h1 hh
  refine ⟨g1, by simpa using g2, fun x hx => ?_⟩
  subst hx
  rcases r0 with e | (_ | y)
  · cases h3
  · cases h3
  · dsimp only at h3
    split at h3
    · cases h3
    · next hc =>
      cases h3
      exact g3 _ rfl _ rfl (by simpa using hc)

theorem returned {m : Op OpResult} {Q : Option OpResult → Prop} (h : Triple H J P env m fun x => Q (some x)) : Triple H J P env (returned m) Q :=
  .bind h fun _ hx => .pure' hx

theorem withDefaults {s : Settings} {body : Settings → Op α} {Q : α → Prop}
    (hres : ∀ c cur, canonicalize s = .ok c → J cur → Triple H J P env (resolveDefaults ((env.base.overlay cur).overlay c)) J)
    (hbody : ∀ a, J a → Triple H J P env (body (env.base.overlay a)) Q) : Triple H J P env (withDefaults s body) Q := by
  unfold Script.withDefaults
  refine .bind (Q := fun c => canonicalize s = .ok c) (.ofExcept fun _ h => h) fun c hc => ?_
  intro st t r st' hj he hh
  -- the settings are read
  have he1 : Execution (do
      let current ← currentDefaults
      let resolved ← resolveDefaults ((env.base.overlay current).overlay c)
      push resolved
      Op.finally_ (body (env.base.overlay resolved)) fun st => { st with stack := st.stack.tail }) env st t r st' := by
    rcases execution_bind.mp he with ⟨e, _, h⟩ | ⟨t1, t2, a, st1, h1, h2, rfl⟩
    · replace h := (execution_ret rfl).mp h
      obtain ⟨_, h, _⟩ := h
      cases h
    · obtain ⟨rfl, h, rfl⟩ := (execution_ret rfl).mp h1
      cases h
      simpa using h2
  refine Triple.bind (Q := J) ?_ (fun cur hcur => .bind (hres c cur hc hcur) fun a ha => ?_) _ _ _ _ hj he1 hh
  · intro st t r st' hj he _
    unfold Script.currentDefaults at he
    rcases hs : st.stack with _ | ⟨s0, rest⟩
    · simp only [Execution, hs] at he
      replace he := runs_ret.mp he
      obtain ⟨rfl, he⟩ := he
      simp only [Prod.mk.injEq] at he
      obtain ⟨rfl, rfl⟩ := he
      exact ⟨by simp, hj, fun x hx => by cases hx⟩
    · simp only [Execution, hs] at he
      replace he := runs_ret.mp he
      obtain ⟨rfl, he⟩ := he
      simp only [Prod.mk.injEq] at he
      obtain ⟨rfl, rfl⟩ := he
      refine ⟨by simp, hj, fun x hx => ?_⟩
      cases hx
      exact hj _ (by rw [hs]; simp)
  · intro st t r st' hj he hh
    rcases execution_bind.mp he with ⟨e, _, h⟩ | ⟨t1, t2, _, st1, h1, h2, rfl⟩
    · replace h := (execution_ret rfl).mp h
      obtain ⟨_, h, _⟩ := h
      cases h
    · obtain ⟨rfl, _, rfl⟩ := (execution_ret rfl).mp h1
      obtain ⟨st2, h3, rfl⟩ := execution_finally.mp h2
      obtain ⟨g1, g2, g3⟩ := hbody a ha _ _ _ _ (by
        intro s hs
        rcases List.mem_cons.mp hs with rfl | hs
        · exact ha
        · exact hj s hs) h3 (by simpa using hh)
      exact ⟨by simpa using g1, fun s hs => g2 s (List.mem_of_mem_tail hs), g3⟩

end Triple

theorem balanced_settle {b m : Op Unit} (hb : Balanced b) (hm : Balanced m) : Balanced (settle b m) := by
  refine .bind (.of_ret fun env st => ?_) fun u => ?_
  · unfold unchanged
    split
    · split <;> exact ⟨_, _, rfl, rfl⟩
    · exact ⟨_, _, rfl, rfl⟩
  · have hs : Balanced success := .of_ret fun env st => by
      rcases success_cases env st with ⟨e, h⟩ | ⟨i, f, _, _, h⟩
      · exact ⟨_, _, h, rfl⟩
      · exact ⟨_, _, h, St.show_stack _ _⟩
    split
    · exact hs
    · exact .bind hb fun _ => .bind (Keeps.unlessDry (f := St.stack) hm) fun _ => hs

theorem balanced_initialState (d : Dict) : Balanced (initialState d) := .of_ret fun env st => by
  unfold initialState
  split
  · exact ⟨_, _, rfl, rfl⟩
  · split <;> exact ⟨_, _, rfl, rfl⟩

theorem balanced_finalState (d : Dict) : Balanced (finalState d) := .of_ret fun env st => by
  unfold finalState
  split
  · exact ⟨_, _, rfl, rfl⟩
  · split <;> exact ⟨_, _, rfl, rfl⟩

theorem balanced_failure (m : Str) : Balanced (failure m) := .of_ret fun _ _ => ⟨_, _, rfl, St.show_stack _ _⟩

theorem balanced_success : Balanced success := .of_ret fun env st => by
  rcases success_cases env st with ⟨e, h⟩ | ⟨i, f, _, _, h⟩
  · exact ⟨_, _, h, rfl⟩
  · exact ⟨_, _, h, St.show_stack _ _⟩

theorem balanced_unchanged (b : Bool) : Balanced (unchanged b) := .of_ret fun env st => by
  unfold unchanged
  split
  · split <;> exact ⟨_, _, rfl, rfl⟩
  · exact ⟨_, _, rfl, rfl⟩

theorem balanced_opDiff (f : Str) (a b : Option Bytes) : Balanced (opDiff f a b) := .of_ret fun env st => by
  unfold opDiff
  split
  · exact ⟨_, _, rfl, rfl⟩
  · split <;> exact ⟨_, _, rfl, rfl⟩

theorem balanced_addNestedResult (k : Str) (r : OpResult) : Balanced (addNestedResult k r) := .of_ret fun env st => by
  unfold addNestedResult
  split
  · exact ⟨_, _, rfl, rfl⟩
  · simp only []
    split <;> exact ⟨_, _, rfl, rfl⟩

theorem balanced_run (command : List Str) (input : Option Bytes) (capture check : Bool) (user group umask cwd : Option Str) :
    Balanced (Connection.run command input capture check user group umask cwd) := Keeps.run (f := St.stack) _ _ _ _ _ _ _ _

end Verif.Ops
