/-
Lemmas about operation programs: executions of sequences, equality of state dictionaries.
-/
import Verif.Script.Spec
import Verif.Client.Lemmas

namespace Verif.Script

open Client (Prog)
open Wire (Packet)

@[simp] theorem St.show_stack (st : St) (r : OpResult) : (st.show r).stack = st.stack := by unfold St.show; split <;> rfl
@[simp] theorem St.show_op (st : St) (r : OpResult) : (st.show r).op = st.op := by unfold St.show; split <;> rfl

/-- What `success` does. -/
theorem success_cases (env : Env) (st : St) : (∃ e, success env st = .ret (.error e, st)) ∨
    (∃ i f, st.op.initial = some i ∧ st.op.final = some f ∧
      success env st = .ret (.ok { success := true, changed := !i.eq f, initial := i, final := f },
        st.show { success := true, changed := !i.eq f, initial := i, final := f })) := by
  unfold success
  split
  · next i f hi hf =>
    dsimp only
    split
    · exact .inl ⟨_, rfl⟩
    · exact .inr ⟨i, f, hi, hf, rfl⟩
  · exact .inl ⟨_, rfl⟩

/-! ### Executions -/

abbrev Trace := List (Packet × Except Exn Packet)

theorem runs_bind {α β : Type} {m : Prog α} {f : α → Prog β} {t : Trace} {b : β} :
    Prog.Runs (m.bind f) t b ↔ ∃ t1 t2 a, Prog.Runs m t1 a ∧ Prog.Runs (f a) t2 b ∧ t = t1 ++ t2 := by
  induction m generalizing t with
  | ret a =>
    constructor
    · intro h; exact ⟨[], t, a, .ret a, h, rfl⟩
    · rintro ⟨t1, t2, a', h1, h2, rfl⟩
      cases h1; exact h2
  | req p k ih =>
    constructor
    · intro h
      cases h with
      | req _ _ r t' _ h' =>
        obtain ⟨t1, t2, a, h1, h2, rfl⟩ := (ih r).mp h'
        exact ⟨(p, r) :: t1, t2, a, .req _ _ _ _ _ h1, h2, rfl⟩
    · rintro ⟨t1, t2, a, h1, h2, rfl⟩
      cases h1 with
      | req _ _ r t' _ h' =>
        exact .req _ _ _ _ _ ((ih r).mpr ⟨t', t2, a, h', h2, rfl⟩)

theorem runs_ret {α : Type} {a b : α} {t : Trace} : Prog.Runs (.ret a) t b ↔ t = [] ∧ b = a := by
  constructor
  · intro h; cases h; exact ⟨rfl, rfl⟩
  · rintro ⟨rfl, rfl⟩; exact .ret _

theorem run_bind {α β σ : Type} (remote : Packet → σ → Except Exn Packet × σ) (m : Prog α) (f : α → Prog β) (s : σ) :
    (m.bind f).run remote s = (f (m.run remote s).1).run remote (m.run remote s).2 := by
  induction m generalizing s with
  | ret a => rfl
  | req p k ih => exact ih _ _

/-! ### Equality of state dictionaries -/

theorem Dict.get_mem {d : Dict} {k : Str} {v : Val} (h : d.get k = some v) : (k, v) ∈ d := by
  induction d with
  | nil => cases h
  | cons x r ih =>
    obtain ⟨k', v'⟩ := x
    unfold Dict.get at h
    split at h
    · next hk => cases h; subst hk; simp
    · exact List.mem_cons_of_mem _ (ih h)

theorem Dict.get_of_mem {d : Dict} {k : Str} {v : Val} (hn : (d.map (·.1)).Nodup) (h : (k, v) ∈ d) : d.get k = some v := by
  induction d with
  | nil => cases h
  | cons x r ih =>
    obtain ⟨k', v'⟩ := x
    simp only [List.map_cons, List.nodup_cons] at hn
    unfold Dict.get
    rcases List.mem_cons.mp h with h | h
    · cases h; rw [if_pos rfl]
    · rw [if_neg, ih hn.2 h]
      rintro rfl
      exact hn.1 (List.mem_map.mpr ⟨_, h, rfl⟩)

theorem Dict.get_isSome {d : Dict} {k : Str} : (d.get k).isSome = true ↔ k ∈ d.map (·.1) := by
  induction d with
  | nil => simp [Dict.get]
  | cons x r ih =>
    obtain ⟨k', v'⟩ := x
    unfold Dict.get
    split
    · next h => subst h; simp
    · next h =>
      rw [ih]
      simp only [List.map_cons, List.mem_cons]
      constructor
      · exact .inr
      · rintro (rfl | h')
        · exact absurd rfl h
        · exact h'

theorem Dict.get_append {a b : Dict} {k : Str} :
    Dict.get (a ++ b) k = match a.get k with | some v => some v | none => Dict.get b k := by
  induction a with
  | nil => rfl
  | cons x r ih =>
    obtain ⟨k', v'⟩ := x
    simp only [List.cons_append, Dict.get]
    split
    · rfl
    · exact ih

theorem within_iff (a b : Dict) : Dict.within a b = true ↔ ∀ k v, (k, v) ∈ a → ∃ v', b.get k = some v' ∧ v.eq v' = true := by
  induction a with
  | nil => simp [Dict.within]
  | cons x r ih =>
    obtain ⟨k', v'⟩ := x
    simp only [Dict.within, Bool.and_eq_true, ih, eqAt]
    constructor
    · rintro ⟨h1, h2⟩ k v h
      rcases List.mem_cons.mp h with h | h
      · cases h
        split at h1
        · cases h1
        · next v'' hv => exact ⟨v'', hv, h1⟩
      · exact h2 k v h
    · intro h
      refine ⟨?_, fun k v hm => h k v (List.mem_cons_of_mem _ hm)⟩
      obtain ⟨v'', h1, h2⟩ := h k' v' (by simp)
      rw [h1]
      exact h2

/-- Two key lists without duplicates, of the same length, one within the other, have the same elements. -/
theorem subset_of_nodup_length {α : Type} [DecidableEq α] : ∀ {a b : List α}, a.Nodup → b.length ≤ a.length → (∀ x ∈ a, x ∈ b) → ∀ x ∈ b, x ∈ a := by
  intro a
  induction a with
  | nil => intro b _ hl _ x hx; cases b <;> simp_all
  | cons y r ih =>
    intro b hn hl hs x hx
    simp only [List.nodup_cons] at hn
    by_cases hxy : x = y
    · subst hxy; simp
    · have hyb := hs y (by simp)
      have : x ∈ r := by
        refine ih (b := b.erase y) hn.2 ?_ ?_ x ((List.mem_erase_of_ne hxy).mpr hx)
        · rw [List.length_erase_of_mem hyb]; simp at hl; omega
        · intro z hz
          refine (List.mem_erase_of_ne ?_).mpr (hs z (List.mem_cons_of_mem _ hz))
          rintro rfl; exact hn.1 hz
      exact List.mem_cons_of_mem _ this

theorem length_le_of_subset {α : Type} [DecidableEq α] : ∀ {a b : List α}, a.Nodup → (∀ x ∈ a, x ∈ b) → a.length ≤ b.length := by
  intro a
  induction a with
  | nil => intros; simp
  | cons y r ih =>
    intro b hn hs
    simp only [List.nodup_cons] at hn
    have hyb := hs y (by simp)
    have := ih (b := b.erase y) hn.2 (by
      intro z hz
      refine (List.mem_erase_of_ne ?_).mpr (hs z (List.mem_cons_of_mem _ hz))
      rintro rfl; exact hn.1 hz)
    rw [List.length_erase_of_mem hyb] at this
    have := List.length_pos_of_mem hyb
    simp; omega

theorem dict_eq_iff {a b : Dict} : Dict.eq a b = (Val.dict a).eq (.dict b) := by
  simp only [Dict.eq, Val.eq]

/-- Comparison of values, given that no dictionary has a key twice. -/
theorem Val.eq_iff {a b : Val} (ha : a.Wf) (hb : b.Wf) : a.eq b = true ↔ Val.Same a b := by
  induction ha generalizing b with
  | plain a hp =>
    constructor
    · intro h
      cases a <;> cases b <;> simp only [Val.eq, beq_iff_eq, reduceCtorEq] at h <;> first | (subst h; exact .refl _) | exact .refl _ | exact absurd rfl (hp _)
    · intro h
      cases h with
      | refl => cases a <;> simp [Val.eq]; exact absurd rfl (hp _)
      | dict => exact absurd rfl (hp _)
  | dict d hd hv ih =>
    cases b with
    | dict e =>
      cases hb with
      | plain _ hp => exact absurd rfl (hp _)
      | dict _ he hev =>
        simp only [Val.eq, Bool.and_eq_true, beq_iff_eq, within_iff]
        constructor
        · rintro ⟨hl, h⟩
          have hsub : ∀ k, k ∈ d.map (·.1) → k ∈ e.map (·.1) := by
            intro k hk
            obtain ⟨⟨k', v⟩, hm, rfl⟩ := List.mem_map.mp hk
            obtain ⟨v', h', _⟩ := h _ _ hm
            exact List.mem_map.mpr ⟨_, Dict.get_mem h', rfl⟩
          have hsub' := subset_of_nodup_length hd (by simp [hl]) hsub
          refine .dict _ _ ?_ ?_
          · intro k
            rw [← Option.not_isSome_iff_eq_none, ← Option.not_isSome_iff_eq_none, Dict.get_isSome, Dict.get_isSome]
            exact not_congr ⟨hsub k, hsub' k⟩
          · intro k v v' h1 h2
            obtain ⟨v'', h3, h4⟩ := h k v (Dict.get_mem h1)
            rw [h2] at h3
            cases h3
            exact (ih k v (Dict.get_mem h1) (hev k v' (Dict.get_mem h2))).mp h4
        · intro hsame
          have key : (∀ k, d.get k = none ↔ Dict.get e k = none) ∧ (∀ k v v', d.get k = some v → Dict.get e k = some v' → Val.Same v v') := by
            cases hsame with
            | refl =>
              refine ⟨fun _ => Iff.rfl, fun k v v' h1 h2 => ?_⟩
              rw [h1] at h2; cases h2; exact .refl _
            | dict _ _ h1 h2 => exact ⟨h1, h2⟩
          obtain ⟨hk, hs⟩ := key
          have hkeys : ∀ k, k ∈ d.map (·.1) ↔ k ∈ e.map (·.1) := by
            intro k
            have hk' := hk k
            rw [← Option.not_isSome_iff_eq_none, ← Option.not_isSome_iff_eq_none, Dict.get_isSome, Dict.get_isSome] at hk'
            exact Decidable.not_iff_not.mp hk'
          constructor
          · have h1 := length_le_of_subset hd (fun x hx => (hkeys x).mp hx)
            have h2 := length_le_of_subset he (fun x hx => (hkeys x).mpr hx)
            simp at h1 h2
            omega
          · intro k v hm
            have hg := Dict.get_of_mem hd hm
            cases he' : Dict.get e k with
            | none => rw [(hk k).mpr he'] at hg; cases hg
            | some v' => exact ⟨v', rfl, (ih k v hm (hev k v' (Dict.get_mem he'))).mpr (hs k v v' hg he')⟩
    | _ =>
      constructor
      · intro h; simp [Val.eq] at h
      · intro h; cases h

end Verif.Script

namespace Verif.Script

open Client (Prog)
open Wire (Packet)

/-! ### Executions of operation programs -/

theorem execution_pure {α : Type} {a : α} {env : Env} {st st' : St} {t : Trace} {r : Except Exn α} :
    Execution (Op.pure a) env st t r st' ↔ t = [] ∧ r = .ok a ∧ st' = st := by
  simp only [Execution, Op.pure, runs_ret, Prod.mk.injEq]

theorem execution_raise {α : Type} {e : Exn} {env : Env} {st st' : St} {t : Trace} {r : Except Exn α} :
    Execution (Op.raise e) env st t r st' ↔ t = [] ∧ r = .error e ∧ st' = st := by
  simp only [Execution, Op.raise, runs_ret, Prod.mk.injEq]

theorem execution_bind {α β : Type} {m : Op α} {f : α → Op β} {env : Env} {st st' : St} {t : Trace} {r : Except Exn β} :
    Execution (m >>= f) env st t r st' ↔
      (∃ e, r = .error e ∧ Execution m env st t (.error e) st')
      ∨ ∃ t1 t2 a st1, Execution m env st t1 (.ok a) st1 ∧ Execution (f a) env st1 t2 r st' ∧ t = t1 ++ t2 := by
  show Prog.Runs (Prog.bind (m env st) _) t (r, st') ↔ _
  rw [runs_bind]
  constructor
  · rintro ⟨t1, t2, ⟨r1, st1⟩, h1, h2, rfl⟩
    cases r1 with
    | ok a => exact .inr ⟨t1, t2, a, st1, h1, h2, rfl⟩
    | error e =>
      obtain ⟨rfl, h⟩ := runs_ret.mp h2
      cases h
      exact .inl ⟨e, rfl, by simpa [Execution] using h1⟩
  · rintro (⟨e, rfl, h⟩ | ⟨t1, t2, a, st1, h1, h2, rfl⟩)
    · exact ⟨t, [], _, h, .ret _, by simp⟩
    · exact ⟨t1, t2, _, h1, h2, rfl⟩

theorem execution_call {α : Type} {p : Prog (Except Exn α)} {env : Env} {st st' : St} {t : Trace} {r : Except Exn α} :
    Execution (Op.call p) env st t r st' ↔ Prog.Runs p t r ∧ st' = st := by
  show Prog.Runs (Prog.bind p _) t (r, st') ↔ _
  rw [runs_bind]
  constructor
  · rintro ⟨t1, t2, r1, h1, h2, rfl⟩
    obtain ⟨rfl, h⟩ := runs_ret.mp h2
    cases h
    exact ⟨by simpa using h1, rfl⟩
  · rintro ⟨h, rfl⟩
    exact ⟨t, [], r, h, .ret _, by simp⟩

/-- A connector call: one request, whose answer is turned into a result. -/
theorem runs_one {α : Type} {p : Packet} {g : Except Exn Packet → α} {t : Trace} {a : α} :
    Prog.Runs (.req p fun r => .ret (g r)) t a ↔ ∃ r, t = [(p, r)] ∧ a = g r := by
  constructor
  · intro h
    cases h with
    | req _ _ r t' _ h' =>
      obtain ⟨rfl, rfl⟩ := runs_ret.mp h'
      exact ⟨r, rfl, rfl⟩
  · rintro ⟨r, rfl, rfl⟩
    exact .req _ _ _ _ _ (.ret _)

theorem execution_tryCatch {α : Type} {m : Op α} {h : Exn → Op α} {env : Env} {st st' : St} {t : Trace} {r : Except Exn α} :
    Execution (Op.tryCatch m h) env st t r st' ↔
      (∃ a, r = .ok a ∧ Execution m env st t (.ok a) st')
      ∨ ∃ t1 t2 e st1, Execution m env st t1 (.error e) st1 ∧ Execution (h e) env st1 t2 r st' ∧ t = t1 ++ t2 := by
  show Prog.Runs (Prog.bind (m env st) _) t (r, st') ↔ _
  rw [runs_bind]
  constructor
  · rintro ⟨t1, t2, ⟨r1, st1⟩, h1, h2, rfl⟩
    cases r1 with
    | error e => exact .inr ⟨t1, t2, e, st1, h1, h2, rfl⟩
    | ok a =>
      obtain ⟨rfl, h⟩ := runs_ret.mp h2
      cases h
      exact .inl ⟨a, rfl, by simpa [Execution] using h1⟩
  · rintro (⟨a, rfl, h⟩ | ⟨t1, t2, e, st1, h1, h2, rfl⟩)
    · exact ⟨t, [], _, h, .ret _, by simp⟩
    · exact ⟨t1, t2, _, h1, h2, rfl⟩

theorem execution_finally {α : Type} {m : Op α} {f : St → St} {env : Env} {st st' : St} {t : Trace} {r : Except Exn α} :
    Execution (Op.finally_ m f) env st t r st' ↔ ∃ st1, Execution m env st t r st1 ∧ st' = f st1 := by
  show Prog.Runs (Prog.bind (m env st) _) t (r, st') ↔ _
  rw [runs_bind]
  constructor
  · rintro ⟨t1, t2, ⟨r1, st1⟩, h1, h2, rfl⟩
    obtain ⟨rfl, h⟩ := runs_ret.mp h2
    cases h
    exact ⟨st1, by simpa [Execution] using h1, rfl⟩
  · rintro ⟨st1, h, rfl⟩
    exact ⟨t, [], _, h, .ret _, by simp⟩

theorem execution_ofExcept {α : Type} {x : Except Exn α} {env : Env} {st st' : St} {t : Trace} {r : Except Exn α} :
    Execution (Op.ofExcept x) env st t r st' ↔ t = [] ∧ r = x ∧ st' = st := by
  cases x with
  | ok a => exact execution_pure
  | error e => exact execution_raise

theorem execution_ret {α : Type} {m : Op α} {env : Env} {st st0 st' : St} {t : Trace} {r r0 : Except Exn α}
    (h : m env st = .ret (r0, st0)) : Execution m env st t r st' ↔ t = [] ∧ r = r0 ∧ st' = st0 := by
  simp only [Execution, h, runs_ret, Prod.mk.injEq]

/-! ### Executions against a host -/

section Exec
variable {σ : Type} {remote : Packet → σ → Except Exn Packet × σ}

theorem exec_pure {α : Type} {a : α} {env : Env} {st : St} {w : σ} : exec remote (Op.pure a) env st w = ((.ok a, st), w) := rfl

theorem exec_pure' {α : Type} {a : α} {env : Env} {st : St} {w : σ} : exec remote (pure a) env st w = ((.ok a, st), w) := rfl

theorem exec_raise {α : Type} {e : Exn} {env : Env} {st : St} {w : σ} : exec remote (Op.raise e : Op α) env st w = ((.error e, st), w) := rfl

theorem exec_bind {α β : Type} (m : Op α) (f : α → Op β) (env : Env) (st : St) (w : σ) :
    exec remote (m >>= f) env st w = match exec remote m env st w with
      | ((.ok a, st'), w') => exec remote (f a) env st' w'
      | ((.error e, st'), w') => ((.error e, st'), w') := by
  show Prog.run remote (Prog.bind (m env st) _) w = _
  rw [run_bind]
  simp only [exec]
  cases h : Prog.run remote (m env st) w with
  | mk x w' =>
    obtain ⟨r, st'⟩ := x
    cases r <;> rfl

/-- A sequence that ends normally: both parts did. -/
theorem exec_bind_ok {α β : Type} {m : Op α} {f : α → Op β} {env : Env} {st st' : St} {w w' : σ} {b : β} :
    exec remote (m >>= f) env st w = ((.ok b, st'), w') ↔
      ∃ a st1 w1, exec remote m env st w = ((.ok a, st1), w1) ∧ exec remote (f a) env st1 w1 = ((.ok b, st'), w') := by
  rw [exec_bind]
  constructor
  · intro h
    split at h
    · next a st1 w1 he => exact ⟨a, st1, w1, he, h⟩
    · cases h
  · rintro ⟨a, st1, w1, h1, h2⟩
    rw [h1]
    exact h2

theorem exec_bind_of_ok {α β : Type} {m : Op α} {f : α → Op β} {env : Env} {st st1 : St} {w w1 : σ} {a : α}
    (h : exec remote m env st w = ((.ok a, st1), w1)) : exec remote (m >>= f) env st w = exec remote (f a) env st1 w1 := by
  rw [exec_bind, h]

theorem exec_bind_of_error {α β : Type} {m : Op α} {f : α → Op β} {env : Env} {st st1 : St} {w w1 : σ} {e : Exn}
    (h : exec remote m env st w = ((.error e, st1), w1)) : exec remote (m >>= f) env st w = ((.error e, st1), w1) := by
  rw [exec_bind, h]

theorem exec_call {α : Type} (p : Prog (Except Exn α)) (env : Env) (st : St) (w : σ) :
    exec remote (Op.call p) env st w = (((p.run remote w).1, st), (p.run remote w).2) := by
  show Prog.run remote (Prog.bind p _) w = _
  rw [run_bind]
  rfl

theorem exec_ofExcept {α : Type} (x : Except Exn α) (env : Env) (st : St) (w : σ) :
    exec remote (Op.ofExcept x) env st w = ((x, st), w) := by
  cases x <;> rfl

theorem exec_finally {α : Type} (m : Op α) (f : St → St) (env : Env) (st : St) (w : σ) :
    exec remote (Op.finally_ m f) env st w = (((exec remote m env st w).1.1, f (exec remote m env st w).1.2), (exec remote m env st w).2) := by
  show Prog.run remote (Prog.bind (m env st) _) w = _
  rw [run_bind]
  rfl

theorem exec_tryCatch {α : Type} (m : Op α) (h : Exn → Op α) (env : Env) (st : St) (w : σ) :
    exec remote (Op.tryCatch m h) env st w = match exec remote m env st w with
      | ((.ok a, st'), w') => ((.ok a, st'), w')
      | ((.error e, st'), w') => exec remote (h e) env st' w' := by
  show Prog.run remote (Prog.bind (m env st) _) w = _
  rw [run_bind]
  simp only [exec]
  cases hh : Prog.run remote (m env st) w with
  | mk x w' =>
    obtain ⟨r, st'⟩ := x
    cases r <;> rfl

end Exec

/-! ### Balanced programs -/

/-- The program leaves the stack of defaults as it found it, whatever happens. -/
def Balanced {α : Type} (m : Op α) : Prop := ∀ env st t r st', Execution m env st t r st' → st'.stack = st.stack

theorem Balanced.of_ret {α : Type} {m : Op α} (h : ∀ env st, ∃ r st', m env st = .ret (r, st') ∧ st'.stack = st.stack) : Balanced m := by
  intro env st t r st' he
  obtain ⟨r0, st0, h1, h2⟩ := h env st
  obtain ⟨_, _, rfl⟩ := (execution_ret h1).mp he
  exact h2

theorem Balanced.pure {α : Type} (a : α) : Balanced (Op.pure a) := .of_ret fun _ st => ⟨_, st, rfl, rfl⟩
theorem Balanced.raise {α : Type} (e : Exn) : Balanced (Op.raise e : Op α) := .of_ret fun _ st => ⟨_, st, rfl, rfl⟩

theorem Balanced.ofExcept {α : Type} (x : Except Exn α) : Balanced (Op.ofExcept x) := by
  intro env st t r st' h
  obtain ⟨_, _, rfl⟩ := execution_ofExcept.mp h
  rfl

theorem Balanced.call {α : Type} (p : Prog (Except Exn α)) : Balanced (Op.call p) := by
  intro env st t r st' h
  obtain ⟨_, rfl⟩ := execution_call.mp h
  rfl

theorem Balanced.bind {α β : Type} {m : Op α} {f : α → Op β} (hm : Balanced m) (hf : ∀ a, Balanced (f a)) : Balanced (m >>= f) := by
  intro env st t r st' h
  rcases execution_bind.mp h with ⟨e, _, h⟩ | ⟨t1, t2, a, st1, h1, h2, _⟩
  · exact hm _ _ _ _ _ h
  · exact (hf a _ _ _ _ _ h2).trans (hm _ _ _ _ _ h1)

theorem Balanced.tryCatch {α : Type} {m : Op α} {f : Exn → Op α} (hm : Balanced m) (hf : ∀ a, Balanced (f a)) : Balanced (Op.tryCatch m f) := by
  intro env st t r st' h
  rcases execution_tryCatch.mp h with ⟨e, _, h⟩ | ⟨t1, t2, a, st1, h1, h2, _⟩
  · exact hm _ _ _ _ _ h
  · exact (hf a _ _ _ _ _ h2).trans (hm _ _ _ _ _ h1)

theorem Balanced.currentDefaults : Balanced currentDefaults := .of_ret fun env st => by
  unfold Script.currentDefaults
  split
  · exact ⟨_, _, rfl, rfl⟩
  · exact ⟨_, _, rfl, rfl⟩

theorem Balanced.mapOpt {f : Option Str → Op Str} (h : ∀ x, Balanced (f x)) (x : Option Str) : Balanced (mapOpt f x) := by
  cases x with
  | none => exact .pure _
  | some x => exact .bind (h _) fun _ => .pure _

theorem Balanced.checkCwd (c : Option Str) : Balanced (checkCwd c) := by
  unfold Script.checkCwd
  split
  · exact .pure _
  · exact .pure _
  · refine .bind (.call _) fun s => ?_
    cases s with
    | none => exact .raise _
    | some s =>
      simp only
      split
      · exact .raise _
      · exact .pure _

theorem Balanced.resolveDefaults (s : Settings) : Balanced (resolveDefaults s) := by
  unfold Script.resolveDefaults
  refine .bind .currentDefaults fun _ => .bind (.mapOpt (fun _ => .call _) _) fun _ => .bind (.mapOpt (fun _ => .call _) _) fun _ =>
    .bind (.mapOpt (fun _ => .call _) _) fun _ => .bind (.mapOpt (fun _ => .call _) _) fun _ => .bind (.ofExcept _) fun _ =>
    .bind (.ofExcept _) fun _ => .bind (.ofExcept _) fun _ => .bind (.checkCwd _) fun _ => .pure _

theorem Balanced.withDefaults {α : Type} {s : Settings} {body : Settings → Op α} (h : ∀ a, Balanced (body a)) :
    Balanced (withDefaults s body) := by
  unfold Script.withDefaults
  refine .bind (.ofExcept _) fun _ => .bind (.of_ret fun _ st => ⟨_, st, rfl, rfl⟩) fun _ => .bind .currentDefaults fun _ =>
    .bind (.resolveDefaults _) fun resolved => ?_
  intro env st t r st' he
  rcases execution_bind.mp he with ⟨e, _, he⟩ | ⟨t1, t2, a, st1, h1, h2, _⟩
  · obtain ⟨_, h', _⟩ := (execution_ret rfl).mp he
    cases h'
  · obtain ⟨_, _, rfl⟩ := (execution_ret rfl).mp h1
    obtain ⟨st2, h3, rfl⟩ := execution_finally.mp h2
    have := h _ _ _ _ _ _ h3
    simp [this]

theorem Balanced.operation {check : Bool} {f : Op (Option OpResult)} (h : Balanced f) : Balanced (operation check f) := by
  intro env st t r st' he
  obtain ⟨t1, t2, ⟨r1, st1⟩, h1, h2, _⟩ := runs_bind.mp he
  have hst := h _ _ _ _ _ h1
  cases r1 with
  | error e =>
    obtain ⟨_, h⟩ := runs_ret.mp h2
    cases h
    simpa using hst
  | ok o =>
    cases o with
    | none =>
      obtain ⟨_, h⟩ := runs_ret.mp h2
      cases h
      exact hst
    | some x =>
      simp only at h2
      split at h2 <;>
      · obtain ⟨_, h⟩ := runs_ret.mp h2
        cases h
        exact hst

end Verif.Script
