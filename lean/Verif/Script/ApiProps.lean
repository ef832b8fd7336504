/-
Property theorems about the operation object and the operation decorator: C25-C28.
-/
import Verif.Script.Lemmas

namespace Verif.Script

open Client (Prog)
open Wire (Packet)

/-! ### C25 -/

/-- The state after a decorated operation, given that its function ended in st0. -/
def afterwards (st st0 : St) : Except Exn (Option OpResult) → St
  | .error e => { st0.show (failed st0 (errorText e)) with op := st.op }
  | .ok _ => { st0 with op := st.op }

@[simp] theorem afterwards_stack (st st0 : St) (r : Except Exn (Option OpResult)) : (afterwards st st0 r).stack = st0.stack := by
  cases r
  · exact St.show_stack _ _
  · rfl

/-- The executions of a decorated operation, in terms of those of the function. -/
theorem execution_operation {check : Bool} {f : Op (Option OpResult)} {env : Env} {st st' : St} {t : Trace} {r : Except Exn OpResult} :
    Execution (operation check f) env st t r st' ↔ ∃ r0 st0, Execution f env { st with op := {} } t r0 st0 ∧ st' = afterwards st st0 r0 ∧
      r = match r0 with
        | .error e => .error e
        | .ok none => .error (.operationError p!"The operation failed to return a status.")
        | .ok (some x) => if check && !x.success then .error (failureError x) else .ok x := by
  show Prog.Runs (Prog.bind _ _) t (r, st') ↔ _
  rw [runs_bind]
  constructor
  · rintro ⟨t1, t2, ⟨r0, st0⟩, h1, h2, rfl⟩
    refine ⟨r0, st0, ?_⟩
    rcases r0 with e | (_ | x)
    · obtain ⟨rfl, h⟩ := runs_ret.mp h2
      cases h
      exact ⟨by simpa [Execution] using h1, rfl, rfl⟩
    · obtain ⟨rfl, h⟩ := runs_ret.mp h2
      cases h
      exact ⟨by simpa [Execution] using h1, rfl, rfl⟩
    · simp only at h2 ⊢
      split at h2 <;>
      · next hc =>
        obtain ⟨rfl, h⟩ := runs_ret.mp h2
        cases h
        exact ⟨by simpa [Execution] using h1, rfl, by simp only [hc]; rfl⟩
  · rintro ⟨r0, st0, h1, rfl, rfl⟩
    refine ⟨t, [], _, h1, ?_, by simp⟩
    rcases r0 with e | (_ | x)
    · exact .ret _
    · exact .ret _
    · simp only
      split <;> exact .ret _

/-- C25. With check enabled (the default) an operation returns only successful results. -/
theorem C25_checked (f : Op (Option OpResult)) (env : Env) (st st' : St) (t : Trace) (x : OpResult)
    (h : Execution (operation true f) env st t (.ok x) st') : x.success = true := by
  obtain ⟨r0, st0, _, _, hr⟩ := execution_operation.mp h
  rcases r0 with e | (_ | y)
  · cases hr
  · cases hr
  · simp only [Bool.true_and, Bool.not_eq_true'] at hr
    split at hr
    · cases hr
    · next hs => cases hr; simpa using hs

/-- C25. A result that is returned is the one that the function produced, in an execution with the same requests. -/
theorem C25_result (check : Bool) (f : Op (Option OpResult)) (env : Env) (st st' : St) (t : Trace) (x : OpResult)
    (h : Execution (operation check f) env st t (.ok x) st') : ∃ st0, Execution f env { st with op := {} } t (.ok (some x)) st0 := by
  obtain ⟨r0, st0, h1, _, hr⟩ := execution_operation.mp h
  rcases r0 with e | (_ | y)
  · cases hr
  · cases hr
  · simp only at hr
    split at hr
    · cases hr
    · cases hr; exact ⟨st0, h1⟩

/-- C25. An exception in the function always propagates, with and without check. -/
theorem C25_exception (check : Bool) (f : Op (Option OpResult)) (env : Env) (st st0 : St) (t : Trace) (e : Exn)
    (h : Execution f env { st with op := {} } t (.error e) st0) :
    Execution (operation check f) env st t (.error e) { st0.show (failed st0 (errorText e)) with op := st.op } :=
  execution_operation.mpr ⟨_, _, h, rfl, rfl⟩

/-- C25. With check enabled a failed result is raised as an OperationError with its message. -/
theorem C25_failure_raised (f : Op (Option OpResult)) (env : Env) (st st0 : St) (t : Trace) (x : OpResult) (m : Str)
    (h : Execution f env { st with op := {} } t (.ok (some x)) st0) (hx : x.success = false) (hm : x.failureMessage = some m) :
    Execution (operation true f) env st t (.error (.operationError m)) { st0 with op := st.op } := by
  refine execution_operation.mpr ⟨_, _, h, rfl, ?_⟩
  simp [hx, failureError, hm]

/-- C25. Without check a failed result is returned. -/
theorem C25_unchecked (f : Op (Option OpResult)) (env : Env) (st st0 : St) (t : Trace) (x : OpResult)
    (h : Execution f env { st with op := {} } t (.ok (some x)) st0) :
    Execution (operation false f) env st t (.ok x) { st0 with op := st.op } :=
  execution_operation.mpr ⟨_, _, h, rfl, rfl⟩

/-- A function that fails, one that raises, and one that succeeds. -/
example : Execution (operation true (do let r ← failure p!"no"; return some r)) { base := {} } { stack := [{}] } []
    (.error (.operationError p!"no"))
    { stack := [{}], shown := [⟨{ success := false, changed := false, initial := [], final := [], failureMessage := some p!"no" }, []⟩] } := .ret _

example : Execution (operation true (do initialState []; finalState []; let r ← success; return some r)) { base := {} } { stack := [{}] } []
    (.ok { success := true, changed := false, initial := [], final := [] })
    { stack := [{}], shown := [⟨{ success := true, changed := false, initial := [], final := [] }, []⟩] } := .ret _

/-- What the documentation of every operation says about `check`: "If True, returning `op.failure()` will raise an
OperationError" and otherwise a failed result is returned; read as: without check, an OperationError never leaves the
operation. -/
def C25_Statement : Prop :=
  ∀ (f : Op (Option OpResult)) (env : Env) (st st' : St) (t : Trace) (r : Except Exn OpResult) (m : Str),
    Execution (operation false f) env st t r st' → r ≠ .error (.operationError m)

/-- C25. It is false: an OperationError that the body raises (such as that of a failed nested operation) propagates. -/
theorem C25_unchecked_raises_refuted : ¬ C25_Statement := by
  intro h
  exact h (Op.raise (.operationError p!"no")) { base := {} } { stack := [{}] } _ [] _ p!"no" (.ret _) rfl

/-! ### C26 -/

/-- The calls that set the state of an operation. -/
inductive StateCall where
  | initial (d : Dict)
  | final (d : Dict)

/-- Making a call; the answer tells whether it raised. -/
def StateCall.make : StateCall → Op Bool
  | .initial d => Op.tryCatch (do initialState d; return false) fun _ => return true
  | .final d => Op.tryCatch (do finalState d; return false) fun _ => return true

def makeAll : List StateCall → Op (List Bool)
  | [] => return []
  | c :: cs => do
    let b ← c.make
    let bs ← makeAll cs
    return b :: bs

/-- The first initial (final) state that was given. -/
def firstInitial (cs : List StateCall) : Option Dict := cs.findSome? fun | .initial d => some d | _ => none
def firstFinal (cs : List StateCall) : Option Dict := cs.findSome? fun | .final d => some d | _ => none

/-- Which calls repeat an earlier one. -/
def repeats : List StateCall → List StateCall → List Bool
  | _, [] => []
  | before, c :: cs =>
    (match c with
      | .initial _ => (firstInitial before).isSome
      | .final _ => (firstFinal before).isSome) :: repeats (before ++ [c]) cs

theorem firstInitial_append (a b : List StateCall) : firstInitial (a ++ b) = (firstInitial a).or (firstInitial b) := by
  simp [firstInitial, List.findSome?_append]
theorem firstFinal_append (a b : List StateCall) : firstFinal (a ++ b) = (firstFinal a).or (firstFinal b) := by
  simp [firstFinal, List.findSome?_append]

theorem makeAll_eq (env : Env) (cs : List StateCall) : ∀ (before : List StateCall) (st : St), st.op.hasNested = false →
    st.op.initial = firstInitial before → st.op.final = firstFinal before →
    makeAll cs env st = .ret (.ok (repeats before cs), { st with op := { st.op with initial := firstInitial (before ++ cs),
                                                                                    final := firstFinal (before ++ cs) } }) := by
  induction cs with
  | nil =>
    intro before st hn hi hf
    rw [List.append_nil, ← hi, ← hf]
    rfl
  | cons c cs ih =>
    intro before st hn hi hf
    have step : ∃ st1, c.make env st = .ret (.ok (match c with
        | .initial _ => (firstInitial before).isSome
        | .final _ => (firstFinal before).isSome), st1)
        ∧ st1 = { st with op := { st.op with initial := firstInitial (before ++ [c]), final := firstFinal (before ++ [c]) } } := by
      cases c with
      | initial d =>
        have hf1 : firstFinal (before ++ [.initial d]) = st.op.final := by
          rw [firstFinal_append, hf]; simp [firstFinal]
        cases hb : firstInitial before with
        | none =>
          rw [hb] at hi
          have : firstInitial (before ++ [.initial d]) = some d := by rw [firstInitial_append, hb]; rfl
          rw [this, hf1]
          refine ⟨_, ?_, rfl⟩
          simp [StateCall.make, Op.tryCatch, initialState, hn, hi, Op.bind, Bind.bind, Pure.pure, Op.pure, Prog.bind]
        | some x =>
          rw [hb] at hi
          have : firstInitial (before ++ [.initial d]) = st.op.initial := by rw [firstInitial_append, hb, hi]; rfl
          rw [this, hf1]
          refine ⟨_, ?_, rfl⟩
          simp [StateCall.make, Op.tryCatch, initialState, hn, hi, Op.bind, Bind.bind, Pure.pure, Op.pure, Prog.bind]
          obtain ⟨stk, ⟨_, _, _, _⟩⟩ := st
          simp_all
      | final d =>
        have hf1 : firstInitial (before ++ [.final d]) = st.op.initial := by
          rw [firstInitial_append, hi]; simp [firstInitial]
        cases hb : firstFinal before with
        | none =>
          rw [hb] at hf
          have : firstFinal (before ++ [.final d]) = some d := by rw [firstFinal_append, hb]; rfl
          rw [this, hf1]
          refine ⟨_, ?_, rfl⟩
          simp [StateCall.make, Op.tryCatch, finalState, hn, hf, Op.bind, Bind.bind, Pure.pure, Op.pure, Prog.bind]
        | some x =>
          rw [hb] at hf
          have : firstFinal (before ++ [.final d]) = st.op.final := by rw [firstFinal_append, hb, hf]; rfl
          rw [this, hf1]
          refine ⟨_, ?_, rfl⟩
          simp [StateCall.make, Op.tryCatch, finalState, hn, hf, Op.bind, Bind.bind, Pure.pure, Op.pure, Prog.bind]
          obtain ⟨stk, ⟨_, _, _, _⟩⟩ := st
          simp_all
    obtain ⟨st1, h1, h2⟩ := step
    have h3 := ih (before ++ [c]) st1 (by rw [h2]; exact hn) (by rw [h2]) (by rw [h2])
    show Prog.bind (c.make env st) _ = _
    rw [h1]
    show Prog.bind (makeAll cs env st1) _ = _
    rw [h3, h2, List.append_assoc]
    rfl

/-- C26. Each state can be set at most once: in every sequence of calls, exactly those raise that repeat an earlier one, and
the value that counts is the first one. -/
theorem C26_once (env : Env) (stack : List Settings) (cs : List StateCall) :
    makeAll cs env { stack, op := {} } = .ret (.ok (repeats [] cs),
      { stack, op := { initial := firstInitial cs, final := firstFinal cs } }) :=
  makeAll_eq env cs [] { stack, op := {} } rfl rfl rfl

/-- The changes of an operation can be printed: what has a value in the final state has an entry in the initial one. -/
def Printable (i f : Dict) : Prop := ∀ k v, f.get k = some v → v ≠ .null → i.get k ≠ none

theorem printable_iff {i f : Dict} (hf : Val.Wf (.dict f)) : printable i f = true ↔ Printable i f := by
  have hn : (f.map (·.1)).Nodup := by
    cases hf with
    | plain _ h => exact absurd rfl (h f)
    | dict _ h _ => exact h
  simp only [printable, List.all_eq_true, Bool.or_eq_true]
  constructor
  · intro h k v hk hv hi
    rcases h (k, v) (Dict.get_mem hk) with h | h
    · simp [hi] at h
    · cases v <;> simp_all [Val.isNull]
  · rintro h ⟨k, v⟩ hm
    by_cases hv : v = .null
    · exact .inr (by simp [hv, Val.isNull])
    · exact .inl (Option.isSome_iff_ne_none.mpr (h k v (Dict.get_of_mem hn hm) hv))

/-- C26. After any such sequence, asking for success raises unless both states have been set; otherwise the result is
successful, has the two states, and has `changed` set exactly if they differ, and it is shown. The exception to this are
states of which the changes cannot be printed. -/
theorem C26_changed (env : Env) (stack : List Settings) (cs : List StateCall)
    (hwf : ∀ d, (.initial d ∈ cs ∨ .final d ∈ cs) → Val.Wf (.dict d)) (st' : St) (t : Trace) (r : Except Exn OpResult)
    (h : Execution (do let _ ← makeAll cs; success) env { stack, op := {} } t r st') :
    match firstInitial cs, firstFinal cs with
    | some i, some f =>
      (env.changes = false ∨ Printable i f → ∃ x, r = .ok x ∧ x.success = true ∧ x.initial = i ∧ x.final = f
        ∧ (x.changed = true ↔ ¬ Val.Same (.dict i) (.dict f)) ∧ st'.shown = [⟨x, []⟩])
      ∧ (env.changes = true ∧ ¬ Printable i f → r = .error .keyError ∧ st'.shown = [])
    | _, _ => ∃ m, r = .error (.operationError m) := by
  have hrun : Execution (do let _ ← makeAll cs; success) env { stack, op := {} } t r st' ↔
      Execution success env { stack, op := { initial := firstInitial cs, final := firstFinal cs } } t r st' := by
    show Prog.Runs (Prog.bind (makeAll cs env _) _) _ _ ↔ _
    rw [C26_once]
    exact Iff.rfl
  have h := hrun.mp h
  have hi : ∀ d, firstInitial cs = some d → Val.Wf (.dict d) := by
    intro d hd
    obtain ⟨c, hc, hx⟩ := List.exists_of_findSome?_eq_some hd
    cases c <;> cases hx
    exact hwf _ (.inl hc)
  have hf : ∀ d, firstFinal cs = some d → Val.Wf (.dict d) := by
    intro d hd
    obtain ⟨c, hc, hx⟩ := List.exists_of_findSome?_eq_some hd
    cases c <;> cases hx
    exact hwf _ (.inr hc)
  unfold Execution success at h
  cases h1 : firstInitial cs with
  | none =>
    rw [h1] at h
    obtain ⟨_, h⟩ := runs_ret.mp h
    cases h
    exact ⟨_, rfl⟩
  | some i =>
    cases h2 : firstFinal cs with
    | none =>
      rw [h1, h2] at h
      obtain ⟨_, h⟩ := runs_ret.mp h
      cases h
      exact ⟨_, rfl⟩
    | some f =>
      rw [h1, h2] at h
      dsimp only at h
      have hp := printable_iff (i := i) (hf f h2)
      split at h
      · next hc =>
        obtain ⟨_, h⟩ := runs_ret.mp h
        cases h
        simp only [Bool.not_false, Bool.and_true, Bool.and_eq_true, Bool.not_eq_true'] at hc
        have hnp : ¬ Printable i f := fun h => by rw [hp.mpr h] at hc; cases hc.2
        refine ⟨fun h => ?_, fun _ => ⟨rfl, rfl⟩⟩
        rcases h with h | h
        · rw [hc.1] at h; cases h
        · exact absurd h hnp
      · next hc =>
        obtain ⟨_, h⟩ := runs_ret.mp h
        cases h
        refine ⟨fun _ => ⟨_, rfl, rfl, rfl, rfl, ?_, rfl⟩, fun ⟨h3, h4⟩ => ?_⟩
        · simp only [Bool.not_eq_true']
          rw [← Bool.not_eq_true, dict_eq_iff, Val.eq_iff (hi i h1) (hf f h2)]
        · rw [← hp] at h4
          simp [h3, h4] at hc

/-- A sequence with a repeated call, and the result. -/
example : repeats [] [.initial [(p!"a", .int 1)], .initial [], .final [(p!"a", .int 2)]] = [false, true, false]
    ∧ Execution (do let _ ← makeAll [.initial [(p!"a", .int 1)], .initial [], .final [(p!"a", .int 2)]]; success) { base := {} }
      { stack := [{}] } [] (.ok { success := true, changed := true, initial := [(p!"a", .int 1)], final := [(p!"a", .int 2)] })
      { stack := [{}], op := { initial := some [(p!"a", .int 1)], final := some [(p!"a", .int 2)] }
        shown := [⟨{ success := true, changed := true, initial := [(p!"a", .int 1)], final := [(p!"a", .int 2)] }, []⟩] } := ⟨rfl, .ret _⟩

/-- And one that cannot be printed. -/
example : ∃ st', Execution (do let _ ← makeAll [.initial [], .final [(p!"a", .int 2)]]; success) { base := {} }
      { stack := [{}] } [] (.error .keyError) st' ∧ st'.shown = [] := ⟨_, .ret _, rfl⟩

/-! ### C27 -/

/-- The property as documented: "Set to `True` to not count states where the final value is None". -/
def C27_Statement : Prop :=
  ∀ (i f : Dict) (env : Env) (st st' : St) (t : Trace) (r : Except Exn Bool), Val.Wf (.dict i) → Val.Wf (.dict f) →
    (∀ k, i.get k = none ↔ f.get k = none) → st.op.initial = some i → st.op.final = some f →
    Execution (unchanged true) env st t r st' →
    ∃ b, r = .ok b ∧ (b = true ↔ ∀ k a v, i.get k = some a → f.get k = some v → v ≠ .null → Val.Same a v)

/-- C27. It is false: an entry whose final value is None counts. -/
theorem C27_refuted : ¬ C27_Statement := by
  intro h
  have hk : ∀ k, Dict.get [(p!"gid", .int 5)] k = none ↔ Dict.get [(p!"gid", .null)] k = none := by
    intro k; simp only [Dict.get]; split <;> simp
  have hw : ∀ v : Val, (∀ d, v ≠ .dict d) → Val.Wf (.dict [(p!"gid", v)]) := by
    intro v hv
    refine .dict _ (by simp) ?_
    intro k x hx
    simp only [List.mem_cons, List.not_mem_nil, or_false, Prod.mk.injEq] at hx
    rw [hx.2]
    exact .plain _ hv
  obtain ⟨b, h1, h2⟩ := h [(p!"gid", .int 5)] [(p!"gid", .null)] { base := {} }
    { stack := [{}], op := { initial := some [(p!"gid", .int 5)], final := some [(p!"gid", .null)] } } _ [] _
    (hw _ (by intro d h; cases h)) (hw _ (by intro d h; cases h)) hk rfl rfl (.ret _)
  have hb : b = false := by cases h1; rfl
  rw [hb] at h2
  refine absurd (h2.mpr ?_) (by simp)
  intro k a v ha hv hne
  simp only [Dict.get] at hv
  split at hv
  · cases hv; exact absurd rfl hne
  · cases hv

theorem unchangedLoop_eq {i f : Dict} (hi : Val.Wf (.dict i)) (hf : Val.Wf (.dict f)) (hk : ∀ k, f.get k ≠ none → i.get k ≠ none) :
    ∀ ks : List Str, (∀ k ∈ ks, f.get k ≠ none) →
    ∃ b, unchangedLoop i f ks = .ok b ∧ (b = true ↔ ∀ k ∈ ks, ∀ a v, i.get k = some a → f.get k = some v → Val.Same a v) := by
  have wf : ∀ {d : Dict} {k v}, Val.Wf (.dict d) → d.get k = some v → v.Wf := by
    intro d k v hd hg
    cases hd with
    | plain _ h => exact absurd rfl (h _)
    | dict _ _ h => exact h _ _ (Dict.get_mem hg)
  intro ks
  induction ks with
  | nil => intro _; exact ⟨true, rfl, by simp⟩
  | cons k ks ih =>
    intro hks
    obtain ⟨b, h1, h2⟩ := ih fun k hk' => hks k (by simp [hk'])
    cases hfk : f.get k with
    | none => exact absurd hfk (hks k (by simp))
    | some v =>
      cases hik : i.get k with
      | none => exact absurd hik (hk k (by rw [hfk]; simp))
      | some a =>
        have hs := Val.eq_iff (wf hi hik) (wf hf hfk)
        simp only [unchangedLoop, hik, hfk]
        cases he : a.eq v with
        | false =>
          refine ⟨false, rfl, by simp, fun h => ?_⟩
          have := hs.mpr (h k (by simp) a v hik hfk)
          rw [he] at this
          cases this
        | true =>
          refine ⟨b, h1, h2.trans ⟨fun h k' hk' a' v' ha' hv' => ?_, fun h k' hk' => h k' (by simp [hk'])⟩⟩
          rcases List.mem_cons.mp hk' with rfl | hk'
          · rw [hik] at ha'
            rw [hfk] at hv'
            cases ha'
            cases hv'
            exact hs.mp he
          · exact h k' hk' a' v' ha' hv'

/-- C27. What holds: with `ignore_none` the comparison is the one over the keys of the final state. So it is as documented if
no final value is None. What is missing: final values None. -/
theorem C27_no_none_partial (i f : Dict) (env : Env) (st st' : St) (t : Trace) (r : Except Exn Bool) (hi : Val.Wf (.dict i)) (hf : Val.Wf (.dict f))
    (hk : ∀ k, f.get k ≠ none → i.get k ≠ none) (h1 : st.op.initial = some i) (h2 : st.op.final = some f)
    (h : Execution (unchanged true) env st t r st') :
    ∃ b, r = .ok b ∧ (b = true ↔ ∀ k a v, i.get k = some a → f.get k = some v → Val.Same a v) := by
  simp only [Execution, unchanged, h1, h2, Bool.not_true, Bool.false_eq_true, if_false] at h
  obtain ⟨_, h⟩ := runs_ret.mp h
  cases h
  have hmem : ∀ k, k ∈ f.map (·.1) ↔ f.get k ≠ none := by
    intro k
    rw [← Dict.get_isSome, Option.isSome_iff_ne_none]
  obtain ⟨b, h3, h4⟩ := unchangedLoop_eq hi hf hk (f.map (·.1)) fun k hk => (hmem k).mp hk
  refine ⟨b, h3, h4.trans ⟨fun h k a v ha hv => h k ((hmem k).mpr (by rw [hv]; simp)) a v ha hv, fun h k _ a v ha hv => h k a v ha hv⟩⟩

theorem unchangedLoop_true {i f : Dict} (hi : Val.Wf (.dict i)) (hf : Val.Wf (.dict f)) :
    ∀ ks : List Str, unchangedLoop i f ks = .ok true → ∀ k ∈ ks, ∃ a v, i.get k = some a ∧ f.get k = some v ∧ Val.Same a v := by
  have wf : ∀ {d : Dict} {k v}, Val.Wf (.dict d) → d.get k = some v → v.Wf := by
    intro d k v hd hg
    cases hd with
    | plain _ h => exact absurd rfl (h _)
    | dict _ _ h => exact h _ _ (Dict.get_mem hg)
  intro ks
  induction ks with
  | nil => simp
  | cons k ks ih =>
    intro h
    cases hik : i.get k with
    | none => simp [unchangedLoop, hik] at h
    | some a =>
      cases hfk : f.get k with
      | none => simp [unchangedLoop, hik, hfk] at h
      | some v =>
        simp only [unchangedLoop, hik, hfk] at h
        cases he : a.eq v with
        | false => simp [he] at h
        | true =>
          simp only [he, if_true] at h
          intro k' hk'
          rcases List.mem_cons.mp hk' with rfl | hk'
          · exact ⟨a, v, hik, hfk, (Val.eq_iff (wf hi hik) (wf hf hfk)).mp he⟩
          · exact ih h k' hk'

/-- C27. Whatever the states are, "unchanged" is only answered when every entry of the final state was there before with the
same value. -/
theorem C27_unchanged_sound (i f : Dict) (env : Env) (st st' : St) (t : Trace) (hi : Val.Wf (.dict i)) (hf : Val.Wf (.dict f))
    (h1 : st.op.initial = some i) (h2 : st.op.final = some f) (h : Execution (unchanged true) env st t (.ok true) st') (k : Str) (v : Val)
    (hv : f.get k = some v) : ∃ a, i.get k = some a ∧ Val.Same a v := by
  simp only [Execution, unchanged, h1, h2, Bool.not_true, Bool.false_eq_true, if_false] at h
  obtain ⟨_, h⟩ := runs_ret.mp h
  simp only [Prod.mk.injEq] at h
  have hmem : k ∈ f.map (·.1) := by rw [← Dict.get_isSome, hv]; rfl
  obtain ⟨a, v', ha, hv', hs⟩ := unchangedLoop_true hi hf _ h.1.symm k hmem
  rw [hv] at hv'
  cases hv'
  exact ⟨a, ha, hs⟩

theorem unchangedLoop_other {i f : Dict} (hi : Val.Wf (.dict i)) (hf : Val.Wf (.dict f)) :
    ∀ ks : List Str, (unchangedLoop i f ks = .ok false → ∃ k ∈ ks, ∃ a v, i.get k = some a ∧ f.get k = some v ∧ ¬ Val.Same a v)
      ∧ ∀ e, unchangedLoop i f ks = .error e → e = .keyError := by
  have wf : ∀ {d : Dict} {k v}, Val.Wf (.dict d) → d.get k = some v → v.Wf := by
    intro d k v hd hg
    cases hd with
    | plain _ h => exact absurd rfl (h _)
    | dict _ _ h => exact h _ _ (Dict.get_mem hg)
  intro ks
  induction ks with
  | nil => exact ⟨nofun, nofun⟩
  | cons k ks ih =>
    cases hik : i.get k with
    | none =>
      simp only [unchangedLoop, hik]
      exact ⟨nofun, fun e h => by cases h; rfl⟩
    | some a =>
      cases hfk : f.get k with
      | none =>
        simp only [unchangedLoop, hik, hfk]
        exact ⟨nofun, fun e h => by cases h; rfl⟩
      | some v =>
        simp only [unchangedLoop, hik, hfk]
        cases he : a.eq v with
        | false =>
          refine ⟨fun _ => ⟨k, by simp, a, v, hik, hfk, fun hs => ?_⟩, nofun⟩
          rw [(Val.eq_iff (wf hi hik) (wf hf hfk)).mpr hs] at he
          cases he
        | true =>
          simp only [if_true]
          exact ⟨fun h => (ih.1 h).imp fun k' h' => ⟨by simp [h'.1], h'.2⟩, ih.2⟩

/-- C27. "Changed" is only answered when some entry has different values before and after. So if all entries that are in both states are the
same, and the final state has an entry that the initial state lacks, then there is no answer: a KeyError is raised. -/
theorem C27_missing_key (i f : Dict) (env : Env) (st st' : St) (t : Trace) (r : Except Exn Bool) (hi : Val.Wf (.dict i)) (hf : Val.Wf (.dict f))
    (h1 : st.op.initial = some i) (h2 : st.op.final = some f) (h : Execution (unchanged true) env st t r st') :
    (r = .ok false → ∃ k a v, i.get k = some a ∧ f.get k = some v ∧ ¬ Val.Same a v)
    ∧ ((∀ k a v, i.get k = some a → f.get k = some v → Val.Same a v) → (∃ k, i.get k = none ∧ f.get k ≠ none) → r = .error .keyError) := by
  have hx := h
  simp only [Execution, unchanged, h1, h2, Bool.not_true, Bool.false_eq_true, if_false] at h
  obtain ⟨_, h⟩ := runs_ret.mp h
  simp only [Prod.mk.injEq] at h
  obtain ⟨hr, _⟩ := h
  obtain ⟨hf1, he⟩ := unchangedLoop_other hi hf (f.map (·.1))
  have first : r = .ok false → ∃ k a v, i.get k = some a ∧ f.get k = some v ∧ ¬ Val.Same a v := by
    intro h0
    obtain ⟨k, _, a, v, h⟩ := hf1 (hr ▸ h0)
    exact ⟨k, a, v, h⟩
  refine ⟨first, fun hs ⟨k, hk, hk'⟩ => ?_⟩
  cases r with
  | error e => rw [he e hr.symm]
  | ok b =>
    cases b with
    | false =>
      obtain ⟨k, a, v, h3, h4, h5⟩ := first rfl
      exact absurd (hs k a v h3 h4) h5
    | true =>
      cases hv : f.get k with
      | none => exact absurd hv hk'
      | some v =>
        obtain ⟨a, ha, _⟩ := C27_unchanged_sound i f env st st' t hi hf h1 h2 hx k v hv
        rw [hk] at ha
        cases ha

/-- The premises occur together. -/
example : Execution (unchanged true) { base := {} }
    { stack := [{}], op := { initial := some [(p!"a", .int 1)], final := some [(p!"a", .int 1), (p!"b", .null)] } } [] (.error .keyError)
    { stack := [{}], op := { initial := some [(p!"a", .int 1)], final := some [(p!"a", .int 1), (p!"b", .null)] } } := .ret _

/-- C26. `changed(key)` tells whether the values before and after differ; a KeyError is raised for a key that is not in both states, and an
OperationError if not both have been set. It has no effects. -/
theorem C26_changed_key (env : Env) (st st' : St) (t : Trace) (r : Except Exn Bool) (k : Str) (hn : st.op.hasNested = false) (h : Execution (changed k) env st t r st') :
    t = [] ∧ st' = st
    ∧ (st.op.initial = none ∨ st.op.final = none → ∃ m, r = .error (.operationError m))
    ∧ ∀ i f, st.op.initial = some i → st.op.final = some f → Val.Wf (.dict i) → Val.Wf (.dict f) →
      (i.get k = none ∨ f.get k = none → r = .error .keyError)
      ∧ ∀ a v, i.get k = some a → f.get k = some v → ∃ b, r = .ok b ∧ (b = true ↔ ¬ Val.Same a v) := by
  have wf : ∀ {d : Dict} {k v}, Val.Wf (.dict d) → d.get k = some v → v.Wf := by
    intro d k v hd hg
    cases hd with
    | plain _ h => exact absurd rfl (h _)
    | dict _ _ h => exact h _ _ (Dict.get_mem hg)
  simp only [Execution, changed, hn, Bool.false_eq_true, if_false] at h
  cases h1 : st.op.initial with
  | none =>
    simp only [h1] at h
    obtain ⟨rfl, h⟩ := runs_ret.mp h
    cases h
    exact ⟨rfl, rfl, fun _ => ⟨_, rfl⟩, nofun⟩
  | some i =>
    cases h2 : st.op.final with
    | none =>
      simp only [h1, h2] at h
      obtain ⟨rfl, h⟩ := runs_ret.mp h
      cases h
      exact ⟨rfl, rfl, fun _ => ⟨_, rfl⟩, nofun⟩
    | some f =>
      simp only [h1, h2] at h
      cases h3 : i.get k with
      | none =>
        simp only [h3] at h
        obtain ⟨rfl, h⟩ := runs_ret.mp h
        cases h
        refine ⟨rfl, rfl, by simp, fun i' f' hi hf _ _ => ?_⟩
        cases hi; cases hf
        exact ⟨fun _ => rfl, fun a v ha => by rw [h3] at ha; cases ha⟩
      | some a =>
        cases h4 : f.get k with
        | none =>
          simp only [h3, h4] at h
          obtain ⟨rfl, h⟩ := runs_ret.mp h
          cases h
          refine ⟨rfl, rfl, by simp, fun i' f' hi hf _ _ => ?_⟩
          cases hi; cases hf
          exact ⟨fun _ => rfl, fun a v _ hv => by rw [h4] at hv; cases hv⟩
        | some v =>
          simp only [h3, h4] at h
          obtain ⟨rfl, h⟩ := runs_ret.mp h
          cases h
          refine ⟨rfl, rfl, by simp, fun i' f' hi hf hwi hwf => ?_⟩
          cases hi; cases hf
          refine ⟨fun hx => by rw [h3, h4] at hx; simp at hx, fun a' v' ha hv => ⟨_, rfl, ?_⟩⟩
          rw [h3] at ha; rw [h4] at hv
          cases ha; cases hv
          rw [← Val.eq_iff (wf hwi h3) (wf hwf h4)]
          cases a.eq v <;> simp

/-- The premises occur together. -/
example : Execution (changed p!"a") { base := {} }
    { stack := [{}], op := { initial := some [(p!"a", .int 1)], final := some [(p!"a", .int 2)] } } [] (.ok true)
    { stack := [{}], op := { initial := some [(p!"a", .int 1)], final := some [(p!"a", .int 2)] } } := .ret _

/-- The premises occur together. -/
example : Execution (unchanged true) { base := {} }
    { stack := [{}], op := { initial := some [(p!"a", .int 1), (p!"b", .null)], final := some [(p!"a", .int 1)] } } [] (.ok true)
    { stack := [{}], op := { initial := some [(p!"a", .int 1), (p!"b", .null)], final := some [(p!"a", .int 1)] } } := .ret _

/-! ### C28 -/

/-- Adding nested results; the answers tell which calls raised. -/
def addAll : List (Str × OpResult) → Op (List Bool)
  | [] => return []
  | (k, x) :: l => do
    let b ← Op.tryCatch (do addNestedResult k x; return false) fun _ => return true
    let bs ← addAll l
    return b :: bs

/-- Which keys occurred before. -/
def duplicate : List Str → List Str → List Bool
  | _, [] => []
  | before, k :: ks => before.contains k :: duplicate (before ++ [k]) ks

/-- The results that count: the first one for each key. -/
def accepted : List (Str × OpResult) → List (Str × OpResult) → List (Str × OpResult)
  | acc, [] => acc
  | acc, (k, x) :: l => if (acc.map (·.1)).contains k then accepted acc l else accepted (acc ++ [(k, x)]) l

def initials (l : List (Str × OpResult)) : Dict := l.map fun e => (e.1, .dict e.2.initial)
def finals (l : List (Str × OpResult)) : Dict := l.map fun e => (e.1, .dict e.2.final)

theorem initials_get (l : List (Str × OpResult)) (k : Str) : ((initials l).get k).isSome = (l.map (·.1)).contains k := by
  rw [Bool.eq_iff_iff, Dict.get_isSome]
  simp [initials, List.map_map, Function.comp_def]

theorem finals_get (l : List (Str × OpResult)) (k : Str) : ((finals l).get k).isSome = (l.map (·.1)).contains k := by
  rw [Bool.eq_iff_iff, Dict.get_isSome]
  simp [finals, List.map_map, Function.comp_def]

/-- The state of the operation object after some results have been accepted. -/
def nestedState (started : Bool) (acc : List (Str × OpResult)) : OpState :=
  { hasNested := true, initial := if started then some (initials acc) else none, final := if started then some (finals acc) else none }

theorem addAll_eq (env : Env) (stack : List Settings) (l : List (Str × OpResult)) : ∀ (acc : List (Str × OpResult)) (before : List Str)
    (started : Bool), (∀ k, k ∈ before ↔ k ∈ acc.map (·.1)) → (started = false → acc = []) →
    addAll l env { stack, op := nestedState started acc }
      = .ret (.ok (duplicate before (l.map (·.1))), { stack, op := nestedState (started || !l.isEmpty) (accepted acc l) }) := by
  induction l with
  | nil => intro acc before started _ _; simp [addAll, Pure.pure, Op.pure, duplicate, accepted]
  | cons e l ih =>
    obtain ⟨k, x⟩ := e
    intro acc before started hb hs
    have hi : (nestedState started acc).initial.getD [] = initials acc := by
      cases started with
      | true => rfl
      | false => rw [hs rfl]; rfl
    have hf : (nestedState started acc).final.getD [] = finals acc := by
      cases started with
      | true => rfl
      | false => rw [hs rfl]; rfl
    have hc : before.contains k = (acc.map (·.1)).contains k := by
      rw [Bool.eq_iff_iff]; simpa using hb k
    show Prog.bind (Op.tryCatch _ _ env _) _ = _
    simp only [List.map_cons, duplicate, accepted, List.isEmpty_cons, Bool.not_false, Bool.or_true, hc]
    by_cases hd : (acc.map (·.1)).contains k = true
    · have h1 : addNestedResult k x env { stack, op := nestedState started acc }
          = .ret (.error (.operationError (p!"Cannot add nested operation result under existing key '" ++ k ++ p!"'.")),
              { stack, op := nestedState true acc }) := by
        simp only [addNestedResult, hi, hf, initials_get, finals_get, hd, Bool.or_self, if_true]
        rfl
      have h2 : Op.tryCatch (do addNestedResult k x; return false) (fun _ => return true) env { stack, op := nestedState started acc }
          = .ret (.ok true, { stack, op := nestedState true acc }) := by
        simp only [Op.tryCatch, Bind.bind, Op.bind, h1, Prog.bind]
        rfl
      rw [h2, if_pos hd, hd]
      have := ih acc (before ++ [k]) true (by
        intro k'
        simp only [List.mem_append, List.mem_cons, List.not_mem_nil, or_false, hb]
        exact ⟨fun h => h.elim id (by rintro rfl; simpa using hd), .inl⟩) (by intro h; cases h)
      show Prog.bind (addAll l env _) _ = _
      rw [this]
      rfl
    · have h1 : addNestedResult k x env { stack, op := nestedState started acc }
          = .ret (.ok (), { stack, op := nestedState true (acc ++ [(k, x)]) }) := by
        simp only [addNestedResult, hi, hf, initials_get, finals_get, hd, Bool.or_self]
        simp [nestedState, initials, finals]
      have h2 : Op.tryCatch (do addNestedResult k x; return false) (fun _ => return true) env { stack, op := nestedState started acc }
          = .ret (.ok false, { stack, op := nestedState true (acc ++ [(k, x)]) }) := by
        simp only [Op.tryCatch, Bind.bind, Op.bind, h1, Prog.bind]
        rfl
      rw [h2, if_neg hd]
      have := ih (acc ++ [(k, x)]) (before ++ [k]) true (by
        intro k'
        simp only [List.mem_append, List.mem_cons, List.not_mem_nil, or_false, hb, List.map_append, List.map_cons, List.map_nil])
        (by intro h; cases h)
      show Prog.bind (addAll l env _) _ = _
      rw [this]
      simp only [Bool.not_eq_true] at hd
      rw [hd]
      rfl

/-- C28. An operation that is marked as nested refuses a result exactly if its key was used before. -/
theorem C28_duplicates_refused (env : Env) (stack : List Settings) (l : List (Str × OpResult)) :
    ∃ st', (do setNested true; addAll l) env { stack, op := {} } = .ret (.ok (duplicate [] (l.map (·.1))), st') := by
  exact ⟨_, addAll_eq env stack l [] [] false (by simp) (by simp)⟩

theorem accepted_nodup (l : List (Str × OpResult)) : ∀ acc, (acc.map (·.1)).Nodup → ((accepted acc l).map (·.1)).Nodup := by
  induction l with
  | nil => intro acc h; exact h
  | cons e l ih =>
    obtain ⟨k, x⟩ := e
    intro acc h
    unfold accepted
    split
    · exact ih acc h
    · next hc =>
      refine ih _ ?_
      simp only [List.contains_iff_mem, Bool.not_eq_true] at hc
      rw [List.map_append, List.nodup_append]
      refine ⟨h, by simp, ?_⟩
      intro a ha b hb
      simp only [List.map_cons, List.map_nil, List.mem_cons, List.not_mem_nil, or_false] at hb
      rintro rfl
      subst hb
      exact hc ha

theorem accepted_mem (l : List (Str × OpResult)) : ∀ acc e, e ∈ accepted acc l ↔ e ∈ acc ∨ ∃ pre post, l = pre ++ e :: post ∧
    e.1 ∉ pre.map (·.1) ∧ e.1 ∉ acc.map (·.1) := by
  induction l with
  | nil => intro acc e; simp [accepted]
  | cons e' l ih =>
    obtain ⟨k, x⟩ := e'
    intro acc e
    unfold accepted
    split
    · next hc =>
      simp only [List.contains_iff_mem] at hc
      rw [ih]
      refine or_congr_right ⟨?_, ?_⟩
      · rintro ⟨pre, post, rfl, h1, h2⟩
        refine ⟨(k, x) :: pre, post, rfl, ?_, h2⟩
        simp only [List.map_cons, List.mem_cons, not_or]
        exact ⟨fun h => h2 (h ▸ hc), h1⟩
      · rintro ⟨pre, post, h0, h1, h2⟩
        cases pre with
        | nil =>
          simp only [List.nil_append, List.cons.injEq] at h0
          obtain ⟨rfl, _⟩ := h0
          exact absurd hc h2
        | cons p pre =>
          simp only [List.cons_append, List.cons.injEq] at h0
          obtain ⟨rfl, rfl⟩ := h0
          exact ⟨pre, post, rfl, fun h => h1 (by simp [h]), h2⟩
    · next hc =>
      simp only [List.contains_iff_mem] at hc
      rw [ih]
      simp only [List.mem_append, List.mem_cons, List.not_mem_nil, or_false, List.map_append, List.map_cons, List.map_nil, not_or]
      constructor
      · rintro ((h | rfl) | ⟨pre, post, rfl, h1, h2, h3⟩)
        · exact .inl h
        · exact .inr ⟨[], l, rfl, by simp, hc⟩
        · refine .inr ⟨(k, x) :: pre, post, rfl, ?_, h2⟩
          simp only [List.map_cons, List.mem_cons, not_or]
          exact ⟨h3, h1⟩
      · rintro (h | ⟨pre, post, h0, h1, h2⟩)
        · exact .inl (.inl h)
        · cases pre with
          | nil =>
            simp only [List.nil_append, List.cons.injEq] at h0
            exact .inl (.inr h0.1.symm)
          | cons p pre =>
            simp only [List.cons_append, List.cons.injEq] at h0
            obtain ⟨rfl, rfl⟩ := h0
            refine .inr ⟨pre, post, rfl, fun h => h1 (by simp [h]), h2, fun h => h1 (by simp [h])⟩

/-- The value under a key in a dictionary made from entries with distinct keys. -/
theorem get_map {f : OpResult → Dict} {l : List (Str × OpResult)} (hn : (l.map (·.1)).Nodup) {k : Str} {v : Val} :
    Dict.get (l.map fun e => (e.1, Val.dict (f e.2))) k = some v ↔ ∃ x, (k, x) ∈ l ∧ v = .dict (f x) := by
  constructor
  · intro h
    have := Dict.get_mem h
    simp only [List.mem_map, Prod.mk.injEq] at this
    obtain ⟨e, he, rfl, rfl⟩ := this
    exact ⟨e.2, he, rfl⟩
  · rintro ⟨x, hx, rfl⟩
    refine Dict.get_of_mem ?_ (List.mem_map.mpr ⟨(k, x), hx, rfl⟩)
    rw [List.map_map]
    exact hn

/-- C28. An operation with nested results reports `changed` exactly if one of the results that it accepted (the first one
for its key) has different initial and final states. -/
theorem C28_changed (env : Env) (stack : List Settings) (l : List (Str × OpResult)) (hl : l ≠ [])
    (hwf : ∀ e ∈ l, Val.Wf (.dict e.2.initial) ∧ Val.Wf (.dict e.2.final)) (st' : St) (t : Trace) (r : Except Exn OpResult)
    (h : Execution (do setNested true; let _ ← addAll l; success) env { stack, op := {} } t r st') :
    ∃ x, r = .ok x ∧ x.success = true ∧
      (x.changed = true ↔ ∃ pre k y post, l = pre ++ (k, y) :: post ∧ k ∉ pre.map (·.1) ∧ ¬ Val.Same (.dict y.initial) (.dict y.final)) := by
  have hrun : Execution (do setNested true; let _ ← addAll l; success) env { stack, op := {} } t r st' ↔
      Execution success env { stack, op := nestedState true (accepted [] l) } t r st' := by
    show Prog.Runs (Prog.bind (addAll l env { stack, op := nestedState false [] }) _) _ _ ↔ _
    rw [addAll_eq env stack l [] [] false (by simp) (by simp)]
    have : (false || !l.isEmpty) = true := by cases l <;> simp_all
    rw [this]
    exact Iff.rfl
  have h := hrun.mp h
  unfold Execution success at h
  simp only [nestedState, if_true, Bool.not_true, Bool.and_false, Bool.false_and, Bool.false_eq_true, if_false] at h
  obtain ⟨_, h⟩ := runs_ret.mp h
  cases h
  refine ⟨_, rfl, rfl, ?_⟩
  have hn := accepted_nodup l [] (by simp)
  have hm : ∀ e, e ∈ accepted [] l ↔ ∃ pre post, l = pre ++ e :: post ∧ e.1 ∉ pre.map (·.1) := by
    intro e; rw [accepted_mem]; simp
  have hwf' : ∀ e ∈ accepted [] l, Val.Wf (.dict e.2.initial) ∧ Val.Wf (.dict e.2.final) := by
    intro e he
    obtain ⟨pre, post, rfl, _⟩ := (hm e).mp he
    exact hwf e (by simp)
  have w1 : Val.Wf (.dict (initials (accepted [] l))) := by
    refine .dict _ (by simpa [initials, List.map_map, Function.comp_def] using hn) ?_
    intro k v hv
    simp only [initials, List.mem_map, Prod.mk.injEq] at hv
    obtain ⟨e, he, _, rfl⟩ := hv
    exact (hwf' e he).1
  have w2 : Val.Wf (.dict (finals (accepted [] l))) := by
    refine .dict _ (by simpa [finals, List.map_map, Function.comp_def] using hn) ?_
    intro k v hv
    simp only [finals, List.mem_map, Prod.mk.injEq] at hv
    obtain ⟨e, he, _, rfl⟩ := hv
    exact (hwf' e he).2
  simp only [Bool.not_eq_true']
  rw [← Bool.not_eq_true, dict_eq_iff, Val.eq_iff w1 w2]
  have key : Val.Same (.dict (initials (accepted [] l))) (.dict (finals (accepted [] l))) ↔
      ∀ e ∈ accepted [] l, Val.Same (.dict e.2.initial) (.dict e.2.final) := by
    constructor
    · intro hs e he
      have h1 := (get_map (f := OpResult.initial) hn (k := e.1) (v := .dict e.2.initial)).mpr ⟨e.2, he, rfl⟩
      have h2 := (get_map (f := OpResult.final) hn (k := e.1) (v := .dict e.2.final)).mpr ⟨e.2, he, rfl⟩
      generalize hA : initials (accepted [] l) = A at hs
      generalize hB : finals (accepted [] l) = B at hs
      rw [show (List.map (fun e => (e.1, Val.dict (OpResult.initial e.2))) (accepted [] l)) = A from hA] at h1
      rw [show (List.map (fun e => (e.1, Val.dict (OpResult.final e.2))) (accepted [] l)) = B from hB] at h2
      cases hs with
      | refl =>
        rw [h1] at h2
        simp only [Option.some.injEq] at h2
        rw [h2]; exact .refl _
      | dict _ _ _ h3 => exact h3 _ _ _ h1 h2
    · intro hs
      refine .dict _ _ ?_ ?_
      · intro k
        rw [← Option.not_isSome_iff_eq_none, ← Option.not_isSome_iff_eq_none, initials_get, finals_get]
      · intro k v v' h1 h2
        obtain ⟨x, hx, rfl⟩ := (get_map hn).mp h1
        obtain ⟨y, hy, rfl⟩ := (get_map hn).mp h2
        have : (k, Val.dict x.initial) ∈ initials (accepted [] l) := List.mem_map.mpr ⟨(k, x), hx, rfl⟩
        have e1 : Dict.get (initials (accepted [] l)) k = some (.dict y.initial) := (get_map hn).mpr ⟨y, hy, rfl⟩
        have e2 : Dict.get (initials (accepted [] l)) k = some (.dict x.initial) := h1
        rw [e2] at e1
        have : x.initial = y.initial := by simpa using e1
        rw [this]
        exact hs _ hy
  rw [key]
  constructor
  · intro h
    have : ∃ e ∈ accepted [] l, ¬ Val.Same (.dict e.2.initial) (.dict e.2.final) := by
      by_cases hx : ∃ e ∈ accepted [] l, ¬ Val.Same (.dict e.2.initial) (.dict e.2.final)
      · exact hx
      · exfalso
        apply h
        intro e he
        by_cases hs : Val.Same (.dict e.2.initial) (.dict e.2.final)
        · exact hs
        · exact absurd ⟨e, he, hs⟩ hx
    obtain ⟨e, he, hs⟩ := this
    obtain ⟨pre, post, h1, h2⟩ := (hm e).mp he
    exact ⟨pre, e.1, e.2, post, h1, h2, hs⟩
  · rintro ⟨pre, k, y, post, h1, h2, h3⟩ h
    exact h3 (h (k, y) ((hm _).mpr ⟨pre, post, h1, h2⟩))

/-- C28. An operation that is marked as nested cannot set state of its own, ask about it, or add differences. -/
theorem C28_no_own_state (env : Env) (st : St) (hn : st.op.hasNested = true) (d : Dict) (k : Str) (o n : Option Bytes) :
    (∃ m, initialState d env st = .ret (.error (.operationError m), st))
    ∧ (∃ m, finalState d env st = .ret (.error (.operationError m), st))
    ∧ (∃ m, changed k env st = .ret (.error (.operationError m), st))
    ∧ (∃ m, opDiff k o n env st = .ret (.error (.operationError m), st)) := by
  refine ⟨⟨nestedMsg, ?_⟩, ⟨nestedMsg, ?_⟩, ⟨nestedMsg, ?_⟩, ⟨nestedMsg, ?_⟩⟩
  · simp only [initialState, hn, if_true]
  · simp only [finalState, hn, if_true]
  · simp only [changed, hn, if_true]
  · simp only [opDiff, hn, if_true]

/-- C28. And an operation that is not cannot add nested results. -/
theorem C28_not_nested (env : Env) (st : St) (hn : st.op.hasNested = false) (k : Str) (x : OpResult) :
    ∃ m, addNestedResult k x env st = .ret (.error (.operationError m), st) := by
  refine ⟨p!"An operation can only accumulate nested results if it is marked as nested.", ?_⟩
  simp only [addNestedResult, hn, Bool.not_false, if_true]

def exampleResults : List (Str × OpResult) :=
  [(p!"a", { success := true, changed := false, initial := [], final := [] }),
   (p!"b", { success := true, changed := false, initial := [(p!"x", .int 1)], final := [(p!"x", .int 1)] }),
   (p!"a", { success := true, changed := true, initial := [], final := [(p!"x", .int 1)] })]

/-- Three results, the last one under a key that was used before: it does not count. -/
example : ∃ st x, Execution (do setNested true; let _ ← addAll exampleResults; success) { base := {} } { stack := [{}] } [] (.ok x) st
    ∧ x.changed = false ∧ x.initial = [(p!"a", .dict []), (p!"b", .dict [(p!"x", .int 1)])] := ⟨_, _, .ret _, rfl, rfl⟩

end Verif.Script
