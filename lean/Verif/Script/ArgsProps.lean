/-
The arguments of operations (C115).
-/
import Verif.Script.ArgsSpec
import Verif.Script.ApiProps

namespace Verif.Script

open Py

theorem lookup_mem {l : List (Str × Arg)} (hn : (l.map (·.1)).Nodup) {k : Str} {v : Arg} (h : (k, v) ∈ l) : l.lookup k = some v := by
  induction l with
  | nil => cases h
  | cons x l ih =>
    rw [List.map_cons, List.nodup_cons] at hn
    rw [List.lookup_cons]
    rcases List.mem_cons.mp h with rfl | h
    · simp
    · have hne : (k == x.1) = false := by
        simp only [beq_eq_false_iff_ne, ne_eq]
        rintro rfl
        exact hn.1 (List.mem_map_of_mem (f := (·.1)) h)
      rw [hne]
      exact ih hn.2 h

theorem mem_of_lookup {l : List (Str × Arg)} {k : Str} {v : Arg} (h : l.lookup k = some v) : (k, v) ∈ l := by
  induction l with
  | nil => cases h
  | cons x l ih =>
    rw [List.lookup_cons] at h
    cases hb : k == x.1 with
    | true =>
      rw [hb] at h
      simp only [beq_iff_eq] at hb
      cases h
      rw [hb]
      exact .head _
    | false =>
      rw [hb] at h
      exact .tail _ (ih h)

theorem lookup_none {l : List (Str × Arg)} {k : Str} (h : ∀ v, (k, v) ∉ l) : l.lookup k = none := by
  cases hl : l.lookup k with
  | none => rfl
  | some v => exact absurd (mem_of_lookup hl) (h v)

theorem fillRest_ok {kw : List (Str × Arg)} : ∀ {ps : List Param}, (∀ p ∈ ps, p.default = none → ∃ v, kw.lookup p.name = some v) →
    ∃ rest, fillRest kw ps = .ok rest ∧ rest.map (·.1) = ps.map (·.name)
      ∧ ∀ p ∈ ps, ∀ v, (kw.lookup p.name = some v ∨ kw.lookup p.name = none ∧ p.default = some v) → (p.name, v) ∈ rest
  | [], _ => ⟨[], rfl, rfl, by simp⟩
  | p :: ps, h => by
    obtain ⟨rest, h1, h2, h3⟩ := fillRest_ok (ps := ps) fun q hq => h q (.tail _ hq)
    have hv : ∃ v, restValue kw p = .ok v ∧ ∀ w, (kw.lookup p.name = some w ∨ kw.lookup p.name = none ∧ p.default = some w) → w = v := by
      unfold restValue
      cases hk : kw.lookup p.name with
      | some v => exact ⟨v, rfl, fun w hw => by simpa [eq_comm] using hw⟩
      | none =>
        cases hd : p.default with
        | some v => exact ⟨v, rfl, fun w hw => by simpa [eq_comm] using hw⟩
        | none =>
          obtain ⟨v, hv⟩ := h p (.head _) hd
          rw [hk] at hv
          cases hv
    obtain ⟨v, hv, hw⟩ := hv
    refine ⟨(p.name, v) :: rest, ?_, by simp [h2], ?_⟩
    · rw [fillRest, h1]
      simp only [hv, bind, Except.bind]
    · intro q hq w hx
      rcases List.mem_cons.mp hq with rfl | hq
      · rw [hw w hx]; exact .head _
      · exact .tail _ (h3 q hq w hx)

theorem fillRest_cases {kw : List (Str × Arg)} : ∀ (ps : List Param), fillRest kw ps = .error .typeError ∨
    (∃ rest, fillRest kw ps = .ok rest) ∧ ∀ p ∈ ps, p.default = none → ∃ v, kw.lookup p.name = some v
  | [] => .inr ⟨⟨[], rfl⟩, by simp⟩
  | p :: ps => by
    rw [fillRest, restValue]
    rcases fillRest_cases (kw := kw) ps with h | ⟨⟨rest, h⟩, h'⟩
    · rw [h]
      cases kw.lookup p.name with
      | some v => exact .inl rfl
      | none => cases p.default <;> exact .inl rfl
    · rw [h]
      cases hk : kw.lookup p.name with
      | some v => exact .inr ⟨⟨_, rfl⟩, fun q hq hd => by
          rcases List.mem_cons.mp hq with rfl | hq
          · exact ⟨v, hk⟩
          · exact h' q hq hd⟩
      | none =>
        cases hd : p.default with
        | some v => exact .inr ⟨⟨_, rfl⟩, fun q hq hq' => by
            rcases List.mem_cons.mp hq with rfl | hq
            · rw [hd] at hq'; cases hq'
            · exact h' q hq hq'⟩
        | none => exact .inl rfl

/-- Parameters with different names, none of which is `op`. -/
def Proper (params : List Param) : Prop := (params.map (·.name)).Nodup ∧ p!"op" ∉ params.map (·.name)

theorem proper_operations : ∀ o ∈ operations, Proper o.2 := by
  unfold Proper
  decide +kernel

theorem any_op {a : Args} : (a.keywords.any fun k => k.1 == p!"op") = true ↔ ∃ v, (p!"op", v) ∈ a.keywords := by
  rw [List.any_eq_true]
  constructor
  · rintro ⟨⟨k, v⟩, h, he⟩
    simp only [beq_iff_eq] at he
    subst he
    exact ⟨v, h⟩
  · rintro ⟨v, h⟩
    exact ⟨_, h, by simp⟩

theorem lookup_append {l : List (Str × Arg)} {k : Str} (h : k ≠ p!"op") : (l ++ [(p!"op", Arg.op)]).lookup k = l.lookup k := by
  induction l with
  | nil =>
    have : (k == p!"op") = false := by simpa using h
    simp [List.lookup_cons, this]
  | cons x l ih => rw [List.cons_append, List.lookup_cons, List.lookup_cons, ih]

theorem zip_more {l m : List Param} : ∀ {k : List Arg}, k.length ≤ l.length → (l ++ m).zip k = l.zip k := by
  induction l with
  | nil => intro k h; cases k with
    | nil => simp
    | cons => simp at h
  | cons x l ih => intro k h; cases k with
    | nil => simp
    | cons y k => simp [ih (show k.length ≤ l.length by simpa using h)]

theorem zip_names {l : List Param} : ∀ {k : List Arg}, (l.zip k).map ((fun y : Str × Arg => y.1) ∘ fun x => (x.1.name, x.2)) = (l.take k.length).map (·.name) := by
  induction l with
  | nil => intro k; simp
  | cons x l ih => intro k; cases k with
    | nil => simp
    | cons y k => simp only [List.zip_cons_cons, List.map_cons, List.length_cons, List.take_succ_cons, ih]; rfl

theorem callFunction_fits {params : List Param} (hp : Proper params) {function : List (Str × Arg) → Op (Option OpResult)} {a : Args} (hd : a.Distinct) (hf : Fits params a) :
    ∃ values, callFunction params function a = function values ∧ values.map (·.1) = params.map (·.name) ++ [p!"op"]
      ∧ (∀ name v, Value params a name v → values.lookup name = some v) ∧ values.lookup p!"op" = some .op := by
  have hop : ∀ v, (p!"op", v) ∉ a.keywords := fun v hv => by
    obtain ⟨p, hm, he⟩ := hf.known _ hv
    have he : p.name = p!"op" := he
    exact hp.2 (he ▸ List.mem_map_of_mem (f := (·.name)) (List.mem_of_mem_drop hm))
  have hdrop : (params ++ [opParam]).drop a.positional.length = params.drop a.positional.length ++ [opParam] := by
    rw [List.drop_append_of_le_length hf.count]
  have hne : ∀ p ∈ params, p.name ≠ p!"op" := fun p hm he => hp.2 (he ▸ List.mem_map_of_mem (f := (·.name)) hm)
  have hopl : (a.keywords ++ [(p!"op", Arg.op)]).lookup p!"op" = some .op := by
    refine lookup_mem ?_ (by simp)
    rw [List.map_append, List.nodup_append]
    refine ⟨hd, by simp, ?_⟩
    rintro x hx y hy rfl
    simp only [List.map_cons, List.map_nil, List.mem_singleton] at hy
    subst hy
    obtain ⟨⟨k, v⟩, hm, rfl⟩ := List.mem_map.mp hx
    exact hop v hm
  obtain ⟨rest, h1, h2, h3⟩ := fillRest_ok (kw := a.keywords ++ [(p!"op", .op)]) (ps := params.drop a.positional.length ++ [opParam]) (by
    intro p hm hdef
    rcases List.mem_append.mp hm with hm | hm
    · obtain ⟨v, hv⟩ := hf.required p hm hdef
      exact ⟨v, by rw [lookup_append (hne p (List.mem_of_mem_drop hm)), lookup_mem hd hv]⟩
    · rw [List.mem_singleton.mp hm] at hdef
      cases hdef)
  have hzip : (params ++ [opParam]).zip a.positional = params.zip a.positional := zip_more hf.count
  refine ⟨(params.zip a.positional).map (fun x => (x.1.name, x.2)) ++ rest, ?_, ?_⟩
  · unfold callFunction
    rw [if_neg (by rw [any_op]; rintro ⟨v, hv⟩; exact hop v hv)]
    have : bindArgs (params ++ [opParam]) { a with keywords := a.keywords ++ [(p!"op", .op)] } = .ok ((params.zip a.positional).map (fun x => (x.1.name, x.2)) ++ rest) := by
      unfold bindArgs
      have h4 : ¬ a.positional.length > (params ++ [opParam]).length := by have := hf.count; simp; omega
      have h5 : ((a.keywords ++ [(p!"op", Arg.op)]).any fun k => !(((params ++ [opParam]).drop a.positional.length).any fun p => p.name == k.1)) = false := by
        rw [hdrop, List.any_eq_false]
        intro k hk
        simp only [Bool.not_eq_true', Bool.not_eq_false, List.any_eq_true, beq_iff_eq]
        rcases List.mem_append.mp hk with hk | hk
        · obtain ⟨p, hm, he⟩ := hf.known k hk
          exact ⟨p, List.mem_append_left _ hm, he⟩
        · rw [List.mem_singleton.mp hk]
          exact ⟨opParam, by simp, rfl⟩
      show (if _ then _ else if _ then _ else _) = _
      rw [if_neg h4, if_neg (by rw [h5]; exact Bool.false_ne_true), hdrop, hzip]
      show (fillRest (a.keywords ++ [(p!"op", .op)]) _ >>= _) = _
      rw [h1]
      rfl
    rw [this]
  · have hnames : ((params.zip a.positional).map (fun x => (x.1.name, x.2)) ++ rest).map (·.1) = params.map (·.name) ++ [p!"op"] := by
      rw [List.map_append, h2, List.map_append, List.map_map]
      have : (params.zip a.positional).map ((·.1) ∘ fun x => (x.1.name, x.2)) = (params.take a.positional.length).map (·.name) := zip_names
      rw [this, ← List.append_assoc, ← List.map_append, List.take_append_drop]
      rfl
    have hnodup : (((params.zip a.positional).map (fun x => (x.1.name, x.2)) ++ rest).map (·.1)).Nodup := by
      rw [hnames, List.nodup_append]
      refine ⟨hp.1, by simp, ?_⟩
      rintro x hx y hy rfl
      rw [List.mem_singleton.mp hy] at hx
      exact hp.2 hx
    refine ⟨hnames, ?_, ?_⟩
    · intro name v hv
      refine lookup_mem hnodup ?_
      cases hv with
      | position hi hj =>
        refine List.mem_append_left _ (List.mem_map.mpr ⟨(_, _), List.mem_of_getElem? (List.getElem?_zip_eq_some.mpr ⟨hi, hj⟩), rfl⟩)
      | keyword hk =>
        obtain ⟨p, hm, he⟩ := hf.known _ hk
        subst he
        refine List.mem_append_right _ (h3 p (List.mem_append_left _ hm) v (.inl ?_))
        rw [lookup_append (hne p (List.mem_of_mem_drop hm)), lookup_mem hd hk]
      | default hm hk hdef =>
        refine List.mem_append_right _ (h3 _ (List.mem_append_left _ hm) v (.inr ⟨?_, hdef⟩))
        rw [lookup_append (hne _ (List.mem_of_mem_drop hm)), lookup_none hk]
    · exact lookup_mem hnodup (List.mem_append_right _ (h3 opParam (by simp) .op (.inl hopl)))

theorem callFunction_unfit {params : List Param} (hp : Proper params) {function : List (Str × Arg) → Op (Option OpResult)} {a : Args} (hd : a.Distinct) (hf : ¬ Fits params a) :
    callFunction params function a = Op.raise .typeError := by
  unfold callFunction
  by_cases hop : (a.keywords.any fun k => k.1 == p!"op") = true
  · rw [if_pos hop]
  · rw [if_neg hop]
    have hop' : ∀ v, (p!"op", v) ∉ a.keywords := fun v hv => hop (any_op.mpr ⟨v, hv⟩)
    have : bindArgs (params ++ [opParam]) { a with keywords := a.keywords ++ [(p!"op", .op)] } = .error .typeError := by
      unfold bindArgs
      simp only
      split
      · rfl
      · next h4 =>
        split
        · rfl
        · next h5 =>
          rcases fillRest_cases (kw := a.keywords ++ [(p!"op", .op)]) ((params ++ [opParam]).drop a.positional.length) with h | ⟨_, h⟩
          · rw [h]; rfl
          · exfalso
            have h6 : ∀ k ∈ a.keywords ++ [(p!"op", Arg.op)], ∃ p ∈ (params ++ [opParam]).drop a.positional.length, p.name = k.1 := by
              intro k hk
              refine Classical.byContradiction fun hc => h5 (List.any_eq_true.mpr ⟨k, hk, ?_⟩)
              simpa using hc
            have hcount : a.positional.length ≤ params.length := by
              by_cases hlt : a.positional.length ≤ params.length
              · exact hlt
              · obtain ⟨p, hm, _⟩ := h6 (p!"op", .op) (by simp)
                rw [List.drop_eq_nil_of_le (by simp; omega)] at hm
                cases hm
            have hdrop : (params ++ [opParam]).drop a.positional.length = params.drop a.positional.length ++ [opParam] := List.drop_append_of_le_length hcount
            refine hf ⟨hcount, fun k hk => ?_, fun p hm hdef => ?_⟩
            · obtain ⟨p, hm, he⟩ := h6 k (List.mem_append_left _ hk)
              rw [hdrop] at hm
              rcases List.mem_append.mp hm with hm | hm
              · exact ⟨p, hm, he⟩
              · rw [List.mem_singleton.mp hm] at he
                obtain ⟨k, v⟩ := k
                exact absurd (show (p!"op", v) ∈ a.keywords from by simp only at he; rw [show p!"op" = k from he]; exact hk) (hop' v)
            · obtain ⟨v, hv⟩ := h p (by rw [hdrop]; exact List.mem_append_left _ hm) hdef
              rw [lookup_append fun he => hp.2 (he ▸ List.mem_map_of_mem (f := (·.name)) (List.mem_of_mem_drop hm))] at hv
              exact ⟨v, mem_of_lookup hv⟩
    rw [this]

theorem operations_common : ∀ o ∈ operations, o.2 = o.2.take (o.2.length - 2) ++ common ∧ 2 ≤ o.2.length := by decide +kernel

/-! ### C115 -/

/-- C115. Every operation gets the value that was given for each of its parameters, by position or by name, or its default, if the call fits
its parameters; otherwise a TypeError is raised. -/
theorem C115_values (o : Str × List Param) (ho : o ∈ operations) (function : List (Str × Arg) → Op (Option OpResult)) (a : Args) (hd : a.Distinct) :
    (Fits o.2 a → ∃ values, callFunction o.2 function a = function values ∧ values.map (·.1) = o.2.map (·.name) ++ [p!"op"]
      ∧ ∀ name v, Value o.2 a name v → values.lookup name = some v)
    ∧ (¬ Fits o.2 a → callFunction o.2 function a = Op.raise .typeError) := by
  refine ⟨fun hf => ?_, fun hf => callFunction_unfit (proper_operations o ho) hd hf⟩
  obtain ⟨values, h1, h2, h3, _⟩ := callFunction_fits (function := function) (proper_operations o ho) hd hf
  exact ⟨values, h1, h2, h3⟩

/-- C115. A call with wrong arguments sends nothing to the host, prints one summary, which is that of a failure, and raises a TypeError. -/
theorem C115_wrong_arguments (o : Str × List Param) (ho : o ∈ operations) (function : List (Str × Arg) → Op (Option OpResult)) (a : Args) (hd : a.Distinct)
    (hf : ¬ Fits o.2 a) (env : Env) (st st' : St) (t : Trace) (r : Except Exn OpResult) (h : Execution (decorated o.2 function a) env st t r st') :
    t = [] ∧ r = .error .typeError ∧ st'.stack = st.stack ∧ ∃ x, st'.shown = st.shown ++ [⟨x, []⟩] ∧ x.success = false := by
  obtain ⟨r0, st0, h1, rfl, hr⟩ := execution_operation.mp h
  rw [callFunction_unfit (proper_operations o ho) hd hf] at h1
  obtain ⟨rfl, rfl, rfl⟩ := execution_raise.mp h1
  exact ⟨rfl, hr, rfl, _, rfl, rfl⟩

theorem decorated_failed {params : List Param} {function : List (Str × Arg) → Op (Option OpResult)} {a : Args} {env : Env} {st st0 : St} {t : Trace} {x : OpResult}
    (h : Execution (callFunction params function a) env { st with op := {} } t (.ok (some x)) st0) (hx : x.success = false) :
    Execution (decorated params function a) env st t (Promised (a.get p!"check" (.bool true)) x) { st0 with op := st.op } := by
  refine execution_operation.mpr ⟨_, _, h, rfl, ?_⟩
  simp only [hx, Bool.not_false, Bool.and_true, Promised, failureError]

theorem get_value {params : List Param} (hp : (params.map (·.name)).Nodup) {a : Args} (hd : a.Distinct) {p : Param} {d v : Arg} (hm : p ∈ params.drop a.positional.length)
    (hdef : p.default = some d) (hv : Value params a p.name v) : a.get p.name d = v := by
  have key : ∀ q ∈ params.drop a.positional.length, q.name = p.name → q = p := by
    have hn : ((params.drop a.positional.length).map (·.name)).Nodup := by
      rw [List.map_drop]
      exact hp.sublist (List.drop_sublist _ _)
    revert hm hn
    generalize params.drop a.positional.length = l
    intro hm hn q hq he
    induction l with
    | nil => cases hm
    | cons y l ih =>
      rw [List.map_cons, List.nodup_cons] at hn
      rcases List.mem_cons.mp hm with h1 | h1
      · rcases List.mem_cons.mp hq with h2 | h2
        · rw [h1, h2]
        · exact absurd (h1 ▸ he ▸ List.mem_map_of_mem (f := (·.name)) h2) hn.1
      · rcases List.mem_cons.mp hq with h2 | h2
        · exact absurd (h2 ▸ he ▸ List.mem_map_of_mem (f := (·.name)) h1) hn.1
        · exact ih h1 hn.2 h2
  generalize hname : p.name = name at hv
  cases hv with
  | @position i q _ hi hj =>
    exfalso
    have hlt : i < a.positional.length := (List.getElem?_eq_some_iff.mp hj).1
    have h1 : q ∈ params.take a.positional.length := List.mem_of_getElem? (by rw [List.getElem?_take_of_lt hlt]; exact hi)
    have h2 := hp
    rw [← List.take_append_drop a.positional.length params, List.map_append, List.nodup_append] at h2
    exact h2.2.2 _ (List.mem_map_of_mem (f := (·.name)) h1) _ (List.mem_map_of_mem (f := (·.name)) hm) hname.symm
  | keyword hk => rw [Args.get, lookup_mem hd hk]; rfl
  | @default q _ hq hk hqd =>
    have := key q hq hname.symm
    subst this
    rw [hdef] at hqd
    cases hqd
    rw [Args.get, lookup_none hk]
    rfl

/-- C115. If `check` is not given by position, a failed result is raised or returned as its value says, and if `name` is not, it is the name
in the title. -/
theorem C115_settings_partial (o : Str × List Param) (ho : o ∈ operations) (function : List (Str × Arg) → Op (Option OpResult)) (a : Args) (hd : a.Distinct) :
    (∀ check, a.positional.length < o.2.length → Value o.2 a p!"check" check → ∀ env st st0 t x,
      Execution (callFunction o.2 function a) env { st with op := {} } t (.ok (some x)) st0 → x.success = false →
      Execution (decorated o.2 function a) env st t (Promised check x) { st0 with op := st.op })
    ∧ ∀ name, a.positional.length + 1 < o.2.length → Value o.2 a p!"name" name → decoratedName a = name := by
  obtain ⟨hc, hl⟩ := operations_common o ho
  have hp := (proper_operations o ho).1
  generalize o.2.take (o.2.length - 2) = ps at hc
  have hlen : o.2.length = ps.length + 2 := by rw [hc]; simp [common]
  refine ⟨fun check hlt hv env st st0 t x h hx => ?_, fun name hlt hv => ?_⟩
  · have hm : ({ name := p!"check", default := some (.bool true) } : Param) ∈ o.2.drop a.positional.length := by
      refine List.mem_of_getElem? (i := ps.length + 1 - a.positional.length) ?_
      rw [List.getElem?_drop, show a.positional.length + (ps.length + 1 - a.positional.length) = ps.length + 1 by omega, hc,
        List.getElem?_append_right (by omega), show ps.length + 1 - ps.length = 1 by omega]
      rfl
    have := get_value hp hd hm rfl hv
    rw [← this]
    exact decorated_failed h hx
  · have hm : ({ name := p!"name", default := some .none } : Param) ∈ o.2.drop a.positional.length := by
      refine List.mem_of_getElem? (i := ps.length - a.positional.length) ?_
      rw [List.getElem?_drop, show a.positional.length + (ps.length - a.positional.length) = ps.length by omega, hc,
        List.getElem?_append_right (by omega), show ps.length - ps.length = 0 by omega]
      rfl
    exact get_value hp hd hm rfl hv

/-- C115 is false for `check` and `name` given by position, for every operation: the call fits, and the function gets these values, but a
failed result is raised although `check` is false, and the name is not shown. -/
theorem C115_by_position_refuted (o : Str × List Param) (ho : o ∈ operations) (name : Arg) :
    let a := allByPosition o.2 name (.bool false)
    Fits o.2 a ∧ Value o.2 a p!"check" (.bool false) ∧ Value o.2 a p!"name" name ∧ decoratedName a = .none
    ∧ ∀ function env st st0 t x, Execution (callFunction o.2 function a) env { st with op := {} } t (.ok (some x)) st0 → x.success = false →
        ∃ e, Execution (decorated o.2 function a) env st t (.error e) { st0 with op := st.op } := by
  obtain ⟨hc, hl⟩ := operations_common o ho
  generalize o.2.take (o.2.length - 2) = ps at hc
  have hlen : o.2.length = ps.length + 2 := by rw [hc]; simp [common]
  have hpos : (allByPosition o.2 name (.bool false)).positional = List.replicate ps.length (.other 0 true) ++ [name, .bool false] := by
    simp [allByPosition, hlen]
  have hplen : (allByPosition o.2 name (.bool false)).positional.length = o.2.length := by rw [hpos, hlen]; simp
  have hdrop : o.2.drop (allByPosition o.2 name (.bool false)).positional.length = [] := List.drop_eq_nil_of_le (by omega)
  refine ⟨⟨by omega, nofun, by rw [hdrop]; nofun⟩, ?_, ?_, rfl, fun function env st st0 t x h hx => ⟨_, decorated_failed h hx⟩⟩
  · refine .position (i := ps.length + 1) (p := { name := p!"check", default := some (.bool true) }) ?_ ?_
    · rw [hc, List.getElem?_append_right (by omega), show ps.length + 1 - ps.length = 1 by omega]; rfl
    · rw [hpos, List.getElem?_append_right (by simp), List.length_replicate, show ps.length + 1 - ps.length = 1 by omega]; rfl
  · refine .position (i := ps.length) (p := { name := p!"name", default := some .none }) ?_ ?_
    · rw [hc, List.getElem?_append_right (by omega), show ps.length - ps.length = 0 by omega]; rfl
    · rw [hpos, List.getElem?_append_right (by simp), List.length_replicate, show ps.length - ps.length = 0 by omega]; rfl

namespace Example

/-- `files.directory("/srv", mode="755", check=False)`, a call with a misspelt name, and one that passes `op`. -/
def call : Args := { positional := [.other 1 true], keywords := [(p!"mode", .other 2 true), (p!"check", .bool false)] }
def misspelt : Args := { positional := [.other 1 true], keywords := [(p!"modus", .other 2 true)] }

def params : List Param := ((operations.lookup p!"files.directory").getD [])

example : (p!"files.directory", params) ∈ operations ∧ call.Distinct ∧ Fits params call ∧ Value params call p!"check" (.bool false)
    ∧ Value params call p!"mode" (.other 2 true) ∧ Value params call p!"present" (.bool true) :=
  ⟨by decide +kernel, by unfold Args.Distinct; decide, ⟨by decide, by decide, fun p hp h => absurd h ((show ∀ p ∈ params.drop 1, p.default ≠ none by decide) p hp)⟩, .keyword (by decide), .keyword (by decide),
    .default (p := { name := p!"present", default := some (.bool true) }) (by decide) (by intro v; simp [call]) rfl⟩

example : ¬ Fits params misspelt := fun h => absurd h.known (by decide)

end Example

end Verif.Script
