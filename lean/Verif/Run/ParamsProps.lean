/-
C63: script parameters.
-/
import Verif.Run.Params

namespace Verif.Run

theorem Class.attr_set {cls : Class} {p q : Str} {v : Nat} : (cls.set p v).attr q = if q = p then some v else cls.attr q := by
  unfold Class.attr Class.set
  by_cases h : q = p
  · subst h
    simp [List.lookup]
  · have : (q == p) = false := by simpa using h
    simp [List.lookup, this, h]

theorem setParams_spec {given : Option Dict} : ∀ {ps : List Str} {cls : Class},
    (∀ {cls'}, setParams given ps cls = .ok cls' →
      ∀ q, cls'.attr q = if q ∈ ps then (given.bind fun d => d.lookup q).or (cls.attr q) else cls.attr q)
    ∧ ((∃ p ∈ ps, (given.bind fun d => d.lookup p) = none ∧ cls.attr p = none) ↔ ∃ m, setParams given ps cls = .error (.runtimeError m))
    ∧ (∀ e, setParams given ps cls = .error e → ∃ m, e = .runtimeError m)
  | [], cls => by
    refine ⟨fun h q => by cases h; simp, ?_, fun e h => by cases h⟩
    simp only [setParams, List.not_mem_nil, false_and, exists_false, false_iff]
    rintro ⟨m, h⟩
    cases h
  | p :: ps, cls => by
    cases hv : paramValue given cls p with
    | error e =>
      have he : (given.bind fun d => d.lookup p) = none ∧ cls.attr p = none ∧ ∃ m, e = .runtimeError m := by
        unfold paramValue at hv
        split at hv
        · cases hv
        · next h1 =>
          split at hv
          · next h2 => cases hv; exact ⟨h1, h2, _, rfl⟩
          · cases hv
      obtain ⟨h1, h2, m, rfl⟩ := he
      have hs : setParams given (p :: ps) cls = .error (.runtimeError m) := by
        rw [setParams, hv]; rfl
      refine ⟨fun h => (by rw [hs] at h; cases h), ⟨fun _ => ⟨m, hs⟩, fun _ => ⟨p, by simp, h1, h2⟩⟩, fun e h => ?_⟩
      rw [hs] at h
      cases h
      exact ⟨m, rfl⟩
    | ok v =>
      have hs : setParams given (p :: ps) cls = setParams given ps (cls.set p v) := by
        rw [setParams, hv]; rfl
      have hpv : (given.bind fun d => d.lookup p).or (cls.attr p) = some v := by
        unfold paramValue at hv
        split at hv
        · next h1 => cases hv; rw [h1]; rfl
        · next h1 =>
          split at hv
          · cases hv
          · next h2 => cases hv; rw [h1, h2]; rfl
      obtain ⟨ih1, ih2, ih3⟩ := setParams_spec (given := given) (ps := ps) (cls := cls.set p v)
      rw [hs]
      refine ⟨fun h q => ?_, ?_, ih3⟩
      · rw [ih1 h q, Class.attr_set]
        by_cases hqp : q = p
        · subst hqp
          simp only [if_true, List.mem_cons, true_or]
          split
          · cases hg : given.bind fun d => d.lookup q with
            | none => rw [hg] at hpv; simpa using hpv.symm
            | some u => rw [hg] at hpv; simp at hpv; simp [hpv]
          · exact hpv.symm
        · simp [hqp]
      · rw [← ih2]
        constructor
        · rintro ⟨q, hq, h1, h2⟩
          have hqp : q ≠ p := by
            rintro rfl
            rw [h1, h2] at hpv
            cases hpv
          refine ⟨q, ?_, h1, ?_⟩
          · rcases List.mem_cons.mp hq with h | h
            · exact absurd h hqp
            · exact h
          · rw [Class.attr_set, if_neg hqp]
            exact h2
        · rintro ⟨q, hq, h1, h2⟩
          rw [Class.attr_set] at h2
          split at h2
          · cases h2
          · exact ⟨q, by simp [hq], h1, h2⟩

theorem setParams_own {given : Option Dict} : ∀ {ps : List Str} {cls cls' : Class}, setParams given ps cls = .ok cls' →
    ∀ q, cls'.own.lookup q = if q ∈ ps then (given.bind fun d => d.lookup q).or (cls.attr q) else cls.own.lookup q
  | [], cls, cls', h, q => by cases h; simp
  | p :: ps, cls, cls', h, q => by
    cases hv : paramValue given cls p with
    | error e => rw [setParams, hv] at h; cases h
    | ok v =>
      have hs : setParams given ps (cls.set p v) = .ok cls' := by
        rw [setParams, hv] at h; exact h
      have hpv : (given.bind fun d => d.lookup p).or (cls.attr p) = some v := by
        unfold paramValue at hv
        split at hv
        · next h1 => cases hv; rw [h1]; rfl
        · next h1 =>
          split at hv
          · cases hv
          · next h2 => cases hv; rw [h1, h2]; rfl
      rw [setParams_own hs q, Class.attr_set]
      by_cases hqp : q = p
      · subst hqp
        rw [if_pos rfl, if_pos (List.mem_cons_self ..), hpv]
        split
        · cases hg : (given.bind fun d => d.lookup q) with
          | none => rfl
          | some u => rw [hg] at hpv; exact hpv
        · simp [Class.set, List.lookup]
      · have hbeq : (q == p) = false := by simpa using hqp
        rw [if_neg hqp]
        simp [Class.set, List.lookup, hbeq, hqp]

/-- A name that a parameter can be expected to have: not one of Python's own, which start with two underscores, and not `mro`. -/
def Ordinary (p : Str) : Prop := Py.startsWith p p!"__" = false ∧ p ≠ p!"mro"

theorem attr_ordinary {cls : Class} {p : Str} (hp : Ordinary p) : cls.attr p = cls.own.lookup p := by
  unfold Class.attr
  cases cls.own.lookup p with
  | some v => rfl
  | none =>
    refine if_neg fun h => ?_
    have : ∀ q ∈ inherited, Py.startsWith q p!"__" = true ∨ q = p!"mro" := by decide
    rcases this p h with h | h
    · rw [hp.1] at h; cases h
    · exact hp.2 h

/-- C63: a declared parameter has the value that was passed, otherwise the one it is declared with. No other attribute of the class
is changed, whatever is passed. -/
theorem C63_values (given : Option Dict) (cls cls' : Class) (h : params given cls = .ok cls') :
    (∀ p ∈ cls.annotations, ∀ v, (∃ d, given = some d ∧ d.lookup p = some v) → cls'.own.lookup p = some v)
    ∧ (∀ p ∈ cls.annotations, ∀ v, (∀ d, given = some d → d.lookup p = none) → cls.own.lookup p = some v → cls'.own.lookup p = some v)
    ∧ ∀ p, p ∉ cls.annotations → cls'.own.lookup p = cls.own.lookup p := by
  have := setParams_own h
  refine ⟨fun p hp v hv => ?_, fun p hp v hn hv => ?_, fun p hp => by rw [this p, if_neg hp]⟩
  · obtain ⟨d, rfl, hd⟩ := hv
    rw [this p, if_pos hp, Option.bind_some, hd, Option.some_or]
  · rw [this p, if_pos hp]
    have hg : (given.bind fun d => d.lookup p) = none := by
      cases given with
      | none => rfl
      | some d => exact hn d rfl
    rw [hg, Option.none_or, Class.attr, hv]

/-- C63: if a declared parameter is neither passed nor declared with a value, `RuntimeError` is raised. Nothing else is raised, and
otherwise nothing is. (This is about parameters with names that not every class has as an attribute, see `C63_required_refuted`.) -/
theorem C63_required_partial (given : Option Dict) (cls : Class) (hnames : ∀ p ∈ cls.annotations, Ordinary p) :
    ((∃ p ∈ cls.annotations, (∀ d, given = some d → d.lookup p = none) ∧ cls.own.lookup p = none) ↔ ∃ m, params given cls = .error (.runtimeError m))
    ∧ ((¬ ∃ p ∈ cls.annotations, (∀ d, given = some d → d.lookup p = none) ∧ cls.own.lookup p = none) ↔ ∃ cls', params given cls = .ok cls') := by
  obtain ⟨_, h2, h3⟩ := setParams_spec (given := given) (ps := cls.annotations) (cls := cls)
  have hiff : (∃ p ∈ cls.annotations, (∀ d, given = some d → d.lookup p = none) ∧ cls.own.lookup p = none)
      ↔ ∃ p ∈ cls.annotations, (given.bind fun d => d.lookup p) = none ∧ cls.attr p = none := by
    constructor
    · rintro ⟨p, hp, h, h'⟩
      refine ⟨p, hp, ?_, by rw [attr_ordinary (hnames p hp)]; exact h'⟩
      cases given with
      | none => rfl
      | some d => exact h d rfl
    · rintro ⟨p, hp, h, h'⟩
      refine ⟨p, hp, fun d hd => ?_, by rw [← attr_ordinary (hnames p hp)]; exact h'⟩
      subst hd
      exact h
  rw [hiff]
  refine ⟨h2, ?_⟩
  rw [h2]
  cases hp : params given cls with
  | ok cls' =>
    refine ⟨fun _ => ⟨cls', rfl⟩, ?_⟩
    rintro _ ⟨m, h⟩
    unfold params at hp
    rw [hp] at h
    cases h
  | error e =>
    obtain ⟨m, rfl⟩ := h3 e hp
    exact ⟨fun h => absurd ⟨m, hp⟩ h, fun ⟨_, h⟩ => by cases h⟩

example : ∀ p ∈ [p!"user", p!"title"], Ordinary p := by unfold Ordinary; decide

/-- C63 does not hold for a required parameter with a name that every class has as an attribute: no value is passed, no default is
declared, yet nothing is raised. -/
theorem C63_required_refuted : ∃ cls : Class, p!"mro" ∈ cls.annotations ∧ cls.own = [] ∧ ∃ cls', params (some []) cls = .ok cls' :=
  ⟨⟨[p!"mro"], []⟩, by decide, rfl, _, rfl⟩

/-- A script with a required parameter and one with a default. -/
example : (match params (some [(p!"user", 5), (p!"other", 6)]) ⟨[p!"user", p!"title"], [(p!"title", 1)]⟩ with
    | .ok c => some (c.attr p!"user", c.attr p!"title", c.attr p!"other")
    | .error _ => none) = some (some 5, some 1, none) := by decide

example : params (some [(p!"title", 2)]) ⟨[p!"user", p!"title"], [(p!"title", 1)]⟩
    = .error (.runtimeError p!"This script requires parameter 'user', but no such parameter was given.") := rfl

end Verif.Run
