/-
Lemmas about the command line.
-/
import Verif.Run.CmdlineSpec

namespace Verif.Run

open Py

theorem short_lookup (c : Nat) : optionTable.lookup [45, c] =
    if c = 104 then some .help else if c = 86 then some .version else if c = 72 then some .hosts else if c = 118 then some .verbose else none := by
  by_cases h1 : c = 104
  · subst h1; rfl
  by_cases h2 : c = 86
  · subst h2; rfl
  by_cases h3 : c = 72
  · subst h3; rfl
  by_cases h4 : c = 118
  · subst h4; rfl
  rw [if_neg h1, if_neg h2, if_neg h3, if_neg h4]
  have e : ∀ k, c ≠ k → (c == k) = false := fun k h => by simpa using h
  simp [optionTable, List.lookup, e _ h1, e _ h2, e _ h3, e _ h4]

theorem lookup_table_mem {n : Str} {a : Act} (h : optionTable.lookup n = some a) : (n, a) ∈ optionTable := by
  have : ∀ {l : List (Str × Act)}, l.lookup n = some a → (n, a) ∈ l := by
    intro l
    induction l with
    | nil => intro h; cases h
    | cons x l ih =>
      intro h
      obtain ⟨k, b⟩ := x
      rw [List.lookup_cons] at h
      split at h
      · next e =>
        have : n = k := by simpa using e
        cases h
        rw [this]
        exact List.mem_cons_self ..
      · exact List.mem_cons_of_mem _ (ih h)
  exact this h

theorem lookup_table_none {n : Str} (h : optionTable.lookup n = none) : ∀ a, (n, a) ∉ optionTable := by
  have : ∀ {l : List (Str × Act)}, l.lookup n = none → ∀ a, (n, a) ∉ l := by
    intro l
    induction l with
    | nil => intro _ a h; cases h
    | cons x l ih =>
      intro h a hm
      obtain ⟨k, b⟩ := x
      rw [List.lookup_cons] at h
      split at h
      · cases h
      · next e =>
        rcases List.mem_cons.mp hm with he | hm
        · cases he
          simp at e
        · exact ih h a hm
  exact this h

theorem filter_unique {α : Type} {p : α → Bool} {o : α} : ∀ {l : List α}, l.Nodup → o ∈ l → p o = true → (∀ x ∈ l, p x = true → x = o) → l.filter p = [o]
  | [], _, h, _, _ => by cases h
  | x :: l, hn, hm, hp, hu => by
    rw [List.nodup_cons] at hn
    by_cases hx : p x = true
    · have he := hu x (by simp) hx
      subst he
      rw [List.filter_cons_of_pos hx]
      have : l.filter p = [] := by
        rw [List.filter_eq_nil_iff]
        intro y hy hpy
        exact hn.1 (hu y (by simp [hy]) hpy ▸ hy)
      rw [this]
    · rw [List.filter_cons_of_neg hx]
      have hne : o ∈ l := by
        rcases List.mem_cons.mp hm with rfl | h
        · exact absurd hp hx
        · exact h
      exact filter_unique hn.2 hne hp fun y hy => hu y (by simp [hy])

theorem starts_iff {a b : Str} : startsWith a b = true ↔ b <+: a := by unfold startsWith; exact List.isPrefixOf_iff_prefix

theorem longMatches_one {name : Str} {v : Option Str} {m : Arg} (h : longMatches name v = [m]) :
    ∃ o ∈ optionTable, m = .option o.2 true v ∧ name <+: o.1 ∧ ∀ o' ∈ optionTable, name <+: o'.1 → o' = o := by
  unfold longMatches at h
  obtain ⟨o, ho, hm⟩ := List.map_eq_singleton_iff.mp h
  have hmem : o ∈ optionTable.filter fun o => startsWith o.1 name := by rw [ho]; simp
  obtain ⟨h1, h2⟩ := List.mem_filter.mp hmem
  refine ⟨o, h1, hm.symm, starts_iff.mp h2, fun o' ho' hs => ?_⟩
  have : o' ∈ optionTable.filter fun o => startsWith o.1 name := List.mem_filter.mpr ⟨ho', starts_iff.mpr hs⟩
  rw [ho] at this
  simpa using this

theorem longMatches_of {name : Str} {v : Option Str} {o : Str × Act} (ho : o ∈ optionTable) (hp : name <+: o.1)
    (hu : ∀ o' ∈ optionTable, name <+: o'.1 → o' = o) : longMatches name v = [.option o.2 true v] := by
  unfold longMatches
  rw [filter_unique (o := o) (by decide) ho (starts_iff.mpr hp) fun x hx hs => hu x hx (starts_iff.mp hs)]
  rfl

theorem longMatches_nil {name : Str} {v : Option Str} : longMatches name v = [] ↔ ∀ o ∈ optionTable, ¬ name <+: o.1 := by
  unfold longMatches
  rw [List.map_eq_nil_iff, List.filter_eq_nil_iff]
  exact ⟨fun h o ho hp => h o ho (starts_iff.mpr hp), fun h o ho hp => h o ho (starts_iff.mp hp)⟩

theorem table_long : ∀ o ∈ optionTable, p!"--" <+: o.1 → o.1 ∈ longNames := by decide

theorem long_table : ∀ n ∈ longNames, ∃ o ∈ optionTable, o.1 = n := by decide

theorem long_dashes : ∀ n ∈ longNames, p!"--" <+: n := by decide

theorem long_noEq : ∀ n ∈ longNames, 61 ∉ n := by decide

theorem table_keys : (optionTable.map (·.1)).Nodup := by decide

theorem table_unique {o o' : Str × Act} (h : o ∈ optionTable) (h' : o' ∈ optionTable) (he : o.1 = o'.1) : o = o' := by
  have : ∀ o ∈ optionTable, ∀ o' ∈ optionTable, o.1 = o'.1 → o = o' := by decide
  exact this o h o' h' he

theorem lookup_of_table {o : Str × Act} (h : o ∈ optionTable) : optionTable.lookup o.1 = some o.2 := by
  have : ∀ o ∈ optionTable, optionTable.lookup o.1 = some o.2 := by decide
  exact this o h

/-! ### `name=value` -/

theorem splitValue_fst (s : Str) : (splitValue s).1 = beforeEq s := by
  unfold splitValue beforeEq
  induction s with
  | nil => rfl
  | cons c s ih =>
    rw [splitOnce]
    by_cases hc : c = 61
    · subst hc; simp
    · rw [if_neg hc, List.takeWhile_cons_of_pos (by simpa using hc), ← ih]

theorem splitValue_some {s v : Str} : (splitValue s).2 = some v → s = beforeEq s ++ p!"=" ++ v := by
  rw [← splitValue_fst]
  unfold splitValue
  induction s with
  | nil => intro h; cases h
  | cons c s ih =>
    rw [splitOnce]
    by_cases hc : c = 61
    · rw [if_pos hc]; intro h; cases h; rw [hc]; rfl
    · rw [if_neg hc]; intro h
      exact congrArg (c :: ·) (ih h)

theorem splitValue_none {s : Str} : (splitValue s).2 = none → beforeEq s = s := by
  rw [← splitValue_fst]
  unfold splitValue
  induction s with
  | nil => intro _; rfl
  | cons c s ih =>
    rw [splitOnce]
    by_cases hc : c = 61
    · rw [if_pos hc]; intro h; cases h
    · rw [if_neg hc]; intro h
      exact congrArg (c :: ·) (ih h)

theorem splitValue_append {a : Str} (v : Str) (h : 61 ∉ a) : splitValue (a ++ p!"=" ++ v) = (a, some v) := by
  unfold splitValue
  induction a with
  | nil => simp [splitOnce]
  | cons c a ih =>
    have hc : c ≠ 61 := fun e => h (by simp [e])
    simp only [List.cons_append] at ih ⊢
    rw [splitOnce, if_neg hc]
    simp only [ih fun hm => h (by simp [hm])]

theorem splitValue_absent {a : Str} (h : 61 ∉ a) : splitValue a = (a, none) := by
  unfold splitValue
  induction a with
  | nil => rfl
  | cons c a ih =>
    have hc : c ≠ 61 := fun e => h (by simp [e])
    rw [splitOnce, if_neg hc]
    simp only [ih fun hm => h (by simp [hm])]

theorem beforeEq_append {a : Str} (v : Str) (h : 61 ∉ a) : beforeEq (a ++ p!"=" ++ v) = a := by rw [← splitValue_fst, splitValue_append v h]

theorem beforeEq_noEq (s : Str) : 61 ∉ beforeEq s := by
  unfold beforeEq
  induction s with
  | nil => simp
  | cons c s ih =>
    by_cases hc : c = 61
    · simp [hc]
    · rw [List.takeWhile_cons_of_pos (by simpa using hc)]
      intro h
      rcases List.mem_cons.mp h with h | h
      · exact hc h.symm
      · exact ih h

theorem prefix_noEq {s n : Str} (hn : n ∈ longNames) (h : s <+: n) : 61 ∉ s := fun hm => long_noEq n hn (h.subset hm)

/-! ### Numbers -/

theorem all_digits {s : Str} : (s.all fun c => decide (48 ≤ c) && decide (c ≤ 57)) = true ↔ ∀ c ∈ s, 48 ≤ c ∧ c ≤ 57 := by
  simp [List.all_eq_true]

theorem splitOnce_dot {a b : Str} (h : 46 ∉ a) : splitOnce 46 (a ++ p!"." ++ b) = (a, some b) := by
  induction a with
  | nil => simp [splitOnce]
  | cons c a ih =>
    have hc : c ≠ 46 := fun e => h (by simp [e])
    simp only [List.cons_append] at ih ⊢
    rw [splitOnce, if_neg hc]
    simp only [ih fun hm => h (by simp [hm])]

theorem splitOnce_dot_eq {s a b : Str} (h : splitOnce 46 s = (a, some b)) : s = a ++ p!"." ++ b := by
  induction s generalizing a with
  | nil => cases h
  | cons c s ih =>
    rw [splitOnce] at h
    by_cases hc : c = 46
    · rw [if_pos hc] at h; cases h; rw [hc]; rfl
    · rw [if_neg hc] at h
      generalize hr : splitOnce 46 s = r at h
      obtain ⟨x, y⟩ := r
      cases h
      rw [ih hr]
      rfl

theorem isNumber_iff {s : Str} : isNumber s = true ↔ Numeral s := by
  unfold isNumber Numeral
  rw [Bool.or_eq_true]
  refine or_congr (by rw [Bool.and_eq_true, all_digits]; simp [Digits]) ?_
  constructor
  · intro h
    split at h
    · next a b e =>
      rw [Bool.and_eq_true, Bool.and_eq_true, all_digits, all_digits] at h
      exact ⟨a, b, splitOnce_dot_eq e, h.1.1, by simpa using h.1.2, h.2⟩
    · cases h
  · rintro ⟨a, b, rfl, ha, hb⟩
    rw [splitOnce_dot fun hm => by have := ha 46 hm; omega]
    simp only [Bool.and_eq_true, all_digits]
    exact ⟨⟨ha, by simpa using hb.1⟩, hb.2⟩

/-! ### Operands -/

/-- `classify` for an argument that begins with a dash. -/
theorem classify_dash (c : Nat) (rest : Str) : classify (45 :: c :: rest) =
    match optionTable.lookup (45 :: c :: rest) with
      | some act => some (.option act (c == 45) none)
      | none =>
        match (splitValue (45 :: c :: rest)).2, optionTable.lookup (splitValue (45 :: c :: rest)).1 with
        | some v, some act => some (.option act (c == 45) (some v))
        | _, _ =>
          match (if c = 45 then longMatches (splitValue (45 :: c :: rest)).1 (splitValue (45 :: c :: rest)).2 else shortMatches c rest) with
          | [m] => some m
          | _ :: _ :: _ => none
          | [] => if isNumber (c :: rest) || (c :: rest).contains 32 then some .operand else some .unknown := by
  simp only [classify]
  rfl

theorem dashes_iff {c : Nat} {rest : Str} : p!"--" <+: 45 :: c :: rest ↔ c = 45 := by
  constructor
  · rintro ⟨t, h⟩
    simp at h
    exact h.1.symm
  · rintro rfl
    exact ⟨rest, rfl⟩

theorem table_single : ∀ o ∈ optionTable, o.1.length = 2 ∨ p!"--" <+: o.1 := by decide

theorem table_dash : ∀ o ∈ optionTable, 2 ≤ o.1.length ∧ o.1 ≠ p!"--" ∧ 61 ∉ o.1 := by decide

theorem stands_exact {o : Str × Act} (h : o ∈ optionTable) (hd : p!"--" <+: o.1) : Stands o.1 o.1 :=
  ⟨hd, (table_dash o h).2.1, List.prefix_refl _, fun _ _ _ => .inr rfl⟩

theorem stands_of {s : Str} {o : Str × Act} (h : o ∈ optionTable) (hd : p!"--" <+: s) (hp : s <+: o.1)
    (hu : ∀ o' ∈ optionTable, s <+: o'.1 → o' = o) : Stands s o.1 := by
  refine ⟨hd, ?_, hp, fun n hn hs => ?_⟩
  · rintro rfl
    have h1 := hu (p!"--help", .help) (by decide) (by decide)
    have h2 := hu (p!"--version", .version) (by decide) (by decide)
    rw [← h1] at h2
    cases h2
  · obtain ⟨o', ho', rfl⟩ := long_table n hn
    rw [hu o' ho' hs]
    exact .inl rfl

/-- Either the name is exactly that of the option, or there is only one option that begins like this. -/
theorem stands_cases {s : Str} {o : Str × Act} (h : o ∈ optionTable) (hs : Stands s o.1) :
    optionTable.lookup s = some o.2 ∨ (optionTable.lookup s = none ∧ ∀ v, longMatches s v = [.option o.2 true v]) := by
  obtain ⟨hd, _, hp, hu⟩ := hs
  by_cases he : s = o.1
  · rw [he]; exact .inl (lookup_of_table h)
  · have hu' : ∀ o' ∈ optionTable, s <+: o'.1 → o' = o := fun o' ho' hs' =>
      table_unique ho' h ((hu _ (table_long o' ho' (hd.trans hs')) hs').resolve_right he)
    refine .inr ⟨?_, fun v => longMatches_of h hp hu'⟩
    cases hl : optionTable.lookup s with
    | none => rfl
    | some a =>
      have := hu' _ (lookup_table_mem hl) (List.prefix_refl _)
      exact absurd (congrArg Prod.fst this) he

theorem stands_noEq {s : Str} {o : Str × Act} (h : o ∈ optionTable) (hs : Stands s o.1) : 61 ∉ s := fun hm => (table_dash o h).2.2 (hs.2.2.1.subset hm)

theorem stands_shape {s name : Str} (hs : Stands s name) : ∃ c rest, s = 45 :: 45 :: c :: rest := by
  obtain ⟨t, rfl⟩ := hs.1
  cases t with
  | nil => exact absurd rfl hs.2.1
  | cons c t => exact ⟨c, t, rfl⟩

theorem classify_stands {s : Str} {o : Str × Act} (h : o ∈ optionTable) (hs : Stands s o.1) : classify s = some (.option o.2 true none) := by
  have hn := stands_noEq h hs
  have hc := stands_cases h hs
  obtain ⟨c, rest, rfl⟩ := stands_shape hs
  rw [classify_dash]
  rcases hc with hl | ⟨hl, hm⟩
  · rw [hl]; rfl
  · rw [hl, splitValue_absent hn]
    simp only [if_true, hm]

theorem classify_stands_eq {s v : Str} {o : Str × Act} (h : o ∈ optionTable) (hs : Stands s o.1) :
    classify (s ++ p!"=" ++ v) = some (.option o.2 true (some v)) := by
  have hn := stands_noEq h hs
  have hc := stands_cases h hs
  have hl : optionTable.lookup (s ++ p!"=" ++ v) = none := by
    cases hl : optionTable.lookup (s ++ p!"=" ++ v) with
    | none => rfl
    | some a => exact absurd (by simp) (table_dash _ (lookup_table_mem hl)).2.2
  have hv := splitValue_append v hn
  obtain ⟨c, rest, rfl⟩ := stands_shape hs
  simp only [List.cons_append] at hl hv ⊢
  rw [classify_dash, hl, hv]
  rcases hc with hl | ⟨hl, hm⟩
  · simp only [hl]; rfl
  · simp only [hl, if_true, hm]

theorem short_single {c : Nat} {act : Act} (h : optionTable.lookup [45, c] = some act) : c = 104 ∨ c = 86 ∨ c = 72 ∨ c = 118 := by
  rw [short_lookup] at h
  by_cases h1 : c = 104
  · exact .inl h1
  by_cases h2 : c = 86
  · exact .inr (.inl h2)
  by_cases h3 : c = 72
  · exact .inr (.inr (.inl h3))
  by_cases h4 : c = 118
  · exact .inr (.inr (.inr h4))
  rw [if_neg h1, if_neg h2, if_neg h3, if_neg h4] at h
  cases h

theorem short_ne {c : Nat} {act : Act} (h : optionTable.lookup [45, c] = some act) : c ≠ 45 ∧ c ≠ 61 := by
  rcases short_single h with rfl | rfl | rfl | rfl <;> decide

theorem classify_short {c : Nat} {act : Act} (h : optionTable.lookup [45, c] = some act) : classify [45, c] = some (.option act false none) := by
  rw [classify_dash, h]
  simp [(short_ne h).1]

theorem classify_short_eq {c : Nat} {act : Act} (v : Str) (h : optionTable.lookup [45, c] = some act) :
    classify (45 :: c :: 61 :: v) = some (.option act false (some v)) := by
  have hl : optionTable.lookup (45 :: c :: 61 :: v) = none := by
    cases hl : optionTable.lookup (45 :: c :: 61 :: v) with
    | none => rfl
    | some a => exact absurd (by simp) (table_dash _ (lookup_table_mem hl)).2.2
  have hv : splitValue (45 :: c :: 61 :: v) = ([45, c], some v) :=
    splitValue_append (a := [45, c]) v (by have := (short_ne h).2; simp; exact fun e => this e.symm)
  rw [classify_dash, hl, hv]
  simp [h, (short_ne h).1]

theorem lookup_long_dash {c : Nat} {rest : Str} {act : Act} (h : optionTable.lookup (45 :: c :: rest) = some act) (hc : c ≠ 45) : rest = [] := by
  rcases table_single _ (lookup_table_mem h) with h | h
  · cases rest with
    | nil => rfl
    | cons x r => simp at h
  · exact absurd (dashes_iff.mp h) hc

theorem beforeEq_dash {c : Nat} {rest : Str} (hc : c ≠ 61) : beforeEq (45 :: c :: rest) = 45 :: c :: beforeEq rest := by
  unfold beforeEq
  rw [List.takeWhile_cons_of_pos (by decide), List.takeWhile_cons_of_pos (by simpa using hc)]

theorem classify_cluster {c : Nat} {act : Act} {v : Str} (h : optionTable.lookup [45, c] = some act) (hv : v ≠ []) (he : v.head? ≠ some 61) :
    classify (45 :: c :: v) = some (.option act false (some v)) := by
  obtain ⟨h1, h2⟩ := short_ne h
  have hl : optionTable.lookup (45 :: c :: v) = none := by
    cases hl : optionTable.lookup (45 :: c :: v) with
    | none => rfl
    | some a => exact absurd (lookup_long_dash hl h1) hv
  have hb : optionTable.lookup (beforeEq (45 :: c :: v)) = none := by
    rw [beforeEq_dash h2]
    cases hl : optionTable.lookup (45 :: c :: beforeEq v) with
    | none => rfl
    | some a =>
      have := lookup_long_dash hl h1
      cases v with
      | nil => exact absurd rfl hv
      | cons x v =>
        unfold beforeEq at this
        rw [List.takeWhile_cons_of_pos (by simpa using he)] at this
        cases this
  rw [classify_dash, hl, splitValue_fst, hb]
  have hm : shortMatches c v = [.option act false (some v)] := by unfold shortMatches; rw [h]
  cases (splitValue (45 :: c :: v)).2 <;> simp [h1, hm]

theorem noOption_long {rest : Str} : NoOption (45 :: 45 :: rest) ↔ ∀ n ∈ longNames, ¬ beforeEq (45 :: 45 :: rest) <+: n := by
  unfold NoOption
  refine ⟨fun h => h.1 ⟨rest, rfl⟩, fun h => ⟨fun _ => h, fun c hc => ?_⟩⟩
  rintro ⟨t, ht⟩
  simp at ht
  rw [ht.1] at hc
  revert hc
  decide

theorem noOption_short {c : Nat} {rest : Str} (hc : c ≠ 45) : NoOption (45 :: c :: rest) ↔ optionTable.lookup [45, c] = none := by
  have hmem : c ∈ p!"hVHv" ↔ c = 104 ∨ c = 86 ∨ c = 72 ∨ c = 118 := by simp
  have hl : optionTable.lookup [45, c] = none ↔ c ∉ p!"hVHv" := by
    rw [hmem]
    constructor
    · intro h hm
      rcases hm with rfl | rfl | rfl | rfl <;> cases h
    · intro h
      cases hs : optionTable.lookup [45, c] with
      | none => rfl
      | some a => exact absurd (short_single hs) h
  rw [hl]
  unfold NoOption
  constructor
  · intro h hm
    exact h.2 c hm ⟨rest, rfl⟩
  · intro h
    refine ⟨fun hd => absurd (dashes_iff.mp hd) hc, fun x hx => ?_⟩
    rintro ⟨t, ht⟩
    simp at ht
    rw [ht.1] at hx
    exact h hx

/-- What follows when no option matches. -/
theorem classify_noOption {c : Nat} {rest : Str} (h : NoOption (45 :: c :: rest)) :
    classify (45 :: c :: rest) = if isNumber (c :: rest) || (c :: rest).contains 32 then some .operand else some .unknown := by
  have hnone : optionTable.lookup (45 :: c :: rest) = none ∧ optionTable.lookup (beforeEq (45 :: c :: rest)) = none
      ∧ (if c = 45 then longMatches (splitValue (45 :: c :: rest)).1 (splitValue (45 :: c :: rest)).2 else shortMatches c rest) = [] := by
    by_cases hc : c = 45
    · subst hc
      rw [noOption_long] at h
      have hno : ∀ o ∈ optionTable, ¬ beforeEq (45 :: 45 :: rest) <+: o.1 := fun o ho hp => by
        have hd : p!"--" <+: beforeEq (45 :: 45 :: rest) := by rw [beforeEq_dash (by decide)]; exact ⟨_, rfl⟩
        exact h _ (table_long o ho (hd.trans hp)) hp
      refine ⟨?_, ?_, ?_⟩
      · cases hl : optionTable.lookup (45 :: 45 :: rest) with
        | none => rfl
        | some a => exact absurd (List.takeWhile_prefix _) (hno _ (lookup_table_mem hl))
      · cases hl : optionTable.lookup (beforeEq (45 :: 45 :: rest)) with
        | none => rfl
        | some a => exact absurd (List.prefix_refl _) (hno _ (lookup_table_mem hl))
      · rw [if_pos rfl, longMatches_nil, splitValue_fst]
        exact hno
    · rw [noOption_short hc] at h
      refine ⟨?_, ?_, ?_⟩
      · cases hl : optionTable.lookup (45 :: c :: rest) with
        | none => rfl
        | some a =>
          have := lookup_long_dash hl hc
          rw [this, h] at hl
          cases hl
      · by_cases h61 : c = 61
        · subst h61; rfl
        · rw [beforeEq_dash h61]
          cases hl : optionTable.lookup (45 :: c :: beforeEq rest) with
          | none => rfl
          | some a =>
            have := lookup_long_dash hl hc
            rw [this, h] at hl
            cases hl
      · rw [if_neg hc]
        unfold shortMatches
        rw [h]
  rw [classify_dash, hnone.1, splitValue_fst, hnone.2.1]
  rw [splitValue_fst] at hnone
  rw [hnone.2.2]
  cases (splitValue (45 :: c :: rest)).2 <;> rfl

theorem classify_operand {s : Str} (h : Operand s) : classify s = some .operand := by
  rcases h with h | rfl | ⟨r, rfl, hn, h⟩
  · match s, h with
    | [], _ => rfl
    | [x], _ => rfl
    | d :: c :: rest, h =>
      have : d ≠ 45 := by simpa using h
      simp [classify, this]
  · rfl
  · cases r with
    | nil => rfl
    | cons c rest =>
      rw [classify_noOption hn, if_pos]
      rw [Bool.or_eq_true, isNumber_iff]
      exact h.imp_right fun h => by simpa using h

theorem classify_sound {s : Str} {a : Arg} (h : classify s = some a) :
    (a = .operand ∧ Operand s) ∨ a = .unknown
    ∨ (∃ o ∈ optionTable, Stands s o.1 ∧ a = .option o.2 true none)
    ∨ (∃ n v, ∃ o ∈ optionTable, s = n ++ p!"=" ++ v ∧ Stands n o.1 ∧ a = .option o.2 true (some v))
    ∨ (∃ c act, optionTable.lookup [45, c] = some act ∧ s = [45, c] ∧ a = .option act false none)
    ∨ (∃ c v act, optionTable.lookup [45, c] = some act ∧ s = 45 :: c :: 61 :: v ∧ a = .option act false (some v))
    ∨ (∃ c v act, optionTable.lookup [45, c] = some act ∧ s = 45 :: c :: v ∧ v ≠ [] ∧ v.head? ≠ some 61 ∧ a = .option act false (some v)) := by
  match s, h with
  | [], h => cases h; exact .inl ⟨rfl, .inl (by simp)⟩
  | [x], h =>
    cases h
    refine .inl ⟨rfl, ?_⟩
    by_cases hx : x = 45
    · subst hx; exact .inr (.inl rfl)
    · exact .inl (by simpa using hx)
  | d :: c :: rest, h =>
    by_cases hd : d = 45
    · subst hd
      by_cases hno : NoOption (45 :: c :: rest)
      · rw [classify_noOption hno] at h
        split at h
        · next e =>
          cases h
          rw [Bool.or_eq_true, isNumber_iff] at e
          exact .inl ⟨rfl, .inr (.inr ⟨c :: rest, rfl, hno, e.imp_right fun h => by simpa using h⟩)⟩
        · cases h; exact .inr (.inl rfl)
      · by_cases hc : c = 45
        · subst hc
          rw [classify_dash] at h
          cases hl : optionTable.lookup (45 :: 45 :: rest) with
          | some act =>
            rw [hl] at h
            cases h
            exact .inr (.inr (.inl ⟨_, lookup_table_mem hl, stands_exact (lookup_table_mem hl) ⟨rest, rfl⟩, rfl⟩))
          | none =>
            rw [hl] at h
            simp only [splitValue_fst, if_true] at h
            have hd : p!"--" <+: beforeEq (45 :: 45 :: rest) := by rw [beforeEq_dash (by decide)]; exact ⟨_, rfl⟩
            have hne : ∀ v, longMatches (beforeEq (45 :: 45 :: rest)) v ≠ [] := fun v hn => by
              rw [longMatches_nil] at hn
              rw [noOption_long] at hno
              exact hno fun n hn' hp => by
                obtain ⟨o, ho, rfl⟩ := long_table n hn'
                exact hn o ho hp
            have key : ∀ v, (∀ m, longMatches (beforeEq (45 :: 45 :: rest)) v = [m] → some m = some a →
                ∃ o ∈ optionTable, Stands (beforeEq (45 :: 45 :: rest)) o.1 ∧ a = .option o.2 true v) := fun v m hm he => by
              obtain ⟨o, ho, rfl, hp, hu⟩ := longMatches_one hm
              cases he
              exact ⟨o, ho, stands_of ho hd hp hu, rfl⟩
            cases hv : (splitValue (45 :: 45 :: rest)).2 with
            | none =>
              rw [hv] at h
              cases hm : longMatches (beforeEq (45 :: 45 :: rest)) none with
              | nil => exact absurd hm (hne _)
              | cons m l =>
                cases l with
                | nil =>
                  simp only [hm] at h
                  have := key _ m hm h
                  rw [splitValue_none hv] at this
                  exact .inr (.inr (.inl this))
                | cons m' l => simp only [hm] at h; cases h
            | some v =>
              rw [hv] at h
              have hs := splitValue_some hv
              cases hb : optionTable.lookup (beforeEq (45 :: 45 :: rest)) with
              | some act =>
                rw [hb] at h
                cases h
                exact .inr (.inr (.inr (.inl ⟨_, v, _, lookup_table_mem hb, hs, stands_exact (lookup_table_mem hb) hd, rfl⟩)))
              | none =>
                rw [hb] at h
                cases hm : longMatches (beforeEq (45 :: 45 :: rest)) (some v) with
                | nil => exact absurd hm (hne _)
                | cons m l =>
                  cases l with
                  | nil =>
                    simp only [hm] at h
                    obtain ⟨o, ho, h1, h2⟩ := key _ m hm h
                    exact .inr (.inr (.inr (.inl ⟨_, v, o, ho, hs, h1, h2⟩)))
                  | cons m' l => simp only [hm] at h; cases h
        · rw [noOption_short hc] at hno
          cases hl : optionTable.lookup [45, c] with
          | none => exact absurd hl hno
          | some act =>
            refine .inr (.inr (.inr (.inr ?_)))
            match rest, h with
            | [], h =>
              rw [classify_short hl] at h
              exact .inl ⟨c, act, hl, rfl, by cases h; rfl⟩
            | x :: v, h =>
              by_cases hx : x = 61
              · subst hx
                rw [classify_short_eq v hl] at h
                exact .inr (.inl ⟨c, v, act, hl, rfl, by cases h; rfl⟩)
              · rw [classify_cluster hl (by simp) (by simpa using hx)] at h
                exact .inr (.inr ⟨c, x :: v, act, hl, rfl, by simp, by simpa using hx, by cases h; rfl⟩)
    · rw [classify.eq_def] at h
      simp only [ne_eq, hd, not_false_eq_true, if_true] at h
      cases h
      exact .inl ⟨rfl, .inl (by simpa using hd)⟩

/-! ### Options with one dash in one argument -/

/-- The wish that an option without a value stands for. -/
def Act.wish : Act → Option Wish
  | .dry => some .dry
  | .verbose => some .verbose
  | .noChanges => some .noChanges
  | .diff => some .diff
  | .debug => some .debug
  | .noColor => some .noColor
  | _ => none

/-- A wish is granted. -/
def Namespace.grant (ns : Namespace) : Wish → Namespace
  | .dry => { ns with opts := { ns.opts with dry := true } }
  | .verbose => { ns with opts := { ns.opts with verbose := ns.opts.verbose + 1 } }
  | .noChanges => { ns with opts := { ns.opts with changes := false } }
  | .diff => { ns with opts := { ns.opts with diff := true } }
  | .debug => { ns with opts := { ns.opts with debug := true } }
  | .noColor => { ns with opts := { ns.opts with noColor := true } }
  | .hosts v => { ns with hosts := some v }
  | .operand v => { ns with operands := ns.operands ++ [v] }

/-- Several wishes. -/
def Namespace.grants (ns : Namespace) (ws : List Wish) : Namespace := ws.foldl Namespace.grant ns

theorem flag_wish {ns ns' : Namespace} {a : Act} (h : a.flag ns = .inl ns') : ∃ w, a.wish = some w ∧ ns' = ns.grant w := by
  cases a <;> cases h <;> exact ⟨_, rfl, rfl⟩

theorem wish_flag {ns : Namespace} {a : Act} {w : Wish} (h : a.wish = some w) : a.flag ns = .inl (ns.grant w) ∧ a.takesValue = false := by
  cases a <;> cases h <;> exact ⟨rfl, rfl⟩

theorem value_hosts {ns ns' : Namespace} {a : Act} {v : Str} (h : a.value ns v = .inl ns') : a = .hosts ∧ ns' = ns.grant (.hosts v) := by
  cases a <;> simp [Act.value] at h
  · split at h <;> cases h
  · exact ⟨rfl, h.symm⟩

theorem table_wish : ∀ o ∈ optionTable, p!"--" <+: o.1 → ∀ w ∈ wishNames.map (·.2), o.2.wish = some w → (o.1, w) ∈ wishNames := by decide

theorem wish_names {a : Act} {w : Wish} (h : a.wish = some w) : w ∈ wishNames.map (·.2) := by
  cases a <;> cases h <;> decide

theorem names_table : ∀ p ∈ wishNames, ∃ o ∈ optionTable, o.1 = p.1 ∧ o.2.wish = some p.2 := by decide

theorem table_hosts : ∀ o ∈ optionTable, p!"--" <+: o.1 → o.2 = .hosts → o.1 = p!"--hosts" := by decide

theorem short_wish {c : Nat} {act : Act} {w : Wish} (h : optionTable.lookup [45, c] = some act) (hw : act.wish = some w) : c = 118 ∧ act = .verbose ∧ w = .verbose := by
  rcases short_single h with rfl | rfl | rfl | rfl <;> cases h <;> cases hw
  exact ⟨rfl, rfl, rfl⟩

theorem short_value {c : Nat} {act : Act} (h : optionTable.lookup [45, c] = some act) (hw : act.takesValue = true) : c = 72 ∧ act = .hosts := by
  rcases short_single h with rfl | rfl | rfl | rfl <;> cases h <;> cases hw
  exact ⟨rfl, rfl⟩

theorem flags_replicate (ns : Namespace) : ∀ n, Act.flags ns (List.replicate n .verbose) = .inl (ns.grants (List.replicate n .verbose))
  | 0 => rfl
  | n + 1 => by
    rw [List.replicate_succ, List.replicate_succ, Act.flags]
    exact flags_replicate (ns.grant .verbose) n

theorem cluster_v : ∀ {n : Nat}, 1 ≤ n → cluster (List.replicate n 118) = some (List.replicate n .verbose, none)
  | 1, _ => rfl
  | n + 2, _ => by
    rw [List.replicate_succ, cluster]
    have hl : optionTable.lookup [45, 118] = some .verbose := rfl
    have hr : List.replicate (n + 1) 118 ≠ [] := by simp [List.replicate_succ]
    simp only [hl, Act.takesValue, Bool.false_eq_true, if_false, hr, cluster_v (n := n + 1) (by omega)]
    rfl

theorem cluster_vH (v : Str) : ∀ n : Nat, cluster (List.replicate n 118 ++ 72 :: v)
    = some (List.replicate n .verbose, some (.hosts, if v = [] then none else some v))
  | 0 => rfl
  | n + 1 => by
    rw [List.replicate_succ, List.cons_append, cluster]
    have hl : optionTable.lookup [45, 118] = some .verbose := rfl
    have hr : List.replicate n 118 ++ 72 :: v ≠ [] := by simp
    simp only [hl, Act.takesValue, Bool.false_eq_true, if_false, hr, cluster_vH v n]
    rfl

theorem cluster_sound {x : Str} {as : List Act} {l : Option (Act × Option Str)} {ns ns' : Namespace} (h : cluster x = some (as, l))
    (hf : Act.flags ns as = .inl ns') : ∃ n, as = List.replicate n .verbose ∧ ns' = ns.grants (List.replicate n .verbose) ∧
      ((l = none ∧ 1 ≤ n ∧ x = List.replicate n 118) ∨
        ∃ v, x = List.replicate n 118 ++ 72 :: v ∧ l = some (.hosts, if v = [] then none else some v)) := by
  induction x generalizing as ns with
  | nil => cases h
  | cons c rest ih =>
    rw [cluster] at h
    cases hl : optionTable.lookup [45, c] with
    | none => rw [hl] at h; cases h
    | some act =>
      rw [hl] at h
      simp only at h
      cases ht : act.takesValue with
      | true =>
        simp only [ht, if_true] at h
        obtain ⟨rfl, rfl⟩ := short_value hl ht
        cases h
        cases hf
        exact ⟨0, rfl, rfl, .inr ⟨rest, rfl, rfl⟩⟩
      | false =>
        simp only [ht, Bool.false_eq_true, if_false] at h
        by_cases hr : rest = []
        · rw [if_pos hr] at h
          cases h
          subst hr
          rw [Act.flags] at hf
          cases ha : act.flag ns with
          | inr o => rw [ha] at hf; cases hf
          | inl ns1 =>
            rw [ha] at hf
            cases hf
            obtain ⟨w, hw, rfl⟩ := flag_wish ha
            obtain ⟨rfl, rfl, rfl⟩ := short_wish hl hw
            exact ⟨1, rfl, rfl, .inl ⟨rfl, Nat.le_refl _, rfl⟩⟩
        · rw [if_neg hr] at h
          cases hc : cluster rest with
          | none => rw [hc] at h; cases h
          | some p =>
            obtain ⟨as', l'⟩ := p
            rw [hc] at h
            cases h
            rw [Act.flags] at hf
            cases ha : act.flag ns with
            | inr o => rw [ha] at hf; cases hf
            | inl ns1 =>
              rw [ha] at hf
              obtain ⟨w, hw, rfl⟩ := flag_wish ha
              obtain ⟨rfl, rfl, rfl⟩ := short_wish hl hw
              obtain ⟨n, rfl, rfl, hx⟩ := ih hc hf
              refine ⟨n + 1, rfl, rfl, ?_⟩
              rcases hx with ⟨rfl, hn, rfl⟩ | ⟨v, rfl, rfl⟩
              · exact .inl ⟨rfl, by omega, rfl⟩
              · exact .inr ⟨v, rfl, rfl⟩

/-! ### The actions -/

theorem grant_extras (ns : Namespace) (w : Wish) : (ns.grant w).extras = ns.extras := by cases w <;> rfl

theorem grants_extras (ns : Namespace) : ∀ ws, (ns.grants ws).extras = ns.extras := by
  intro ws
  induction ws generalizing ns with
  | nil => rfl
  | cons w ws ih => exact (ih (ns.grant w)).trans (grant_extras ns w)

theorem flags_extras {ns ns' : Namespace} {as : List Act} (h : Act.flags ns as = .inl ns') : ns'.extras = ns.extras := by
  induction as generalizing ns with
  | nil => cases h; rfl
  | cons a as ih =>
    rw [Act.flags] at h
    cases ha : a.flag ns with
    | inr o => rw [ha] at h; cases h
    | inl ns1 =>
      rw [ha] at h
      obtain ⟨w, _, rfl⟩ := flag_wish ha
      rw [ih h, grant_extras]

/-- What the options of one argument are. -/
def actions (act : Act) (long : Bool) (v : Option Str) : Option (List Act × Option (Act × Option Str)) :=
  if act.takesValue then some ([], some (act, v))
  else match v with
    | none => some ([act], none)
    | some v => if long then none else (cluster v).map fun c => (act :: c.1, c.2)

/-- What is done with them. -/
theorem consume_option {nc tty : Bool} {ns : Namespace} {s : Str} {act : Act} {long : Bool} {v : Option Str} {rest : List (Str × Arg)} :
    consume nc tty ns ((s, .option act long v) :: rest) =
    match actions act long v with
    | none => .usage
    | some (as, none) =>
      match Act.flags ns as with
      | .inr o => o
      | .inl ns => consume nc tty ns rest
    | some (as, some (act, some v)) =>
      match Act.flags ns as with
      | .inr o => o
      | .inl ns =>
        match act.value ns v with
        | .inr o => o
        | .inl ns => consume nc tty ns rest
    | some (as, some (act, none)) =>
      match rest with
      | (v, .operand) :: rest =>
        match Act.flags ns as with
        | .inr o => o
        | .inl ns =>
          match act.value ns v with
          | .inr o => o
          | .inl ns => consume nc tty ns rest
      | _ => .usage := by
  rw [consume.eq_def]
  rfl

theorem grants_append (ns : Namespace) (a b : List Wish) : ns.grants (a ++ b) = (ns.grants a).grants b := by simp [Namespace.grants, List.foldl_append]

theorem flags_run {ns : Namespace} {as : List Act} {o : Options} {h : Option Str} {i c : Str} : Act.flags ns as ≠ .inr (.run o h i c) := by
  induction as generalizing ns with
  | nil => intro hf; cases hf
  | cons a as ih =>
    intro hf
    rw [Act.flags] at hf
    cases hfa : a.flag ns with
    | inl ns1 => rw [hfa] at hf; exact ih hf
    | inr y => rw [hfa] at hf; cases hf; cases a <;> cases hfa

theorem value_run {ns : Namespace} {a : Act} {v : Str} {o : Options} {h : Option Str} {i c : Str} : a.value ns v ≠ .inr (.run o h i c) := by
  intro hv
  cases a <;> simp [Act.value] at hv
  split at hv <;> cases hv

/-- What has happened if a script is run after an option. -/
theorem consume_option_run {nc tty : Bool} {ns : Namespace} {s : Str} {act : Act} {long : Bool} {v : Option Str} {rest : List (Str × Arg)}
    {o : Options} {h : Option Str} {i c : Str} (hr : consume nc tty ns ((s, .option act long v) :: rest) = .run o h i c) :
    ∃ as l ns1, actions act long v = some (as, l) ∧ Act.flags ns as = .inl ns1 ∧
      ((l = none ∧ consume nc tty ns1 rest = .run o h i c)
      ∨ (∃ x, l = some (.hosts, some x) ∧ consume nc tty (ns1.grant (.hosts x)) rest = .run o h i c)
      ∨ (∃ x rest', l = some (.hosts, none) ∧ rest = (x, .operand) :: rest' ∧ consume nc tty (ns1.grant (.hosts x)) rest' = .run o h i c)) := by
  rw [consume_option] at hr
  cases ha : actions act long v with
  | none => rw [ha] at hr; cases hr
  | some p =>
    obtain ⟨as, l⟩ := p
    rw [ha] at hr
    cases hf : Act.flags ns as with
    | inr y =>
      exfalso
      match l, hr with
      | none, hr => simp only [hf] at hr; subst hr; exact flags_run hf
      | some (act', some x), hr => simp only [hf] at hr; subst hr; exact flags_run hf
      | some (act', none), hr =>
        match rest, hr with
        | (x, .operand) :: rest, hr => simp only [hf] at hr; subst hr; exact flags_run hf
        | [], hr => cases hr
        | (x, .unknown) :: rest, hr => cases hr
        | (x, .dashes) :: rest, hr => cases hr
        | (x, .option ..) :: rest, hr => cases hr
    | inl ns1 =>
      refine ⟨as, l, ns1, rfl, hf, ?_⟩
      match l, hr with
      | none, hr => simp only [hf] at hr; exact .inl ⟨rfl, hr⟩
      | some (act', some x), hr =>
        simp only [hf] at hr
        cases hv : act'.value ns1 x with
        | inr y => rw [hv] at hr; simp only at hr; subst hr; exact absurd hv value_run
        | inl ns2 =>
          rw [hv] at hr
          obtain ⟨rfl, rfl⟩ := value_hosts hv
          exact .inr (.inl ⟨x, rfl, hr⟩)
      | some (act', none), hr =>
        match rest, hr with
        | (x, .operand) :: rest, hr =>
          simp only [hf] at hr
          cases hv : act'.value ns1 x with
          | inr y => rw [hv] at hr; simp only at hr; subst hr; exact absurd hv value_run
          | inl ns2 =>
            rw [hv] at hr
            obtain ⟨rfl, rfl⟩ := value_hosts hv
            exact .inr (.inr ⟨x, rest, rfl, rfl, hr⟩)
        | [], hr => cases hr
        | (x, .unknown) :: rest, hr => cases hr
        | (x, .dashes) :: rest, hr => cases hr
        | (x, .option ..) :: rest, hr => cases hr

/-- Nothing unknown was met if a script is run. -/
theorem consume_extras {nc tty : Bool} {o : Options} {h : Option Str} {i c : Str} : ∀ (n : Nat) {args : List (Str × Arg)} {ns : Namespace}, args.length ≤ n →
    consume nc tty ns args = .run o h i c → ns.extras = false
  | _, [], ns, _, hr => by
    rw [consume] at hr
    unfold finish at hr
    split at hr
    · assumption
    · cases hr
  | 0, _ :: _, _, hn, _ => by simp at hn
  | n + 1, (s, a) :: rest, ns, hlen, hr => by
    have hn : rest.length ≤ n := by simpa using hlen
    match a, hr with
    | .operand, hr => rw [consume] at hr; exact consume_extras (ns := { ns with operands := ns.operands ++ [s] }) n hn hr
    | .dashes, hr => rw [consume] at hr; exact consume_extras n hn hr
    | .unknown, hr => rw [consume] at hr; exact absurd (consume_extras n hn hr) (by simp)
    | .option act long v, hr =>
      obtain ⟨as, l, ns1, _, hf, ⟨_, hc⟩ | ⟨x, _, hc⟩ | ⟨x, rest', _, rfl, hc⟩⟩ := consume_option_run hr
      · rw [← flags_extras hf]; exact consume_extras n hn hc
      · rw [← flags_extras hf, ← grant_extras ns1 (.hosts x)]; exact consume_extras n hn hc
      · rw [← flags_extras hf, ← grant_extras ns1 (.hosts x)]
        exact consume_extras n (by simp at hn; omega) hc

theorem classifyAll_cons {s : Str} {r : List Str} {args : List (Str × Arg)} (hs : s ≠ p!"--") (h : classifyAll (s :: r) = some args) :
    ∃ a rest, classify s = some a ∧ classifyAll r = some rest ∧ args = (s, a) :: rest := by
  rw [classifyAll, if_neg hs] at h
  cases ha : classify s with
  | none => rw [ha] at h; cases h
  | some a =>
    cases hr : classifyAll r with
    | none => rw [ha, hr] at h; cases h
    | some rest => rw [ha, hr] at h; cases h; exact ⟨a, rest, rfl, rfl, rfl⟩

theorem classify_dashes {s : Str} {a : Arg} (h : classify s = some a) : s ≠ p!"--" := by
  rintro rfl
  revert h
  have : classify p!"--" = none := by decide
  rw [this]
  simp

theorem classifyAll_of {s : Str} {r : List Str} {a : Arg} {args : List (Str × Arg)} (ha : classify s = some a) (h : classifyAll r = some args) :
    classifyAll (s :: r) = some ((s, a) :: args) := by rw [classifyAll, if_neg (classify_dashes ha), ha, h]

theorem classifyAll_operand {r : List Str} {x : Str} {rest : List (Str × Arg)} (h : classifyAll r = some ((x, .operand) :: rest)) :
    ∃ r', r = x :: r' ∧ Operand x ∧ classifyAll r' = some rest := by
  cases r with
  | nil => cases h
  | cons s r =>
    by_cases hs : s = p!"--"
    · rw [classifyAll, if_pos hs] at h; cases h
    · obtain ⟨a, rest', ha, hr, he⟩ := classifyAll_cons hs h
      cases he
      refine ⟨r, rfl, ?_, hr⟩
      rcases classify_sound ha with ⟨_, h⟩ | h | ⟨_, _, _, h⟩ | ⟨_, _, _, _, _, _, h⟩ | ⟨_, _, _, _, h⟩ | ⟨_, _, _, _, _, h⟩ | ⟨_, _, _, _, _, _, _, h⟩
      · exact h
      all_goals cases h

theorem consume_operands (nc tty : Bool) : ∀ (r : List Str) (ns : Namespace), consume nc tty ns (r.map fun s => (s, .operand)) = finish nc tty (ns.grants (r.map .operand))
  | [], _ => by rw [List.map_nil, consume]; rfl
  | s :: r, ns => by
    rw [List.map_cons, consume, consume_operands nc tty r]
    rfl

theorem manyV_succ (n : Nat) (eq : Bool) : manyV (n + 1) eq = manyV 1 eq ++ List.replicate n 118 := by cases eq <;> rfl

/-- An argument that begins with `-v` -/
theorem sound_many {nc tty : Bool} {ns : Namespace} {x : Str} {eq : Bool} {r : List Str} {args : List (Str × Arg)}
    {o : Options} {h : Option Str} {i c : Str} (hx : eq = false → x ≠ [])
    (hr : consume nc tty ns ((manyV 1 eq ++ x, .option .verbose false (some x)) :: args) = .run o h i c)
    (hargs : classifyAll r = some args)
    (ih : ∀ r' args' ns', r'.length ≤ r.length → classifyAll r' = some args' → consume nc tty ns' args' = .run o h i c →
      ∃ ws, Means r' ws ∧ finish nc tty (ns'.grants ws) = .run o h i c) :
    ∃ ws, Means ((manyV 1 eq ++ x) :: r) ws ∧ finish nc tty (ns.grants ws) = .run o h i c := by
  obtain ⟨as, l, ns1, ha, hf, hl⟩ := consume_option_run hr
  unfold actions at ha
  simp only [Act.takesValue, Bool.false_eq_true, if_false] at ha
  cases hc : cluster x with
  | none => rw [hc] at ha; cases ha
  | some p =>
    rw [hc] at ha
    obtain ⟨as', l'⟩ := p
    cases ha
    rw [Act.flags] at hf
    simp only [Act.flag] at hf
    obtain ⟨n, rfl, rfl, hx'⟩ := cluster_sound hc hf
    have hg : ∀ ws, ns.grants (List.replicate (n + 1) .verbose ++ ws)
        = Namespace.grants (Namespace.grants { ns with opts := { ns.opts with verbose := ns.opts.verbose + 1 } } (List.replicate n .verbose)) ws :=
      fun ws => grants_append ns _ ws
    rcases hx' with ⟨rfl, hn, rfl⟩ | ⟨v, rfl, rfl⟩
    · obtain ⟨_, hc⟩ := hl.resolve_right (by rintro (⟨_, h, _⟩ | ⟨_, _, h, _⟩) <;> cases h)
      obtain ⟨ws, hm, hfin⟩ := ih r args _ (Nat.le_refl _) hargs hc
      refine ⟨List.replicate (n + 1) .verbose ++ ws, ?_, ?_⟩
      · rw [← manyV_succ]; exact .short (by omega) (fun _ => by omega) hm
      · rw [hg]; exact hfin
    · rw [← List.append_assoc, ← manyV_succ]
      by_cases hv : v = []
      · subst hv
        obtain ⟨x, rest', _, rfl, hc⟩ := (hl.resolve_left (by rintro ⟨h, _⟩; cases h)).resolve_left (by rintro ⟨_, h, _⟩; cases h)
        obtain ⟨r', rfl, hop, hr'⟩ := classifyAll_operand hargs
        obtain ⟨ws, hm, hfin⟩ := ih r' rest' _ (by simp) hr' hc
        exact ⟨List.replicate (n + 1) .verbose ++ .hosts x :: ws, .shortHosts (fun _ => by omega) hop hm, by rw [hg]; exact hfin⟩
      · rw [if_neg hv] at hl
        obtain ⟨x, hx, hc⟩ := (hl.resolve_left (by rintro ⟨h, _⟩; cases h)).resolve_right (by rintro ⟨_, _, h, _⟩; cases h)
        cases hx
        obtain ⟨ws, hm, hfin⟩ := ih r args _ (Nat.le_refl _) hargs hc
        refine ⟨List.replicate (n + 1) .verbose ++ .hosts v :: ws, ?_, by rw [hg]; exact hfin⟩
        have := Means.shortValue (n := n + 1) (eq := eq) (fun _ => by omega) hv (by simp) hm
        simpa using this

theorem consume_sound {nc tty : Bool} {o : Options} {h : Option Str} {i c : Str} : ∀ (k : Nat) {argv : List Str} {args : List (Str × Arg)} {ns : Namespace},
    argv.length ≤ k → classifyAll argv = some args → consume nc tty ns args = .run o h i c →
    ∃ ws, Means argv ws ∧ finish nc tty (ns.grants ws) = .run o h i c
  | _, [], args, ns, _, ha, hr => by
    cases ha
    rw [consume] at hr
    exact ⟨[], .nil, hr⟩
  | 0, _ :: _, _, _, hk, _, _ => by simp at hk
  | k + 1, s :: r, args, ns, hlen, ha, hr => by
    have hk : r.length ≤ k := by simpa using hlen
    by_cases hs : s = p!"--"
    · subst hs
      rw [classifyAll, if_pos rfl] at ha
      cases ha
      rw [consume, consume_operands] at hr
      exact ⟨_, .dashes, hr⟩
    obtain ⟨a, rest, hcl, hall, rfl⟩ := classifyAll_cons hs ha
    rcases classify_sound hcl with ⟨rfl, hop⟩ | rfl | ⟨op, hop, hst, rfl⟩ | ⟨n, v, op, hop, rfl, hst, rfl⟩ | ⟨ch, act, hl, rfl, rfl⟩
      | ⟨ch, v, act, hl, rfl, rfl⟩ | ⟨ch, v, act, hl, rfl, hv, he, rfl⟩
    · rw [consume] at hr
      obtain ⟨ws, hm, hf⟩ := consume_sound k hk hall hr
      exact ⟨_, .operand hop hm, hf⟩
    · rw [consume] at hr
      exact absurd (consume_extras _ (Nat.le_refl _) hr) (by simp)
    · have hd : p!"--" <+: op.1 := hst.1.trans hst.2.2.1
      obtain ⟨as, l, ns1, ha, hf, hl⟩ := consume_option_run hr
      cases ht : op.2.takesValue with
      | true =>
        simp only [actions, ht, if_true] at ha
        cases ha
        cases hf
        obtain ⟨x, rest', hx, rfl, hc⟩ := (hl.resolve_left (by rintro ⟨h, _⟩; cases h)).resolve_left (by rintro ⟨_, h, _⟩; simp at h)
        have hh : op.2 = .hosts := by simpa using hx
        obtain ⟨r', rfl, hop', hr'⟩ := classifyAll_operand hall
        obtain ⟨ws, hm, hfin⟩ := consume_sound k (by simp at hk; omega) hr' hc
        rw [table_hosts op hop hd hh] at hst
        exact ⟨_, .hosts hst hop' hm, hfin⟩
      | false =>
        simp only [actions, ht, Bool.false_eq_true, if_false] at ha
        cases ha
        obtain ⟨_, hc⟩ := hl.resolve_right (by rintro (⟨_, h, _⟩ | ⟨_, _, h, _⟩) <;> cases h)
        rw [Act.flags] at hf
        cases hfa : op.2.flag ns with
        | inr y => rw [hfa] at hf; cases hf
        | inl ns2 =>
          rw [hfa] at hf
          cases hf
          obtain ⟨w, hw, rfl⟩ := flag_wish hfa
          obtain ⟨ws, hm, hfin⟩ := consume_sound k hk hall hc
          exact ⟨_, .flag (table_wish op hop hd w (wish_names hw) hw) hst hm, hfin⟩
    · have hd : p!"--" <+: op.1 := hst.1.trans hst.2.2.1
      obtain ⟨as, l, ns1, ha, hf, hl⟩ := consume_option_run hr
      cases ht : op.2.takesValue with
      | true =>
        simp only [actions, ht, if_true] at ha
        cases ha
        cases hf
        obtain ⟨x, hx, hc⟩ := (hl.resolve_left (by rintro ⟨h, _⟩; cases h)).resolve_right (by rintro ⟨_, _, h, _⟩; simp at h)
        have hh : op.2 = .hosts ∧ v = x := by simpa using hx
        obtain ⟨hh, rfl⟩ := hh
        obtain ⟨ws, hm, hfin⟩ := consume_sound k hk hall hc
        rw [table_hosts op hop hd hh] at hst
        exact ⟨_, .hostsEq hst hm, hfin⟩
      | false =>
        simp only [actions, ht, Bool.false_eq_true, if_false, if_true] at ha
        cases ha
    · cases ht : act.takesValue with
      | true =>
        obtain ⟨rfl, rfl⟩ := short_value hl ht
        obtain ⟨as, l, ns1, ha, hf, hl⟩ := consume_option_run hr
        cases ha
        cases hf
        obtain ⟨x, rest', _, rfl, hc⟩ := (hl.resolve_left (by rintro ⟨h, _⟩; cases h)).resolve_left (by rintro ⟨_, h, _⟩; cases h)
        obtain ⟨r', rfl, hop', hr'⟩ := classifyAll_operand hall
        obtain ⟨ws, hm, hfin⟩ := consume_sound k (by simp at hk; omega) hr' hc
        exact ⟨.hosts x :: ws, .shortHosts (n := 0) (eq := false) nofun hop' hm, hfin⟩
      | false =>
        obtain ⟨as, l, ns1, ha, hf, hl'⟩ := consume_option_run hr
        simp only [actions, ht, Bool.false_eq_true, if_false] at ha
        cases ha
        obtain ⟨_, hc⟩ := hl'.resolve_right (by rintro (⟨_, h, _⟩ | ⟨_, _, h, _⟩) <;> cases h)
        rw [Act.flags] at hf
        cases hfa : act.flag ns with
        | inr y => rw [hfa] at hf; cases hf
        | inl ns2 =>
          rw [hfa] at hf
          cases hf
          obtain ⟨w, hw, rfl⟩ := flag_wish hfa
          obtain ⟨rfl, rfl, rfl⟩ := short_wish hl hw
          obtain ⟨ws, hm, hfin⟩ := consume_sound k hk hall hc
          exact ⟨.verbose :: ws, .short (n := 1) (eq := false) (Nat.le_refl _) nofun hm, hfin⟩
    · cases ht : act.takesValue with
      | true =>
        obtain ⟨rfl, rfl⟩ := short_value hl ht
        obtain ⟨as, l, ns1, ha, hf, hl⟩ := consume_option_run hr
        cases ha
        cases hf
        obtain ⟨x, hx, hc⟩ := (hl.resolve_left (by rintro ⟨h, _⟩; cases h)).resolve_right (by rintro ⟨_, _, h, _⟩; cases h)
        cases hx
        obtain ⟨ws, hm, hfin⟩ := consume_sound k hk hall hc
        exact ⟨_, .shortEq hm, hfin⟩
      | false =>
        obtain ⟨as, l, ns1, ha, hf, _⟩ := consume_option_run hr
        have hw : ∃ w, act.wish = some w := by
          simp only [actions, ht, Bool.false_eq_true, if_false] at ha
          cases hc : cluster v with
          | none => rw [hc] at ha; cases ha
          | some p =>
            rw [hc] at ha
            cases ha
            rw [Act.flags] at hf
            cases hfa : act.flag ns with
            | inr y => rw [hfa] at hf; cases hf
            | inl ns2 => obtain ⟨w, hw, _⟩ := flag_wish hfa; exact ⟨w, hw⟩
        obtain ⟨w, hw⟩ := hw
        obtain ⟨rfl, rfl, rfl⟩ := short_wish hl hw
        exact sound_many (x := v) (eq := true) nofun hr hall fun r' args' ns' hk' h1 h2 => consume_sound k (by omega) h1 h2
    · cases ht : act.takesValue with
      | true =>
        obtain ⟨rfl, rfl⟩ := short_value hl ht
        obtain ⟨as, l, ns1, ha, hf, hl⟩ := consume_option_run hr
        cases ha
        cases hf
        obtain ⟨x, hx, hc⟩ := (hl.resolve_left (by rintro ⟨h, _⟩; cases h)).resolve_right (by rintro ⟨_, _, h, _⟩; cases h)
        cases hx
        obtain ⟨ws, hm, hfin⟩ := consume_sound k hk hall hc
        exact ⟨.hosts v :: ws, .shortValue (n := 0) (eq := false) nofun hv (fun _ => he) hm, hfin⟩
      | false =>
        obtain ⟨as, l, ns1, ha, hf, _⟩ := consume_option_run hr
        have hw : ∃ w, act.wish = some w := by
          simp only [actions, ht, Bool.false_eq_true, if_false] at ha
          cases hc : cluster v with
          | none => rw [hc] at ha; cases ha
          | some p =>
            rw [hc] at ha
            cases ha
            rw [Act.flags] at hf
            cases hfa : act.flag ns with
            | inr y => rw [hfa] at hf; cases hf
            | inl ns2 => obtain ⟨w, hw, _⟩ := flag_wish hfa; exact ⟨w, hw⟩
        obtain ⟨w, hw⟩ := hw
        obtain ⟨rfl, rfl, rfl⟩ := short_wish hl hw
        exact sound_many (x := v) (eq := false) (fun _ => hv) hr hall fun r' args' ns' hk' h1 h2 => consume_sound k (by omega) h1 h2

/-! ### The other direction -/

theorem consume_flags {nc tty : Bool} {ns ns1 : Namespace} {s : Str} {act : Act} {long : Bool} {v : Option Str} {rest : List (Str × Arg)} {as : List Act}
    (ha : actions act long v = some (as, none)) (hf : Act.flags ns as = .inl ns1) :
    consume nc tty ns ((s, .option act long v) :: rest) = consume nc tty ns1 rest := by
  rw [consume_option, ha]
  simp only [hf]

theorem consume_hosts_value {nc tty : Bool} {ns ns1 : Namespace} {s : Str} {act : Act} {long : Bool} {v : Option Str} {x : Str} {rest : List (Str × Arg)} {as : List Act}
    (ha : actions act long v = some (as, some (.hosts, some x))) (hf : Act.flags ns as = .inl ns1) :
    consume nc tty ns ((s, .option act long v) :: rest) = consume nc tty (ns1.grant (.hosts x)) rest := by
  rw [consume_option, ha]
  simp only [hf]
  rfl

theorem consume_hosts_next {nc tty : Bool} {ns ns1 : Namespace} {s : Str} {act : Act} {long : Bool} {v : Option Str} {x : Str} {rest : List (Str × Arg)} {as : List Act}
    (ha : actions act long v = some (as, some (.hosts, none))) (hf : Act.flags ns as = .inl ns1) :
    consume nc tty ns ((s, .option act long v) :: (x, .operand) :: rest) = consume nc tty (ns1.grant (.hosts x)) rest := by
  rw [consume_option, ha]
  simp only [hf]
  rfl

/-- The argument `-v…` and what comes after. -/
theorem classify_many {eq : Bool} {x : Str} (he : eq = false → x ≠ [] ∧ x.head? ≠ some 61) : classify (manyV 1 eq ++ x) = some (.option .verbose false (some x)) := by
  cases eq with
  | true => exact classify_short_eq x rfl
  | false => exact classify_cluster rfl (he rfl).1 (he rfl).2

theorem means_consume (nc tty : Bool) {argv : List Str} {ws : List Wish} (h : Means argv ws) :
    ∃ args, classifyAll argv = some args ∧ ∀ ns, consume nc tty ns args = finish nc tty (ns.grants ws) := by
  induction h with
  | nil => exact ⟨[], rfl, fun ns => by rw [consume]; rfl⟩
  | operand hop _ ih =>
    obtain ⟨args, ha, hc⟩ := ih
    exact ⟨_, classifyAll_of (classify_operand hop) ha, fun ns => by rw [consume, hc]; rfl⟩
  | flag hw hst _ ih =>
    obtain ⟨args, ha, hc⟩ := ih
    obtain ⟨o, ho, he, hwish⟩ := names_table _ hw
    simp only at he
    subst he
    refine ⟨_, classifyAll_of (classify_stands ho hst) ha, fun ns => ?_⟩
    obtain ⟨hfl, ht⟩ := wish_flag (ns := ns) hwish
    rw [consume_flags (as := [o.2]) (by simp [actions, ht]) (by rw [Act.flags, hfl]; rfl), hc]
    rfl
  | hosts hst hop _ ih =>
    obtain ⟨args, ha, hc⟩ := ih
    refine ⟨_, classifyAll_of (classify_stands (o := (p!"--hosts", .hosts)) (by decide) hst) (classifyAll_of (classify_operand hop) ha), fun ns => ?_⟩
    rw [consume_hosts_next (as := []) rfl rfl, hc]
    rfl
  | hostsEq hst _ ih =>
    obtain ⟨args, ha, hc⟩ := ih
    refine ⟨_, classifyAll_of (classify_stands_eq (o := (p!"--hosts", .hosts)) (by decide) hst) ha, fun ns => ?_⟩
    rw [consume_hosts_value (as := []) rfl rfl, hc]
    rfl
  | @short n eq r ws hn he _ ih =>
    obtain ⟨args, ha, hc⟩ := ih
    match n, hn, he with
    | n + 1, _, he =>
      by_cases hn0 : n = 0
      · subst hn0
        cases eq with
        | true => exact absurd (he rfl) (by omega)
        | false =>
          refine ⟨_, classifyAll_of (a := .option .verbose false none) rfl ha, fun ns => ?_⟩
          rw [consume_flags (as := [.verbose]) rfl rfl, hc]
          rfl
      · have hne : List.replicate n 118 ≠ ([] : Str) ∧ (List.replicate n 118 : Str).head? ≠ some 61 := by
          cases n with
          | zero => exact absurd rfl hn0
          | succ n => simp [List.replicate_succ]
        rw [manyV_succ]
        refine ⟨_, classifyAll_of (classify_many fun _ => hne) ha, fun ns => ?_⟩
        rw [consume_flags (as := List.replicate (n + 1) .verbose) (by simp [actions, Act.takesValue, cluster_v (n := n) (by omega), List.replicate_succ])
          (flags_replicate ns (n + 1)), hc, grants_append]
  | @shortHosts n eq v r ws he hop _ ih =>
    obtain ⟨args, ha, hc⟩ := ih
    cases n with
    | zero =>
      cases eq with
      | true => exact absurd (he rfl) (by omega)
      | false =>
        refine ⟨_, classifyAll_of (a := .option .hosts false none) rfl (classifyAll_of (classify_operand hop) ha), fun ns => ?_⟩
        rw [consume_hosts_next (as := []) rfl rfl, hc]
        rfl
    | succ n =>
      have hne : List.replicate n 118 ++ p!"H" ≠ ([] : Str) ∧ (List.replicate n 118 ++ p!"H" : Str).head? ≠ some 61 := by
        cases n <;> simp [List.replicate_succ]
      rw [manyV_succ, List.append_assoc]
      refine ⟨_, classifyAll_of (classify_many fun _ => hne) (classifyAll_of (classify_operand hop) ha), fun ns => ?_⟩
      rw [consume_hosts_next (as := List.replicate (n + 1) .verbose) (by simp [actions, Act.takesValue, cluster_vH [] n, List.replicate_succ])
        (flags_replicate ns (n + 1)), hc, grants_append]
      rfl
  | @shortValue n eq v r ws he hv h0 _ ih =>
    obtain ⟨args, ha, hc⟩ := ih
    cases n with
    | zero =>
      cases eq with
      | true => exact absurd (he rfl) (by omega)
      | false =>
        refine ⟨_, classifyAll_of (classify_cluster (c := 72) (act := .hosts) rfl hv (h0 rfl)) ha, fun ns => ?_⟩
        show consume nc tty ns ((_, .option .hosts false (some v)) :: args) = _
        rw [consume_hosts_value (as := []) rfl rfl, hc]
        rfl
    | succ n =>
      have hne : List.replicate n 118 ++ 72 :: v ≠ ([] : Str) ∧ (List.replicate n 118 ++ 72 :: v : Str).head? ≠ some 61 := by
        cases n <;> simp [List.replicate_succ]
      have e : manyV (n + 1) eq ++ p!"H" ++ v = manyV 1 eq ++ (List.replicate n 118 ++ 72 :: v) := by rw [manyV_succ]; simp
      rw [e]
      refine ⟨_, classifyAll_of (classify_many fun _ => hne) ha, fun ns => ?_⟩
      rw [consume_hosts_value (as := List.replicate (n + 1) .verbose) (x := v) (by simp [actions, Act.takesValue, cluster_vH v n, List.replicate_succ, hv])
        (flags_replicate ns (n + 1)), hc, grants_append]
      rfl
  | shortEq _ ih =>
    obtain ⟨args, ha, hc⟩ := ih
    refine ⟨_, classifyAll_of (classify_short_eq (c := 72) (act := .hosts) _ rfl) ha, fun ns => ?_⟩
    rw [consume_hosts_value (as := []) rfl rfl, hc]
    rfl
  | dashes => exact ⟨_, by rw [classifyAll, if_pos rfl], fun ns => by rw [consume, consume_operands]⟩

theorem means_prefix (nc tty : Bool) {argv : List Str} {ws : List Wish} (h : Means argv ws) {post : List Str} {args2 : List (Str × Arg)}
    (hp : classifyAll post = some args2) (hd : p!"--" ∉ argv) :
    ∃ args, classifyAll (argv ++ post) = some args ∧ ∀ ns, consume nc tty ns args = consume nc tty (ns.grants ws) args2 := by
  induction h with
  | nil => exact ⟨args2, hp, fun ns => rfl⟩
  | operand hop _ ih =>
    obtain ⟨args, ha, hc⟩ := ih fun hm => hd (by simp [hm])
    exact ⟨_, classifyAll_of (classify_operand hop) ha, fun ns => by rw [consume, hc]; rfl⟩
  | flag hw hst _ ih =>
    obtain ⟨args, ha, hc⟩ := ih fun hm => hd (by simp [hm])
    obtain ⟨o, ho, he, hwish⟩ := names_table _ hw
    simp only at he
    subst he
    refine ⟨_, classifyAll_of (classify_stands ho hst) ha, fun ns => ?_⟩
    obtain ⟨hfl, ht⟩ := wish_flag (ns := ns) hwish
    rw [consume_flags (as := [o.2]) (by simp [actions, ht]) (by rw [Act.flags, hfl]; rfl), hc]
    rfl
  | hosts hst hop _ ih =>
    obtain ⟨args, ha, hc⟩ := ih fun hm => hd (by simp [hm])
    refine ⟨_, classifyAll_of (classify_stands (o := (p!"--hosts", .hosts)) (by decide) hst) (classifyAll_of (classify_operand hop) ha), fun ns => ?_⟩
    rw [consume_hosts_next (as := []) rfl rfl, hc]
    rfl
  | hostsEq hst _ ih =>
    obtain ⟨args, ha, hc⟩ := ih fun hm => hd (by simp [hm])
    refine ⟨_, classifyAll_of (classify_stands_eq (o := (p!"--hosts", .hosts)) (by decide) hst) ha, fun ns => ?_⟩
    rw [consume_hosts_value (as := []) rfl rfl, hc]
    rfl
  | @short n eq r ws hn he _ ih =>
    obtain ⟨args, ha, hc⟩ := ih fun hm => hd (by simp [hm])
    match n, hn, he with
    | n + 1, _, he =>
      by_cases hn0 : n = 0
      · subst hn0
        cases eq with
        | true => exact absurd (he rfl) (by omega)
        | false =>
          refine ⟨_, classifyAll_of (a := .option .verbose false none) rfl ha, fun ns => ?_⟩
          rw [consume_flags (as := [.verbose]) rfl rfl, hc]
          rfl
      · have hne : List.replicate n 118 ≠ ([] : Str) ∧ (List.replicate n 118 : Str).head? ≠ some 61 := by
          cases n with
          | zero => exact absurd rfl hn0
          | succ n => simp [List.replicate_succ]
        rw [manyV_succ]
        refine ⟨_, classifyAll_of (classify_many fun _ => hne) ha, fun ns => ?_⟩
        rw [consume_flags (as := List.replicate (n + 1) .verbose) (by simp [actions, Act.takesValue, cluster_v (n := n) (by omega), List.replicate_succ])
          (flags_replicate ns (n + 1)), hc, grants_append]
  | @shortHosts n eq v r ws he hop _ ih =>
    obtain ⟨args, ha, hc⟩ := ih fun hm => hd (by simp [hm])
    cases n with
    | zero =>
      cases eq with
      | true => exact absurd (he rfl) (by omega)
      | false =>
        refine ⟨_, classifyAll_of (a := .option .hosts false none) rfl (classifyAll_of (classify_operand hop) ha), fun ns => ?_⟩
        rw [consume_hosts_next (as := []) rfl rfl, hc]
        rfl
    | succ n =>
      have hne : List.replicate n 118 ++ p!"H" ≠ ([] : Str) ∧ (List.replicate n 118 ++ p!"H" : Str).head? ≠ some 61 := by
        cases n <;> simp [List.replicate_succ]
      rw [manyV_succ, List.append_assoc]
      refine ⟨_, classifyAll_of (classify_many fun _ => hne) (classifyAll_of (classify_operand hop) ha), fun ns => ?_⟩
      rw [consume_hosts_next (as := List.replicate (n + 1) .verbose) (by simp [actions, Act.takesValue, cluster_vH [] n, List.replicate_succ])
        (flags_replicate ns (n + 1)), hc, grants_append]
      rfl
  | @shortValue n eq v r ws he hv h0 _ ih =>
    obtain ⟨args, ha, hc⟩ := ih fun hm => hd (by simp [hm])
    cases n with
    | zero =>
      cases eq with
      | true => exact absurd (he rfl) (by omega)
      | false =>
        refine ⟨_, classifyAll_of (classify_cluster (c := 72) (act := .hosts) rfl hv (h0 rfl)) ha, fun ns => ?_⟩
        show consume nc tty ns ((_, .option .hosts false (some v)) :: args) = _
        rw [consume_hosts_value (as := []) rfl rfl, hc]
        rfl
    | succ n =>
      have hne : List.replicate n 118 ++ 72 :: v ≠ ([] : Str) ∧ (List.replicate n 118 ++ 72 :: v : Str).head? ≠ some 61 := by
        cases n <;> simp [List.replicate_succ]
      have e : manyV (n + 1) eq ++ p!"H" ++ v = manyV 1 eq ++ (List.replicate n 118 ++ 72 :: v) := by rw [manyV_succ]; simp
      rw [e]
      refine ⟨_, classifyAll_of (classify_many fun _ => hne) ha, fun ns => ?_⟩
      rw [consume_hosts_value (as := List.replicate (n + 1) .verbose) (x := v) (by simp [actions, Act.takesValue, cluster_vH v n, List.replicate_succ, hv])
        (flags_replicate ns (n + 1)), hc, grants_append]
      rfl
  | shortEq _ ih =>
    obtain ⟨args, ha, hc⟩ := ih fun hm => hd (by simp [hm])
    refine ⟨_, classifyAll_of (classify_short_eq (c := 72) (act := .hosts) _ rfl) ha, fun ns => ?_⟩
    rw [consume_hosts_value (as := []) rfl rfl, hc]
    rfl
  | dashes => exact absurd (by simp) hd

theorem grants_operands (ns : Namespace) (ws : List Wish) : (ns.grants ws).operands = ns.operands ++ operandsOf ws := by
  induction ws generalizing ns with
  | nil => simp [Namespace.grants, operandsOf]
  | cons w ws ih =>
    refine (ih (ns.grant w)).trans ?_
    cases w <;> simp [Namespace.grant, operandsOf]

theorem grants_hosts (ns : Namespace) (ws : List Wish) : (ns.grants ws).hosts = (hostsOf ws).or ns.hosts := by
  induction ws generalizing ns with
  | nil => simp [Namespace.grants, hostsOf]
  | cons w ws ih =>
    refine (ih (ns.grant w)).trans ?_
    cases w <;> simp [Namespace.grant, hostsOf, List.getLast?_cons]

theorem grants_opts (ns : Namespace) (ws : List Wish) : (ns.grants ws).opts =
    { noColor := ns.opts.noColor || decide (.noColor ∈ ws), dry := ns.opts.dry || decide (.dry ∈ ws), debug := ns.opts.debug || decide (.debug ∈ ws),
      verbose := ns.opts.verbose + ws.count .verbose, changes := ns.opts.changes && decide (.noChanges ∉ ws), diff := ns.opts.diff || decide (.diff ∈ ws) } := by
  induction ws generalizing ns with
  | nil => simp [Namespace.grants]
  | cons w ws ih =>
    refine (ih (ns.grant w)).trans ?_
    cases w <;> simp [Namespace.grant, List.count_cons] <;> omega

theorem finish_iff {nc tty : Bool} {ws : List Wish} {o : Options} {h : Option Str} {i c : Str} :
    finish nc tty (({} : Namespace).grants ws) = .run o h i c ↔ operandsOf ws = [i, c] ∧ h = hostsOf ws ∧ o = optionsOf nc tty ws := by
  have he : effective (({} : Namespace).grants ws).opts nc tty = optionsOf nc tty ws := by
    rw [grants_opts]
    simp [effective, optionsOf]
  unfold finish
  rw [grants_extras, he, grants_operands, grants_hosts]
  simp only [List.nil_append, Option.or_none]
  constructor
  · intro hf
    split at hf
    · next h1 h2 => cases hf; exact ⟨h2, rfl, rfl⟩
    · cases hf
  · rintro ⟨h1, rfl, rfl⟩
    rw [h1]

/-! ### Ambiguous arguments -/

theorem classify_none {s : Str} : classify s = none ↔ Ambiguous s := by
  constructor
  · intro h
    match s, h with
    | [], h => cases h
    | [x], h => cases h
    | d :: c :: rest, h =>
      by_cases hd : d = 45
      · subst hd
        by_cases hno : NoOption (45 :: c :: rest)
        · rw [classify_noOption hno] at h
          split at h <;> cases h
        · by_cases hc : c = 45
          · subst hc
            have hd : p!"--" <+: beforeEq (45 :: 45 :: rest) := by rw [beforeEq_dash (by decide)]; exact ⟨_, rfl⟩
            rw [classify_dash] at h
            cases hl : optionTable.lookup (45 :: 45 :: rest) with
            | some act => rw [hl] at h; cases h
            | none =>
              rw [hl] at h
              simp only [splitValue_fst, if_true] at h
              have hb : optionTable.lookup (beforeEq (45 :: 45 :: rest)) = none := by
                cases hb : optionTable.lookup (beforeEq (45 :: 45 :: rest)) with
                | none => rfl
                | some act =>
                  exfalso
                  cases hv : (splitValue (45 :: 45 :: rest)).2 with
                  | none => rw [splitValue_none hv, hl] at hb; cases hb
                  | some v => rw [hv, hb] at h; cases h
              rw [hb] at h
              generalize (splitValue (45 :: 45 :: rest)).2 = v at h
              have hm : ∃ m m' l, longMatches (beforeEq (45 :: 45 :: rest)) v = m :: m' :: l := by
                cases hm : longMatches (beforeEq (45 :: 45 :: rest)) v with
                | nil =>
                  rw [longMatches_nil] at hm
                  rw [noOption_long] at hno
                  exact absurd (fun n hn hp => by
                    obtain ⟨o, ho, rfl⟩ := long_table n hn
                    exact hm o ho hp) hno
                | cons m l =>
                  cases l with
                  | nil => cases v <;> simp only [hm] at h <;> cases h
                  | cons m' l => exact ⟨m, m', l, rfl⟩
              obtain ⟨m, m', l, hm⟩ := hm
              unfold longMatches at hm
              have hnd : (optionTable.filter fun o => startsWith o.1 (beforeEq (45 :: 45 :: rest))).Nodup :=
                List.Pairwise.filter _ (by decide : optionTable.Nodup)
              generalize hf : (optionTable.filter fun o => startsWith o.1 (beforeEq (45 :: 45 :: rest))) = F at hm hnd
              match F, hf, hm, hnd with
              | [], _, hm, _ => cases hm
              | [o], _, hm, _ => cases hm
              | o :: o' :: l, hf, _, hnd =>
                have h1 : o ∈ optionTable.filter fun o => startsWith o.1 (beforeEq (45 :: 45 :: rest)) := by rw [hf]; simp
                have h2 : o' ∈ optionTable.filter fun o => startsWith o.1 (beforeEq (45 :: 45 :: rest)) := by rw [hf]; simp
                obtain ⟨h1, hp1⟩ := List.mem_filter.mp h1
                obtain ⟨h2, hp2⟩ := List.mem_filter.mp h2
                rw [starts_iff] at hp1 hp2
                refine ⟨⟨rest, rfl⟩, ?_, o.1, table_long o h1 (hd.trans hp1), o'.1, table_long o' h2 (hd.trans hp2), ?_, hp1, hp2⟩
                · intro hm
                  obtain ⟨x, hx, he⟩ := long_table _ hm
                  rw [← he, lookup_of_table hx] at hb
                  cases hb
                · intro he
                  have := table_unique h1 h2 he
                  simp [this] at hnd
          · rw [noOption_short hc] at hno
            cases hl : optionTable.lookup [45, c] with
            | none => exact absurd hl hno
            | some act =>
              match rest, h with
              | [], h => rw [classify_short hl] at h; cases h
              | x :: v, h =>
                by_cases hx : x = 61
                · subst hx; rw [classify_short_eq v hl] at h; cases h
                · rw [classify_cluster hl (by simp) (by simpa using hx)] at h; cases h
      · rw [classify.eq_def] at h
        simp only [ne_eq, hd, not_false_eq_true, if_true] at h
        cases h
  · rintro ⟨⟨rest, rfl⟩, hn, n, hn1, m, hn2, hne, hp1, hp2⟩
    show classify (45 :: 45 :: rest) = none
    have hb : optionTable.lookup (beforeEq (45 :: 45 :: rest)) = none := by
      cases hb : optionTable.lookup (beforeEq (45 :: 45 :: rest)) with
      | none => rfl
      | some a =>
        have hd : p!"--" <+: beforeEq (45 :: 45 :: rest) := by rw [beforeEq_dash (by decide)]; exact ⟨_, rfl⟩
        exact absurd (table_long _ (lookup_table_mem hb) hd) hn
    have hl : optionTable.lookup (45 :: 45 :: rest) = none := by
      cases hl : optionTable.lookup (45 :: 45 :: rest) with
      | none => rfl
      | some a =>
        have h61 := (table_dash _ (lookup_table_mem hl)).2.2
        have := splitValue_fst (45 :: 45 :: rest)
        rw [splitValue_absent h61] at this
        rw [← this, hl] at hb
        cases hb
    rw [classify_dash, hl]
    simp only [splitValue_fst, if_true, hb]
    generalize (splitValue (45 :: 45 :: rest)).2 = v
    obtain ⟨o, ho, rfl⟩ := long_table n hn1
    obtain ⟨o', ho', rfl⟩ := long_table m hn2
    cases hm : longMatches (beforeEq (45 :: 45 :: rest)) v with
    | nil => rw [longMatches_nil] at hm; exact absurd hp1 (hm o ho)
    | cons x l =>
      cases l with
      | nil =>
        obtain ⟨y, _, _, _, hu⟩ := longMatches_one hm
        exact absurd (congrArg Prod.fst ((hu o ho hp1).trans (hu o' ho' hp2).symm)) hne
      | cons x' l => cases v <;> simp [hm]

theorem classifyAll_none {argv : List Str} : classifyAll argv = none ↔ ∃ s ∈ beforeDashes argv, Ambiguous s := by
  unfold beforeDashes
  induction argv with
  | nil => simp [classifyAll]
  | cons s r ih =>
    rw [classifyAll]
    by_cases hs : s = p!"--"
    · rw [if_pos hs]
      simp [hs]
    · rw [if_neg hs, List.takeWhile_cons_of_pos (by simpa using hs)]
      cases ha : classify s with
      | none => exact ⟨fun _ => ⟨s, by simp, classify_none.mp ha⟩, fun _ => rfl⟩
      | some a =>
        have hna : ¬ Ambiguous s := fun h => by rw [classify_none.mpr h] at ha; cases ha
        cases hr : classifyAll r with
        | none =>
          obtain ⟨x, hx, hax⟩ := ih.mp hr
          exact ⟨fun _ => ⟨x, by simp [hx], hax⟩, fun _ => rfl⟩
        | some args =>
          refine ⟨nofun, ?_⟩
          rintro ⟨x, hx, hax⟩
          rcases List.mem_cons.mp hx with rfl | hx
          · exact absurd hax hna
          · rw [ih.mpr ⟨x, hx, hax⟩] at hr
            cases hr

/-! ### Functions that are called at once -/

/-- How the program ends, the option for this and its value. -/
def Asked (out : Outcome) (act : Act) (name v : Str) : Prop :=
  (out = .init v ∧ act = .init ∧ name = p!"--init" ∧ v ∈ initChoices) ∨ (out = .inspect v ∧ act = .inspect ∧ name = p!"--inspect-inventory")

theorem asked_flags {out : Outcome} {act : Act} {name v : Str} (h : Asked out act name v) {ns : Namespace} {as : List Act} : Act.flags ns as ≠ .inr out := by
  induction as generalizing ns with
  | nil => intro hf; cases hf
  | cons a as ih =>
    intro hf
    rw [Act.flags] at hf
    cases hfa : a.flag ns with
    | inl ns1 => rw [hfa] at hf; exact ih hf
    | inr y =>
      rw [hfa] at hf
      cases hf
      rcases h with ⟨rfl, _⟩ | ⟨rfl, _⟩ <;> cases a <;> cases hfa

theorem asked_value {out : Outcome} {act a : Act} {name v x : Str} (h : Asked out act name v) {ns : Namespace} (hv : a.value ns x = .inr out) : a = act ∧ x = v := by
  rcases h with ⟨rfl, rfl, _, _⟩ | ⟨rfl, rfl, _⟩ <;> cases a <;> simp [Act.value] at hv
  · split at hv
    · cases hv; exact ⟨rfl, rfl⟩
    · cases hv
  · split at hv <;> cases hv
  · exact ⟨rfl, hv⟩

theorem asked_usage {out : Outcome} {act : Act} {name v : Str} (h : Asked out act name v) : out ≠ .usage := by
  rcases h with ⟨rfl, _⟩ | ⟨rfl, _⟩ <;> exact nofun

theorem asked_finish {out : Outcome} {act : Act} {name v : Str} (h : Asked out act name v) {nc tty : Bool} {ns : Namespace} : finish nc tty ns ≠ out := by
  unfold finish
  split
  · rcases h with ⟨rfl, _⟩ | ⟨rfl, _⟩ <;> exact nofun
  · exact (asked_usage h).symm

theorem asked_table {out : Outcome} {act : Act} {name v : Str} (h : Asked out act name v) : ∀ o ∈ optionTable, p!"--" <+: o.1 → o.2 = act → o.1 = name := by
  rcases h with ⟨_, rfl, rfl, _⟩ | ⟨_, rfl, rfl⟩ <;> decide

theorem asked_short {out : Outcome} {act : Act} {name v : Str} (h : Asked out act name v) (c : Nat) : optionTable.lookup [45, c] ≠ some act := by
  intro hl
  rcases h with ⟨_, rfl, rfl, _⟩ | ⟨_, rfl, rfl⟩ <;> rcases short_single hl with rfl | rfl | rfl | rfl <;> cases hl

theorem asked_name {out : Outcome} {act : Act} {name v : Str} (h : Asked out act name v) : (name, act) ∈ optionTable ∧ act.takesValue = true ∧ ∀ ns, act.value ns v = .inr out := by
  rcases h with ⟨rfl, rfl, rfl, hv⟩ | ⟨rfl, rfl, rfl⟩
  · exact ⟨by decide, rfl, fun ns => by simp [Act.value, hv]⟩
  · exact ⟨by decide, rfl, fun ns => rfl⟩

theorem cluster_act {x : Str} {as : List Act} {l : Option (Act × Option Str)} (h : cluster x = some (as, l)) : ∀ a v, l = some (a, v) → a = .hosts := by
  induction x generalizing as with
  | nil => cases h
  | cons c rest ih =>
    rw [cluster] at h
    cases hl : optionTable.lookup [45, c] with
    | none => rw [hl] at h; cases h
    | some act =>
      rw [hl] at h
      simp only at h
      cases ht : act.takesValue with
      | true =>
        simp only [ht, if_true] at h
        cases h
        rintro a v he
        cases he
        exact (short_value hl ht).2
      | false =>
        simp only [ht, Bool.false_eq_true, if_false] at h
        by_cases hr : rest = []
        · rw [if_pos hr] at h
          cases h
          exact nofun
        · rw [if_neg hr] at h
          cases hc : cluster rest with
          | none => rw [hc] at h; cases h
          | some p =>
            obtain ⟨as', l'⟩ := p
            rw [hc] at h
            cases h
            exact ih hc

theorem actions_act {act : Act} {long : Bool} {v : Option Str} {as : List Act} {a : Act} {x : Option Str} (h : actions act long v = some (as, some (a, x)))
    (ha : a ≠ .hosts) : act = a ∧ v = x := by
  unfold actions at h
  split at h
  · simp at h; exact h.2
  · split at h
    · cases h
    · split at h
      · cases h
      · next y _ =>
        cases hc : cluster y with
        | none => rw [hc] at h; cases h
        | some p =>
          obtain ⟨as', l'⟩ := p
          rw [hc] at h
          simp at h
          exact absurd (cluster_act hc _ _ h.2) ha

/-- What has happened if a function is called at once after an option. -/
theorem consume_option_asked {out : Outcome} {a : Act} {name w : Str} (hask : Asked out a name w) {nc tty : Bool} {ns : Namespace} {s : Str} {act : Act} {long : Bool}
    {v : Option Str} {rest : List (Str × Arg)} (hr : consume nc tty ns ((s, .option act long v) :: rest) = out) :
    (act = a ∧ v = some w) ∨ (act = a ∧ v = none ∧ ∃ rest', rest = (w, .operand) :: rest') ∨ (∃ ns', consume nc tty ns' rest = out)
      ∨ ∃ x rest' ns', rest = (x, .operand) :: rest' ∧ consume nc tty ns' rest' = out := by
  have hnh : a ≠ .hosts := by rcases hask with ⟨_, rfl, _⟩ | ⟨_, rfl, _⟩ <;> decide
  rw [consume_option] at hr
  cases ha : actions act long v with
  | none => rw [ha] at hr; exact absurd hr.symm (asked_usage hask)
  | some p =>
    obtain ⟨as, l⟩ := p
    rw [ha] at hr
    match l, hr with
    | none, hr =>
      simp only at hr
      cases hf : Act.flags ns as with
      | inr y => rw [hf] at hr; simp only at hr; subst hr; exact absurd hf (asked_flags hask)
      | inl ns1 => rw [hf] at hr; exact .inr (.inr (.inl ⟨ns1, hr⟩))
    | some (act', some x), hr =>
      simp only at hr
      cases hf : Act.flags ns as with
      | inr y => rw [hf] at hr; simp only at hr; subst hr; exact absurd hf (asked_flags hask)
      | inl ns1 =>
        rw [hf] at hr
        simp only at hr
        cases hv : act'.value ns1 x with
        | inl ns2 => rw [hv] at hr; exact .inr (.inr (.inl ⟨ns2, hr⟩))
        | inr y =>
          rw [hv] at hr
          simp only at hr
          subst hr
          obtain ⟨rfl, rfl⟩ := asked_value hask hv
          obtain ⟨h1, h2⟩ := actions_act ha hnh
          exact .inl ⟨h1, h2⟩
    | some (act', none), hr =>
      match rest, hr with
      | (x, .operand) :: rest, hr =>
        simp only at hr
        cases hf : Act.flags ns as with
        | inr y => rw [hf] at hr; simp only at hr; subst hr; exact absurd hf (asked_flags hask)
        | inl ns1 =>
          rw [hf] at hr
          simp only at hr
          cases hv : act'.value ns1 x with
          | inl ns2 => rw [hv] at hr; exact .inr (.inr (.inr ⟨x, rest, ns2, rfl, hr⟩))
          | inr y =>
            rw [hv] at hr
            simp only at hr
            subst hr
            obtain ⟨rfl, rfl⟩ := asked_value hask hv
            obtain ⟨h1, h2⟩ := actions_act ha hnh
            exact .inr (.inl ⟨h1, h2, rest, rfl⟩)
      | [], hr => exact absurd hr.symm (asked_usage hask)
      | (x, .unknown) :: rest, hr => exact absurd hr.symm (asked_usage hask)
      | (x, .dashes) :: rest, hr => exact absurd hr.symm (asked_usage hask)
      | (x, .option ..) :: rest, hr => exact absurd hr.symm (asked_usage hask)

theorem consume_asked {out : Outcome} {a : Act} {name w : Str} (hask : Asked out a name w) {nc tty : Bool} : ∀ (k : Nat) {argv : List Str}
    {args : List (Str × Arg)} {ns : Namespace}, argv.length ≤ k → classifyAll argv = some args → consume nc tty ns args = out →
    ∃ pre post, argv = pre ++ post ∧ p!"--" ∉ pre ∧ Given name w post
  | _, [], args, ns, _, ha, hr => by
    cases ha
    rw [consume] at hr
    exact absurd hr (asked_finish hask)
  | 0, _ :: _, _, _, hk, _, _ => by simp at hk
  | k + 1, s :: r, args, ns, hlen, ha, hr => by
    have hk : r.length ≤ k := by simpa using hlen
    by_cases hs : s = p!"--"
    · subst hs
      rw [classifyAll, if_pos rfl] at ha
      cases ha
      rw [consume, consume_operands] at hr
      exact absurd hr (asked_finish hask)
    obtain ⟨b, rest, hcl, hall, rfl⟩ := classifyAll_cons hs ha
    have ext : (∃ pre post, r = pre ++ post ∧ p!"--" ∉ pre ∧ Given name w post) → ∃ pre post, s :: r = pre ++ post ∧ p!"--" ∉ pre ∧ Given name w post := by
      rintro ⟨pre, post, rfl, hp, hg⟩
      exact ⟨s :: pre, post, rfl, by simp only [List.mem_cons, not_or]; exact ⟨fun e => hs e.symm, hp⟩, hg⟩
    have opt : ∀ {act long v}, b = .option act long v → (act = a → ∃ n, Stands n name ∧ ((v = none ∧ s = n) ∨ ∃ x, v = some x ∧ s = n ++ p!"=" ++ x)) →
        ∃ pre post, s :: r = pre ++ post ∧ p!"--" ∉ pre ∧ Given name w post := by
      rintro act long v rfl hact
      rcases consume_option_asked hask hr with ⟨h1, h2⟩ | ⟨h1, h2, rest', rfl⟩ | ⟨ns', hc⟩ | ⟨x, rest', ns', rfl, hc⟩
      · obtain ⟨n, hst, ⟨h3, _⟩ | ⟨x, h3, rfl⟩⟩ := hact h1
        · rw [h3] at h2; cases h2
        · rw [h3] at h2
          cases h2
          exact ⟨[], _, rfl, by simp, n, r, hst, .inr rfl⟩
      · obtain ⟨n, hst, ⟨_, rfl⟩ | ⟨x, h3, _⟩⟩ := hact h1
        · obtain ⟨r', rfl, hop, _⟩ := classifyAll_operand hall
          exact ⟨[], _, rfl, by simp, s, r', hst, .inl ⟨rfl, hop⟩⟩
        · rw [h3] at h2; cases h2
      · exact ext (consume_asked hask k hk hall hc)
      · obtain ⟨r', rfl, hop, hr'⟩ := classifyAll_operand hall
        obtain ⟨pre, post, rfl, hp, hg⟩ := consume_asked hask k (by simp at hk; omega) hr' hc
        refine ext ⟨x :: pre, post, rfl, ?_, hg⟩
        simp only [List.mem_cons, not_or]
        exact ⟨fun e => classify_dashes (classify_operand hop) e.symm, hp⟩
    rcases classify_sound hcl with ⟨rfl, hop⟩ | rfl | ⟨op, hop, hst, rfl⟩ | ⟨n, v, op, hop, rfl, hst, rfl⟩ | ⟨ch, act, hl, rfl, rfl⟩
      | ⟨ch, v, act, hl, rfl, rfl⟩ | ⟨ch, v, act, hl, rfl, hv, he, rfl⟩
    · rw [consume] at hr
      exact ext (consume_asked hask k hk hall hr)
    · rw [consume] at hr
      exact ext (consume_asked hask k hk hall hr)
    · exact opt rfl fun e => ⟨s, asked_table hask op hop (hst.1.trans hst.2.2.1) e ▸ hst, .inl ⟨rfl, rfl⟩⟩
    · exact opt rfl fun e => ⟨n, asked_table hask op hop (hst.1.trans hst.2.2.1) e ▸ hst, .inr ⟨v, rfl, rfl⟩⟩
    · exact opt rfl fun e => absurd (e ▸ hl) (asked_short hask ch)
    · exact opt rfl fun e => absurd (e ▸ hl) (asked_short hask ch)
    · exact opt rfl fun e => absurd (e ▸ hl) (asked_short hask ch)

/-! ### Dry runs -/

theorem manyV_dashes {n : Nat} {eq : Bool} {x : Str} (h : 1 ≤ n ∨ eq = false ∧ ∃ y, x = 72 :: y) : ¬ p!"--" <+: manyV n eq ++ x := by
  rintro ⟨t, ht⟩
  rcases h with h | ⟨rfl, y, rfl⟩
  · cases n with
    | zero => omega
    | succ n => rw [manyV_succ] at ht; cases eq <;> simp [manyV] at ht
  · cases n with
    | zero => simp [manyV] at ht
    | succ n => rw [manyV_succ] at ht; simp [manyV] at ht

/-- There is an argument that asks for a dry run. -/
def AsksDry (argv : List Str) : Prop := ∃ s ∈ beforeDashes argv, ∃ name, (name, Wish.dry) ∈ wishNames ∧ Stands s name

theorem asksDry_cons {s : Str} {r : List Str} (hs : s ≠ p!"--") (hn : ∀ name, (name, Wish.dry) ∈ wishNames → ¬ Stands s name) : AsksDry (s :: r) ↔ AsksDry r := by
  unfold AsksDry beforeDashes
  rw [List.takeWhile_cons_of_pos (by simpa using hs)]
  constructor
  · rintro ⟨x, hx, name, hm, hst⟩
    rcases List.mem_cons.mp hx with rfl | hx
    · exact absurd hst (hn name hm)
    · exact ⟨x, hx, name, hm, hst⟩
  · rintro ⟨x, hx, h⟩
    exact ⟨x, List.mem_cons_of_mem _ hx, h⟩

theorem asksDry_single {s : Str} {r : List Str} (hs : ¬ p!"--" <+: s) : AsksDry (s :: r) ↔ AsksDry r :=
  asksDry_cons (fun e => hs (e ▸ List.prefix_refl _)) fun _ _ h => hs h.1

theorem asksDry_classified {s : Str} {a : Arg} {r : List Str} (hc : classify s = some a) (ha : ∀ act, act.wish = some Wish.dry → a ≠ .option act true none) :
    AsksDry (s :: r) ↔ AsksDry r :=
  asksDry_cons (classify_dashes hc) fun name hn hst => by
    obtain ⟨o, ho, he, hwish⟩ := names_table _ hn
    simp only at he hwish
    subst he
    rw [classify_stands ho hst] at hc
    exact ha o.2 hwish (Option.some.inj hc).symm

theorem means_dry {argv : List Str} {ws : List Wish} (h : Means argv ws) : .dry ∈ ws ↔ AsksDry argv := by
  induction h with
  | nil => simp [AsksDry, beforeDashes]
  | operand hop _ ih =>
    rw [asksDry_classified (classify_operand hop) fun _ _ => nofun]
    simpa using ih
  | @flag s name w r ws hw hst _ ih =>
    obtain ⟨o, ho, he, hwish⟩ := names_table _ hw
    simp only at he hwish
    subst he
    have hc := classify_stands ho hst
    by_cases hd : w = .dry
    · subst hd
      refine ⟨fun _ => ⟨s, ?_, _, hw, hst⟩, fun _ => by simp⟩
      unfold beforeDashes
      rw [List.takeWhile_cons_of_pos (by simpa using classify_dashes hc)]
      simp
    · rw [asksDry_classified hc fun a ha he => hd (by cases he; rw [hwish] at ha; exact Option.some.inj ha)]
      simpa [Ne.symm hd] using ih
  | hosts hst hop _ ih =>
    rw [asksDry_classified (classify_stands (o := (p!"--hosts", .hosts)) (by decide) hst) (fun a ha he => by cases he; cases ha),
      asksDry_classified (classify_operand hop) fun _ _ => nofun]
    simpa using ih
  | hostsEq hst _ ih =>
    rw [asksDry_classified (classify_stands_eq (o := (p!"--hosts", .hosts)) (by decide) hst) fun _ _ => nofun]
    simpa using ih
  | @short n eq r ws hn he _ ih =>
    have := manyV_dashes (n := n) (eq := eq) (x := []) (.inl hn)
    rw [List.append_nil] at this
    rw [asksDry_single this]
    simpa using ih
  | @shortHosts n eq v r ws he hop _ ih =>
    have : 1 ≤ n ∨ eq = false ∧ ∃ y, p!"H" = 72 :: y := by
      cases eq with
      | true => exact .inl (he rfl)
      | false => exact .inr ⟨rfl, [], rfl⟩
    rw [asksDry_single (manyV_dashes this), asksDry_classified (classify_operand hop) fun _ _ => nofun]
    simpa using ih
  | @shortValue n eq v r ws he hv h0 _ ih =>
    have : 1 ≤ n ∨ eq = false ∧ ∃ y, p!"H" ++ v = 72 :: y := by
      cases eq with
      | true => exact .inl (he rfl)
      | false => exact .inr ⟨rfl, v, rfl⟩
    rw [List.append_assoc, asksDry_single (manyV_dashes this)]
    simpa using ih
  | @shortEq v r ws _ ih =>
    rw [asksDry_single (by rintro ⟨t, ht⟩; simp at ht)]
    simpa using ih
  | dashes => simp [AsksDry, beforeDashes]

theorem consume_given {nc tty : Bool} {ns : Namespace} {o : Str × Act} {v : Str} {post : List Str} {args : List (Str × Arg)} (ho : o ∈ optionTable)
    (ht : o.2.takesValue = true) (hg : Given o.1 v post) (hc : classifyAll post = some args) :
    ∃ rest, consume nc tty ns args = match o.2.value ns v with | .inr out => out | .inl ns => consume nc tty ns rest := by
  obtain ⟨s, r, hst, ⟨rfl, hop⟩ | rfl⟩ := hg
  · obtain ⟨a, rest, h1, h2, rfl⟩ := classifyAll_cons (classify_dashes (classify_stands ho hst)) hc
    rw [classify_stands ho hst] at h1
    cases h1
    obtain ⟨b, rest', h3, h4, rfl⟩ := classifyAll_cons (classify_dashes (classify_operand hop)) h2
    rw [classify_operand hop] at h3
    cases h3
    exact ⟨rest', by rw [consume_option]; simp only [actions, ht, if_true, Act.flags]⟩
  · obtain ⟨a, rest, h1, h2, rfl⟩ := classifyAll_cons (classify_dashes (classify_stands_eq ho hst)) hc
    rw [classify_stands_eq ho hst] at h1
    cases h1
    exact ⟨rest, by rw [consume_option]; simp only [actions, ht, if_true, Act.flags]⟩

theorem value_init {ns : Namespace} {a : Act} {x v : Str} (h : a.value ns x = .inr (.init v)) : v ∈ initChoices := by
  cases a <;> simp [Act.value] at h
  split at h
  · next hx => cases h; exact hx
  · cases h

theorem flags_init {ns : Namespace} {as : List Act} {v : Str} : Act.flags ns as ≠ .inr (.init v) := by
  induction as generalizing ns with
  | nil => intro hf; cases hf
  | cons a as ih =>
    intro hf
    rw [Act.flags] at hf
    cases hfa : a.flag ns with
    | inl ns1 => rw [hfa] at hf; exact ih hf
    | inr y => rw [hfa] at hf; cases hf; cases a <;> cases hfa

theorem consume_init_choice {nc tty : Bool} {v : Str} : ∀ (k : Nat) {args : List (Str × Arg)} {ns : Namespace}, args.length ≤ k →
    consume nc tty ns args = .init v → v ∈ initChoices
  | _, [], ns, _, hr => by
    rw [consume] at hr
    unfold finish at hr
    split at hr <;> cases hr
  | 0, _ :: _, _, hn, _ => by simp at hn
  | k + 1, (s, a) :: rest, ns, hlen, hr => by
    have hk : rest.length ≤ k := by simpa using hlen
    match a, hr with
    | .operand, hr => rw [consume] at hr; exact consume_init_choice k hk hr
    | .dashes, hr => rw [consume] at hr; exact consume_init_choice k hk hr
    | .unknown, hr => rw [consume] at hr; exact consume_init_choice k hk hr
    | .option act long x, hr =>
      rw [consume_option] at hr
      split at hr
      · cases hr
      · split at hr
        · next hf => rw [hr] at hf; exact absurd hf flags_init
        · exact consume_init_choice k hk hr
      · split at hr
        · next hf => rw [hr] at hf; exact absurd hf flags_init
        · split at hr
          · next hv => rw [hr] at hv; exact value_init hv
          · exact consume_init_choice k hk hr
      · split at hr
        · split at hr
          · next hf => rw [hr] at hf; exact absurd hf flags_init
          · split at hr
            · next hv => rw [hr] at hv; exact value_init hv
            · exact consume_init_choice k (by simp at hk; omega) hr
        · cases hr

end Verif.Run
