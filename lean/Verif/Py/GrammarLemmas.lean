/-
`int(text, base)` accepts exactly the numbers of `NumSpec`.
-/
import Verif.Py.NumSpec

namespace Verif.Py

theorem zeros_apart : ∀ z ∈ digitZeros, ∀ z' ∈ digitZeros, z = z' ∨ z + 10 ≤ z' ∨ z' + 10 ≤ z := by decide +kernel

theorem digitVal_iff {c d : Nat} : digitVal c = some d ↔ IsDigit c d := by
  unfold digitVal IsDigit
  constructor
  · intro h
    rw [Option.map_eq_some_iff] at h
    obtain ⟨z, hz, rfl⟩ := h
    have h1 := List.find?_some hz
    have h2 := List.mem_of_find?_eq_some hz
    simp only [Bool.and_eq_true, decide_eq_true_eq] at h1
    exact ⟨by omega, z, h2, by omega⟩
  · rintro ⟨hd, z, hz, rfl⟩
    cases hf : digitZeros.find? fun z' => z' ≤ z + d && z + d < z' + 10 with
    | none =>
      rw [List.find?_eq_none] at hf
      have := hf z hz
      simp only [Bool.and_eq_true, decide_eq_true_eq] at this
      omega
    | some z' =>
      have h1 := List.find?_some hf
      have h2 := List.mem_of_find?_eq_some hf
      simp only [Bool.and_eq_true, decide_eq_true_eq] at h1
      rcases zeros_apart z hz z' h2 with rfl | h | h
      · simp
      · omega
      · omega

theorem digit_not_space {c d : Nat} (h : IsDigit c d) : isSpace c = false := by
  obtain ⟨hd, z, hz, rfl⟩ := h
  have : ∀ z ∈ digitZeros, ∀ d, d < 10 → isSpace (z + d) = false := by decide +kernel
  exact this z hz d hd

theorem digit_not_sign {c d : Nat} (h : IsDigit c d) : c ≠ 43 ∧ c ≠ 45 ∧ c ≠ 95 ∧ c ≠ 111 ∧ c ≠ 79 := by
  obtain ⟨hd, z, hz, rfl⟩ := h
  have : ∀ z ∈ digitZeros, ∀ d, d < 10 → z + d ≠ 43 ∧ z + d ≠ 45 ∧ z + d ≠ 95 ∧ z + d ≠ 111 ∧ z + d ≠ 79 := by decide +kernel
  exact this z hz d hd

theorem parseDigits_cons {base : Nat} {c d : Nat} {s : Str} {acc : Nat} {prev : Bool} (h : IsDigit c d) (hb : d < base) :
    parseDigits base (c :: s) acc prev = parseDigits base s (acc * base + d) true := by
  rw [parseDigits, if_neg (digit_not_sign h).2.2.1, digitVal_iff.mpr h]
  simp [hb]

theorem Digits.parse {base : Nat} {s : Str} {n : Nat} (h : Digits base s n) : ∀ r, parseDigits base (s ++ r) 0 false = parseDigits base r n true := by
  induction h with
  | one h hb => intro r; rw [List.singleton_append, parseDigits_cons h hb]; simp
  | more hs h hb ih => intro r; rw [List.append_assoc, ih, List.singleton_append, parseDigits_cons h hb]
  | under hs h hb ih =>
    intro r
    rw [List.append_assoc, ih]
    show parseDigits base (95 :: _ :: r) _ true = _
    rw [parseDigits, if_pos rfl, if_pos rfl, parseDigits_cons h hb]

theorem parse_digit {base c : Nat} {s : Str} {acc n : Nat} {prev : Bool} (hc : c ≠ 95) (h : parseDigits base (c :: s) acc prev = some n) :
    ∃ d, IsDigit c d ∧ d < base ∧ parseDigits base s (acc * base + d) true = some n := by
  rw [parseDigits, if_neg hc] at h
  cases hd : digitVal c with
  | none => rw [hd] at h; cases h
  | some d =>
    rw [hd] at h
    simp only at h
    split at h
    · next hb => exact ⟨d, digitVal_iff.mp hd, hb, h⟩
    · cases h

theorem digits_of_parse {base : Nat} : ∀ (s t : Str) (acc n : Nat), Digits base t acc →
    (parseDigits base s acc true = some n → Digits base (t ++ s) n) ∧ (parseDigits base s acc false = some n → Digits base (t ++ 95 :: s) n)
  | [], t, acc, n, ht => by
    refine ⟨fun h => ?_, fun h => ?_⟩
    · simp only [parseDigits, if_true, Option.some.injEq] at h
      subst h; simpa using ht
    · simp [parseDigits] at h
  | c :: s, t, acc, n, ht => by
    by_cases hc : c = 95
    · subst hc
      refine ⟨fun h => ?_, fun h => ?_⟩
      · rw [parseDigits, if_pos rfl, if_pos rfl] at h
        exact (digits_of_parse s t acc n ht).2 h
      · rw [parseDigits, if_pos rfl] at h; simp at h
    · refine ⟨fun h => ?_, fun h => ?_⟩
      · obtain ⟨d, hd, hb, h⟩ := parse_digit hc h
        have := (digits_of_parse s (t ++ [c]) _ n (.more ht hd hb)).1 h
        simpa using this
      · obtain ⟨d, hd, hb, h⟩ := parse_digit hc h
        have := (digits_of_parse s (t ++ [95, c]) _ n (.under ht hd hb)).1 h
        simpa using this

theorem parseDigits_iff {base : Nat} {s : Str} {n : Nat} : parseDigits base s 0 false = some n ↔ Digits base s n := by
  constructor
  · intro h
    cases s with
    | nil => simp [parseDigits] at h
    | cons c s =>
      by_cases hc : c = 95
      · subst hc; rw [parseDigits, if_pos rfl] at h; simp at h
      · obtain ⟨d, hd, hb, h⟩ := parse_digit hc h
        rw [Nat.zero_mul, Nat.zero_add] at h
        simpa using (digits_of_parse s [c] d n (.one hd hb)).1 h
  · intro h
    have := h.parse []
    rw [List.append_nil] at this
    rw [this]; rfl

theorem Digits.head {base : Nat} {s : Str} {n : Nat} (h : Digits base s n) : ∃ c d r, IsDigit c d ∧ s = c :: r := by
  induction h with
  | one h _ => exact ⟨_, _, [], h, rfl⟩
  | more _ _ _ ih => obtain ⟨c, d, r, h, rfl⟩ := ih; exact ⟨c, d, _, h, rfl⟩
  | under _ _ _ ih => obtain ⟨c, d, r, h, rfl⟩ := ih; exact ⟨c, d, _, h, rfl⟩

theorem Digits.last {base : Nat} {s : Str} {n : Nat} (h : Digits base s n) : ∃ c d r, IsDigit c d ∧ s = r ++ [c] := by
  induction h with
  | one h _ => exact ⟨_, _, [], h, rfl⟩
  | more _ h _ _ => exact ⟨_, _, _, h, rfl⟩
  | @under s n c d _ h _ _ => exact ⟨c, d, s ++ [95], h, by simp⟩

/-- No digits begin with a prefix. -/
theorem Digits.no_lead {base : Nat} {s : Str} {n : Nat} (h : Digits base s n) : ∀ a b r, s = a :: b :: r → b ≠ 111 ∧ b ≠ 79 := by
  intro a b r hs
  rw [← parseDigits_iff, hs] at h
  by_cases ha : a = 95
  · subst ha; rw [parseDigits, if_pos rfl] at h; simp at h
  · obtain ⟨d, _, _, h⟩ := parse_digit ha h
    by_cases hb : b = 95
    · subst hb; decide
    · obtain ⟨d', hd', _, _⟩ := parse_digit hb h
      exact (digit_not_sign hd').2.2.2

/-- The prefix and the digits. -/
def Unsigned (base : Nat) (s : Str) (n : Nat) : Prop :=
  ∃ lead body, s = lead ++ body ∧ (lead = [] ∨ base = 8 ∧ lead ∈ [p!"0o", p!"0O", p!"0o_", p!"0O_"]) ∧ Digits base body n

theorem parseNat_iff {base : Nat} {s : Str} {n : Nat} : parseNat base s = some n ↔ Unsigned base s n := by
  unfold parseNat
  split
  · next hb =>
    have key : ∀ x r, (x = 111 ∨ x = 79) → (parseDigits base (match r with | 95 :: r' => r' | r => r) 0 false = some n ↔ Unsigned base (48 :: x :: r) n) := by
      intro x r hx
      constructor
      · intro h
        split at h
        · refine ⟨[48, x, 95], _, rfl, .inr ⟨hb, ?_⟩, parseDigits_iff.mp h⟩
          rcases hx with rfl | rfl <;> decide
        · refine ⟨[48, x], _, rfl, .inr ⟨hb, ?_⟩, parseDigits_iff.mp h⟩
          rcases hx with rfl | rfl <;> decide
      · rintro ⟨lead, body, he, hl, hd⟩
        have nosep : ∀ b : Str, Digits base b n → parseDigits base (match b with | 95 :: r' => r' | r => r) 0 false = some n := by
          intro b hb
          obtain ⟨c, d, t, hc, rfl⟩ := hb.head
          have hc := (digit_not_sign hc).2.2.1
          split
          · next h => simp only [List.cons.injEq] at h; exact absurd h.1 hc
          · exact parseDigits_iff.mpr hb
        rcases hl with rfl | ⟨_, hl⟩
        · have := hd.no_lead 48 x r (by simpa using he.symm)
          rcases hx with rfl | rfl
          · exact absurd rfl this.1
          · exact absurd rfl this.2
        · simp only [List.mem_cons, List.not_mem_nil, or_false] at hl
          rcases hl with rfl | rfl | rfl | rfl <;>
            simp only [List.cons_append, List.nil_append, List.cons.injEq, true_and] at he <;> obtain ⟨rfl, rfl⟩ := he
          · exact nosep _ hd
          · exact nosep _ hd
          · exact parseDigits_iff.mpr hd
          · exact parseDigits_iff.mpr hd
    split
    · exact key 111 _ (.inl rfl)
    · exact key 79 _ (.inr rfl)
    · next h1 h2 =>
      rw [parseDigits_iff]
      constructor
      · intro h; exact ⟨[], _, rfl, .inl rfl, h⟩
      · rintro ⟨lead, body, rfl, hl, hd⟩
        rcases hl with rfl | ⟨_, hl⟩
        · exact hd
        · simp only [List.mem_cons, List.not_mem_nil, or_false] at hl
          rcases hl with rfl | rfl | rfl | rfl
          · exact absurd rfl (h1 _)
          · exact absurd rfl (h2 _)
          · exact absurd rfl (h1 _)
          · exact absurd rfl (h2 _)
  · next hb =>
    rw [parseDigits_iff]
    constructor
    · intro h; exact ⟨[], _, rfl, .inl rfl, h⟩
    · rintro ⟨lead, body, rfl, rfl | ⟨h, _⟩, hd⟩
      · exact hd
      · exact absurd h hb

theorem dropWhile_append_all {p : Nat → Bool} : ∀ {a b : Str}, (∀ c ∈ a, p c = true) → (a ++ b).dropWhile p = b.dropWhile p
  | [], _, _ => rfl
  | x :: a, b, h => by
    rw [List.cons_append, List.dropWhile_cons, if_pos (h x (by simp)), dropWhile_append_all fun c hc => h c (by simp [hc])]

theorem dropWhile_split (p : Nat → Bool) : ∀ s : Str, ∃ a, s = a ++ s.dropWhile p ∧ ∀ c ∈ a, p c = true
  | [] => ⟨[], rfl, by simp⟩
  | x :: s => by
    rw [List.dropWhile_cons]
    by_cases hx : p x = true
    · obtain ⟨a, ha, hp⟩ := dropWhile_split p s
      rw [if_pos hx]
      refine ⟨x :: a, by rw [List.cons_append, ← ha], ?_⟩
      intro c hc
      rcases List.mem_cons.mp hc with rfl | hc
      · exact hx
      · exact hp c hc
    · exact ⟨[], by rw [if_neg hx]; rfl, by simp⟩

theorem strip_split (s : Str) : ∃ pre post, s = pre ++ strip s ++ post ∧ ∀ c ∈ pre ++ post, isSpace c = true := by
  obtain ⟨pre, h1, hp⟩ := dropWhile_split isSpace s
  obtain ⟨post, h2, hq⟩ := dropWhile_split isSpace (s.dropWhile isSpace).reverse
  refine ⟨pre, post.reverse, ?_, ?_⟩
  · have : s.dropWhile isSpace = strip s ++ post.reverse := by
      have := congrArg List.reverse h2
      rw [List.reverse_reverse, List.reverse_append] at this
      exact this
    rw [List.append_assoc, ← this]
    exact h1
  · intro c hc
    rcases List.mem_append.mp hc with hc | hc
    · exact hp c hc
    · exact hq c (List.mem_reverse.mp hc)

theorem strip_of {pre t post : Str} (h : ∀ c ∈ pre ++ post, isSpace c = true) (hh : ∃ c r, t = c :: r ∧ isSpace c = false)
    (hl : ∃ c r, t = r ++ [c] ∧ isSpace c = false) : strip (pre ++ t ++ post) = t := by
  unfold strip
  rw [List.append_assoc, dropWhile_append_all fun c hc => h c (by simp [hc])]
  obtain ⟨c, r, rfl, hc⟩ := hh
  rw [List.cons_append, List.dropWhile_cons, if_neg (by simp [hc]), ← List.cons_append, List.reverse_append,
    dropWhile_append_all fun c hc => h c (by simp [List.mem_reverse.mp hc])]
  obtain ⟨c', r', ht, hc'⟩ := hl
  rw [ht, List.reverse_append, List.reverse_singleton, List.singleton_append, List.dropWhile_cons, if_neg (by simp [hc'])]
  simp

theorem Unsigned.head {base : Nat} {s : Str} {n : Nat} (h : Unsigned base s n) : ∃ c d r, IsDigit c d ∧ s = c :: r := by
  obtain ⟨lead, body, rfl, rfl | ⟨_, hl⟩, hd⟩ := h
  · exact hd.head
  · have : IsDigit 48 0 := ⟨by omega, 48, by decide, rfl⟩
    simp only [List.mem_cons, List.not_mem_nil, or_false] at hl
    rcases hl with rfl | rfl | rfl | rfl <;> exact ⟨48, 0, _, this, rfl⟩

theorem Unsigned.last {base : Nat} {s : Str} {n : Nat} (h : Unsigned base s n) : ∃ c d r, IsDigit c d ∧ s = r ++ [c] := by
  obtain ⟨lead, body, rfl, _, hd⟩ := h
  obtain ⟨c, d, r, hc, rfl⟩ := hd.last
  exact ⟨c, d, lead ++ r, hc, by simp⟩

theorem lifted {x : Option Nat} {i : Int} (h : (do let a ← x; pure (a : Int)) = some i) : ∃ n : Nat, x = some n ∧ i = n := by
  cases x with
  | none => cases h
  | some n => cases h; exact ⟨n, rfl, rfl⟩

/-- `int(text, base)` accepts exactly the numbers, and returns what they denote. -/
theorem parseInt_iff {base : Nat} {text : Str} {i : Int} : parseInt base text = some i ↔ IsNumber base text i := by
  constructor
  · intro h
    obtain ⟨pre, post, ht, hsp⟩ := strip_split text
    unfold parseInt at h
    split at h
    · next r hr =>
      rw [Option.map_eq_some_iff] at h
      obtain ⟨_, hl, rfl⟩ := h
      obtain ⟨n, hn, rfl⟩ := lifted hl
      obtain ⟨lead, body, rfl, hl, hd⟩ := parseNat_iff.mp hn
      refine ⟨pre, p!"-", lead, body, post, n, ?_, hsp, by decide, hl, hd, by rw [if_pos rfl]⟩
      rw [ht, hr]; simp
    · next r hr =>
      rw [Option.map_eq_some_iff] at h
      obtain ⟨_, hl, rfl⟩ := h
      obtain ⟨n, hn, rfl⟩ := lifted hl
      obtain ⟨lead, body, rfl, hl, hd⟩ := parseNat_iff.mp hn
      refine ⟨pre, p!"+", lead, body, post, n, ?_, hsp, by decide, hl, hd, by rw [if_neg (by decide)]⟩
      rw [ht, hr]; simp
    · rw [Option.map_eq_some_iff] at h
      obtain ⟨_, hl, rfl⟩ := h
      obtain ⟨n, hn, rfl⟩ := lifted hl
      obtain ⟨lead, body, hs, hl, hd⟩ := parseNat_iff.mp hn
      refine ⟨pre, [], lead, body, post, n, ?_, hsp, by decide, hl, hd, by rw [if_neg (by decide)]⟩
      rw [hs] at ht
      rw [ht]; simp
  · rintro ⟨pre, sign, lead, body, post, n, rfl, hsp, hs, hl, hd, rfl⟩
    have hu : Unsigned base (lead ++ body) n := ⟨lead, body, rfl, hl, hd⟩
    have hst : strip (pre ++ sign ++ lead ++ body ++ post) = sign ++ (lead ++ body) := by
      rw [show pre ++ sign ++ lead ++ body ++ post = pre ++ (sign ++ (lead ++ body)) ++ post by simp]
      refine strip_of hsp ?_ ?_
      · simp only [List.mem_cons, List.not_mem_nil, or_false] at hs
        rcases hs with rfl | rfl | rfl
        · obtain ⟨c, d, r, hc, he⟩ := hu.head
          exact ⟨c, r, he, digit_not_space hc⟩
        · exact ⟨43, _, rfl, by decide⟩
        · exact ⟨45, _, rfl, by decide⟩
      · obtain ⟨c, d, r, hc, he⟩ := hu.last
        exact ⟨c, sign ++ r, by rw [he]; simp, digit_not_space hc⟩
    unfold parseInt
    rw [hst]
    simp only [List.mem_cons, List.not_mem_nil, or_false] at hs
    rcases hs with rfl | rfl | rfl
    · obtain ⟨c, d, r, hc, he⟩ := hu.head
      have hsg := digit_not_sign hc
      rw [List.nil_append]
      split
      · next h => rw [he] at h; simp only [List.cons.injEq] at h; exact absurd h.1 hsg.2.1
      · next h => rw [he] at h; simp only [List.cons.injEq] at h; exact absurd h.1 hsg.1
      · rw [parseNat_iff.mpr hu]; rfl
    · simp only [List.cons_append, List.nil_append, parseNat_iff.mpr hu]; rfl
    · simp only [List.cons_append, List.nil_append, parseNat_iff.mpr hu]; rfl

end Verif.Py
