import Verif.Py.Str

namespace Verif.Py

theorem digitVal_ascii {d : Nat} (h : d < 10) : digitVal (d + 48) = some d := by
  match d, h with
  | 0, _ | 1, _ | 2, _ | 3, _ | 4, _ | 5, _ | 6, _ | 7, _ | 8, _ | 9, _ => rfl

theorem digitsAux_lt {b : Nat} (hb : 0 < b) : ∀ f n, ∀ d ∈ digitsAux b f n, d < b
  | 0, _, d, h => by simp [digitsAux] at h
  | f + 1, n, d, h => by
    unfold digitsAux at h
    split at h
    · simp only [List.mem_singleton] at h; omega
    · simp only [List.mem_cons] at h
      rcases h with rfl | h
      · exact Nat.mod_lt _ hb
      · exact digitsAux_lt hb f _ d h

theorem digitsAux_ne_nil {b f n : Nat} : digitsAux b (f + 1) n ≠ [] := by
  unfold digitsAux; split <;> simp

/-- The digits, least significant first, denote the number. -/
theorem digitsAux_foldr {b : Nat} (hb : 2 ≤ b) : ∀ f n, n < f → (digitsAux b f n).foldr (fun d a => a * b + d) 0 = n
  | 0, n, h => by omega
  | f + 1, n, h => by
    unfold digitsAux
    split
    · simp
    · rename_i hn
      have hdiv : n / b < f := by
        have : n / b < n := Nat.div_lt_self (by omega) (by omega)
        omega
      simp only [List.foldr_cons]
      rw [digitsAux_foldr hb f (n / b) hdiv]
      have := Nat.div_add_mod n b
      rw [Nat.mul_comm] at this
      exact this

theorem parseDigits_ascii {b : Nat} (hb : b ≤ 10) : ∀ (ds : List Nat) (acc : Nat) (prev : Bool),
    (∀ d ∈ ds, d < b) → (ds ≠ [] ∨ prev = true) →
    parseDigits b (ds.map (· + 48)) acc prev = some (ds.foldl (fun a d => a * b + d) acc)
  | [], acc, prev, _, h => by
    rcases h with h | h
    · contradiction
    · simp [parseDigits, h]
  | d :: ds, acc, prev, hd, _ => by
    have h0 : d < b := hd d (by simp)
    simp only [List.map_cons, parseDigits]
    rw [if_neg (by omega), digitVal_ascii (by omega)]
    simp only [if_pos h0, List.foldl_cons]
    exact parseDigits_ascii hb ds _ true (fun x hx => hd x (by simp [hx])) (Or.inr rfl)

theorem digitsAux_length {b : Nat} : ∀ f n, (digitsAux b f n).length ≤ f
  | 0, n => by simp [digitsAux]
  | f + 1, n => by
    unfold digitsAux
    split
    · simp
    · have := digitsAux_length (b := b) f (n / b)
      simp only [List.length_cons]
      omega

theorem natStr_eq (b n : Nat) : natStr b n = ((digitsAux b (n + 1) n).reverse).map (· + 48) := by
  simp [natStr]

theorem natStr_length (b n : Nat) : (natStr b n).length ≤ n + 1 := by
  rw [natStr_eq]
  simpa using digitsAux_length (n + 1) n

theorem parseDigits_natStr {b : Nat} (h2 : 2 ≤ b) (h10 : b ≤ 10) (n : Nat) :
    parseDigits b (natStr b n) 0 false = some n := by
  rw [natStr_eq, parseDigits_ascii h10]
  · rw [List.foldl_reverse]
    exact congrArg some (digitsAux_foldr h2 (n + 1) n (by omega))
  · intro d hd
    exact digitsAux_lt (by omega) _ _ d (by simpa using hd)
  · exact Or.inl (by simpa using digitsAux_ne_nil)

/-- All characters of a printed number are ASCII digits. -/
theorem natStr_chars {b : Nat} (h2 : 2 ≤ b) (h10 : b ≤ 10) (n : Nat) : ∀ c ∈ natStr b n, 48 ≤ c ∧ c ≤ 57 := by
  intro c hc
  rw [natStr_eq] at hc
  simp only [List.mem_map, List.mem_reverse] at hc
  obtain ⟨d, hd, rfl⟩ := hc
  have := digitsAux_lt (b := b) (by omega) _ _ d hd
  omega

theorem natStr_ne_nil (b n : Nat) : natStr b n ≠ [] := by
  rw [natStr_eq]
  simpa using digitsAux_ne_nil

theorem isSpace_digit {c : Nat} (h : 48 ≤ c ∧ c ≤ 57) : isSpace c = false := by
  simp [isSpace]; omega

theorem dropWhile_eq_self {α} {p : α → Bool} {l : List α} (h : ∀ x ∈ l, p x = false) : l.dropWhile p = l := by
  cases l with
  | nil => rfl
  | cons a l => simp [h a (by simp)]

theorem strip_eq_self {s : Str} (h : ∀ c ∈ s, isSpace c = false) : strip s = s := by
  unfold strip
  rw [dropWhile_eq_self h, dropWhile_eq_self (by simpa using h), List.reverse_reverse]

theorem parseNat_natStr {b : Nat} (h : b = 8 ∨ b = 10) (n : Nat) : parseNat b (natStr b n) = some n := by
  have h2 : 2 ≤ b := by omega
  have h10 : b ≤ 10 := by omega
  have hp := parseDigits_natStr h2 h10 n
  have hc := natStr_chars h2 h10 n
  unfold parseNat
  split
  · split
    · rename_i heq
      have := hc 111 (by rw [heq]; simp)
      omega
    · rename_i heq
      have := hc 79 (by rw [heq]; simp)
      omega
    · exact hp
  · exact hp

/-- `int(str(n)) == n` and `int(oct(n)[2:], 8) == n`. -/
theorem parseInt_natStr {b : Nat} (h : b = 8 ∨ b = 10) (n : Nat) : parseInt b (natStr b n) = some (n : Int) := by
  have h2 : 2 ≤ b := by omega
  have h10 : b ≤ 10 := by omega
  have hc := natStr_chars h2 h10 n
  unfold parseInt
  rw [strip_eq_self (fun c hcm => isSpace_digit (hc c hcm))]
  split
  · rename_i heq
    have := hc 45 (by rw [heq]; simp)
    omega
  · rename_i heq
    have := hc 43 (by rw [heq]; simp)
    omega
  · rw [parseNat_natStr h]; rfl

/-- `int(str(i)) == i` -/
theorem parseInt_intStr (i : Int) : parseInt 10 (intStr i) = some i := by
  cases i with
  | ofNat n => exact parseInt_natStr (.inr rfl) n
  | negSucc n =>
    have hc : ∀ c ∈ (45 :: natStr 10 (n + 1) : Str), isSpace c = false := by
      intro c hcm
      rcases List.mem_cons.mp hcm with rfl | hcm
      · decide
      · exact isSpace_digit (natStr_chars (by decide) (by decide) _ c hcm)
    unfold parseInt intStr
    rw [strip_eq_self hc]
    simp only [parseNat_natStr (.inr rfl), Option.map_some, Int.negSucc_eq]
    rfl

theorem natStr_injective {b : Nat} (h : b = 8 ∨ b = 10) {m n : Nat} (e : natStr b m = natStr b n) : m = n := by
  have h1 := parseInt_natStr h m
  rw [e, parseInt_natStr h n] at h1
  have := Option.some.inj h1
  omega

end Verif.Py
