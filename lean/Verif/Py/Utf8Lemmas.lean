import Verif.Py.Utf8

namespace Verif.Py

theorem u8_toNat_ofNat {n : Nat} (h : n < 256) : (UInt8.ofNat n).toNat = n := by
  simp [UInt8.toNat_ofNat']; omega

theorem u8_ofNat_toNat (b : UInt8) : UInt8.ofNat b.toNat = b := by simp

theorem u8_lt (b : UInt8) : b.toNat < 256 := b.toNat_lt

/-- Encoding one code point and decoding it gives the code point back, whatever follows. -/
theorem decodeChar_encodeChar {c : Nat} {e : Bytes} (h : encodeChar c = some e) (r : Bytes) :
    decodeChar (e ++ r) = some (c, r) := by
  unfold encodeChar isSurrogate at h
  split at h
  · cases h
    simp only [List.cons_append, List.nil_append, decodeChar]
    rw [u8_toNat_ofNat (by omega)]
    simp_all
  split at h
  · cases h
    simp only [List.cons_append, List.nil_append, decodeChar]
    rw [u8_toNat_ofNat (by omega), u8_toNat_ofNat (by omega)]
    rw [if_neg (by omega), if_neg (by omega), if_pos (by omega), if_pos (by simp [inRange]; omega)]
    simp only [Option.some.injEq, Prod.mk.injEq, and_true]; omega
  split at h
  · split at h
    · cases h
    · rename_i h1 h2 h3 h4
      cases h
      simp only [Bool.and_eq_true, decide_eq_true_eq] at h4
      simp only [List.cons_append, List.nil_append, decodeChar]
      rw [u8_toNat_ofNat (by omega), u8_toNat_ofNat (by omega), u8_toNat_ofNat (by omega)]
      rw [if_neg (by omega), if_neg (by omega), if_neg (by omega), if_pos (by omega), if_pos]
      · simp only [Option.some.injEq, Prod.mk.injEq, and_true]; omega
      · simp only [inRange, lo3, hi3, Bool.and_eq_true, decide_eq_true_eq]
        refine ⟨⟨?_, ?_⟩, ?_, ?_⟩ <;> (try split) <;> (try simp only [decide_eq_true_eq]) <;> omega
  split at h
  · cases h
    simp only [List.cons_append, List.nil_append, decodeChar]
    rw [u8_toNat_ofNat (by omega), u8_toNat_ofNat (by omega), u8_toNat_ofNat (by omega), u8_toNat_ofNat (by omega)]
    rw [if_neg (by omega), if_neg (by omega), if_neg (by omega), if_neg (by omega), if_pos (by omega), if_pos]
    · simp only [Option.some.injEq, Prod.mk.injEq, and_true]; omega
    · simp only [inRange, lo4, hi4, Bool.and_eq_true, decide_eq_true_eq]
      refine ⟨⟨⟨?_, ?_⟩, ?_, ?_⟩, ?_, ?_⟩ <;> (try split) <;> (try simp only [decide_eq_true_eq]) <;> omega
  · cases h

theorem u8_eq_ofNat {b : UInt8} {n : Nat} (h : b.toNat = n) : UInt8.ofNat n = b := by
  subst h; simp

/-- Decoding one code point is only possible for its strict encoding. -/
theorem encodeChar_decodeChar {b : Bytes} {c : Nat} {r : Bytes} (h : decodeChar b = some (c, r)) :
    ∃ e, encodeChar c = some e ∧ b = e ++ r := by
  unfold decodeChar at h
  split at h
  · cases h
  · rename_i b0 r0
    have h0 := u8_lt b0
    simp only at h
    split at h
    · cases h
      exact ⟨[b0], by simp [encodeChar, *], by simp⟩
    split at h
    · cases h
    split at h
    · split at h
      · rename_i b1 r1
        have h1 := u8_lt b1
        split at h
        · rename_i hb
          simp only [inRange, Bool.and_eq_true, decide_eq_true_eq] at hb
          simp only [Option.some.injEq, Prod.mk.injEq] at h
          obtain ⟨rfl, rfl⟩ := h
          refine ⟨[b0, b1], ?_, by simp⟩
          unfold encodeChar
          rw [if_neg (by omega), if_pos (by omega)]
          simp only [Option.some.injEq, List.cons.injEq, and_true]
          exact ⟨u8_eq_ofNat (by omega), u8_eq_ofNat (by omega)⟩
        · cases h
      · cases h
    split at h
    · split at h
      · rename_i b1 b2 r2
        have h1 := u8_lt b1
        have h2 := u8_lt b2
        split at h
        · rename_i hb
          simp only [inRange, Bool.and_eq_true, decide_eq_true_eq] at hb
          obtain ⟨⟨hb1, hb2⟩, hb3, hb4⟩ := hb
          unfold lo3 at hb1
          unfold hi3 at hb2
          have hb5 : 0x80 ≤ b1.toNat := by split at hb1 <;> omega
          have hb6 : b1.toNat ≤ 0xBF := by split at hb2 <;> omega
          have hb7 : b0.toNat = 0xE0 → 0xA0 ≤ b1.toNat := by intro e; simpa [e] using hb1
          have hb8 : b0.toNat = 0xED → b1.toNat ≤ 0x9F := by intro e; simpa [e] using hb2
          simp only [Option.some.injEq, Prod.mk.injEq] at h
          obtain ⟨rfl, rfl⟩ := h
          refine ⟨[b0, b1, b2], ?_, by simp⟩
          unfold encodeChar isSurrogate
          rw [if_neg (by omega), if_neg (by omega), if_pos (by omega), if_neg (by simp; omega)]
          simp only [Option.some.injEq, List.cons.injEq, and_true]
          exact ⟨u8_eq_ofNat (by omega), u8_eq_ofNat (by omega), u8_eq_ofNat (by omega)⟩
        · cases h
      · cases h
    split at h
    · split at h
      · rename_i b1 b2 b3 r3
        have h1 := u8_lt b1
        have h2 := u8_lt b2
        have h3 := u8_lt b3
        split at h
        · rename_i hb
          simp only [inRange, Bool.and_eq_true, decide_eq_true_eq] at hb
          obtain ⟨⟨⟨hb1, hb2⟩, hb3, hb4⟩, hb5, hb6⟩ := hb
          unfold lo4 at hb1
          unfold hi4 at hb2
          have hc1 : 0x80 ≤ b1.toNat := by split at hb1 <;> omega
          have hc2 : b1.toNat ≤ 0xBF := by split at hb2 <;> omega
          have hc3 : b0.toNat = 0xF0 → 0x90 ≤ b1.toNat := by intro e; simpa [e] using hb1
          have hc4 : b0.toNat = 0xF4 → b1.toNat ≤ 0x8F := by intro e; simpa [e] using hb2
          simp only [Option.some.injEq, Prod.mk.injEq] at h
          obtain ⟨rfl, rfl⟩ := h
          refine ⟨[b0, b1, b2, b3], ?_, by simp⟩
          unfold encodeChar
          rw [if_neg (by omega), if_neg (by omega), if_neg (by omega), if_pos (by omega)]
          simp only [Option.some.injEq, List.cons.injEq, and_true]
          exact ⟨u8_eq_ofNat (by omega), u8_eq_ofNat (by omega), u8_eq_ofNat (by omega), u8_eq_ofNat (by omega)⟩
        · cases h
      · cases h
    · cases h

theorem encodeChar_ne_nil {c : Nat} {e : Bytes} (h : encodeChar c = some e) : e ≠ [] := by
  unfold encodeChar at h
  repeat' split at h
  all_goals first | (cases h; simp) | cases h

theorem decodeChar_length {b : Bytes} {c : Nat} {r : Bytes} (h : decodeChar b = some (c, r)) :
    r.length < b.length := by
  obtain ⟨e, he, rfl⟩ := encodeChar_decodeChar h
  have := encodeChar_ne_nil he
  cases e with
  | nil => contradiction
  | cons => simp; omega

theorem decodeUtf8Aux_encode : ∀ (s : Str) (b : Bytes) (f : Nat), encodeUtf8 s = some b → b.length ≤ f →
    decodeUtf8Aux f b = some s
  | [], b, f, h, _ => by
    cases h; cases f <;> rfl
  | c :: cs, b, f, h, hf => by
    unfold encodeUtf8 at h
    split at h
    · cases h
    · rename_i e he
      cases hcs : encodeUtf8 cs with
      | none => simp [hcs] at h
      | some b' =>
        simp only [hcs, Option.map_some, Option.some.injEq] at h
        subst h
        have hd := decodeChar_encodeChar he b'
        have hne := encodeChar_ne_nil he
        cases e with
        | nil => contradiction
        | cons x xs =>
          simp only [List.cons_append] at *
          cases f with
          | zero => simp at hf
          | succ f =>
            simp only [decodeUtf8Aux, hd]
            simp only [List.length_cons, List.length_append] at hf
            rw [decodeUtf8Aux_encode cs b' f hcs (by omega)]
            rfl

/-- `s.encode("utf-8").decode("utf-8") == s` whenever the encoding succeeds. -/
theorem decode_encode {s : Str} {b : Bytes} (h : encodeUtf8 s = some b) : decodeUtf8 b = some s :=
  decodeUtf8Aux_encode s b b.length h (Nat.le_refl _)

theorem encode_decodeAux : ∀ (f : Nat) (b : Bytes) (s : Str), decodeUtf8Aux f b = some s → encodeUtf8 s = some b
  | f, [], s, h => by
    cases f <;> (simp [decodeUtf8Aux] at h; subst h; rfl)
  | 0, _ :: _, s, h => by simp [decodeUtf8Aux] at h
  | f + 1, x :: xs, s, h => by
    unfold decodeUtf8Aux at h
    split at h
    · cases h
    · rename_i c r hd
      cases hr : decodeUtf8Aux f r with
      | none => simp [hr] at h
      | some s' =>
        simp only [hr, Option.map_some, Option.some.injEq] at h
        subst h
        obtain ⟨e, he, hb⟩ := encodeChar_decodeChar hd
        simp only [encodeUtf8, he, encode_decodeAux f r s' hr, Option.map_some, hb]

/-- Strict decoding accepts exactly the strict encodings. -/
theorem encode_decode {b : Bytes} {s : Str} (h : decodeUtf8 b = some s) : encodeUtf8 s = some b :=
  encode_decodeAux _ _ _ h

theorem encodeUtf8_injective {s t : Str} {b : Bytes} (hs : encodeUtf8 s = some b) (ht : encodeUtf8 t = some b) :
    s = t := by
  have := decode_encode hs
  rw [decode_encode ht] at this
  exact (Option.some.inj this).symm

/-- `encodeUtf8` distributes over append. -/
theorem encodeUtf8_append {s t : Str} {a b : Bytes} (hs : encodeUtf8 s = some a) (ht : encodeUtf8 t = some b) :
    encodeUtf8 (s ++ t) = some (a ++ b) := by
  induction s generalizing a with
  | nil => cases hs; simpa
  | cons c cs ih =>
    unfold encodeUtf8 at hs
    split at hs
    · cases hs
    · rename_i e he
      cases hcs : encodeUtf8 cs with
      | none => simp [hcs] at hs
      | some b' =>
        simp only [hcs, Option.map_some, Option.some.injEq] at hs
        subst hs
        simp [encodeUtf8, he, ih hcs]

/-- What can be encoded: code points below 0x110000 that are not surrogates. -/
theorem encodeChar_isSome (c : Nat) : (encodeChar c).isSome = (decide (c < 0x110000) && !isSurrogate c) := by
  unfold encodeChar
  by_cases h1 : c < 0x80
  · simp [h1, isSurrogate]; omega
  · by_cases h2 : c < 0x800
    · simp [h1, h2, isSurrogate]; omega
    · by_cases h3 : c < 0x10000
      · by_cases h4 : isSurrogate c
        · simp [h1, h2, h3, h4]
        · simp [h1, h2, h3, h4]; omega
      · by_cases h4 : c < 0x110000
        · simp [h1, h2, h3, h4, isSurrogate]; omega
        · simp [h1, h2, h3, h4]

theorem encodeUtf8_isSome (s : Str) : (encodeUtf8 s).isSome = s.all fun c => decide (c < 0x110000) && !isSurrogate c := by
  induction s with
  | nil => rfl
  | cons c cs ih =>
    have hc := encodeChar_isSome c
    simp only [encodeUtf8, List.all_cons, ← ih]
    rw [← hc]
    cases h : encodeChar c <;> simp

/-! ### surrogateescape -/

theorem encodeEscape_decodeAux : ∀ (f : Nat) (b : Bytes), b.length ≤ f → encodeEscape (decodeEscapeAux f b) = some b
  | f, [], _ => by cases f <;> rfl
  | 0, _ :: _, h => by simp at h
  | f + 1, x :: xs, h => by
    unfold decodeEscapeAux
    split
    · rename_i hd
      have hx : 0x80 ≤ x.toNat := by
        apply Nat.le_of_not_lt
        intro hlt
        simp [decodeChar, hlt] at hd
      have hx2 := u8_lt x
      simp only [encodeEscape, encodeEscapeChar]
      rw [if_pos (by omega)]
      simp only [List.length_cons] at h
      rw [encodeEscape_decodeAux f xs (by omega)]
      simp
    · rename_i c r hd
      obtain ⟨e, he, hb⟩ := encodeChar_decodeChar hd
      have hl := decodeChar_length hd
      simp only [List.length_cons] at h hl
      have hsur : ¬ (0xDC80 ≤ c ∧ c ≤ 0xDCFF) := by
        have := encodeChar_isSome c
        rw [he] at this
        simp [isSurrogate] at this
        omega
      simp only [encodeEscape, encodeEscapeChar]
      rw [if_neg hsur, he]
      simp only
      rw [encodeEscape_decodeAux f r (by omega)]
      simp [hb]

/-- `b.decode("utf-8", "surrogateescape").encode("utf-8", "surrogateescape") == b` for all bytes. -/
theorem encodeEscape_decodeEscape (b : Bytes) : encodeEscape (decodeEscape b) = some b :=
  encodeEscape_decodeAux _ _ (Nat.le_refl _)

theorem encodeEscape_append (s t : Str) :
    encodeEscape (s ++ t) = (encodeEscape s).bind fun a => (encodeEscape t).map (a ++ ·) := by
  induction s with
  | nil => cases h : encodeEscape t <;> simp [encodeEscape, h]
  | cons c cs ih =>
    simp only [List.cons_append, encodeEscape]
    cases encodeEscapeChar c with
    | none => rfl
    | some b =>
      simp only [ih]
      cases encodeEscape cs with
      | none => rfl
      | some b' => cases encodeEscape t <;> simp

/-- A strictly encodable string encodes to the same bytes with surrogateescape. -/
theorem encodeEscape_of_encode {s : Str} {b : Bytes} (h : encodeUtf8 s = some b) : encodeEscape s = some b := by
  induction s generalizing b with
  | nil => simpa [encodeUtf8, encodeEscape] using h
  | cons c cs ih =>
    unfold encodeUtf8 at h
    split at h
    · cases h
    · rename_i e he
      cases hcs : encodeUtf8 cs with
      | none => simp [hcs] at h
      | some b' =>
        simp only [hcs, Option.map_some, Option.some.injEq] at h
        subst h
        have hsur : ¬ (0xDC80 ≤ c ∧ c ≤ 0xDCFF) := by
          have := encodeChar_isSome c
          rw [he] at this
          simp [isSurrogate] at this
          omega
        simp only [encodeEscape, encodeEscapeChar]
        rw [if_neg hsur, he]
        simp [ih hcs]

end Verif.Py
