/-
C71: the length of log lines. C75: content that is shown.
-/
import Verif.Run.Logger
import Verif.Py.Utf8Lemmas

namespace Verif.Run
open Py

/-- C71: a string that fits is not changed. -/
theorem C71_unchanged (s : Str) (width : Int) (h : (s.length : Int) ≤ width) : ellipsis s width = s := by
  unfold ellipsis
  rw [if_neg (by omega)]

/-- C71: a string that does not fit is cut so that the result, with an ellipsis at its end, has exactly the length asked for. -/
theorem C71_cut (s : Str) (width : Int) (h1 : 1 ≤ width) (h : width < (s.length : Int)) :
    ∃ t u, s = t ++ u ∧ u ≠ [] ∧ ellipsis s width = t ++ [0x2026] ∧ ((ellipsis s width).length : Int) = width := by
  have he : ellipsis s width = s.take (width - 1).toNat ++ [0x2026] := by
    unfold ellipsis sliceTo
    rw [if_pos h, if_pos (by omega)]
  refine ⟨s.take (width - 1).toNat, s.drop (width - 1).toNat, (List.take_append_drop _ _).symm, ?_, he, ?_⟩
  · intro hd
    rw [List.drop_eq_nil_iff] at hd
    omega
  · rw [he, List.length_append, List.length_take, List.length_singleton]
    omega

/-- C71: at most `width` characters. (What is missing: a width of 0, see `C71_width_refuted`. fora itself never asks for it.) -/
theorem C71_width_partial (s : Str) (width : Int) (h1 : 1 ≤ width) : ((ellipsis s width).length : Int) ≤ width := by
  by_cases h : (s.length : Int) ≤ width
  · rw [C71_unchanged s width h]
    exact h
  · obtain ⟨_, _, _, _, _, hl⟩ := C71_cut s width h1 (by omega)
    omega

/-- With a width of 0 only the last character is replaced, so the result can have any length. -/
theorem C71_width_refuted (n : Nat) : ∃ s : Str, (ellipsis s 0).length = n + 1 := by
  refine ⟨List.replicate (n + 1) 65, ?_⟩
  unfold ellipsis sliceTo
  rw [if_pos (by simp), if_neg (by omega)]
  simp
  omega

/-- C71: two columns for every level of indentation. -/
theorem C71_indentation (level : Nat) : indentPrefix level = List.replicate (2 * level) 32 := by
  unfold indentPrefix
  simp only [Int.toNat_natCast]
  induction level with
  | zero => rfl
  | succ n ih =>
    rw [List.replicate_succ, List.flatten_cons, ih, show 2 * (n + 1) = 2 + 2 * n by omega, ← List.replicate_append_replicate]
    rfl

example : ellipsis p!"administrator" 12 = p!"administrat…" := by decide
example : ellipsis p!"user" 12 = p!"user" := by decide

/-- A character of the lower 256 which is visible or a blank, or any other character: no line break, no tab, no escape. -/
def Harmless (c : Nat) : Prop := 0xff < c ∨ (0x20 ≤ c ∧ c ≤ 0x7e) ∨ (0xa1 ≤ c ∧ c ≤ 0xff ∧ c ≠ 0xad)

theorem harmless_hexDigit {n : Nat} (h : n < 16) : Harmless (hexDigit n) := by
  unfold hexDigit Harmless
  split <;> omega

theorem isPrintable_iff {c : Nat} : (isPrintable c = true ∨ 0xff < c) ↔ Harmless c := by
  unfold isPrintable Harmless
  simp only [Bool.or_eq_true, Bool.and_eq_true, decide_eq_true_eq, bne_iff_ne]
  omega

theorem harmless_escapeChar (c : Nat) : ∀ x ∈ escapeChar c, Harmless x := by
  have lit : ∀ l : Str, l.all (fun x => isPrintable x) = true → ∀ x ∈ l, Harmless x := by
    intro l hl x hx
    rw [List.all_eq_true] at hl
    exact isPrintable_iff.mp (Or.inl (hl x hx))
  unfold escapeChar
  split
  · exact lit _ (by decide)
  · split
    · exact lit _ (by decide)
    · split
      · exact lit _ (by decide)
      · split
        · exact lit _ (by decide)
        · split
          · next h =>
            rw [Bool.and_eq_true, decide_eq_true_eq] at h
            intro x hx
            rcases List.mem_append.mp hx with hx | hx
            · exact lit _ (by decide) x hx
            · simp only [List.mem_cons, List.not_mem_nil, or_false] at hx
              rcases hx with rfl | rfl
              · exact harmless_hexDigit (by omega)
              · exact harmless_hexDigit (by omega)
          · next h =>
            intro x hx
            rw [List.mem_singleton] at hx
            subst hx
            rw [Bool.and_eq_true, decide_eq_true_eq, not_and] at h
            apply isPrintable_iff.mp
            by_cases hp : isPrintable x = true
            · exact Or.inl hp
            · exact Or.inr (Nat.lt_of_not_le (h (by simpa using hp)))

/-- C75: whatever bytes are shown, the text has no line breaks and no other control characters: it is one line, and cannot
control the terminal. (What is missing: there are other characters that are not printable, see `C75_printable_refuted`.) -/
theorem C75_harmless_partial (data : Bytes) : ∀ c ∈ decodeEscapeLog data, Harmless c := by
  intro c hc
  unfold decodeEscapeLog at hc
  rw [List.mem_flatten] at hc
  obtain ⟨l, hl, hc⟩ := hc
  rw [List.mem_map] at hl
  obtain ⟨d, _, rfl⟩ := hl
  exact harmless_escapeChar d c hc

theorem decodeBackslashAux_of_utf8 : ∀ (n : Nat) (b : Bytes) (s : Str), decodeUtf8Aux n b = some s → decodeBackslashAux n b = s
  | 0, [], s, h => by cases h; rfl
  | 0, _ :: _, s, h => by cases h
  | n + 1, [], s, h => by cases h; rfl
  | n + 1, b :: bs, s, h => by
    unfold decodeUtf8Aux at h
    unfold decodeBackslashAux
    split at h
    · cases h
    · next c r hd =>
      rw [Option.map_eq_some_iff] at h
      obtain ⟨t, ht, rfl⟩ := h
      rw [hd]
      simp only [decodeBackslashAux_of_utf8 n r t ht]

theorem escapeChar_harmless {c : Nat} (h : Harmless c) : escapeChar c = [c] := by
  have hp := isPrintable_iff.mpr h
  unfold Harmless at h
  unfold escapeChar
  rw [if_neg (by omega), if_neg (by omega), if_neg (by omega), if_neg (by omega), if_neg]
  rw [Bool.and_eq_true, decide_eq_true_eq]
  rintro ⟨h1, h2⟩
  rcases hp with hp | hp
  · rw [hp] at h1
    cases h1
  · omega

/-- C75: UTF-8 text without control characters is shown as it is. -/
theorem C75_text (data : Bytes) (s : Str) (hd : decodeUtf8 data = some s) (hs : ∀ c ∈ s, Harmless c) : decodeEscapeLog data = s := by
  unfold decodeEscapeLog decodeBackslash
  rw [decodeBackslashAux_of_utf8 _ _ _ hd]
  clear hd
  induction s with
  | nil => rfl
  | cons c cs ih =>
    rw [List.map_cons, List.flatten_cons, escapeChar_harmless (hs c (by simp)), ih (fun x hx => hs x (by simp [hx]))]
    rfl

/-- The two hexadecimal digits of a number below 256. -/
def HexOf (n : Nat) (s : Str) : Prop := ∃ hi lo, n = 16 * hi + lo ∧ hi < 16 ∧ lo < 16 ∧ s = [(p!"0123456789abcdef").getD hi 0, (p!"0123456789abcdef").getD lo 0]

/-- How a character is shown: control characters are escaped as in C, other ones that are not harmless by their number, and the others
are shown as they are. -/
inductive CharShown : Nat → Str → Prop where
  | nul : CharShown 0 p!"\\0"
  | newline : CharShown 10 p!"\\n"
  | ret : CharShown 13 p!"\\r"
  | tab : CharShown 9 p!"\\t"
  | hex (c : Nat) (h : Str) (hc : ¬ Harmless c) (hn : c ∉ [0, 9, 10, 13]) (hh : HexOf c h) : CharShown c (p!"\\x" ++ h)
  | plain (c : Nat) (hc : Harmless c) : CharShown c [c]

/-- How bytes are shown: the UTF-8 sequences of characters as these characters, other bytes by their number. -/
inductive Shown : Bytes → Str → Prop where
  | nil : Shown [] []
  | char (c : Nat) (e r : Bytes) (t s : Str) (he : encodeUtf8 [c] = some e) (hc : CharShown c t) (hr : Shown r s) : Shown (e ++ r) (t ++ s)
  | byte (b : UInt8) (r : Bytes) (h s : Str) (hb : ∀ c e r', encodeUtf8 [c] = some e → b :: r ≠ e ++ r') (hh : HexOf b.toNat h) (hr : Shown r s) :
      Shown (b :: r) (p!"\\x" ++ h ++ s)

theorem hexOf {n : Nat} (h : n < 256) : HexOf n [hexDigit (n / 16), hexDigit (n % 16)] := by
  have key : ∀ k, k < 16 → hexDigit k = (p!"0123456789abcdef").getD k 0 := by decide
  refine ⟨n / 16, n % 16, by omega, by omega, by omega, ?_⟩
  rw [key _ (by omega), key _ (by omega)]

theorem charShown (c : Nat) : CharShown c (escapeChar c) := by
  unfold escapeChar
  split
  · next h => subst h; exact .nul
  · split
    · next h => subst h; exact .newline
    · split
      · next h => subst h; exact .ret
      · split
        · next h => subst h; exact .tab
        · split
          · next h0 h1 h2 h3 h =>
            rw [Bool.and_eq_true, decide_eq_true_eq] at h
            refine .hex c _ ?_ (by simp [h0, h1, h2, h3]) (hexOf (by omega))
            rw [← isPrintable_iff]
            rintro (hp | hp)
            · rw [hp] at h; simp at h
            · omega
          · next h =>
            refine .plain c (isPrintable_iff.mp ?_)
            rw [Bool.and_eq_true, decide_eq_true_eq, not_and] at h
            by_cases hp : isPrintable c = true
            · exact .inl hp
            · exact .inr (Nat.lt_of_not_le (h (by simpa using hp)))

theorem encodeUtf8_single {c : Nat} {e : Bytes} : encodeUtf8 [c] = some e ↔ encodeChar c = some e := by
  unfold encodeUtf8 encodeUtf8
  cases encodeChar c <;> simp

theorem escape_hex {n : Nat} (h : n < 16) : escapeChar (hexDigit n) = [hexDigit n] := escapeChar_harmless (harmless_hexDigit h)

theorem shown_aux : ∀ (n : Nat) (b : Bytes), b.length ≤ n → Shown b ((decodeBackslashAux n b).map escapeChar).flatten
  | 0, [], _ => .nil
  | 0, _ :: _, h => by simp at h
  | n + 1, [], _ => .nil
  | n + 1, b :: r, h => by
    unfold decodeBackslashAux
    split
    · next c r' hd =>
      have hl := decodeChar_length hd
      obtain ⟨e, he, hbr⟩ := encodeChar_decodeChar hd
      rw [hbr, List.map_cons, List.flatten_cons]
      simp only [List.length_cons] at hl h
      exact .char c e r' _ _ (encodeUtf8_single.mpr he) (charShown c) (shown_aux n r' (by omega))
    · next hd =>
      have hlt : b.toNat < 256 := u8_lt b
      have : ((p!"\\x" ++ [hexDigit (b.toNat / 16), hexDigit (b.toNat % 16)] ++ decodeBackslashAux n r).map escapeChar).flatten
          = p!"\\x" ++ [hexDigit (b.toNat / 16), hexDigit (b.toNat % 16)] ++ ((decodeBackslashAux n r).map escapeChar).flatten := by
        simp only [List.map_append, List.map_cons, List.map_nil, List.flatten_append, escape_hex (show b.toNat / 16 < 16 by omega),
          escape_hex (show b.toNat % 16 < 16 by omega)]
        rfl
      rw [this]
      refine .byte b r _ _ ?_ (hexOf hlt) (shown_aux n r (by simpa using h))
      intro c e r' he hbr
      rw [hbr, decodeChar_encodeChar (encodeUtf8_single.mp he)] at hd
      cases hd

/-- C75: exactly how content is shown: character by character, where NUL, newline, carriage return and tab are `\0`, `\n`, `\r` and `\t`,
other control characters and bytes that are not UTF-8 are `\x` and two hexadecimal digits, and everything else is shown as it is. -/
theorem C75_escapes (data : Bytes) : Shown data (decodeEscapeLog data) := shown_aux _ _ (Nat.le_refl _)

/-- A tab, an escape character and a byte that is not UTF-8. -/
example : decodeEscapeLog [9, 27, 0xff] = p!"\\t\\x1b\\xff" := by decide

/-- The documentation says that all characters that are not printable are replaced. They are not: U+202E (right-to-left override) and
U+2028 (line separator) are shown as they are. -/
theorem C75_printable_refuted : ∃ data : Bytes, decodeEscapeLog data = [0x202E, 0x2028] := ⟨[0xE2, 0x80, 0xAE, 0xE2, 0x80, 0xA8], by decide⟩

/-- A backslash is not escaped, so different content can look the same. -/
theorem C75_distinct_refuted : ∃ a b : Bytes, a ≠ b ∧ decodeEscapeLog a = decodeEscapeLog b := ⟨b!"\n", b!"\\n", by decide, by decide⟩

/-- The example in the documentation, with a frog -/
example : decodeEscapeLog (b!"It is Wednesday\nmy dudes\r\n" ++ [0xF0, 0x9F, 0x90, 0xB8, 0xff, 0]) = p!"It is Wednesday\\nmy dudes\\r\\n🐸\\xff\\0" := by decide

example : decodeUtf8 b!"key = value" = some p!"key = value" ∧ ∀ c ∈ p!"key = value", Harmless c := by
  refine ⟨by decide, ?_⟩
  have : ∀ c ∈ p!"key = value", (isPrintable c = true ∨ 0xff < c) := by decide
  exact fun c hc => isPrintable_iff.mp (this c hc)

end Verif.Run
