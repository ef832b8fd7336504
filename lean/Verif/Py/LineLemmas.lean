/-
Lemmas about lines of text and about decoding with surrogateescape.
-/
import Verif.Py.Utf8Lemmas

namespace Verif.Py

/-! ### Decoding a concatenation -/

/-- A byte that continues a multi-byte sequence. -/
def isCont (b : UInt8) : Bool := 0x80 ≤ b.toNat && b.toNat ≤ 0xBF

/-- No sequence continues into these bytes. -/
def Fresh (b : Bytes) : Prop := ∀ x, b.head? = some x → isCont x = false

theorem inRange_cont {lo hi : Nat} {x : UInt8} (h1 : 0x80 ≤ lo) (h2 : hi ≤ 0xBF) (h : inRange lo hi x.toNat = true) : isCont x = true := by
  simp only [inRange, isCont, Bool.and_eq_true, decide_eq_true_eq] at h ⊢
  omega

theorem lo3_ge (n : Nat) : 0x80 ≤ lo3 n := by unfold lo3; split <;> omega
theorem hi3_le (n : Nat) : hi3 n ≤ 0xBF := by unfold hi3; split <;> omega
theorem lo4_ge (n : Nat) : 0x80 ≤ lo4 n := by unfold lo4; split <;> omega
theorem hi4_le (n : Nat) : hi4 n ≤ 0xBF := by unfold hi4; split <;> omega

theorem decodeChar_append_some {a b r : Bytes} {c : Nat} (h : decodeChar a = some (c, r)) : decodeChar (a ++ b) = some (c, r ++ b) := by
  obtain ⟨e, he, rfl⟩ := encodeChar_decodeChar h
  rw [List.append_assoc]
  exact decodeChar_encodeChar he _

theorem decodeChar_append_none {x : UInt8} {a b : Bytes} (hb : Fresh b) (h : decodeChar (x :: a) = none) : decodeChar (x :: a ++ b) = none := by
  cases hd : decodeChar (x :: a ++ b) with
  | none => rfl
  | some p =>
    exfalso
    have hno : ∀ y r, b = y :: r → isCont y = false := fun y r h => hb y (by rw [h]; rfl)
    have key : ∀ y r lo hi, 0x80 ≤ lo → hi ≤ 0xBF → b = y :: r → inRange lo hi y.toNat = true → False := by
      intro y r lo hi h1 h2 h3 h4
      exact absurd (hno y r h3) (by simp [inRange_cont h1 h2 h4])
    simp only [List.cons_append, decodeChar] at h hd
    by_cases h1 : x.toNat < 0x80
    · simp [h1] at h
    by_cases h2 : x.toNat < 0xC2
    · simp [h1, h2] at hd
    by_cases h3 : x.toNat < 0xE0
    · simp only [h1, h2, h3, if_false, if_true] at h hd
      cases a with
      | nil =>
        cases b with
        | nil => simp at hd
        | cons y r =>
          simp only [List.nil_append] at hd
          split at hd
          · next hr => exact key y r _ _ (Nat.le_refl _) (Nat.le_refl _) rfl hr
          · cases hd
      | cons y r =>
        simp only [List.cons_append] at h hd
        split at hd
        · next hr => rw [if_pos hr] at h; cases h
        · cases hd
    by_cases h4 : x.toNat < 0xF0
    · simp only [h1, h2, h3, h4, if_false, if_true] at h hd
      match a, b with
      | [], [] => simp at hd
      | [], [y] => simp at hd
      | [], y :: z :: r =>
        simp only [List.nil_append] at hd
        split at hd
        · next hr =>
          simp only [Bool.and_eq_true] at hr
          exact key y _ _ _ (lo3_ge _) (hi3_le _) rfl hr.1
        · cases hd
      | [y], [] => simp at hd
      | [y], z :: r =>
        simp only [List.cons_append, List.nil_append] at hd
        split at hd
        · next hr =>
          simp only [Bool.and_eq_true] at hr
          exact key z _ _ _ (Nat.le_refl _) (Nat.le_refl _) rfl hr.2
        · cases hd
      | y :: z :: r, b =>
        simp only [List.cons_append] at h hd
        split at hd
        · next hr => rw [if_pos hr] at h; cases h
        · cases hd
    by_cases h5 : x.toNat < 0xF5
    · simp only [h1, h2, h3, h4, h5, if_false, if_true] at h hd
      match a, b with
      | [], [] => simp at hd
      | [], [y] => simp at hd
      | [], [y, z] => simp at hd
      | [], y :: z :: u :: r =>
        simp only [List.nil_append] at hd
        split at hd
        · next hr =>
          simp only [Bool.and_eq_true] at hr
          exact key y _ _ _ (lo4_ge _) (hi4_le _) rfl hr.1.1
        · cases hd
      | [y], [] => simp at hd
      | [y], [z] => simp at hd
      | [y], z :: u :: r =>
        simp only [List.cons_append, List.nil_append] at hd
        split at hd
        · next hr =>
          simp only [Bool.and_eq_true] at hr
          exact key z _ _ _ (Nat.le_refl _) (Nat.le_refl _) rfl hr.1.2
        · cases hd
      | [y, z], [] => simp at hd
      | [y, z], u :: r =>
        simp only [List.cons_append, List.nil_append] at hd
        split at hd
        · next hr =>
          simp only [Bool.and_eq_true] at hr
          exact key u _ _ _ (Nat.le_refl _) (Nat.le_refl _) rfl hr.2
        · cases hd
      | y :: z :: u :: r, b =>
        simp only [List.cons_append] at h hd
        split at hd
        · next hr => rw [if_pos hr] at h; cases h
        · cases hd
    · simp [h1, h2, h3, h4, h5] at hd

theorem decodeEscapeAux_fuel : ∀ (f g : Nat) (b : Bytes), b.length ≤ f → b.length ≤ g → decodeEscapeAux f b = decodeEscapeAux g b
  | f, g, [], _, _ => by cases f <;> cases g <;> rfl
  | 0, _, _ :: _, h, _ => by simp at h
  | _, 0, _ :: _, _, h => by simp at h
  | f + 1, g + 1, x :: xs, hf, hg => by
    simp only [List.length_cons] at hf hg
    unfold decodeEscapeAux
    cases hd : decodeChar (x :: xs) with
    | none => simp only; rw [decodeEscapeAux_fuel f g xs (by omega) (by omega)]
    | some p =>
      obtain ⟨c, r⟩ := p
      have := decodeChar_length hd
      simp only [List.length_cons] at this
      simp only; rw [decodeEscapeAux_fuel f g r (by omega) (by omega)]

theorem decodeEscape_cons_none {x : UInt8} {b : Bytes} (h : decodeChar (x :: b) = none) : decodeEscape (x :: b) = (0xDC00 + x.toNat) :: decodeEscape b := by
  unfold decodeEscape
  simp only [List.length_cons, decodeEscapeAux, h]

theorem decodeEscape_cons_some {x : UInt8} {b r : Bytes} {c : Nat} (h : decodeChar (x :: b) = some (c, r)) : decodeEscape (x :: b) = c :: decodeEscape r := by
  have := decodeChar_length h
  simp only [List.length_cons] at this
  unfold decodeEscape
  simp only [List.length_cons, decodeEscapeAux, h]
  rw [decodeEscapeAux_fuel b.length r.length r (by omega) (Nat.le_refl _)]

theorem decodeEscape_append {b : Bytes} (hb : Fresh b) : ∀ (n : Nat) (a : Bytes), a.length ≤ n → decodeEscape (a ++ b) = decodeEscape a ++ decodeEscape b
  | _, [], _ => rfl
  | 0, _ :: _, h => by simp at h
  | n + 1, x :: xs, h => by
    simp only [List.length_cons] at h
    cases hd : decodeChar (x :: xs) with
    | none =>
      rw [List.cons_append, decodeEscape_cons_none (x := x) (b := xs ++ b) (decodeChar_append_none hb hd), decodeEscape_cons_none hd,
        decodeEscape_append hb n xs (by omega)]
      rfl
    | some p =>
      obtain ⟨c, r⟩ := p
      have hl := decodeChar_length hd
      simp only [List.length_cons] at hl
      rw [List.cons_append, decodeEscape_cons_some (x := x) (b := xs ++ b) (decodeChar_append_some (b := b) hd), decodeEscape_cons_some hd,
        decodeEscape_append hb n r (by omega)]
      rfl

theorem decode_append (a : Bytes) {b : Bytes} (hb : Fresh b) : decodeEscape (a ++ b) = decodeEscape a ++ decodeEscape b :=
  decodeEscape_append hb a.length a (Nat.le_refl _)

theorem fresh_newline (b : Bytes) : Fresh (10 :: b) := by
  intro x hx
  simp only [List.head?_cons, Option.some.injEq] at hx
  subst hx
  rfl

theorem decodeEscape_newline (b : Bytes) : decodeEscape (10 :: b) = 10 :: decodeEscape b :=
  decodeEscape_cons_some (x := 10) rfl

/-- Decoding is done line by line. -/
theorem decode_line (a b : Bytes) : decodeEscape (a ++ 10 :: b) = decodeEscape a ++ 10 :: decodeEscape b := by
  rw [decode_append a (fresh_newline b), decodeEscape_newline]

/-! ### Decoding what was encoded -/

theorem encodeEscapeChar_ne_nil {c : Nat} {e : Bytes} (h : encodeEscapeChar c = some e) : e ≠ [] := by
  unfold encodeEscapeChar at h
  split at h
  · cases h; simp
  · exact encodeChar_ne_nil h

theorem encodeEscape_length : ∀ (s : Str) (b : Bytes), encodeEscape s = some b → s.length ≤ b.length
  | [], _, _ => by simp
  | c :: cs, b, h => by
    unfold encodeEscape at h
    cases hc : encodeEscapeChar c with
    | none => rw [hc] at h; cases h
    | some e =>
      rw [hc] at h
      simp only at h
      cases hcs : encodeEscape cs with
      | none => rw [hcs] at h; cases h
      | some r =>
        rw [hcs] at h
        simp only [Option.map_some, Option.some.injEq] at h
        subst h
        have := encodeEscape_length cs r hcs
        have hne := encodeEscapeChar_ne_nil hc
        have : 0 < e.length := List.length_pos_iff.mpr hne
        simp only [List.length_append, List.length_cons]
        omega

/-- Two prefixes of a string with equally long encodings are the same. -/
theorem prefix_encode_eq {u v s t : Str} {b : Bytes} (h : u ++ v = s ++ t) (hu : encodeEscape u = some b) (hs : encodeEscape s = some b) : u = s := by
  have key : ∀ {p q : Str}, encodeEscape p = some b → encodeEscape (p ++ q) = some b → q = [] := by
    intro p q hp hq
    rw [encodeEscape_append, hp] at hq
    simp only [Option.bind_some] at hq
    cases hqe : encodeEscape q with
    | none => rw [hqe] at hq; cases hq
    | some r =>
      rw [hqe] at hq
      simp only [Option.map_some, Option.some.injEq] at hq
      have hr : r = [] := by
        have := congrArg List.length hq
        simp only [List.length_append] at this
        exact List.eq_nil_of_length_eq_zero (by omega)
      have := encodeEscape_length q r hqe
      rw [hr] at this
      exact List.eq_nil_of_length_eq_zero (by simpa using this)
  rcases List.append_eq_append_iff.mp h with ⟨q, rfl, _⟩ | ⟨q, rfl, _⟩
  · rw [key hu hs]; simp
  · rw [key hs hu]; simp

/-- Encodable and decoded again without change. -/
def Stable (s : Str) : Prop := ∃ b, encodeEscape s = some b ∧ decodeEscape b = s

theorem stable_decode (b : Bytes) : Stable (decodeEscape b) := ⟨b, encodeEscape_decodeEscape b, rfl⟩

theorem stable_text {s : Str} {b : Bytes} (h : encodeUtf8 s = some b) : Stable s := by
  refine ⟨b, encodeEscape_of_encode h, ?_⟩
  induction s generalizing b with
  | nil => cases h; rfl
  | cons c cs ih =>
    unfold encodeUtf8 at h
    cases hc : encodeChar c with
    | none => rw [hc] at h; cases h
    | some e =>
      rw [hc] at h
      simp only at h
      cases hcs : encodeUtf8 cs with
      | none => rw [hcs] at h; cases h
      | some r =>
        rw [hcs] at h
        simp only [Option.map_some, Option.some.injEq] at h
        subst h
        have hd := decodeChar_encodeChar hc r
        have hne := encodeChar_ne_nil hc
        cases e with
        | nil => exact absurd rfl hne
        | cons x xs =>
          rw [List.cons_append] at hd ⊢
          rw [decodeEscape_cons_some hd, ih hcs]

/-- The part of a stable text before a character that does not come from an escaped byte is stable, and so is the part
after it. -/
theorem Stable.split {s t : Str} {c : Nat} {e : Bytes} (hc : encodeChar c = some e) (h : Stable (s ++ c :: t)) : Stable s ∧ Stable t := by
  obtain ⟨b, hb, hd⟩ := h
  have hcs : encodeEscape [c] = some e := encodeEscape_of_encode (s := [c]) (by simp [encodeUtf8, hc])
  rw [show s ++ c :: t = s ++ ([c] ++ t) from rfl, encodeEscape_append, encodeEscape_append, hcs] at hb
  cases hs : encodeEscape s with
  | none => rw [hs] at hb; cases hb
  | some bs =>
    cases ht : encodeEscape t with
    | none => rw [hs, ht] at hb; cases hb
    | some bt =>
      rw [hs, ht] at hb
      simp only [Option.bind_some, Option.map_some, Option.some.injEq] at hb
      subst hb
      have hfresh : Fresh (e ++ bt) := by
        intro x hx
        have hne := encodeChar_ne_nil hc
        cases e with
        | nil => exact absurd rfl hne
        | cons y ys =>
          simp only [List.cons_append, List.head?_cons, Option.some.injEq] at hx
          subst hx
          have hdc := decodeChar_encodeChar hc []
          simp only [List.append_nil] at hdc
          simp only [decodeChar] at hdc
          simp only [isCont, Bool.and_eq_false_iff, decide_eq_false_iff_not]
          by_cases h1 : y.toNat < 0x80
          · left; omega
          · by_cases h2 : y.toNat < 0xC2
            · simp [h1, h2] at hdc
            · right; omega
      rw [decode_append bs hfresh] at hd
      have hs' : decodeEscape bs = s := prefix_encode_eq hd (encodeEscape_decodeEscape bs) hs
      have hrest : decodeEscape (e ++ bt) = c :: t := by
        rw [hs'] at hd
        exact List.append_cancel_left hd
      have hdc := decodeChar_encodeChar hc bt
      have hne := encodeChar_ne_nil hc
      refine ⟨⟨bs, hs, hs'⟩, ⟨bt, ht, ?_⟩⟩
      cases e with
      | nil => exact absurd rfl hne
      | cons y ys =>
        rw [List.cons_append] at hdc hrest
        rw [decodeEscape_cons_some hdc] at hrest
        exact (List.cons.inj hrest).2

/-! ### Lines -/

/-- Without line break. -/
def OneLine (s : Str) : Prop := ∀ c ∈ s, isLineBreak c = false

theorem splitlinesAux_oneLine {s : Str} (hs : OneLine s) (acc : Str) (r : Str) : splitlinesAux (s ++ r) acc = splitlinesAux r (s.reverse ++ acc) := by
  induction s generalizing acc with
  | nil => rfl
  | cons c cs ih =>
    have hc := hs c (by simp)
    rw [List.cons_append]
    conv => lhs; unfold splitlinesAux
    simp only [hc, Bool.false_eq_true, if_false]
    rw [ih (fun d hd => hs d (by simp [hd]))]
    simp

theorem splitlinesAux_newline (acc r : Str) : splitlinesAux (10 :: r) acc = acc.reverse :: splitlinesAux r [] := by
  simp [splitlinesAux, isLineBreak]

theorem splitlines_newline {s : Str} (hs : OneLine s) (r : Str) : splitlines (s ++ 10 :: r) = s :: splitlines r := by
  unfold splitlines
  rw [splitlinesAux_oneLine hs, splitlinesAux_newline]
  simp

/-- Every line with its own line break. -/
def terminated : List Str → Str
  | [] => []
  | x :: xs => x ++ 10 :: terminated xs

theorem join_terminated : ∀ {ls : List Str}, ls ≠ [] → join p!"\n" ls ++ p!"\n" = terminated ls
  | [], h => absurd rfl h
  | [x], _ => by simp [join, terminated]
  | x :: y :: r, _ => by
    have := join_terminated (ls := y :: r) (by simp)
    simp only [join, terminated, List.append_assoc] at this ⊢
    rw [this]
    simp

theorem splitlines_terminated {ls : List Str} (h : ∀ x ∈ ls, OneLine x) : splitlines (terminated ls) = ls := by
  induction ls with
  | nil => rfl
  | cons x xs ih =>
    rw [terminated, splitlines_newline (h x (by simp)), ih (fun y hy => h y (by simp [hy]))]

theorem terminated_append (a b : List Str) : terminated (a ++ b) = terminated a ++ terminated b := by
  induction a with
  | nil => rfl
  | cons x xs ih => simp [terminated, ih]

theorem splitlinesAux_spec : ∀ (n : Nat) (s acc : Str), s.length ≤ n → OneLine acc → ∀ x ∈ splitlinesAux s acc, OneLine x
  | _, [], acc, _, ha => by
    intro x hx
    unfold splitlinesAux at hx
    split at hx
    · cases hx
    · simp only [List.mem_singleton] at hx
      subst hx
      intro c hc
      exact ha c (by simpa using hc)
  | 0, _ :: _, _, h, _ => by simp at h
  | n + 1, c :: cs, acc, h, ha => by
    have nil : OneLine ([] : Str) := fun _ h => by cases h
    have rev : OneLine acc.reverse := fun d hd => ha d (by simpa using hd)
    simp only [List.length_cons] at h
    intro x hx
    unfold splitlinesAux at hx
    split at hx
    · split at hx
      · next cs' _ =>
        simp only [List.mem_cons] at hx
        rcases hx with rfl | hx
        · exact rev
        · refine splitlinesAux_spec n cs' [] ?_ nil x hx
          simp only [List.length_cons] at h
          omega
      · simp only [List.mem_cons] at hx
        rcases hx with rfl | hx
        · exact rev
        · exact splitlinesAux_spec n cs [] (by omega) nil x hx
    · next hc =>
      refine splitlinesAux_spec n cs (c :: acc) (by omega) ?_ x hx
      intro d hd
      simp only [List.mem_cons] at hd
      rcases hd with rfl | hd
      · simpa using hc
      · exact ha d hd

theorem splitlines_oneLine {s x : Str} (h : x ∈ splitlines s) : OneLine x :=
  splitlinesAux_spec s.length s [] (Nat.le_refl _) (fun _ h => by cases h) x h

theorem encodeChar_lineBreak {c : Nat} (h : isLineBreak c = true) : ∃ e, encodeChar c = some e := by
  have : (encodeChar c).isSome = true := by
    rw [encodeChar_isSome]
    simp only [isLineBreak, Bool.or_eq_true, beq_iff_eq] at h
    simp only [isSurrogate, Bool.and_eq_true, decide_eq_true_eq, Bool.not_eq_true', Bool.and_eq_false_iff, decide_eq_false_iff_not]
    omega
  exact Option.isSome_iff_exists.mp this

/-- The lines of a stable text are stable. -/
theorem splitlinesAux_stable : ∀ (n : Nat) (s acc : Str), s.length ≤ n → Stable (acc.reverse ++ s) → ∀ x ∈ splitlinesAux s acc, Stable x
  | _, [], acc, _, ha => by
    intro x hx
    unfold splitlinesAux at hx
    split at hx
    · cases hx
    · simp only [List.mem_singleton] at hx
      subst hx
      simpa using ha
  | 0, _ :: _, _, h, _ => by simp at h
  | n + 1, c :: cs, acc, h, ha => by
    simp only [List.length_cons] at h
    intro x hx
    unfold splitlinesAux at hx
    split at hx
    · next hc =>
      obtain ⟨e, he⟩ := encodeChar_lineBreak hc
      obtain ⟨h1, h2⟩ := ha.split he
      split at hx
      · rename_i cs'
        simp only [List.mem_cons] at hx
        rcases hx with rfl | hx
        · exact h1
        · refine splitlinesAux_stable n cs' [] ?_ ?_ x hx
          · simp only [List.length_cons] at h; omega
          · exact (Stable.split (s := []) (c := 10) (e := [10]) rfl h2).2
      · simp only [List.mem_cons] at hx
        rcases hx with rfl | hx
        · exact h1
        · exact splitlinesAux_stable n cs [] (by omega) h2 x hx
    · next hc =>
      refine splitlinesAux_stable n cs (c :: acc) (by omega) ?_ x hx
      simpa using ha

theorem splitlines_stable {s x : Str} (hs : Stable s) (h : x ∈ splitlines s) : Stable x :=
  splitlinesAux_stable s.length s [] (Nat.le_refl _) hs x h

theorem stable_terminated {ls : List Str} (h : ∀ x ∈ ls, Stable x) : Stable (terminated ls) := by
  induction ls with
  | nil => exact ⟨[], rfl, rfl⟩
  | cons x xs ih =>
    obtain ⟨b, hb, hd⟩ := h x (by simp)
    obtain ⟨b', hb', hd'⟩ := ih (fun y hy => h y (by simp [hy]))
    refine ⟨b ++ 10 :: b', ?_, ?_⟩
    · rw [terminated, show x ++ 10 :: terminated xs = x ++ ([10] ++ terminated xs) from rfl, encodeEscape_append, encodeEscape_append, hb, hb']
      rfl
    · rw [decode_line, hd, hd']; rfl

/-- Only `\n` breaks lines. -/
def UnixLines (s : Str) : Prop := ∀ c ∈ s, isLineBreak c = true → c = 10

/-- The text with a line break at its end. -/
def closeLine (s : Str) : Str := if s = [] ∨ s.getLast? = some 10 then s else s ++ [10]

theorem terminated_splitlinesAux : ∀ (s acc : Str), UnixLines s →
    terminated (splitlinesAux s acc) = if s = [] then (if acc = [] then [] else acc.reverse ++ [10]) else acc.reverse ++ closeLine s
  | [], acc, _ => by
    unfold splitlinesAux
    by_cases h : acc = []
    · simp [h, terminated]
    · simp [h, terminated]
  | c :: cs, acc, h => by
    have hcs : UnixLines cs := fun d hd => h d (by simp [hd])
    rw [if_neg (by simp)]
    by_cases hc : isLineBreak c = true
    · have := h c (by simp) hc
      subst this
      rw [splitlinesAux_newline, terminated, terminated_splitlinesAux cs [] hcs]
      by_cases hn : cs = []
      · subst hn; simp [closeLine]
      · rw [if_neg hn]
        unfold closeLine
        have hl : (10 :: cs).getLast? = cs.getLast? := by
          cases cs with
          | nil => exact absurd rfl hn
          | cons d ds => simp
        rw [hl]
        by_cases hg : cs.getLast? = some 10
        · simp [hn, hg]
        · simp [hn, hg]
    · have hc : isLineBreak c = false := by simpa using hc
      have hne : c ≠ 10 := by rintro rfl; cases hc
      have : splitlinesAux (c :: cs) acc = splitlinesAux cs (c :: acc) := by
        conv => lhs; unfold splitlinesAux
        simp [hc]
      rw [this, terminated_splitlinesAux cs (c :: acc) hcs]
      by_cases hn : cs = []
      · subst hn
        simp [closeLine, hne]
      · rw [if_neg hn]
        unfold closeLine
        have hl : (c :: cs).getLast? = cs.getLast? := by
          cases cs with
          | nil => exact absurd rfl hn
          | cons d ds => simp
        rw [hl]
        by_cases hg : cs.getLast? = some 10
        · simp [hn, hg]
        · simp [hn, hg]

/-- Splitting a text and putting it together again only adds a missing line break at the end. -/
theorem terminated_splitlines {s : Str} (h : UnixLines s) : terminated (splitlines s) = closeLine s := by
  unfold splitlines
  rw [terminated_splitlinesAux s [] h]
  by_cases hs : s = []
  · simp [hs, closeLine]
  · simp [hs]

end Verif.Py
