import Verif.Client.BootstrapSpec
import Verif.Py.Utf8Lemmas

namespace Verif.Client.Bootstrap

open Shell

/-! ### Base64 -/

theorem sextet_char64 {n : Nat} (h : n < 64) : sextet (char64 n) = some n := by
  have : ∀ n : Fin 64, sextet (char64 n.1) = some n.1 := by decide
  exact this ⟨n, h⟩

/-- The characters of base64: letters, digits, `+`, `/` and `=`. -/
def base64Char (c : UInt8) : Bool :=
  let n := c.toNat
  (48 ≤ n && n ≤ 57) || (65 ≤ n && n ≤ 90) || (97 ≤ n && n ≤ 122) || n == 43 || n == 47 || n == 61

theorem char64_char {n : Nat} (h : n < 64) : base64Char (char64 n) = true ∧ char64 n ≠ 61 := by
  have : ∀ n : Fin 64, base64Char (char64 n.1) = true ∧ char64 n.1 ≠ 61 := by decide
  exact this ⟨n, h⟩

theorem encode64_chars : ∀ b : Bytes, ∀ c ∈ encode64 b, base64Char c = true
  | [], c, h => by cases h
  | [a], c, h => by
    have ha := a.toNat_lt
    simp only [encode64, List.mem_cons, List.not_mem_nil, or_false] at h
    rcases h with rfl | rfl | rfl | rfl
    · exact (char64_char (by omega)).1
    · exact (char64_char (by omega)).1
    · rfl
    · rfl
  | [a, b], c, h => by
    have ha := a.toNat_lt
    have hb := b.toNat_lt
    simp only [encode64, List.mem_cons, List.not_mem_nil, or_false] at h
    rcases h with rfl | rfl | rfl | rfl
    · exact (char64_char (by omega)).1
    · exact (char64_char (by omega)).1
    · exact (char64_char (by omega)).1
    · rfl
  | a :: b :: c :: r, x, h => by
    have ha := a.toNat_lt
    have hb := b.toNat_lt
    have hc := c.toNat_lt
    simp only [encode64, List.mem_cons] at h
    rcases h with rfl | rfl | rfl | rfl | h
    · exact (char64_char (by omega)).1
    · exact (char64_char (by omega)).1
    · exact (char64_char (by omega)).1
    · exact (char64_char (by omega)).1
    · exact encode64_chars r x h

theorem u8_eq {a : UInt8} {n : Nat} (h : n = a.toNat) : UInt8.ofNat n = a := by
  subst h
  exact Py.u8_ofNat_toNat a

theorem decode_encode64 : ∀ b : Bytes, decodeGroups (encode64 b) = some b
  | [] => rfl
  | [a] => by
    have ha := a.toNat_lt
    simp only [encode64, decodeGroups, sextet_char64 (show a.toNat / 4 < 64 by omega), sextet_char64 (show a.toNat % 4 * 16 < 64 by omega), Option.bind_eq_bind,
      Option.bind_some, and_self, if_true, Option.pure_def]
    rw [u8_eq (a := a) (by omega)]
  | [a, b] => by
    have ha := a.toNat_lt
    have hb := b.toNat_lt
    have h3 := (char64_char (show b.toNat % 16 * 4 < 64 by omega)).2
    simp only [encode64, decodeGroups, sextet_char64 (show a.toNat / 4 < 64 by omega), sextet_char64 (show a.toNat % 4 * 16 + b.toNat / 16 < 64 by omega),
      sextet_char64 (show b.toNat % 16 * 4 < 64 by omega), h3, Option.bind_eq_bind, Option.bind_some, and_self, false_and, if_true, if_false, Option.pure_def]
    rw [u8_eq (a := a) (by omega), u8_eq (a := b) (by omega)]
  | a :: b :: c :: r => by
    have ha := a.toNat_lt
    have hb := b.toNat_lt
    have hc := c.toNat_lt
    have h3 := (char64_char (show b.toNat % 16 * 4 + c.toNat / 64 < 64 by omega)).2
    have h4 := (char64_char (show c.toNat % 64 < 64 by omega)).2
    simp only [encode64, decodeGroups, sextet_char64 (show a.toNat / 4 < 64 by omega), sextet_char64 (show a.toNat % 4 * 16 + b.toNat / 16 < 64 by omega),
      sextet_char64 (show b.toNat % 16 * 4 + c.toNat / 64 < 64 by omega), sextet_char64 (show c.toNat % 64 < 64 by omega), h3, h4,
      Option.bind_eq_bind, Option.bind_some, false_and, if_false, Option.pure_def, decode_encode64 r]
    rw [u8_eq (a := a) (by omega), u8_eq (a := b) (by omega), u8_eq (a := c) (by omega)]

theorem base64_ne {c x : UInt8} (h : base64Char c = true) (hx : base64Char x = false) : c ≠ x := by
  rintro rfl
  rw [h] at hx
  cases hx

theorem decode64_line (b : Bytes) : decode64 (encode64 b ++ [10]) = some b := by
  unfold decode64
  have : (encode64 b ++ [10]).filter (· != 10) = encode64 b := by
    rw [List.filter_append]
    have h : (encode64 b).filter (· != 10) = encode64 b := List.filter_eq_self.mpr fun c hc => by
      simpa using base64_ne (encode64_chars b c hc) (x := 10) (by decide)
    rw [h]
    simp
  rw [this]
  exact decode_encode64 b

/-! ### The shell -/

theorem tokens_single {s rest : Str} {ps : List Part} (h : 39 ∉ s) :
    tokens .single (some ps) (s ++ 39 :: rest) = tokens .bare (some (ps ++ s.map fun c => .text [c])) rest := by
  induction s generalizing ps with
  | nil => simp [tokens]
  | cons c s ih =>
    simp only [List.mem_cons, not_or] at h
    rw [List.cons_append, tokens, if_neg (Ne.symm h.1)]
    show tokens .single (some (ps ++ [.text [c]])) _ = _
    rw [ih h.2]
    simp

theorem tokens_inner {s rest : Str} {word : Option (List Part)} {n : Nat} {acc : Str} (h : 39 ∉ s) :
    tokens (.inner true n acc) word (s ++ rest) = tokens (.inner true n (acc ++ s)) word rest := by
  induction s generalizing acc with
  | nil => simp
  | cons c s ih =>
    simp only [List.mem_cons, not_or] at h
    rw [List.cons_append, tokens]
    have : (c != 39) = true := by simpa using Ne.symm h.1
    rw [this, ih h.2]
    simp

theorem encode_ascii_char {c : Nat} (h : c < 128) : Py.encodeChar c = some [UInt8.ofNat c] := by
  unfold Py.encodeChar
  simp [show c < 0x80 from h]

theorem expand_text {out : Str → Option Bytes} : ∀ {b : Bytes}, (∀ c ∈ b, c.toNat < 128) →
    expand out ((ascii b).map fun c => .text [c]) = some b
  | [], _ => rfl
  | c :: b, h => by
    have hc := h c (by simp)
    have ih := expand_text (out := out) (b := b) fun x hx => h x (by simp [hx])
    simp only [ascii, List.map_cons, expand] at ih ⊢
    rw [ih]
    simp [Py.encodeUtf8, encode_ascii_char hc]

/-- A word that is given character by character. -/
def spelled (s : Str) : List Part := s.map fun c => .text [c]

/-- The script between `$(` and `)`. -/
def script (x : Str) : Str := p!"echo '" ++ x ++ p!"' | base64 -d | python -c '" ++ decompressor ++ p!"'"

theorem ascii_noQuote {b : Bytes} (h : ∀ c ∈ b, base64Char c = true) : 39 ∉ ascii b := by
  intro hm
  obtain ⟨c, hc, he⟩ := List.mem_map.mp hm
  exact base64_ne (h c hc) (x := 39) (by decide) (UInt8.toNat_inj.mp he)

theorem tokens_command (x : Str) (hx : 39 ∉ x) (debug : Bool) :
    tokens .bare none (p!"env python3 -c \"$(echo '" ++ x ++ p!"' | base64 -d | python -c '" ++ decompressor ++ p!"')\" " ++ if debug then p!"--debug" else [])
      = some ([.word (spelled p!"env"), .word (spelled p!"python3"), .word (spelled p!"-c"), .word [.output (script x)]]
          ++ if debug then [.word (spelled p!"--debug")] else []) := by
  have h1 : ∀ rest, tokens .bare none (p!"env python3 -c \"$(echo '" ++ rest)
      = (tokens (.inner true 0 p!"echo '") (some []) rest).map fun ts => .word (spelled p!"env") :: .word (spelled p!"python3") :: .word (spelled p!"-c") :: ts := by
    intro rest
    show ((((tokens (.inner true 0 p!"echo '") (some []) rest).map _).map _).map _) = _
    cases tokens (.inner true 0 p!"echo '") (some []) rest <;> rfl
  simp only [List.append_assoc]
  rw [h1, tokens_inner hx]
  have h2 : ∀ acc rest, tokens (.inner true 0 acc) (some []) (p!"' | base64 -d | python -c '" ++ rest)
      = tokens (.inner true 0 (acc ++ p!"' | base64 -d | python -c '")) (some []) rest := by
    intro acc rest
    simp [tokens]
  rw [h2, tokens_inner (by decide)]
  have h3 : ∀ acc rest, tokens (.inner true 0 acc) (some []) (p!"')\" " ++ rest)
      = (tokens .bare none rest).map fun ts => .word [.output (acc ++ p!"'")] :: ts := by
    intro acc rest
    simp only [List.cons_append, List.nil_append, tokens]
    rfl
  rw [h3]
  cases debug <;> rfl

theorem tokens_script (x : Str) (hx : 39 ∉ x) : tokens .bare none (script x)
    = some [.word (spelled p!"echo"), .word (spelled x), .pipe, .word (spelled p!"base64"), .word (spelled p!"-d"), .pipe,
        .word (spelled p!"python"), .word (spelled p!"-c"), .word (spelled decompressor)] := by
  have h1 : ∀ rest, tokens .bare none (p!"echo '" ++ rest) = (tokens .single (some []) rest).map fun ts => .word (spelled p!"echo") :: ts := fun _ => rfl
  unfold script
  simp only [List.append_assoc]
  rw [h1, show p!"' | base64 -d | python -c '" ++ (decompressor ++ p!"'") = 39 :: (p!" | base64 -d | python -c '" ++ (decompressor ++ p!"'")) from rfl, tokens_single hx]
  have h2 : ∀ ps rest, tokens .bare (some ps) (p!" | base64 -d | python -c '" ++ rest)
      = (tokens .single (some []) rest).map fun ts => .word ps :: .pipe :: .word (spelled p!"base64") :: .word (spelled p!"-d") :: .pipe ::
          .word (spelled p!"python") :: .word (spelled p!"-c") :: ts := by
    intro ps rest
    show ((((((((((tokens .single (some []) rest).map _).map _).map _).map _).map _).map _).map _).map _).map _) = _
    cases tokens .single (some []) rest <;> rfl
  rw [h2, tokens_single (by decide)]
  rfl

theorem expand_spelled {out : Str → Option Bytes} {b : Bytes} (h : ∀ c ∈ b, c.toNat < 128) : expand out (spelled (ascii b)) = some b := expand_text h

theorem base64_ascii {c : UInt8} (h : base64Char c = true) : c.toNat < 128 := by
  simp only [base64Char, Bool.or_eq_true, Bool.and_eq_true, decide_eq_true_eq, beq_iff_eq] at h
  omega

/-- What is printed by the script, on any host. -/
theorem printed_script (h : Host) (depth : Nat) {b : Bytes} (hb : ∀ c ∈ b, base64Char c = true) :
    printed h (depth + 1) (script (ascii b))
      = some (piped h [[b!"echo", b], [b!"base64", b!"-d"],
          [b!"python", b!"-c", b!"import zlib,sys;sys.stdout.buffer.write(zlib.decompress(sys.stdin.buffer.read()))"]] []) := by
  have hx : expand (printed h depth) (spelled (ascii b)) = some b := expand_spelled fun c hc => base64_ascii (hb c hc)
  have hd : expand (printed h depth) (spelled decompressor) = some b!"import zlib,sys;sys.stdout.buffer.write(zlib.decompress(sys.stdin.buffer.read()))" :=
    expand_spelled (b := b!"import zlib,sys;sys.stdout.buffer.write(zlib.decompress(sys.stdin.buffer.read()))") (by decide)
  unfold printed
  rw [tokens_script _ (ascii_noQuote hb)]
  simp only [commands, Option.map_some, Option.bind_eq_bind, Option.bind_some, expandCommands, expandAll, hx, hd, Option.pure_def]
  rfl

/-- What is executed for the command line, on any host. -/
theorem executed_command (h : Host) (compress : Bytes → Bytes) (source : Bytes) (debug : Bool) :
    executed h (remoteCommand compress source debug)
      = some ([b!"env", b!"python3", b!"-c", substituted (piped h [[b!"echo", encode64 (compress source)], [b!"base64", b!"-d"],
          [b!"python", b!"-c", b!"import zlib,sys;sys.stdout.buffer.write(zlib.decompress(sys.stdin.buffer.read()))"]] [])]
        ++ if debug then [b!"--debug"] else []) := by
  have hb := encode64_chars (compress source)
  have ht := tokens_command (ascii (encode64 (compress source))) (ascii_noQuote hb) debug
  have hl : ∃ n, (remoteCommand compress source debug).length = n + 1 := ⟨_, rfl⟩
  obtain ⟨n, hl⟩ := hl
  unfold executed
  rw [hl]
  unfold remoteCommand
  simp only
  rw [ht]
  have hp := printed_script h n hb
  generalize printed h (n + 1) = out at hp
  have he : expand out [.output (script (ascii (encode64 (compress source))))] = some (substituted (piped h [[b!"echo", encode64 (compress source)], [b!"base64", b!"-d"],
          [b!"python", b!"-c", b!"import zlib,sys;sys.stdout.buffer.write(zlib.decompress(sys.stdin.buffer.read()))"]] [])) := by
    simp [expand, hp]
  cases debug <;>
    simp only [commands, Option.map_some, Option.bind_eq_bind, Option.bind_some, List.cons_append, List.nil_append, Bool.false_eq_true, if_true, if_false, List.append_nil, expandAll, he,
      Option.pure_def] <;> rfl

theorem substituted_eq {b : Bytes} (h : 0 ∉ b) : WithoutLastNewlines b (substituted b) := by
  have hf : b.filter (· != 0) = b := List.filter_eq_self.mpr fun c hc => by
    simp only [bne_iff_ne, ne_eq]
    rintro rfl
    exact h hc
  unfold substituted
  rw [hf]
  constructor
  · have := List.takeWhile_append_dropWhile (p := (· == (10 : UInt8))) (l := b.reverse)
    refine ⟨(b.reverse.takeWhile (· == 10)).length, ?_⟩
    have ht : b.reverse.takeWhile (· == (10 : UInt8)) = List.replicate (b.reverse.takeWhile (· == (10 : UInt8))).length 10 := by
      refine List.eq_replicate_iff.mpr ⟨rfl, fun x hx => ?_⟩
      have : ∀ {l : Bytes}, x ∈ l.takeWhile (· == (10 : UInt8)) → x = 10 := by
        intro l
        induction l with
        | nil => intro h; cases h
        | cons a l ih =>
          rw [List.takeWhile_cons]
          split
          · rename_i ha
            intro h
            rcases List.mem_cons.mp h with rfl | h
            · simpa using ha
            · exact ih h
          · intro h; cases h
      exact this hx
    have h2 : b = (b.reverse.dropWhile (· == (10 : UInt8))).reverse ++ (b.reverse.takeWhile (· == (10 : UInt8))).reverse := by
      rw [← List.reverse_append, this, List.reverse_reverse]
    rw [ht, List.reverse_replicate] at h2
    exact h2
  · rw [List.getLast?_reverse]
    intro hc
    cases hd : b.reverse.dropWhile (· == (10 : UInt8)) with
    | nil => rw [hd] at hc; cases hc
    | cons a l =>
      rw [hd] at hc
      cases hc
      have := List.head?_dropWhile_not (p := (· == (10 : UInt8))) (l := b.reverse)
      rw [hd] at this
      simp at this

end Verif.Client.Bootstrap
