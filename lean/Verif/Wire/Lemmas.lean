import Verif.Wire.Spec
import Verif.Py.Utf8Lemmas

namespace Verif.Wire

/-! ### fixed-size integers -/

theorem be_length (k n : Nat) : (be k n).length = k := by
  induction k generalizing n with
  | zero => rfl
  | succ k ih => simp [be, ih]

theorem unbe_be_aux (k n a : Nat) :
    (be k n).foldl (fun a x => a * 256 + x.toNat) a = a * 256 ^ k + n % 256 ^ k := by
  induction k generalizing a with
  | zero => simp [be, Nat.mod_one]
  | succ k ih =>
    simp only [be, List.foldl_cons]
    rw [ih, Py.u8_toNat_ofNat (Nat.mod_lt _ (by decide)), Nat.pow_succ, Nat.mod_mul]
    rw [Nat.add_mul, Nat.mul_assoc a, Nat.mul_comm 256, Nat.mul_comm (n / 256 ^ k % 256)]
    omega

theorem unbe_be (k n : Nat) : unbe (be k n) = n % 256 ^ k := by
  simp [unbe, unbe_be_aux]

theorem readFixed_append {n : Nat} {b : Bytes} (h : b.length = n) (r : Bytes) : readFixed n (b ++ r) = (.ok b, r) := by
  subst h
  simp [readFixed]

theorem readFixed_short {n : Nat} {s : Bytes} (h : s.length < n) : readFixed n s = (.error .structError, []) := by
  unfold readFixed
  rw [if_neg]
  · simp [List.drop_eq_nil_of_le (Nat.le_of_lt h)]
  · rw [List.length_take]; omega

theorem readU_be {k n : Nat} (h : n < 256 ^ k) (r : Bytes) : readU k (be k n ++ r) = (.ok (n : Int), r) := by
  simp [readU, readFixed_append (be_length k n), unbe_be, Nat.mod_eq_of_lt h]

theorem readU_short {k : Nat} {s : Bytes} (h : s.length < k) : readU k s = (.error .structError, []) := by
  simp [readU, readFixed_short h]

theorem natcast_pow256 (k : Nat) : ((256 ^ k : Nat) : Int) = (256 : Int) ^ k := by
  simp

theorem packU_ok {k : Nat} {v : Int} (h : 0 ≤ v ∧ v < 256 ^ k) : packU k v = (be k v.toNat, none) := by
  have := natcast_pow256 k
  cases v with
  | ofNat n =>
    simp only [Int.ofNat_eq_natCast] at h
    simp only [packU, Int.ofNat_eq_natCast, Int.toNat_natCast]
    rw [if_pos (by omega)]
  | negSucc n => omega

theorem toNat_lt_pow {k : Nat} {v : Int} (h : 0 ≤ v ∧ v < 256 ^ k) : v.toNat < 256 ^ k := by
  have := natcast_pow256 k
  omega

theorem readU_packU {k : Nat} {v : Int} (h : 0 ≤ v ∧ v < 256 ^ k) (r : Bytes) :
    readU k ((packU k v).1 ++ r) = (.ok v, r) := by
  rw [packU_ok h, readU_be (toNat_lt_pow h)]
  congr 2; omega

theorem pow256_even (k : Nat) (hk : 0 < k) : 256 ^ k = 2 * (256 ^ k / 2) := by
  cases k with
  | zero => omega
  | succ k => rw [Nat.pow_succ]; omega

theorem packS_ok {k : Nat} {v : Int} (h : -(256 ^ k / 2) ≤ v ∧ v < 256 ^ k / 2) :
    packS k v = (be k (v % 256 ^ k).toNat, none) := by
  have hc := natcast_pow256 k
  have hpos : 0 < 256 ^ k := Nat.pow_pos (by decide)
  cases v with
  | ofNat n =>
    simp only [Int.ofNat_eq_natCast] at h
    simp only [packS, Int.ofNat_eq_natCast]
    rw [if_pos (by omega), Int.emod_eq_of_lt (by omega) (by omega)]
    simp
  | negSucc n =>
    simp only [packS]
    rw [if_pos (by omega)]
    have : Int.negSucc n % 256 ^ k = Int.negSucc n + 256 ^ k := by
      rw [← Int.add_emod_right]
      exact Int.emod_eq_of_lt (by omega) (by omega)
    rw [this]
    congr 2; omega

theorem readS_packS {k : Nat} (hk : 0 < k) {v : Int} (h : -(256 ^ k / 2) ≤ v ∧ v < 256 ^ k / 2) (r : Bytes) :
    readS k ((packS k v).1 ++ r) = (.ok v, r) := by
  have h2 := pow256_even k hk
  have hc := natcast_pow256 k
  have hpos : (0 : Int) < 256 ^ k := Int.pow_pos (by decide)
  have hm := Int.emod_nonneg v (by omega : (256 : Int) ^ k ≠ 0)
  have hm2 := Int.emod_lt_of_pos v hpos
  have hmod : (v % 256 ^ k).toNat % 256 ^ k = (v % 256 ^ k).toNat := Nat.mod_eq_of_lt (by omega)
  simp only [packS_ok h, readS, readFixed_append (be_length k _), unbe_be, hmod]
  have hv : v % 256 ^ k = v ∨ v % 256 ^ k = v + 256 ^ k := by
    by_cases hv : 0 ≤ v
    · left; exact Int.emod_eq_of_lt hv (by omega)
    · right
      rw [← Int.add_emod_right]
      exact Int.emod_eq_of_lt (by omega) (by omega)
  congr 2
  split <;> omega

/-! ### values -/

theorem W.seq_ok {a b : W} {x y : Bytes} (ha : a = (x, none)) (hb : b = (y, none)) : W.seq a b = (x ++ y, none) := by
  subst ha; subst hb; rfl

theorem encode_fits {v : Str} (h : ∀ c ∈ v, c ≤ 0x10FFFF ∧ ¬ (0xD800 ≤ c ∧ c ≤ 0xDFFF)) :
    ∃ b, Py.encodeUtf8 v = some b := by
  have : (Py.encodeUtf8 v).isSome = true := by
    rw [Py.encodeUtf8_isSome, List.all_eq_true]
    intro c hc
    have := h c hc
    simp [Py.isSurrogate]
    omega
  exact Option.isSome_iff_exists.mp this

theorem encodeChar_length {c : Nat} {e : Bytes} (h : Py.encodeChar c = some e) : e.length ≤ 4 := by
  unfold Py.encodeChar at h
  repeat' split at h
  all_goals first | (cases h; simp) | cases h

theorem encodeUtf8_length {v : Str} {b : Bytes} (h : Py.encodeUtf8 v = some b) : b.length ≤ 4 * v.length := by
  induction v generalizing b with
  | nil => cases h; simp
  | cons c cs ih =>
    unfold Py.encodeUtf8 at h
    split at h
    · cases h
    · rename_i e he
      cases hcs : Py.encodeUtf8 cs with
      | none => simp [hcs] at h
      | some b' =>
        simp only [hcs, Option.map_some, Option.some.injEq] at h
        subst h
        have := encodeChar_length he
        have := ih hcs
        simp
        omega

/-- The encoding of the length of a payload or list. -/
theorem packU_length {n : Nat} (h : n < 2 ^ 62) : packU 8 (n : Int) = (be 8 n, none) := by
  rw [packU_ok]
  · simp
  · constructor
    · omega
    · have : (256 : Int) ^ 8 = 2 ^ 64 := by decide
      omega

theorem pow256_8 : 256 ^ 8 = 2 ^ 64 := by decide

theorem readU_length {n : Nat} (h : n < 2 ^ 62) (r : Bytes) : readU 8 (be 8 n ++ r) = (.ok (n : Int), r) :=
  readU_be (by rw [pow256_8]; omega) r

theorem serBytes_ok {b : Bytes} (h : b.length < 2 ^ 62) : serBytes b = (be 8 b.length ++ b, none) := by
  rw [serBytes, packU_length h]; rfl

theorem readBytes_append {b : Bytes} (h : b.length < 2 ^ 62) (r : Bytes) :
    readBytes (be 8 b.length ++ b ++ r) = (.ok b, r) := by
  rw [List.append_assoc]
  simp only [readBytes, readU_length h, Int.toNat_natCast]
  rw [if_pos (by omega)]
  simp

theorem readBool_append (v : Bool) (r : Bytes) : readBool ((serBool v).1 ++ r) = (.ok v, r) := by
  have h := readFixed_append (n := 1) (b := (serBool v).1) (by simp [serBool]) r
  simp only [readBool, h]
  cases v <;> rfl

theorem serList_ok {α : Type} {f : α → W} {g : R α} {xs : List α}
    (h : ∀ x ∈ xs, ∃ b, f x = (b, none) ∧ ∀ r, g (b ++ r) = (.ok x, r)) :
    ∃ b, serList f xs = (b, none) ∧ ∀ r, readList g xs.length (b ++ r) = (.ok xs, r) := by
  induction xs with
  | nil => exact ⟨[], rfl, fun r => rfl⟩
  | cons x xs ih =>
    obtain ⟨b, hb, hr⟩ := h x (by simp)
    obtain ⟨b', hb', hr'⟩ := ih (fun y hy => h y (by simp [hy]))
    refine ⟨b ++ b', W.seq_ok hb hb', fun r => ?_⟩
    rw [List.append_assoc]
    simp [readList, hr, hr']

theorem packS_fits4 {v : Int} (h : -2147483648 ≤ v ∧ v ≤ 2147483647) : -(256 ^ 4 / 2) ≤ v ∧ v < 256 ^ 4 / 2 := by
  have : (256 : Int) ^ 4 = 4294967296 := by decide
  omega

theorem packS_fits8 {v : Int} (h : -9223372036854775808 ≤ v ∧ v ≤ 9223372036854775807) :
    -(256 ^ 8 / 2) ≤ v ∧ v < 256 ^ 8 / 2 := by
  have : (256 : Int) ^ 8 = 18446744073709551616 := by decide
  omega

theorem packU_fits4 {v : Int} (h : 0 ≤ v ∧ v ≤ 4294967295) : 0 ≤ v ∧ v < 256 ^ 4 := by
  have : (256 : Int) ^ 4 = 4294967296 := by decide
  omega

theorem packU_fits8 {v : Int} (h : 0 ≤ v ∧ v ≤ 18446744073709551615) : 0 ≤ v ∧ v < 256 ^ 8 := by
  have : (256 : Int) ^ 8 = 18446744073709551616 := by decide
  omega

theorem ser_ok : (t : Ty) → (v : Val t) → Fits t v → Small t v →
    ∃ b, ser t v = (b, none) ∧ ∀ r, deser t (b ++ r) = (.ok v, r)
  | .bool, v, _, _ => ⟨_, rfl, readBool_append v⟩
  | .i32, v, h, _ => ⟨_, packS_ok (packS_fits4 h), by
      have := readS_packS (k := 4) (by decide) (packS_fits4 h)
      rw [packS_ok (packS_fits4 h)] at this
      exact this⟩
  | .i64, v, h, _ => ⟨_, packS_ok (packS_fits8 h), by
      have := readS_packS (k := 8) (by decide) (packS_fits8 h)
      rw [packS_ok (packS_fits8 h)] at this
      exact this⟩
  | .u32, v, h, _ => ⟨_, packU_ok (packU_fits4 h), by
      have := readU_packU (packU_fits4 h)
      rw [packU_ok (packU_fits4 h)] at this
      exact this⟩
  | .u64, v, h, _ => ⟨_, packU_ok (packU_fits8 h), by
      have := readU_packU (packU_fits8 h)
      rw [packU_ok (packU_fits8 h)] at this
      exact this⟩
  | .bytes, v, _, h => by
    have h' : v.length < 2 ^ 62 := by simp only [Small] at h; omega
    exact ⟨_, serBytes_ok h', readBytes_append h'⟩
  | .str, v, hf, h => by
    obtain ⟨b, hb⟩ := encode_fits hf
    have hl := encodeUtf8_length hb
    have h' : b.length < 2 ^ 62 := by simp only [Small] at h; omega
    refine ⟨be 8 b.length ++ b, by simp [ser, hb, serBytes_ok h'], fun r => ?_⟩
    simp only [deser, readBytes_append h', Py.decode_encode hb]
  | .opt t, none, _, _ => ⟨(serBool false).1, rfl, fun r => by simp [deser, readBool_append]⟩
  | .opt t, some x, hf, hs => by
    obtain ⟨b, hb, hr⟩ := ser_ok t x (hf x rfl) (hs x rfl)
    refine ⟨(serBool true).1 ++ b, W.seq_ok rfl hb, fun r => ?_⟩
    rw [List.append_assoc]
    simp [deser, readBool_append, hr]
  | .list t, v, hf, hs => by
    obtain ⟨b, hb, hr⟩ := serList_ok (xs := v) (f := ser t) (g := deser t)
      (fun x hx => ser_ok t x (hf x hx) (hs.2 x hx))
    have h' : v.length < 2 ^ 62 := by have := hs.1; omega
    refine ⟨be 8 v.length ++ b, W.seq_ok (packU_length h') hb, fun r => ?_⟩
    rw [List.append_assoc]
    simp [deser, readU_length h', hr]

theorem serFields_ok : (fs : List (Str × Ty)) → (vs : Vals fs) → AllFields Fits fs vs → AllFields Small fs vs →
    ∃ b, serFields fs vs = (b, none) ∧ ∀ r, readFields fs (b ++ r) = (.ok vs, r)
  | [], _, _, _ => ⟨[], rfl, fun _ => rfl⟩
  | (_, t) :: ts, (v, vs), hf, hs => by
    obtain ⟨b, hb, hr⟩ := ser_ok t v hf.1 hs.1
    obtain ⟨b', hb', hr'⟩ := serFields_ok ts vs hf.2 hs.2
    refine ⟨b ++ b', W.seq_ok hb hb', fun r => ?_⟩
    rw [List.append_assoc]
    simp [readFields, hr, hr']

/-! ### packets -/

theorem Kind.id_lt (k : Kind) : k.id < 23 := by cases k <;> decide

theorem packets_id (k : Kind) : packets[k.id]? = some k := by cases k <;> rfl

theorem ofVals_vals (p : Packet) : Packet.ofVals p.kind p.vals = p := by cases p <;> rfl

theorem kind_ofVals (k : Kind) (vs : Vals (schema k)) : (Packet.ofVals k vs).kind = k := by cases k <;> rfl

theorem vals_ofVals (k : Kind) (vs : Vals (schema k)) : (Packet.ofVals k vs).vals ≍ vs := by
  cases k <;> exact HEq.rfl

theorem packId_ok (k : Kind) : packU 4 (k.id : Int) = (be 4 k.id, none) := by
  have := k.id_lt
  rw [packU_ok]
  · simp
  · have : (256 : Int) ^ 4 = 4294967296 := by decide
    omega

theorem readId (k : Kind) (r : Bytes) : readU 4 (be 4 k.id ++ r) = (.ok (k.id : Int), r) := by
  have := k.id_lt
  exact readU_be (by have : 256 ^ 4 = 4294967296 := by decide
                     omega) r

theorem writePacket_ok {p : Packet} (h : p.Sendable) :
    writePacket p = (encoding p, none) ∧ ∀ r, readPacket (encoding p ++ r) = (.ok p, r) := by
  obtain ⟨b, hb, hr⟩ := serFields_ok (schema p.kind) p.vals h.1 h.2
  have hw : writePacket p = (be 4 p.kind.id ++ b, none) := W.seq_ok (packId_ok _) hb
  have he : encoding p = be 4 p.kind.id ++ b := by rw [encoding, hw]
  refine ⟨by rw [he, hw], fun r => ?_⟩
  rw [he, List.append_assoc]
  simp only [readPacket, readId, Int.toNat_natCast, packets_id, hr, ofVals_vals]

/-! ### what cannot be sent -/

theorem W.seq_fail_left {a b : W} {e : Exn} (h : a.2 = some e) : (W.seq a b).2 = some e := by
  simp [W.seq, h]

theorem W.seq_fail_right {a b : W} (h : b.2 ≠ none) : (W.seq a b).2 ≠ none := by
  unfold W.seq
  split
  · exact h
  · simp_all

theorem W.seq_none {a b : W} (h : (W.seq a b).2 = none) : a.2 = none ∧ b.2 = none := by
  unfold W.seq at h
  split at h
  · exact ⟨by assumption, h⟩
  · simp_all

theorem packU_fits_of_ok {k : Nat} {v : Int} (h : (packU k v).2 = none) : 0 ≤ v ∧ v < 256 ^ k := by
  have := natcast_pow256 k
  unfold packU at h
  split at h
  · split at h
    · simp only [Int.ofNat_eq_natCast]; omega
    · cases h
  · cases h

theorem packS_fits_of_ok {k : Nat} {v : Int} (h : (packS k v).2 = none) : -(256 ^ k / 2) ≤ v ∧ v < 256 ^ k / 2 := by
  have := natcast_pow256 k
  unfold packS at h
  split at h
  · split at h
    · simp only [Int.ofNat_eq_natCast]; omega
    · cases h
  · split at h
    · omega
    · cases h

theorem serList_fits {α : Type} {f : α → W} {xs : List α} (h : (serList f xs).2 = none) : ∀ x ∈ xs, (f x).2 = none := by
  induction xs with
  | nil => simp
  | cons x xs ih =>
    obtain ⟨h1, h2⟩ := W.seq_none h
    intro y hy
    rcases List.mem_cons.mp hy with rfl | hy
    · exact h1
    · exact ih h2 y hy

theorem i32_fits {v : Int} (h : (packS 4 v).2 = none) : -2147483648 ≤ v ∧ v ≤ 2147483647 := by
  have := packS_fits_of_ok h
  have : (256 : Int) ^ 4 = 4294967296 := by decide
  omega

theorem i64_fits {v : Int} (h : (packS 8 v).2 = none) : -9223372036854775808 ≤ v ∧ v ≤ 9223372036854775807 := by
  have := packS_fits_of_ok h
  have : (256 : Int) ^ 8 = 18446744073709551616 := by decide
  omega

theorem u32_fits {v : Int} (h : (packU 4 v).2 = none) : 0 ≤ v ∧ v ≤ 4294967295 := by
  have := packU_fits_of_ok h
  have : (256 : Int) ^ 4 = 4294967296 := by decide
  omega

theorem u64_fits {v : Int} (h : (packU 8 v).2 = none) : 0 ≤ v ∧ v ≤ 18446744073709551615 := by
  have := packU_fits_of_ok h
  have : (256 : Int) ^ 8 = 18446744073709551616 := by decide
  omega

theorem fits_of_ser : (t : Ty) → (v : Val t) → (ser t v).2 = none → Fits t v
  | .bool, _, _ => trivial
  | .i32, _, h => i32_fits h
  | .i64, _, h => i64_fits h
  | .u32, _, h => u32_fits h
  | .u64, _, h => u64_fits h
  | .bytes, _, _ => trivial
  | .str, v, h => by
    unfold ser at h
    split at h
    · cases h
    · rename_i b hb
      intro c hc
      have hs : (Py.encodeUtf8 v).isSome = true := by rw [hb]; rfl
      rw [Py.encodeUtf8_isSome, List.all_eq_true] at hs
      have := hs c hc
      simp [Py.isSurrogate] at this
      omega
  | .opt t, none, _ => by intro x hx; cases hx
  | .opt t, some x, h => by
    intro y hy
    cases hy
    exact fits_of_ser t x (W.seq_none h).2
  | .list t, v, h => fun x hx => fits_of_ser t x (serList_fits (W.seq_none h).2 x hx)

theorem fits_of_serFields : (fs : List (Str × Ty)) → (vs : Vals fs) → (serFields fs vs).2 = none → AllFields Fits fs vs
  | [], _, _ => trivial
  | (_, t) :: ts, (v, vs), h => ⟨fits_of_ser t v (W.seq_none h).1, fits_of_serFields ts vs (W.seq_none h).2⟩

/-! ### truncated input -/

theorem deser_nil : (t : Ty) → deser t [] = (.error .structError, [])
  | .bool => rfl
  | .i32 | .u32 | .i64 | .u64 => rfl
  | .bytes => rfl
  | .str => rfl
  | .opt _ => rfl
  | .list _ => rfl

/-- What reading a truncated encoding can give: `struct.error`, a decoding error, or a value; in any case the stream is
used up. -/
def Trunc {α : Type} (x : Except Exn α × Bytes) : Prop :=
  x.2 = [] ∧ ∀ e, x.1 = .error e → e = .structError ∨ e = .unicodeError

theorem Trunc.struct {α : Type} : Trunc ((.error .structError, []) : Except Exn α × Bytes) :=
  ⟨rfl, fun e h => by cases h; exact .inl rfl⟩

theorem readS_short {k : Nat} {s : Bytes} (h : s.length < k) : readS k s = (.error .structError, []) := by
  simp [readS, readFixed_short h]

theorem take_append_lt {α : Type} {a b : List α} {k : Nat} (h : k < a.length) : (a ++ b).take k = a.take k := by
  rw [List.take_append]
  simp [Nat.sub_eq_zero_of_le (Nat.le_of_lt h)]

theorem take_append_ge {α : Type} {a b : List α} {k : Nat} (h : a.length ≤ k) : (a ++ b).take k = a ++ b.take (k - a.length) := by
  rw [List.take_append, List.take_of_length_le h]

theorem readBytes_trunc {b : Bytes} (h : b.length < 2 ^ 62) {k : Nat} (hk : k < 8 + b.length) :
    readBytes ((be 8 b.length ++ b).take k) = (.error .structError, [])
    ∨ readBytes ((be 8 b.length ++ b).take k) = (.ok (b.take (k - 8)), []) := by
  by_cases h8 : k < 8
  · left
    rw [take_append_lt (by rw [be_length]; exact h8)]
    simp only [readBytes]
    rw [readU_short (by rw [List.length_take, be_length]; omega)]
  · right
    rw [take_append_ge (by rw [be_length]; omega), be_length]
    simp only [readBytes, readU_length h, Int.toNat_natCast]
    rw [if_pos (by omega)]
    simp [List.take_take]
    omega

theorem readList_trunc {α : Type} {f : α → W} {g : R α} (hnil : g [] = (.error .structError, [])) {xs : List α}
    (h : ∀ x ∈ xs, ∃ b, f x = (b, none) ∧ (∀ r, g (b ++ r) = (.ok x, r)) ∧ ∀ k, k < b.length → Trunc (g (b.take k)))
    {k : Nat} (hk : k < (serList f xs).1.length) : Trunc (readList g xs.length ((serList f xs).1.take k)) := by
  induction xs generalizing k with
  | nil => simp [serList] at hk
  | cons x xs ih =>
    obtain ⟨b, hb, hr, ht⟩ := h x (by simp)
    have hser : (serList f (x :: xs)).1 = b ++ (serList f xs).1 := by simp [serList, W.seq, hb]
    rw [hser] at hk ⊢
    by_cases hkb : k < b.length
    · rw [take_append_lt hkb]
      obtain ⟨h1, h2⟩ := ht k hkb
      simp only [List.length_cons, readList]
      cases hg : g (b.take k) with
      | mk res rest =>
        rw [hg] at h1 h2
        subst h1
        cases res with
        | error e => exact ⟨rfl, fun e' he' => by cases he'; exact h2 e rfl⟩
        | ok v =>
          cases xs with
          | nil => exact ⟨rfl, fun e he => by cases he⟩
          | cons y ys => simp only [List.length_cons, readList, hnil]; exact Trunc.struct
    · rw [take_append_ge (by omega)]
      simp only [List.length_cons, readList, hr]
      rw [List.length_append] at hk
      have := ih (fun y hy => h y (by simp [hy])) (k := k - b.length) (by omega)
      obtain ⟨h1, h2⟩ := this
      cases hg : readList g xs.length ((serList f xs).1.take (k - b.length)) with
      | mk res rest =>
        rw [hg] at h1 h2
        subst h1
        cases res with
        | error e => exact ⟨rfl, fun e' he' => by cases he'; exact h2 e rfl⟩
        | ok v => exact ⟨rfl, fun e he => by cases he⟩

theorem deser_trunc : (t : Ty) → (v : Val t) → Fits t v → Small t v → ∀ k, k < (ser t v).1.length →
    Trunc (deser t ((ser t v).1.take k))
  | .bool, v, _, _, k, hk => by
    have : k = 0 := by simp [ser, serBool] at hk; exact hk
    subst this
    exact Trunc.struct
  | .i32, v, h, _, k, hk => by
    simp only [ser, packS_ok (packS_fits4 h), be_length] at hk ⊢
    simp only [deser]
    rw [readS_short (by rw [List.length_take, be_length]; omega)]
    exact Trunc.struct
  | .i64, v, h, _, k, hk => by
    simp only [ser, packS_ok (packS_fits8 h), be_length] at hk ⊢
    simp only [deser]
    rw [readS_short (by rw [List.length_take, be_length]; omega)]
    exact Trunc.struct
  | .u32, v, h, _, k, hk => by
    simp only [ser, packU_ok (packU_fits4 h), be_length] at hk ⊢
    simp only [deser]
    rw [readU_short (by rw [List.length_take, be_length]; omega)]
    exact Trunc.struct
  | .u64, v, h, _, k, hk => by
    simp only [ser, packU_ok (packU_fits8 h), be_length] at hk ⊢
    simp only [deser]
    rw [readU_short (by rw [List.length_take, be_length]; omega)]
    exact Trunc.struct
  | .bytes, v, _, h, k, hk => by
    have h' : v.length < 2 ^ 62 := by simp only [Small] at h; omega
    simp only [ser, serBytes_ok h', List.length_append, be_length] at hk ⊢
    simp only [deser]
    rcases readBytes_trunc h' hk with h | h <;> rw [h]
    · exact Trunc.struct
    · exact ⟨rfl, fun e he => by cases he⟩
  | .str, v, hf, h, k, hk => by
    obtain ⟨b, hb⟩ := encode_fits hf
    have hl := encodeUtf8_length hb
    have h' : b.length < 2 ^ 62 := by simp only [Small] at h; omega
    simp only [ser, hb, serBytes_ok h', List.length_append, be_length] at hk ⊢
    simp only [deser]
    rcases readBytes_trunc h' hk with h | h <;> rw [h]
    · exact Trunc.struct
    · simp only
      cases Py.decodeUtf8 (b.take (k - 8)) with
      | none => exact ⟨rfl, fun e he => by cases he; exact .inr rfl⟩
      | some s => exact ⟨rfl, fun e he => by cases he⟩
  | .opt t, none, _, _, k, hk => by
    have : k = 0 := by simp [ser, serBool] at hk; exact hk
    subst this
    exact Trunc.struct
  | .opt t, some x, hf, hs, k, hk => by
    obtain ⟨b, hb, hr⟩ := ser_ok t x (hf x rfl) (hs x rfl)
    have hser : (ser (.opt t) (some x)).1 = (serBool true).1 ++ b := by simp [ser, W.seq, serBool, hb]
    have ih := deser_trunc t x (hf x rfl) (hs x rfl)
    rw [hb] at ih
    rw [hser] at hk ⊢
    have hl : (serBool true).1.length = 1 := rfl
    by_cases h0 : k < 1
    · have : k = 0 := by omega
      subst this
      exact Trunc.struct
    · rw [take_append_ge (by omega), hl]
      rw [List.length_append, hl] at hk
      obtain ⟨h1, h2⟩ := ih (k - 1) (by simp only; omega)
      simp only [deser, readBool_append]
      cases hg : deser t (b.take (k - 1)) with
      | mk res rest =>
        simp only [hg] at h1 h2
        subst h1
        cases res with
        | error e => exact ⟨rfl, fun e' he' => by cases he'; exact h2 e rfl⟩
        | ok v => exact ⟨rfl, fun e he => by cases he⟩
  | .list t, v, hf, hs, k, hk => by
    have h' : v.length < 2 ^ 62 := by have := hs.1; omega
    have hser : (ser (.list t) v).1 = be 8 v.length ++ (serList (ser t) v).1 := by
      simp only [ser, packU_length h', W.seq]
    rw [hser] at hk ⊢
    simp only [deser]
    by_cases h8 : k < 8
    · rw [take_append_lt (by rw [be_length]; exact h8)]
      rw [readU_short (by rw [List.length_take, be_length]; omega)]
      exact Trunc.struct
    · rw [take_append_ge (by rw [be_length]; omega), be_length]
      rw [List.length_append, be_length] at hk
      simp only [readU_length h', Int.toNat_natCast]
      apply readList_trunc (deser_nil t) _ (by omega)
      intro x hx
      obtain ⟨b, hb, hr⟩ := ser_ok t x (hf x hx) (hs.2 x hx)
      refine ⟨b, hb, hr, ?_⟩
      have := deser_trunc t x (hf x hx) (hs.2 x hx)
      rw [hb] at this
      exact this

/-- Reading the fields of a truncated packet: an error, or all fields except the last are as sent. -/
theorem readFields_trunc : (fs : List (Str × Ty)) → (vs : Vals fs) → AllFields Fits fs vs → AllFields Small fs vs →
    ∀ k, k < (serFields fs vs).1.length →
    Trunc (readFields fs ((serFields fs vs).1.take k)) ∧
    ∀ vs', (readFields fs ((serFields fs vs).1.take k)).1 = .ok vs' → AgreeInit fs vs vs'
  | [], _, _, _, k, hk => by simp [serFields] at hk
  | (nm, t) :: ts, (v, vs), hf, hs, k, hk => by
    obtain ⟨b, hb, hr⟩ := ser_ok t v hf.1 hs.1
    have ht := deser_trunc t v hf.1 hs.1
    rw [hb] at ht
    have hser : (serFields ((nm, t) :: ts) (v, vs)).1 = b ++ (serFields ts vs).1 := by
      simp [serFields, W.seq, hb]
    rw [hser] at hk ⊢
    by_cases hkb : k < b.length
    · rw [take_append_lt hkb]
      obtain ⟨h1, h2⟩ := ht k hkb
      simp only [readFields]
      cases hg : deser t (b.take k) with
      | mk res rest =>
        simp only [hg] at h1 h2
        subst h1
        cases res with
        | error e => exact ⟨⟨rfl, fun e' he' => by cases he'; exact h2 e rfl⟩, fun vs' h => by cases h⟩
        | ok v' =>
          cases ts with
          | nil => exact ⟨⟨rfl, fun e he => by cases he⟩, fun vs' _ => trivial⟩
          | cons f ts' =>
            simp only [readFields, deser_nil]
            exact ⟨Trunc.struct, fun vs' h => by cases h⟩
    · rw [take_append_ge (by omega)]
      rw [List.length_append] at hk
      obtain ⟨⟨h1, h2⟩, h3⟩ := readFields_trunc ts vs hf.2 hs.2 (k - b.length) (by omega)
      simp only [readFields, hr]
      cases hg : readFields ts ((serFields ts vs).1.take (k - b.length)) with
      | mk res rest =>
        rw [hg] at h1 h2 h3
        subst h1
        cases res with
        | error e => exact ⟨⟨rfl, fun e' he' => by cases he'; exact h2 e rfl⟩, fun vs' h => by cases h⟩
        | ok vs1 =>
          refine ⟨⟨rfl, fun e he => by cases he⟩, fun vs' h => ?_⟩
          cases h
          cases ts with
          | nil => trivial
          | cons f ts' => exact ⟨rfl, h3 vs1 rfl⟩

theorem packets_index {n : Nat} {k : Kind} (h : packets[n]? = some k) : n = k.id := by
  have hlt : n < 23 := (List.getElem?_eq_some_iff.mp h).1
  match n, hlt with
  | 0, _ | 1, _ | 2, _ | 3, _ | 4, _ | 5, _ | 6, _ | 7, _ | 8, _ | 9, _ | 10, _ | 11, _ | 12, _ | 13, _ | 14, _ | 15, _
  | 16, _ | 17, _ | 18, _ | 19, _ | 20, _ | 21, _ | 22, _ => cases Option.some.inj h; rfl

theorem deser_fixed_trunc : (t : Ty) → (v : Val t) → Fits t v → t.isFixed = true → ∀ k, k < (ser t v).1.length →
    deser t ((ser t v).1.take k) = (.error .structError, [])
  | .bool, v, _, _, k, hk => by
    have : k = 0 := by simp [ser, serBool] at hk; exact hk
    subst this
    rfl
  | .i32, v, h, _, k, hk => by
    simp only [ser, packS_ok (packS_fits4 h), be_length] at hk ⊢
    simp only [deser]
    rw [readS_short (by rw [List.length_take, be_length]; omega)]
  | .i64, v, h, _, k, hk => by
    simp only [ser, packS_ok (packS_fits8 h), be_length] at hk ⊢
    simp only [deser]
    rw [readS_short (by rw [List.length_take, be_length]; omega)]
  | .u32, v, h, _, k, hk => by
    simp only [ser, packU_ok (packU_fits4 h), be_length] at hk ⊢
    simp only [deser]
    rw [readU_short (by rw [List.length_take, be_length]; omega)]
  | .u64, v, h, _, k, hk => by
    simp only [ser, packU_ok (packU_fits8 h), be_length] at hk ⊢
    simp only [deser]
    rw [readU_short (by rw [List.length_take, be_length]; omega)]

/-- If the last field has a fixed size, truncated fields are never accepted. -/
theorem readFields_fixed_trunc : (fs : List (Str × Ty)) → (vs : Vals fs) → AllFields Fits fs vs → AllFields Small fs vs →
    (match fs.getLast? with | none => true | some (_, t) => t.isFixed) = true →
    ∀ k, k < (serFields fs vs).1.length → ∀ vs', (readFields fs ((serFields fs vs).1.take k)).1 ≠ .ok vs'
  | [], _, _, _, _, k, hk => by simp [serFields] at hk
  | (nm, t) :: ts, (v, vs), hf, hs, hl, k, hk => by
    obtain ⟨b, hb, hr⟩ := ser_ok t v hf.1 hs.1
    have ht := deser_trunc t v hf.1 hs.1
    rw [hb] at ht
    have hser : (serFields ((nm, t) :: ts) (v, vs)).1 = b ++ (serFields ts vs).1 := by
      simp [serFields, W.seq, hb]
    rw [hser] at hk ⊢
    intro vs'
    by_cases hkb : k < b.length
    · rw [take_append_lt hkb]
      simp only [readFields]
      cases ts with
      | nil =>
        have := deser_fixed_trunc t v hf.1 (by simpa using hl) k (by rw [hb]; exact hkb)
        rw [hb] at this
        rw [this]
        intro h; cases h
      | cons f ts' =>
        obtain ⟨h1, h2⟩ := ht k hkb
        cases hg : deser t (b.take k) with
        | mk res rest =>
          simp only [hg] at h1 h2
          subst h1
          cases res with
          | error e => intro h; cases h
          | ok v' =>
            simp only [readFields, deser_nil]
            intro h; cases h
    · rw [take_append_ge (by omega)]
      rw [List.length_append] at hk
      simp only [readFields, hr]
      cases ts with
      | nil => simp [serFields] at hk; omega
      | cons f ts' =>
        have ih := readFields_fixed_trunc (f :: ts') vs hf.2 hs.2 (by simpa [List.getLast?_cons_cons] using hl)
          (k - b.length) (by omega)
        cases hg : readFields (f :: ts') ((serFields (f :: ts') vs).1.take (k - b.length)) with
        | mk res rest =>
          rw [hg] at ih
          cases res with
          | error e => intro h; cases h
          | ok vs1 => exact absurd rfl (ih vs1)

end Verif.Wire
