/-
Property theorems for the wire protocol (C01-C06).
-/
import Verif.Wire.Lemmas

namespace Verif.Wire

/-- C01. Every packet whose values fit can be sent, and reading it from a stream that goes on with arbitrary bytes `rest`
gives the same packet back and leaves exactly `rest`. -/
theorem C01_packet_roundtrip (p : Packet) (h : p.Sendable) (rest : Bytes) :
    (writePacket p).2 = none ∧ readPacket ((writePacket p).1 ++ rest) = (.ok p, rest) := by
  obtain ⟨h1, h2⟩ := writePacket_ok h
  rw [h1]
  exact ⟨rfl, h2 rest⟩

/-- C01, for the receiving function the code uses: everything that is not an error report is returned as is. -/
theorem C01_receive_roundtrip (p : Packet) (h : p.Sendable) (request : Option Packet) (rest : Bytes)
    (h1 : p.kind ≠ .osError) (h2 : p.kind ≠ .invalidField) :
    receivePacket request ((writePacket p).1 ++ rest) = (.ok p, rest) := by
  have := (C01_packet_roundtrip p h rest).2
  unfold receivePacket
  rw [this]
  cases p <;> simp_all [Packet.kind]

/-- A packet with unbounded, non-ASCII and optional data that meets the hypotheses of C01. -/
example : (Packet.processRun [p!"ls", p!"/tmp/ä€😀"] (some [0, 255]) true (some p!"root") none none (some p!"/")).Sendable := by
  simp [Packet.Sendable, Packet.Fits, Packet.Small, Packet.kind, Packet.vals, schema, AllFields, Fits, Small]

/-- C02. Any number of packets written one after the other is read back as the same sequence, and nothing is left over:
the stream never gets out of step. -/
theorem C02_stream_in_sync (ps : List Packet) (h : ∀ p ∈ ps, p.Sendable) (rest : Bytes) :
    readList readPacket ps.length ((ps.map encoding).flatten ++ rest) = (.ok ps, rest) := by
  induction ps with
  | nil => rfl
  | cons p ps ih =>
    have hp := (writePacket_ok (h p (by simp))).2
    have := ih (fun q hq => h q (by simp [hq]))
    simp only [List.map_cons, List.flatten_cons, List.append_assoc, List.length_cons, readList, hp, this]

example : ∀ p ∈ [Packet.checkAlive, .stat p!"/etc" false true, .download p!"/etc/passwd", .exit], p.Sendable := by
  simp [Packet.Sendable, Packet.Fits, Packet.Small, Packet.kind, Packet.vals, schema, AllFields, Fits, Small]

/-- C03. If the encoding of one packet is a prefix of the encoding of another one, they are the same packet. -/
theorem C03_prefix_free (p q : Packet) (hp : p.Sendable) (hq : q.Sendable) (h : encoding p <+: encoding q) : p = q := by
  obtain ⟨r, hr⟩ := h
  have h1 := (writePacket_ok hp).2 r
  have h2 := (writePacket_ok hq).2 []
  rw [List.append_nil, ← hr] at h2
  rw [h1] at h2
  exact Except.ok.inj (Prod.ext_iff.mp h2).1

/-- C03, injectivity. -/
theorem C03_injective (p q : Packet) (hp : p.Sendable) (hq : q.Sendable) (h : encoding p = encoding q) : p = q :=
  C03_prefix_free p q hp hq (h ▸ List.prefix_refl _)

/-- The full statement of C04: a proper prefix of an encoding is never accepted as a packet. -/
def C04_Statement : Prop :=
  ∀ p : Packet, p.Sendable → ∀ k < (encoding p).length, ∀ request q r,
    receivePacket request ((encoding p).take k) ≠ (.ok q, r)

/-- C04 is false of the code: if the connection is lost inside the payload of a download, the client receives
the beginning of the file as if it were the whole file. -/
theorem C04_refuted : ¬ C04_Statement := by
  intro h
  exact h (.downloadResult [1, 2]) (by
      simp [Packet.Sendable, Packet.Fits, Packet.Small, Packet.kind, Packet.vals, schema, AllFields, Fits, Small])
    13 (by decide) none (.downloadResult [1]) [] (by rfl)

/-- What reading a truncated packet gives. -/
theorem readPacket_trunc (p : Packet) (h : p.Sendable) (k : Nat) (hk : k < (encoding p).length) :
    Trunc (readPacket ((encoding p).take k)) ∧
    ∀ q, (readPacket ((encoding p).take k)).1 = .ok q →
      q.kind = p.kind ∧ ∃ vs : Vals (schema p.kind), q = Packet.ofVals p.kind vs ∧ AgreeInit (schema p.kind) p.vals vs := by
  obtain ⟨b, hb, hr⟩ := serFields_ok (schema p.kind) p.vals h.1 h.2
  have ht := readFields_trunc (schema p.kind) p.vals h.1 h.2
  have hw : writePacket p = (be 4 p.kind.id ++ b, none) := W.seq_ok (packId_ok _) hb
  have he : encoding p = be 4 p.kind.id ++ b := by rw [encoding, hw]
  rw [hb] at ht
  rw [he] at hk ⊢
  by_cases h4 : k < 4
  · rw [take_append_lt (by rw [be_length]; exact h4)]
    simp only [readPacket]
    rw [readU_short (by rw [List.length_take, be_length]; omega)]
    exact ⟨Trunc.struct, fun q hq => by cases hq⟩
  · rw [take_append_ge (by rw [be_length]; omega), be_length]
    rw [List.length_append, be_length] at hk
    obtain ⟨⟨h1, h2⟩, h3⟩ := ht (k - 4) (by simp only; omega)
    simp only [readPacket, readId, Int.toNat_natCast, packets_id]
    cases hg : readFields (schema p.kind) (b.take (k - 4)) with
    | mk res rest =>
      simp only [hg] at h1 h2 h3
      subst h1
      cases res with
      | error e => exact ⟨⟨rfl, fun e' he' => by cases he'; exact h2 e rfl⟩, fun q hq => by cases hq⟩
      | ok vs =>
        refine ⟨⟨rfl, fun e he => by cases he⟩, fun q hq => ?_⟩
        cases hq
        exact ⟨kind_ofVals _ _, vs, rfl, h3 vs rfl⟩

/-- C04, the part that holds, 1: for packets whose last field has a fixed size (among them every packet without fields,
stat requests, process results and user queries) every proper prefix is refused, with an IOError unless the cut is inside
a multi-byte character of a string, which is a UnicodeDecodeError (a ValueError). Missing: packets that end in a string,
byte string or list. -/
theorem C04_truncation_refused_partial (p : Packet) (h : p.Sendable) (hfix : p.kind.endsFixed = true)
    (k : Nat) (hk : k < (encoding p).length) (request : Option Packet) :
    (receivePacket request ((encoding p).take k)).1 = .error (.ioError p!"Unexpected EOF in data stream")
    ∨ (receivePacket request ((encoding p).take k)).1 = .error .unicodeError := by
  obtain ⟨⟨h1, h2⟩, h3⟩ := readPacket_trunc p h k hk
  have key : ∀ q, (readPacket ((encoding p).take k)).1 ≠ .ok q := by
    intro q hq
    obtain ⟨b, hb, hr⟩ := serFields_ok (schema p.kind) p.vals h.1 h.2
    have hw : writePacket p = (be 4 p.kind.id ++ b, none) := W.seq_ok (packId_ok _) hb
    have he : encoding p = be 4 p.kind.id ++ b := by rw [encoding, hw]
    have hfields := readFields_fixed_trunc (schema p.kind) p.vals h.1 h.2 hfix
    rw [hb] at hfields
    rw [he] at hk hq
    by_cases h4 : k < 4
    · rw [take_append_lt (by rw [be_length]; exact h4)] at hq
      simp only [readPacket] at hq
      rw [readU_short (by rw [List.length_take, be_length]; omega)] at hq
      cases hq
    · rw [take_append_ge (by rw [be_length]; omega), be_length] at hq
      rw [List.length_append, be_length] at hk
      simp only [readPacket, readId, Int.toNat_natCast, packets_id] at hq
      cases hg : readFields (schema p.kind) (b.take (k - 4)) with
      | mk res rest =>
        cases res with
        | error e => rw [hg] at hq; cases hq
        | ok vs => exact hfields (k - 4) (by simp only; omega) vs (by rw [hg])
  unfold receivePacket
  cases hg : readPacket ((encoding p).take k) with
  | mk res rest =>
    rw [hg] at h2 key
    cases res with
    | error e =>
      rcases h2 e rfl with rfl | rfl
      · exact .inl rfl
      · exact .inr rfl
    | ok q => exact absurd rfl (key q)

example : (Packet.stat p!"/tmp/ä" true false).kind.endsFixed = true ∧ 5 < (encoding (.stat p!"/tmp/ä" true false)).length := by
  decide

/-- C04, the part that holds, 2: whatever the cut point, if a packet is returned at all then it is of the right kind and
all fields except the last one are as sent. -/
theorem C04_truncation_only_last_field_partial (p : Packet) (h : p.Sendable) (k : Nat) (hk : k < (encoding p).length)
    (q : Packet) (hq : (readPacket ((encoding p).take k)).1 = .ok q) :
    q.kind = p.kind ∧ ∃ vs : Vals (schema p.kind), q = Packet.ofVals p.kind vs ∧ AgreeInit (schema p.kind) p.vals vs :=
  (readPacket_trunc p h k hk).2 q hq

/-- C05, first half. Sending succeeds exactly if every field fits its type. -/
theorem C05_send_iff_fits (p : Packet) (h : p.Small) : (writePacket p).2 = none ↔ p.Fits := by
  constructor
  · intro hw
    exact fits_of_serFields _ _ (W.seq_none hw).2
  · intro hf
    rw [(writePacket_ok ⟨hf, h⟩).1]

example : ¬ (Packet.stat [0xD800] false false).Fits ∧ ¬ (Packet.statResult [] (-1) [] [] 0 0 0 none).Fits := by
  simp [Packet.Fits, Packet.kind, Packet.vals, schema, AllFields, Fits]

/-- The full second half of C05: after a failed send, the next packet still arrives. -/
def C05_Statement : Prop :=
  ∀ p q : Packet, (writePacket p).2 ≠ none → q.Sendable →
    ∃ r, readPacket ((writePacket p).1 ++ (writePacket q).1) = (.ok q, r)

/-- The second half of C05 is false of the code: a request to run a command with an argument that cannot be encoded
raises, but leaves its first bytes in the buffer; a check-alive request sent next is not understood. -/
theorem C05_refuted : ¬ C05_Statement := by
  intro h
  obtain ⟨r, hr⟩ := h (.processRun [[0xD800]] none true none none none none) .checkAlive (by decide) (by
    simp [Packet.Sendable, Packet.Fits, Packet.Small, Packet.kind, Packet.vals, schema, AllFields])
  have : readPacket ((writePacket (.processRun [[0xD800]] none true none none none none)).1 ++ (writePacket .checkAlive).1)
      = (.error .structError, []) := by rfl
  rw [this] at hr
  cases hr

/-- C05: every failed send leaves at least the four bytes of the packet id behind. -/
theorem C05_failed_send_leaves_bytes (p : Packet) (_h : (writePacket p).2 ≠ none) :
    be 4 p.kind.id <+: (writePacket p).1 := by
  unfold writePacket W.seq
  rw [packId_ok]
  exact List.prefix_append _ _

/-- C06. A packet id outside the registry is refused with an IOError, and only the id is consumed. -/
theorem C06_unknown_id_refused (n : Nat) (h1 : packets.length ≤ n) (h2 : n < 2 ^ 32) (request : Option Packet) (rest : Bytes) :
    receivePacket request (be 4 n ++ rest) = (.error (.ioError (invalidIdMsg n)), rest) := by
  have hn : packets[(n : Int).toNat]? = none := by
    rw [Int.toNat_natCast, List.getElem?_eq_none h1]
  have h3 : readPacket (be 4 n ++ rest) = (.error (.ioError (invalidIdMsg n)), rest) := by
    simp only [readPacket]
    rw [readU_be (by have : 256 ^ 4 = 2 ^ 32 := by decide
                     omega)]
    simp only [hn]
  simp only [receivePacket, h3, Exn.ioError]

example : packets.length ≤ 23 ∧ 23 < 2 ^ 32 := by decide

/-- C06. The class that decodes a packet is the class registered under the id on the wire: whatever stream is read, if a
packet comes out then its own id is the one at the front of the stream. -/
theorem C06_id_determines_kind (s rest : Bytes) (p : Packet) (h : readPacket s = (.ok p, rest)) :
    ∃ r, readU 4 s = (.ok (p.kind.id : Int), r) := by
  unfold readPacket at h
  split at h
  · cases h
  · rename_i n r hn
    split at h
    · cases h
    · rename_i k hk
      split at h
      · cases h
      · cases h
        refine ⟨r, ?_⟩
        rw [hn, kind_ofVals]
        have hlt : n.toNat < packets.length := (List.getElem?_eq_some_iff.mp hk).1
        have hid : n.toNat = k.id := packets_index hk
        rw [← hid]
        have : 0 ≤ n := by
          simp only [readU] at hn
          split at hn
          · cases hn; omega
          · cases hn
        congr 2
        omega

/-- C06. Ids are unique: no two packet classes share one. -/
theorem C06_ids_unique (j k : Kind) (h : j.id = k.id) : j = k := by
  have h1 := packets_id j
  rw [h, packets_id k] at h1
  exact (Option.some.inj h1).symm

end Verif.Wire
