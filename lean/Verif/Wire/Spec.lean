/-
Specification vocabulary for the wire properties. Nothing here mentions how values are encoded.
-/
import Verif.Wire.Packet

namespace Verif.Wire

/-- A value fits its declared wire type: integers are in the range of the type, strings are valid Unicode text
(no lone surrogates). -/
def Fits : (t : Ty) → Val t → Prop
  | .bool, _ => True
  | .i32, v => -2147483648 ≤ v ∧ v ≤ 2147483647
  | .u32, v => 0 ≤ v ∧ v ≤ 4294967295
  | .i64, v => -9223372036854775808 ≤ v ∧ v ≤ 9223372036854775807
  | .u64, v => 0 ≤ v ∧ v ≤ 18446744073709551615
  | .bytes, _ => True
  | .str, v => ∀ c ∈ v, c ≤ 0x10FFFF ∧ ¬ (0xD800 ≤ c ∧ c ≤ 0xDFFF)
  | .opt t, v => ∀ x ∈ v, Fits t x
  | .list t, v => ∀ x ∈ v, Fits t x

/-- A value fits into the 64-bit address space of the Python process: no object has 2^60 or more elements.
Every value of a real run satisfies this. -/
def Small : (t : Ty) → Val t → Prop
  | .bytes, v => v.length < 2 ^ 60
  | .str, v => v.length < 2 ^ 60
  | .opt t, v => ∀ x ∈ v, Small t x
  | .list t, v => v.length < 2 ^ 60 ∧ ∀ x ∈ v, Small t x
  | _, _ => True

/-- A property of every field of a packet. -/
def AllFields (P : (t : Ty) → Val t → Prop) : (fs : List (Str × Ty)) → Vals fs → Prop
  | [], _ => True
  | (_, t) :: ts, (v, vs) => P t v ∧ AllFields P ts vs

/-- Every field fits its declared type. -/
def Packet.Fits (p : Packet) : Prop := AllFields Wire.Fits (schema p.kind) p.vals

/-- Every field fits into memory. -/
def Packet.Small (p : Packet) : Prop := AllFields Wire.Small (schema p.kind) p.vals

/-- Both: the packets that can be sent. -/
def Packet.Sendable (p : Packet) : Prop := p.Fits ∧ p.Small

/-- The bytes that sending `p` puts on the wire. -/
def encoding (p : Packet) : Bytes := (writePacket p).1

/-- Two field tuples agree on all fields except possibly the last one. -/
def AgreeInit : (fs : List (Str × Ty)) → Vals fs → Vals fs → Prop
  | [], _, _ => True
  | [_], _, _ => True
  | _ :: f :: ts, (v, vs), (v', vs') => v = v' ∧ AgreeInit (f :: ts) vs vs'

/-- Types whose encoding has a fixed size. -/
def Ty.isFixed : Ty → Bool
  | .bool | .i32 | .u32 | .i64 | .u64 => true
  | _ => false

/-- The packets whose last field (if any) has a fixed size. -/
def Kind.endsFixed (k : Kind) : Bool :=
  match (schema k).getLast? with
  | none => true
  | some (_, t) => t.isFixed

end Verif.Wire
