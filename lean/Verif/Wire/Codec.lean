/-
The primitive serializers and deserializers of the tunnel protocol.
Models /repo/src/fora/connectors/tunnel_dispatcher.py:157-245.
-/
import Verif.Py.Utf8
import Verif.Py.Exn

namespace Verif.Wire

/-- The field types that occur in packet declarations: the keys of `_serializers`
(tunnel_dispatcher.py:196-203) plus `Optional[t]` (:209-213) and `list[t]` (:214-218). -/
inductive Ty where
  | bool | i32 | u32 | i64 | u64 | bytes | str
  | opt (t : Ty)
  | list (t : Ty)
  deriving DecidableEq, Repr

/-- The Python values of a field type. Integers are unbounded: `i32` etc. are `NewType`s of `int`
(tunnel_dispatcher.py:26-29) and nothing checks the range before `struct.pack` does. -/
@[reducible] def Val : Ty → Type
  | .bool => Bool
  | .i32 | .u32 | .i64 | .u64 => Int
  | .bytes => Bytes
  | .str => Str
  | .opt t => Option (Val t)
  | .list t => List (Val t)

/-- `DecidableEq` for field values. -/
@[reducible] def Val.decEq : (t : Ty) → DecidableEq (Val t)
  | .bool => inferInstanceAs (DecidableEq Bool)
  | .i32 | .u32 | .i64 | .u64 => inferInstanceAs (DecidableEq Int)
  | .bytes => inferInstanceAs (DecidableEq Bytes)
  | .str => inferInstanceAs (DecidableEq Str)
  | .opt t => have := Val.decEq t; inferInstanceAs (DecidableEq (Option (Val t)))
  | .list t => have := Val.decEq t; inferInstanceAs (DecidableEq (List (Val t)))

instance (t : Ty) : DecidableEq (Val t) := Val.decEq t

/-! ### Writing -/

/-- What a write leaves behind: the bytes that went to the output buffer and the exception that ended it, if any.
Bytes written before an exception stay in the buffer (`Connection.write`, tunnel_dispatcher.py:172-174). -/
abbrev W := Bytes × Option Exn

/-- Two writes in sequence; the second one is not reached if the first one raises. -/
def W.seq (a b : W) : W :=
  match a.2 with
  | none => (a.1 ++ b.1, b.2)
  | some _ => a

/-- `k` bytes of `n`, most significant first: `struct.pack(">...")`. -/
def be : Nat → Nat → Bytes
  | 0, _ => []
  | k + 1, n => UInt8.ofNat (n / 256 ^ k % 256) :: be k n

/-- `pack(">I", v)` (`k = 4`) / `pack(">Q", v)` (`k = 8`); `struct.error` if out of range. -/
def packU (k : Nat) : Int → W
  | .ofNat n => if n < 256 ^ k then (be k n, none) else ([], some .structError)
  | .negSucc _ => ([], some .structError)

/-- `pack(">i", v)` (`k = 4`) / `pack(">q", v)` (`k = 8`): two's complement; `struct.error` if out of range.
`Int.negSucc n` is `-(n+1)`. -/
def packS (k : Nat) : Int → W
  | .ofNat n => if n < 256 ^ k / 2 then (be k n, none) else ([], some .structError)
  | .negSucc n => if n < 256 ^ k / 2 then (be k (256 ^ k - (n + 1)), none) else ([], some .structError)

/-- `_serializers[bool]`: `pack(">?", v)`. -/
def serBool (v : Bool) : W := ([if v then 1 else 0], none)

/-- `_serializers[bytes]` (tunnel_dispatcher.py:202): the length as u64, then the content. -/
def serBytes (b : Bytes) : W := W.seq (packU 8 b.length) (b, none)

/-- The elements of a list one after the other (tunnel_dispatcher.py:217-218). -/
def serList {α : Type} (f : α → W) : List α → W
  | [] => ([], none)
  | x :: xs => W.seq (f x) (serList f xs)

/-- `_serialize(conn, vtype, v)`, tunnel_dispatcher.py:196-220. The final `else` branch (unknown type) cannot be
reached for a declared packet and has no counterpart in `Ty`. -/
def ser : (t : Ty) → Val t → W
  | .bool, v => serBool v
  | .i32, v => packS 4 v
  | .u32, v => packU 4 v
  | .i64, v => packS 8 v
  | .u64, v => packU 8 v
  | .bytes, v => serBytes v
  | .str, v =>
    match Py.encodeUtf8 v with
    | none => ([], some .unicodeError)
    | some b => serBytes b
  | .opt t, v =>
    match v with
    | none => serBool false
    | some x => W.seq (serBool true) (ser t x)
  | .list t, v => W.seq (packU 8 v.length) (serList (ser t) v)

/-! ### Reading -/

/-- A read from an input stream that ends after the given bytes: a value or an exception, and the rest of the stream. -/
abbrev R (α : Type) := Bytes → Except Exn α × Bytes

/-- `conn.read(n)` then `struct.unpack` of `n` bytes: a short read makes `unpack` raise `struct.error`. -/
def readFixed (n : Nat) : R Bytes := fun s =>
  if (s.take n).length = n then (.ok (s.take n), s.drop n) else (.error .structError, s.drop n)

/-- The unsigned number a byte string denotes, most significant byte first. -/
def unbe (b : Bytes) : Nat := b.foldl (fun a x => a * 256 + x.toNat) 0

/-- `unpack(">I", ...)` / `unpack(">Q", ...)`. -/
def readU (k : Nat) : R Int := fun s =>
  match readFixed k s with
  | (.ok b, r) => (.ok (unbe b : Int), r)
  | (.error e, r) => (.error e, r)

/-- `unpack(">i", ...)` / `unpack(">q", ...)`. -/
def readS (k : Nat) : R Int := fun s =>
  match readFixed k s with
  | (.ok b, r) => (.ok (if 2 * unbe b < 256 ^ k then (unbe b : Int) else (unbe b : Int) - 256 ^ k), r)
  | (.error e, r) => (.error e, r)

/-- `unpack(">?", ...)`: any non-zero byte is `True`. -/
def readBool : R Bool := fun s =>
  match readFixed 1 s with
  | (.ok b, r) => (.ok (unbe b != 0), r)
  | (.error e, r) => (.error e, r)

/-- `_deserializers[bytes]` (tunnel_dispatcher.py:228): `conn.read(length)`. `BufferedReader.read` returns fewer bytes
at the end of the stream, and nothing checks this here. A length that does not fit a `Py_ssize_t` is an
`OverflowError`. Simplification: memory is unlimited. -/
def readBytes : R Bytes := fun s =>
  match readU 8 s with
  | (.error e, r) => (.error e, r)
  | (.ok n, r) =>
    if n.toNat < 2 ^ 63 then (.ok (r.take n.toNat), r.drop n.toNat) else (.error .overflowError, r)

/-- `list(f(conn) for _ in range(n))`. -/
def readList {α : Type} (f : R α) : Nat → R (List α)
  | 0, s => (.ok [], s)
  | n + 1, s =>
    match f s with
    | (.error e, r) => (.error e, r)
    | (.ok x, r) =>
      match readList f n r with
      | (.error e, r') => (.error e, r')
      | (.ok xs, r') => (.ok (x :: xs), r')

/-- `_deserialize(conn, vtype)`, tunnel_dispatcher.py:222-245. -/
def deser : (t : Ty) → R (Val t)
  | .bool, s => readBool s
  | .i32, s => readS 4 s
  | .u32, s => readU 4 s
  | .i64, s => readS 8 s
  | .u64, s => readU 8 s
  | .bytes, s => readBytes s
  | .str, s =>
    match readBytes s with
    | (.error e, r) => (.error e, r)
    | (.ok b, r) =>
      match Py.decodeUtf8 b with
      | none => (.error .unicodeError, r)
      | some v => (.ok v, r)
  | .opt t, s =>
    match readBool s with
    | (.error e, r) => (.error e, r)
    | (.ok false, r) => (.ok none, r)
    | (.ok true, r) =>
      match deser t r with
      | (.error e, r') => (.error e, r')
      | (.ok x, r') => (.ok (some x), r')
  | .list t, s =>
    match readU 8 s with
    | (.error e, r) => (.error e, r)
    | (.ok n, r) => readList (deser t) n.toNat r

end Verif.Wire
