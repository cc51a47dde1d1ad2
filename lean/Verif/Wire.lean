import Verif.Basic
/-
Model of the scalar layer of the binary serializer:
src/protobuf/qprotobufselfcheckiterator.h and src/protobuf/qprotobufserializer_p.h.
-/
namespace QtPb

/-! ### Iterator -/

/-- `QProtobufSelfcheckIterator` (qprotobufselfcheckiterator.h:39-136).
Simplification: `m_sizeLeft` is not stored, it is `data.length - pos`; `m_containerSize` is
`data.length` and `m_it` is `begin() + pos`. `Verif/SelfCheck.lean` models the class with its three
separate members and proves that they stay in this relation. -/
structure It where
  data : Bytes
  pos : Nat
  deriving DecidableEq, Repr

namespace It

/-- Constructor from a container (qprotobufselfcheckiterator.h:42-44). -/
def start (data : Bytes) : It := ⟨data, 0⟩

/-- Bytes from the current position to the end. -/
def rest (it : It) : Bytes := it.data.drop it.pos

/-- `size()` (qprotobufselfcheckiterator.h:129-131). -/
def left (it : It) : Nat := it.data.length - it.pos

/-- `operator +=(int)` (qprotobufselfcheckiterator.h:77-84): subtract from the bytes left, throw if
negative, move. There is no check against moving in front of the container: a negative `n` moves
backwards. UB: `m_sizeLeft -= count` overflows `int`; or the pointer leaves the array. -/
def add (it : It) (n : Int) : Res It :=
  let left : Int := (it.data.length : Int) - it.pos - n
  if left > 2147483647 then .ub
  else if left < 0 then .throw .outOfRange
  else if (it.pos : Int) + n < 0 then .ub
  else .ok ⟨it.data, ((it.pos : Int) + n).toNat⟩

end It

/-- Conversion `unsigned int -> int` (two's complement), used where a 32 bit length is passed as the
`int` argument of `operator +=`, `operator +` or `QByteArray(const char *, int)`. -/
def toInt32 (n : Nat) : Int :=
  if n < 2147483648 then (n : Int) else (n : Int) - 4294967296

/-! ### Varints -/

/-- The `while (varint != 0)` loop of `serializeVarintCommon` (qprotobufserializer_p.h:83-88) and of
the unsigned `serializeBasic` (qprotobufserializer_p.h:195-200): 7 bit groups, all marked "not last".
The first argument bounds the number of iterations; the callers pass the width of the type in bits. -/
def varintGroups : Nat → Nat → Bytes
  | 0, _ => []
  | n + 1, v =>
    if v = 0 then [] else UInt8.ofNat ((v &&& 0x7f) ||| 0x80) :: varintGroups n (v >>> 7)

/-- `result.data()[result.size() - 1] &= ~0b10000000` (qprotobufserializer_p.h:94, 208). -/
def clearLastMsb : Bytes → Bytes
  | [] => []
  | [b] => [b &&& 0x7f]
  | b :: c :: bs => b :: clearLastMsb (c :: bs)

/-- `serializeVarintCommon<V>` (qprotobufserializer_p.h:75-96), `w` = bits of `V`. -/
def serializeVarintCommon (w : Nat) (v : Nat) : Bytes :=
  let r := varintGroups w v
  let r := if r.isEmpty then [0] else r
  clearLastMsb r

/-- `NotUsedFieldIndex` (qabstractprotobufserializer_p.h:47). -/
def notUsed : Int := -1

/-- `serializeBasic` for unsigned integers (qprotobufserializer_p.h:187-211): like the common varint
writer, but zero gives an empty result and invalidates the field index. -/
def serializeUnsigned (w : Nat) (v : Nat) (idx : Int) : Bytes × Int :=
  let r := varintGroups w v
  if r.isEmpty then (r, notUsed) else (clearLastMsb r, idx)

/-- Loop of `deserializeVarintCommon<V>` (qprotobufserializer_p.h:283-292) over the remaining bytes;
returns the value and the number of bytes consumed. `w` = bits of `V`.
`(byte & 0x7f) << k` is computed in `uint64_t`: shifting by 64 or more is UB.
At the end of the container `*it` is the terminating NUL of the `QByteArray`, so the loop stops and
the final `++it` throws (qprotobufselfcheckiterator.h:59-66). -/
def varintLoop (w : Nat) : Bytes → Nat → Nat → Res (Nat × Nat)
  | [], _, k => if k ≥ 64 then .ub else .throw .outOfRange
  | b :: tl, value, k =>
    if k ≥ 64 then .ub
    else
      let value' := (value + (((b.toNat &&& 0x7f) <<< k) % 2 ^ 64)) % 2 ^ w
      if b.toNat &&& 0x80 = 0 then .ok (value', 1)
      else do
        let (v, n) ← varintLoop w tl value' (k + 7)
        .ok (v, n + 1)

/-- `deserializeVarintCommon<V>` (qprotobufserializer_p.h:275-294). -/
def deserializeVarint (w : Nat) (it : It) : Res (Nat × It) := do
  let (v, n) ← varintLoop w it.rest 0 0
  .ok (v, ⟨it.data, it.pos + n⟩)

/-! ### ZigZag -/

/-- ZigZag encoding of `serializeBasic` for signed integers (qprotobufserializer_p.h:162-163). -/
def zigzag {w : Nat} (v : BitVec w) : BitVec w := (v <<< 1) ^^^ (v.sshiftRight (w - 1))

/-- ZigZag decoding of `deserializeBasic` for signed integers (qprotobufserializer_p.h:326). -/
def unzigzag {w : Nat} (u : BitVec w) : BitVec w := (u >>> 1) ^^^ (-1#w * (u &&& 1#w))

/-! ### Fixed width values -/

/-- Bytes of a value "as it is located in memory" (little endian), `n` bytes
(qprotobufserializer_p.h:114-116, 137-139). -/
def leBytes : Nat → Nat → Bytes
  | 0, _ => []
  | n + 1, v => UInt8.ofNat (v % 256) :: leBytes n (v / 256)

/-- Value of little endian bytes (qprotobufserializer_p.h:306). -/
def ofLe : Bytes → Nat
  | [] => 0
  | b :: bs => b.toNat + 256 * ofLe bs

/-- `deserializeBasic` for float, double and fixed types (qprotobufserializer_p.h:297-308): the value
is read through a pointer cast *before* `it += sizeof(V)` checks the bounds. The allocation has one
byte more than the container (the NUL), reading beyond that is UB. Alignment and aliasing of the
cast are not modelled. -/
def deserializeFixed (n : Nat) (it : It) : Res (Nat × It) :=
  if it.left + 1 < n then .ub
  else do
    let it' ← it.add n
    .ok (ofLe (it.rest.take n), it')

/-! ### Length delimited values -/

/-- `prependLengthDelimitedSize` (qprotobufserializer_p.h:401-404) and
`serializeLengthDelimited` (qprotobufserializer_p.h:383-389). -/
def prependLengthDelimitedSize (data : Bytes) : Bytes :=
  serializeVarintCommon 32 data.length ++ data

/-- `deserializeLengthDelimited` (qprotobufserializer_p.h:374-381): `QByteArray(it, length)` copies
before `it += length` checks. Reading past the terminating NUL is UB. A length of 2^31 or more is a
negative `int`: `QByteArray` then copies up to the first NUL and `+=` moves backwards. -/
def deserializeLengthDelimited (it : It) : Res (Bytes × It) := do
  let (len, it) ← deserializeVarint 32 it
  let n := toInt32 len
  if n < 0 then
    let it' ← it.add n
    .ok (it.rest.takeWhile (· ≠ 0), it')
  else if (it.left : Int) + 1 < n then .ub
  else
    let it' ← it.add n
    .ok (it.rest.take len, it')

/-! ### Headers -/

/-- `WireTypes` (qtprotobuftypes.h:48-56). -/
def wtVarint : Nat := 0
def wtFixed64 : Nat := 1
def wtLengthDelimited : Nat := 2
def wtFixed32 : Nat := 5

/-- `encodeHeader` (qprotobufserializer_p.h:468-472): `(fieldIndex << 3) | wireType` as `uint32_t`. -/
def encodeHeader (num : Nat) (wt : Nat) : Bytes :=
  serializeVarintCommon 32 (((num <<< 3) ||| wt) % 2 ^ 32)

/-- Result of `decodeHeader`: return value, field index, wire type. -/
structure Header where
  valid : Bool
  num : Nat
  wt : Nat
  deriving DecidableEq, Repr

/-- The acceptance test of `decodeHeader` (qprotobufserializer_p.h:485-492). -/
def splitHeader (h : Nat) : Header :=
  let wt := h &&& 7
  let num := h >>> 3
  ⟨num ≤ 536870911 && num > 0 && (wt == wtVarint || wt == wtFixed64 || wt == wtFixed32 || wt == wtLengthDelimited),
   num, wt⟩

/-- `decodeHeader` (qprotobufserializer_p.h:482-493). -/
def decodeHeader (it : It) : Res (Header × It) := do
  let (h, it) ← deserializeVarint 32 it
  .ok (splitHeader h, it)

/-! ### Skipping unknown fields -/

/-- `skipVarint` (qprotobufserializer.cpp:218-224) over the remaining bytes: number of bytes skipped.
At the end of the container the NUL stops the loop and `++it` throws. -/
def skipVarintLoop : Bytes → Res Nat
  | [] => .throw .outOfRange
  | b :: tl =>
    if b.toNat &&& 0x80 = 0 then .ok 1
    else do
      let n ← skipVarintLoop tl
      .ok (n + 1)

/-- `skipVarint` (qprotobufserializer.cpp:218-224). -/
def skipVarint (it : It) : Res It := do
  let n ← skipVarintLoop it.rest
  .ok ⟨it.data, it.pos + n⟩

/-- `skipLengthDelimited` (qprotobufserializer.cpp:226-231). -/
def skipLengthDelimited (it : It) : Res It := do
  let (len, it) ← deserializeVarint 32 it
  it.add (toInt32 len)

/-- `skipSerializedFieldBytes` (qprotobufserializer.cpp:233-255); the returned distance is only used
in a log message. -/
def skipField (it : It) (wt : Nat) : Res It :=
  if wt = wtVarint then skipVarint it
  else if wt = wtFixed32 then it.add 4
  else if wt = wtFixed64 then it.add 8
  else if wt = wtLengthDelimited then skipLengthDelimited it
  else .throw .invalidArgument

end QtPb
