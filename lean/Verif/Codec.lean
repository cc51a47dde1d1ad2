import Verif.Values
/-
Model of the message layer of the binary serializer:
src/protobuf/qprotobufserializer.cpp, src/protobuf/qabstractprotobufserializer.h and
src/protobuf/qabstractprotobufserializer_p.h.
-/
namespace QtPb

/-! ### Serialization -/

/-- Concatenate the outputs of fallible writers. -/
def concatRes : List (Res Bytes) → Res Bytes
  | [] => .ok []
  | x :: xs => do
    let a ← x
    let b ← concatRes xs
    .ok (a ++ b)

/-- Does the serializer have a list handler for elements of this kind?
(qprotobufserializer.cpp:201-214: all kinds but `bool`.) -/
def Kind.hasListHandler : Kind → Bool
  | .bool => false
  | _ => true

/-- Generic `serializeListType` (qprotobufserializer_p.h:230-250): packed elements; an element that
serializes to nothing (zero) is written as one NUL byte. -/
def serializePackedElems (env : Env) (k : Kind) : List Scalar → Bytes
  | [] => []
  | v :: vs =>
    let e := (serializeBasic env k v notUsed).1
    (if e.isEmpty then [0] else e) ++ serializePackedElems env k vs

/-- String and byte array lists: one header and one length delimited value per element
(qprotobufserializer_p.h:262-266, qprotobufserializer.cpp:44-48). A null element is written like an
empty one. -/
def serializeDelimitedElems (env : Env) (k : Kind) (idx : Nat) : List Scalar → Bytes
  | [] => []
  | v :: vs =>
    encodeHeader idx wtLengthDelimited ++ (serializeBasic env k v idx).1
      ++ serializeDelimitedElems env k idx vs

/-- `serializeListType` overloads (qprotobufserializer_p.h:230-270, qprotobufserializer.cpp:34-52). -/
def serializeListType (env : Env) (k : Kind) (l : List Scalar) (idx : Nat) : Bytes × Int :=
  if l.isEmpty then ([], notUsed)
  else match k with
    | .string | .bytes => (serializeDelimitedElems env k idx l, notUsed)
    | _ => (prependLengthDelimitedSize (serializePackedElems env k l), idx)

/-- Tail of `serializeProperty` (qprotobufserializer.cpp:272-277): prepend the header unless the
handler invalidated the field index. -/
def withHeader (num : Nat) (wt : Nat) (r : Bytes × Int) : Bytes :=
  if r.2 = notUsed then r.1 else encodeHeader num wt ++ r.1

/-- Scalar branch of `serializeProperty` (qprotobufserializer.cpp:258-283). -/
def serializeScalarField (env : Env) (num : Nat) (k : Kind) (s : Scalar) : Bytes :=
  withHeader num k.wireType (serializeWrapper env k s num)

/-- `int64(enumValue)` (qabstractprotobufserializer_p.h:152, 165): sign extension. -/
def enumToInt64 (e : BitVec 32) : BitVec 64 := e.signExtend 64

/-- `QProtobufSerializer::serializeEnum` (qprotobufserializer.cpp:145-154). -/
def serializeEnumField (num : Nat) (e : BitVec 32) : Bytes :=
  withHeader num wtVarint (serializeUnsigned 64 (enumToInt64 e).toNat num)

/-- `serializeEnumList` (qabstractprotobufserializer_p.h:161-168, qprotobufserializer.cpp:156-165). -/
def serializeEnumListField (env : Env) (num : Nat) (l : List (BitVec 32)) : Bytes :=
  withHeader num wtLengthDelimited
    (serializeListType env .int64 (l.map fun e => .w64 (enumToInt64 e)) num)

/-- `QProtobufSerializer::serializeObject` (qprotobufserializer.cpp:106-111), given the bytes of the
message. -/
def frameObject (num : Nat) (body : Bytes) : Bytes :=
  encodeHeader num wtLengthDelimited ++ prependLengthDelimitedSize body

section
variable (env : Env) (rec : Nat → Obj → Res Bytes)

/-- Reading a sub-message property: `QProtobufLazyMessagePointer::get` creates the object when it is
unset (qprotobuflazymessagepointer.h:61-66, templates.cpp:180-182). -/
def materialize (m : Nat) : Val → Obj
  | .msg o => o
  | _ => defaultObj env m

/-- Handler `serializeObject<T>` (qabstractprotobufserializer_p.h:78-83) on a property value. -/
def serializeMsgField (num m : Nat) (v : Val) : Res Bytes := do
  let body ← rec m (materialize env m v)
  .ok (frameObject num body)

/-- Handler `serializeList<V>` (qabstractprotobufserializer_p.h:89-106): null pointers are skipped. -/
def serializeMsgList (num m : Nat) : List Val → Res Bytes
  | [] => .ok []
  | .msg o :: vs => do
    let body ← rec m o
    let r ← serializeMsgList num m vs
    .ok (frameObject num body ++ r)
  | _ :: vs => serializeMsgList num m vs

/-- Value part of a map entry: `serializeProperty(value, 2)` (qprotobufserializer.cpp:135).
For message values the pointer inside the entry is used directly. -/
def serializeMapValue (vt : MapVal) (v : Val) : Res Bytes :=
  match vt, v with
  | .scalar k, .sc s => .ok (serializeScalarField env 2 k s)
  | .enum, .enum e => .ok (serializeEnumField 2 e)
  | .msg m, .msg o => do
    let body ← rec m o
    .ok (frameObject 2 body)
  | _, _ => .ok []

/-- Handlers `serializeMap<K, V>` (qabstractprotobufserializer_p.h:112-142) with
`QProtobufSerializer::serializeMapPair` (qprotobufserializer.cpp:130-137): one length delimited entry
per pair, key as field 1, value as field 2; null message values are skipped. -/
def serializeMap (num : Nat) (kk : Kind) (vt : MapVal) : List (Scalar × Val) → Res Bytes
  | [] => .ok []
  | (_, .msgNull) :: es => serializeMap num kk vt es
  | (key, v) :: es => do
    let value ← serializeMapValue env rec vt v
    let r ← serializeMap num kk vt es
    .ok (frameObject num (serializeScalarField env 1 kk key ++ value) ++ r)

/-- `serializeProperty` (qprotobufserializer.cpp:258-283): built-in handlers, then registered ones.
There is no handler for lists of `bool`: the empty `std::function` throws.
Combinations of field type and value of another type cannot occur in the program. -/
def serializeProperty (num : Nat) (ty : FieldTy) (v : Val) : Res Bytes :=
  match ty, v with
  | .scalar k, .sc s => .ok (serializeScalarField env num k s)
  | .list k, .scList l =>
    if k.hasListHandler then .ok (withHeader num wtLengthDelimited (serializeListType env k l num))
    else .throw .badFunctionCall
  | .enum, .enum e => .ok (serializeEnumField num e)
  | .enumList, .enumList l => .ok (serializeEnumListField env num l)
  | .msg m, v => serializeMsgField env rec num m v
  | .msgList m, .msgList l => serializeMsgList rec num m l
  | .map kk vt, .map es => serializeMap env rec num kk vt es
  | _, _ => .ok []

end

/-- `QProtobufSerializer::serializeMessage` (qprotobufserializer.cpp:81-97) for message type `m`:
all properties in the iteration order of `propertyOrdering`. The first argument bounds the depth of
nested calls; `Res.fuel` means the bound was exceeded. -/
def serializeMessage (env : Env) : Nat → Nat → Obj → Res Bytes
  | 0, _, _ => .fuel
  | n + 1, m, obj =>
    concatRes <| (env.ord m).map fun i =>
      match (env.sch m)[i]?, obj[i]? with
      | some f, some v => serializeProperty env (serializeMessage env n) f.num f.ty v
      | _, _ => .ok []

/-! ### Deserialization -/

/-- Body of the packed `deserializeList` loop (qprotobufserializer_p.h:363-367): elements until the
iterator equals `last`. The first argument bounds the iterations. -/
def packedLoop (env : Env) (k : Kind) (last : Nat) : Nat → It → Res (List Scalar × It)
  | 0, _ => .fuel
  | n + 1, it =>
    if it.pos = last then .ok ([], it)
    else do
      let (v, it) ← deserializeBasic env k it
      let (vs, it) ← packedLoop env k last n it
      .ok (v :: vs, it)

/-- `operator +(it, int)` (qprotobufselfcheckiterator.h:138-141); the copies it makes throw only for
iterators that the model already classifies as UB. -/
def It.plus (it : It) (n : Int) : Res It := it.add n

/-- Generic `deserializeList<V>` (qprotobufserializer_p.h:355-369). The list starts empty: earlier
contents are dropped. -/
def deserializePacked (env : Env) (k : Kind) (n : Nat) (it : It) : Res (List Scalar × It) := do
  let (count, it) ← deserializeVarint 32 it
  let last ← it.plus (toInt32 count)
  packedLoop env k last.pos n it

/-- List handlers (qprotobufserializer_p.h:355-369, qprotobufserializer.cpp:54-73): strings and byte
arrays are appended to the previous value, other lists replace it. -/
def deserializeScalarList (env : Env) (k : Kind) (n : Nat) (prev : List Scalar) (it : It) :
    Res (List Scalar × It) :=
  match k with
  | .string | .bytes => do
    let (v, it) ← deserializeBasic env k it
    .ok (prev ++ [v], it)
  | .bool => .throw .badFunctionCall
  | _ => deserializePacked env k n it

/-- `static_cast<T>(intValue._t)` (qabstractprotobufserializer_p.h:255, 271), enumerations have 32
bits. Numbers outside the declared range are kept (C++ leaves the cast unspecified before C++17). -/
def enumOfInt64 (v : BitVec 64) : BitVec 32 := v.setWidth 32

/-- `deserializeEnum` (qabstractprotobufserializer_p.h:249-256, qprotobufserializer.cpp:167-172). -/
def deserializeEnum (it : It) : Res (BitVec 32 × It) := do
  let (v, it) ← deserializeVarint 64 it
  .ok (enumOfInt64 (BitVec.ofNat 64 v), it)

/-- Read the enumeration number out of an `int64` list element. -/
def enumOfScalar : Scalar → BitVec 32
  | .w64 v => enumOfInt64 v
  | _ => 0

/-- `deserializeEnumList` (qabstractprotobufserializer_p.h:263-274, qprotobufserializer.cpp:174-179):
the new elements are appended to the previous value. -/
def deserializeEnumList (env : Env) (n : Nat) (prev : List (BitVec 32)) (it : It) :
    Res (List (BitVec 32) × It) := do
  let (l, it) ← deserializePacked env .int64 n it
  .ok (prev ++ l.map enumOfScalar, it)

/-- Result of deserializing a message body: outcome and the object as it is at that point. -/
abbrev MsgResult := Res Unit × Obj

section
variable (env : Env) (rec : Nat → Bytes → MsgResult)

/-- `QProtobufSerializer::deserializeObject` (qprotobufserializer.cpp:113-117) on a fresh object
(`deserializeObject<T>`, qabstractprotobufserializer_p.h:174-181). When the nested call throws, the
fresh object is not reachable any more. -/
def deserializeObject (m : Nat) (it : It) : Res (Obj × It) := do
  let (body, it) ← deserializeLengthDelimited it
  match rec m body with
  | (.ok (), o) => .ok (o, it)
  | (.throw e, _) => .throw e
  | (.ub, _) => .ub
  | (.fuel, _) => .fuel

/-- Default value of the `value` variant of a map entry
(qabstractprotobufserializer_p.h:214, 236). -/
def defaultMapVal : MapVal → Val
  | .scalar k => .sc (defaultScalar k)
  | .enum => .enum 0
  | .msg _ => .msgNull

/-- Value branch of `deserializeMapPair` (qprotobufserializer.cpp:343-350). -/
def deserializeMapValue (vt : MapVal) (it : It) : Res (Val × It) :=
  match vt with
  | .scalar k => do
    let (s, it) ← deserializeBasic env k it
    .ok (.sc s, it)
  | .enum => do
    let (e, it) ← deserializeEnum it
    .ok (.enum e, it)
  | .msg m => do
    let (o, it) ← deserializeObject rec m it
    .ok (.msg o, it)

/-- Loop of `deserializeMapPair` (qprotobufserializer.cpp:334-352): the validity of the header is not
checked, field 1 is the key, every other field number is the value. -/
def mapPairLoop (kk : Kind) (vt : MapVal) (last : Nat) :
    Nat → Scalar → Val → It → Res (Scalar × Val × It)
  | 0, _, _, _ => .fuel
  | n + 1, key, v, it =>
    if it.pos = last then .ok (key, v, it)
    else do
      let (h, it) ← decodeHeader it
      if h.num = 1 then
        let (key, it) ← deserializeBasic env kk it
        mapPairLoop kk vt last n key v it
      else
        let (v, it) ← deserializeMapValue env rec vt it
        mapPairLoop kk vt last n key v it

/-- `deserializeMapPair` (qprotobufserializer.cpp:327-353). -/
def deserializeMapPair (kk : Kind) (vt : MapVal) (n : Nat) (it : It) : Res (Scalar × Val × It) := do
  let (count, it) ← deserializeVarint 32 it
  let last ← it.plus (toInt32 count)
  mapPairLoop env rec kk vt last.pos n (defaultScalar kk) (defaultMapVal vt) it

/-- The handler call of `deserializeProperty` (qprotobufserializer.cpp:311-322): new value of a
property of type `ty` whose current value is `cur`. -/
def deserializeValue (ty : FieldTy) (n : Nat) (cur : Val) (it : It) : Res (Val × It) :=
  match ty with
  | .scalar k => do
    let (s, it) ← deserializeBasic env k it
    .ok (.sc s, it)
  | .list k => do
    let (l, it) ← deserializeScalarList env k n (match cur with | .scList l => l | _ => []) it
    .ok (.scList l, it)
  | .enum => do
    let (e, it) ← deserializeEnum it
    .ok (.enum e, it)
  | .enumList => do
    let (l, it) ← deserializeEnumList env n (match cur with | .enumList l => l | _ => []) it
    .ok (.enumList l, it)
  | .msg m => do
    let (o, it) ← deserializeObject rec m it
    .ok (.msg o, it)
  | .msgList m => do
    let (o, it) ← deserializeObject rec m it
    .ok (.msgList ((match cur with | .msgList l => l | _ => []) ++ [.msg o]), it)
  | .map kk vt => do
    let (key, v, it) ← deserializeMapPair env rec kk vt n it
    .ok (.map (mapInsert kk key v (match cur with | .map l => l | _ => [])), it)

/-- Index of the property registered for a field number: `propertyOrdering.find`
(qprotobufserializer.cpp:297-305). -/
def findField (fs : List Field) (num : Nat) : Option Nat := fs.findIdx? fun f => f.num == num

/-- `deserializeProperty` (qprotobufserializer.cpp:285-325). The wire type is used only to skip
unknown fields. -/
def deserializeProperty (m : Nat) (n : Nat) (it : It) (obj : Obj) : Res (It × Obj) := do
  let (h, it) ← decodeHeader it
  if !h.valid then .throw .invalidArgument
  else match findField (env.sch m) h.num with
    | none => do
      let it ← skipField it h.wt
      .ok (it, obj)
    | some i =>
      match (env.sch m)[i]?, obj[i]? with
      | some f, some cur => do
        let (v, it) ← deserializeValue env rec f.ty n cur it
        .ok (it, obj.set i (writeVal f.ty cur v))
      | _, _ => .ub

/-- Loop of `QProtobufSerializer::deserializeMessage` (qprotobufserializer.cpp:99-104). -/
def messageLoop (m : Nat) : Nat → It → Obj → MsgResult
  | 0, _, obj => (.fuel, obj)
  | n + 1, it, obj =>
    if it.pos = it.data.length then (.ok (), obj)
    else match deserializeProperty env rec m n it obj with
      | .ok (it, obj) => messageLoop m n it obj
      | .throw e => (.throw e, obj)
      | .ub => (.ub, obj)
      | .fuel => (.fuel, obj)

end

/-- `deserializeMessage` into a default constructed object of type `m`
(qprotobufserializer.cpp:99-104). The first argument bounds both the number of loop iterations and
the nesting; `Res.fuel` means the bound was exceeded. -/
def deserializeMessage (env : Env) : Nat → Nat → Bytes → MsgResult
  | 0, m, _ => (.fuel, defaultObj env m)
  | n + 1, m, data =>
    messageLoop env (deserializeMessage env n) m (n + 1) (It.start data) (defaultObj env m)

end QtPb
