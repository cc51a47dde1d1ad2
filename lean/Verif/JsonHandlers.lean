import Verif.GenRegister
/-
Model of the lookup of a handler in the JSON serializer (src/protobuf/qprotobufjsonserializer.cpp): the registry comes first, then a
table of its own, which has only a reader for most scalars; what has no writer is written as the text of the QVariant, what has no
reader is not read. The registrations are those of `GenRegister`.
-/
namespace QtPb.Gen.Reg.Json
open QtPb.Gen QtPb.Gen.Reg

/-- What writes a value: a registered handler, the table of the serializer, or `propertyValue.toString()`. -/
inductive Writer
  | registered (h : Handler)
  | table
  | text
deriving DecidableEq, Repr

/-- What reads a value: a registered handler or the table of the serializer. -/
inductive Reader
  | registered (h : Handler)
  | table
deriving DecidableEq, Repr

/-- `handler != handlers.end() && handler->second.serializer`: the first components of the table (qprotobufjsonserializer.cpp:125-155).
Numbers other than float, and bool, have an entry without a serializer; there is no entry for a list of bool. -/
def tableWrites : CppT → Bool
  | .basic .float | .basic .string | .basic .bytes => true
  | .list (.basic t) => scalarBuiltin t && t != .bool
  | _ => false

/-- `handler != handlers.end() && handler->second.deserializer`: the second components of the table (qprotobufjsonserializer.cpp:125-155). -/
def tableReads : CppT → Bool
  | .basic t => scalarBuiltin t
  | .list (.basic t) => scalarBuiltin t && t != .bool
  | _ => false

/-- The choice in `serializeValue` (qprotobufjsonserializer.cpp:159-174). -/
def writer (reg : List Entry) (t : CppT) : Writer :=
  match findHandler reg t with
  | some h => .registered h
  | none => if tableWrites t then .table else .text

/-- The choice in `deserializeValue` (qprotobufjsonserializer.cpp:314-333). None: the result is not `ok`, and `deserializeObject`
(353-357) does not write the property. -/
def reader (reg : List Entry) (t : CppT) : Option Reader :=
  match findHandler reg t with
  | some h => some (.registered h)
  | none => if tableReads t then some .table else none

/-- The types of values that the functions of a handler pass to `serializeValue`: those of the values of a map
(qabstractprotobufserializer_p.h:109-143, qprotobufjsonserializer.cpp:439-442). The keys of a map are written as text there. -/
def passesOn : Handler → List CppT
  | .map _ v => [if isObject v then .ptr v else v]
  | _ => []

/-- The types with which `serializeValue` is called when a property of this type is written (qprotobufjsonserializer.cpp:176-178). -/
def written (reg : List Entry) (t : CppT) : List CppT :=
  t :: match writer reg t with
    | .registered h => passesOn h
    | _ => []

/-- The types with which `deserializeValue` is called when a property of this type is read: those of key and value of a map too
(qprotobufjsonserializer.cpp:353-354, 453-478, qabstractprotobufserializer_p.h:206-250). -/
def readTypes (reg : List Entry) (t : CppT) : List CppT :=
  t :: match reader reg t with
    | some (.registered h) => asksFor h
    | _ => []

end QtPb.Gen.Reg.Json
