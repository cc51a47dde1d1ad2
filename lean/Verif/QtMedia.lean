import Verif.QtTypes
/-
Model of the conversions of `QUrl` and `QImage` (src/qttypes/qtprotobufqttypes.cpp:63-69, 265-276) and of their handlers (lines 278-290), with the messages of
QtCore.proto:5-7 and QtGui.proto:63-66. Qt's URLs and images are parameters: what `QUrl` parses and prints, and what the image codecs write and read.
-/
namespace QtPb.Media
open QtPb

/-- Qt's part: URLs of type `U`, images of type `I`. -/
structure Qt (U I : Type) where
  /-- `QUrl(const QString &)` -/
  parse : List Char → U
  /-- `QUrl::url()` -/
  print : U → List Char
  /-- what `QImage::save(&buffer, "PNG")` leaves in a null byte array; `none`: it is still null -/
  save : I → Option Bytes
  /-- `QImage::fromData(data, format)`; the format is a C string -/
  load : Bytes → Bytes → I

/-- Message 0: `QUrl` (QtCore.proto:5-7); message 1: `QImage` (QtGui.proto:63-66). -/
def mediaSch : Nat → List Field
  | 0 => [⟨1, .scalar .string⟩]
  | 1 => [⟨1, .scalar .bytes⟩, ⟨2, .scalar .string⟩]
  | _ => []

/-- `QString::toLatin1`: characters that it does not have become question marks, two for those beyond 16 bits. -/
def latin1 : List Char → Bytes
  | [] => []
  | c :: cs => (if c.toNat < 256 then [UInt8.ofNat c.toNat] else if c.toNat < 65536 then [0x3f] else [0x3f, 0x3f]) ++ latin1 cs

/-- `QByteArray::data()` as a C string: it ends at the first zero. -/
def cString (b : Bytes) : Bytes := b.takeWhile (· ≠ 0)

/-- A value of one of the types. -/
inductive Media (U I : Type)
  | url (u : U)
  | image (i : I)

variable {U I : Type}

/-- The message type of a value (`PType` of the registrations, qtprotobufqttypes.cpp:293, 316). -/
def Media.msg : Media U I → Nat
  | .url _ => 0
  | .image _ => 1

/-- `convert` from Qt (qtprotobufqttypes.cpp:67-69, 269-276). -/
def toMessage (qt : Qt U I) : Media U I → Obj
  | .url u => [.sc (.str (some (qt.print u)))]
  | .image i => [.sc (.bytes (qt.save i)), .sc (.str (some "PNG".toList))]

/-- `convert` from a message (qtprotobufqttypes.cpp:63-65, 265-267). -/
def fromMessage (qt : Qt U I) (m : Nat) (o : Obj) : Res (Media U I) :=
  match m with
  | 0 => .ok (.url (qt.parse (Qt.textAt o 0)))
  | 1 => .ok (.image (qt.load (Qt.bytesAt o 0) (cString (latin1 (Qt.textAt o 1)))))
  | _ => .ub

/-- Serializer half of `registerQtTypeHandler` (qtprotobufqttypes.cpp:281-284). -/
def handlerSerialize (env : Env) (qt : Qt U I) (n num : Nat) (q : Media U I) : Res Bytes := do
  let body ← serializeMessage env n q.msg (toMessage qt q)
  .ok (frameObject num body)

/-- Deserializer half of `registerQtTypeHandler` (qtprotobufqttypes.cpp:285-289). -/
def handlerDeserialize (env : Env) (qt : Qt U I) (n m : Nat) (it : It) : Res (Media U I × It) := do
  let (o, it) ← deserializeObject (deserializeMessage env n) m it
  let q ← fromMessage qt m o
  .ok (q, it)

end QtPb.Media
