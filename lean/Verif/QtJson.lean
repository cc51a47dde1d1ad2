import Verif.QtTypes
import Verif.JsonRead
/-
Model of values of Qt's types in JSON: the handlers of `registerQtTypeHandler` (src/qttypes/qtprotobufqttypes.cpp:278-290) when the serializer that
calls them is the JSON one (src/protobuf/qprotobufjsonserializer.cpp).
-/
namespace QtPb.Qt
open QtPb

/-- Serializer half of `registerQtTypeHandler` (qtprotobufqttypes.cpp:281-284), called by `serializeValue` of the JSON serializer
(qprotobufjsonserializer.cpp:159-164): convert, then `QProtobufJsonSerializer::serializeObject` (387-390), appended to an empty buffer. -/
def jsonSerialize (env : Json.JEnv) (n : Nat) (q : QtVal) : Res Bytes := do
  let o ← toMessage q
  Json.serializeObject env n q.msg o

/-- Deserializer half (qtprotobufqttypes.cpp:285-289): a new message is read by `QProtobufJsonSerializer::deserializeObject` (392-396), which
takes all of the text, and converted. -/
def jsonRead (env : Json.REnv) (n m : Nat) (data : Bytes) : Res QtVal := do
  let o ← Json.readMessage (Json.deserializeMessage env n) m data
  fromMessage env.toEnv m o

/-- `deserializeValue` of the JSON serializer (qprotobufjsonserializer.cpp:314-333) for a registered type: the handler is called until the text is
used up, which is once, or never if the text is empty; then `ok` stays false and the caller leaves the field alone (353-357). -/
def jsonDeserialize (env : Json.REnv) (n m : Nat) (data : Bytes) : Res (Option QtVal) :=
  if data = [] then .ok none else do
    let q ← jsonRead env n m data
    .ok (some q)

end QtPb.Qt
