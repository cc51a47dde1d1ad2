import Verif.QtMedia
import Verif.Json
import Verif.JsonRead
/-
Model of the handlers of `QUrl` and `QImage` (src/qttypes/qtprotobufqttypes.cpp:278-290) called by the JSON serializer. Messages and Qt's part are those of
`Verif/QtMedia.lean`.
-/
namespace QtPb.Media
open QtPb

variable {U I : Type}

/-- Serializer half of `registerQtTypeHandler` (qtprotobufqttypes.cpp:281-284), called by `serializeValue` of the JSON serializer
(qprotobufjsonserializer.cpp:159-164): convert, then `QProtobufJsonSerializer::serializeObject` (387-390). -/
def jsonSerialize (env : Json.JEnv) (qt : Qt U I) (n : Nat) (q : Media U I) : Res Bytes := Json.serializeObject env n q.msg (toMessage qt q)

/-- Deserializer half (qtprotobufqttypes.cpp:285-289): a new message is read by `QProtobufJsonSerializer::deserializeObject` (392-396), which takes all of
the text, and converted. -/
def jsonRead (env : Json.REnv) (qt : Qt U I) (n m : Nat) (data : Bytes) : Res (Media U I) := do
  let o ← Json.readMessage (Json.deserializeMessage env n) m data
  fromMessage qt m o

/-- `deserializeValue` of the JSON serializer (qprotobufjsonserializer.cpp:314-333) for a registered type: the handler is called until the text is used up,
which is once, or never if the text is empty; then the field is left alone (353-357). -/
def jsonDeserialize (env : Json.REnv) (qt : Qt U I) (n m : Nat) (data : Bytes) : Res (Option (Media U I)) :=
  if data = [] then .ok none else do
    let q ← jsonRead env qt n m data
    .ok (some q)

end QtPb.Media
