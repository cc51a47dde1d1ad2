import Verif.Call
import Verif.Native
import Verif.Objects
/-
Model of whole calls over the HTTP/2 channel: from the argument message of the generated client's method to the
reply message, with the network and the server as the environment. It puts together the models of the client
(`Verif/Call.lean`), the channel (`Verif/Http2.lean`, `Verif/Native.lean`) and the serializer (`Verif/Objects.lean`).
-/
namespace QtPb.EndToEnd
open Http2 Native Call

/-- What `post` (src/grpc/qgrpchttp2channel.cpp:115-155) hands to the network: path of the URL and body. Simplification: the
headers and the timer are not modelled. -/
structure Request where
  path : String
  body : Bytes
deriving DecidableEq, Repr

/-- `post` (qgrpchttp2channel.cpp:115-140): the path from service and method (line 117), the body of lines 136-138. -/
def post (method service : String) (args : Bytes) : Request :=
  ⟨"/" ++ service ++ "/" ++ method, requestBody args⟩

/-- The world: what happens to a request while the caller waits, and the text of the header with the status message as
`QString::fromUtf8` reads it (qgrpchttp2channel.cpp:228). -/
abbrev World := Request → List Wait2 × String

/-- `QGrpcHttp2Channel::call` for bytes (qgrpchttp2channel.cpp:211-229). `none`: the call has not returned yet. -/
def channelCall (world : World) (method service : String) (args : Bytes) : Option (Res (Call.Status × Bytes)) :=
  let (events, message) := world (post method service args)
  match syncCall2 ⟨.NoError, none, []⟩ events with
  | none => none
  | some (.ok (data, code)) => some (.ok (⟨code, message⟩, data))
  | some (.throw e) => some (.throw e)
  | some .ub => some .ub
  | some .fuel => some .fuel

/-- The binary serializer's `deserialize` as `tryDeserialize` sees it (src/grpc/qabstractgrpcclient.h:205-232): the new contents of
the object and the exception, if any; `none` with too small bounds or undefined behaviour. -/
def read (env : Env) (n k m : Nat) (ret : Obj) (data : Bytes) : Option (Obj × Option Thrown) :=
  let r := deserialize env n k m data ret
  match r.status, r.target with
  | .ok (), .ok o => some (o, none)
  | .throw .invalidArgument, .ok o => some (o, some .invalidArgument)
  | .throw .outOfRange, .ok o => some (o, some .outOfRange)
  | .throw .badFunctionCall, .ok o => some (o, some .other)
  | _, _ => none

/-- `call<A, R>(method, arg, ret)` (qabstractgrpcclient.h:92-116) of a client for `service` with an HTTP/2 channel and the binary
serializer: an argument of message type `mA`, a reply object of message type `mR`. `n` and `k` bound the steps of the serializer.
`none`: the call has not returned (or not within the bounds). -/
def unary (env : Env) (n k : Nat) (world : World) (method service : String) (mA mR : Nat) (arg ret : Obj) : Option (Call.Outcome Obj) :=
  match serializeMessage env n mA arg with
  | .ok argData =>
    match channelCall world method service argData with
    | some (.ok (status, retData)) =>
      let deser : Deserialize Obj := fun r d => (read env n k mR r d).getD (r, none)
      if status.code = Status.Ok ∧ read env n k mR ret retData = none then none
      else some (callTyped (some ⟨some (serializeMessage env n mA, deser), fun _ => (status, retData)⟩) method arg false ret)
    | some (.throw e) => some (.escaped e)
    | _ => none
  | .throw e => some (.escaped e)
  | _ => none

/-- The handler of a stream with a reply object (qabstractgrpcclient.h:174-183), called for one message after the other; the reply
object stays alive. The reply object after each message, the status and the errors. -/
def updates (env : Env) (n k m : Nat) : Obj → List Bytes → Option (List (Obj × Call.Status × List Call.Status))
  | _, [] => some []
  | ret, data :: rest =>
    match read env n k m ret data with
    | none => none
    | some result =>
      let r := tryDeserialize (some fun _ _ => result) ret data
      match updates env n k m r.1 rest with
      | none => none
      | some more => some (r :: more)

/-- A stream over the HTTP/2 channel (qabstractgrpcclient.h:161-184, qgrpchttp2channel.cpp:272-318) whose reply object is updated:
the argument is posted, `chunks request` arrive one after the other. -/
def stream (env : Env) (n k : Nat) (chunks : Request → List Bytes) (method service : String) (mA mR : Nat) (arg ret : Obj) :
    Option (List (Obj × Call.Status × List Call.Status)) :=
  match serializeMessage env n mA arg with
  | .ok argData =>
    match receive n none (chunks (post method service argData)) with
    | .ok (messages, _) => updates env n k mR ret messages
    | _ => none
  | _ => none

end QtPb.EndToEnd
