import Verif.EndToEnd
/-
Model of whole calls and streams over the native gRPC channel (src/grpc/qgrpcchannel.cpp): from the argument message of the
generated client's method to the reply message, with the gRPC library, the network and the server as the environment.
-/
namespace QtPb.EndToEnd.Native
open Http2 QtPb.Native Call

/-- What the channel hands to the gRPC library (qgrpcchannel.cpp:86-88, 154-157): the name of the method and the slices of the
buffer with the argument. Simplification: the context of the call and the kind of the method are not modelled. -/
structure Request where
  path : String
  slices : List Bytes
deriving DecidableEq, Repr

/-- `parseQByteArray` (qgrpcchannel.cpp:74-79): a buffer of one slice. -/
def parseQByteArray (args : Bytes) : List Bytes := [args]

/-- The name (qgrpcchannel.cpp:209, 247, 263) and the buffer (lines 83-84, 146-147). Simplification: the name of the service has no
`%` (names of services have letters, digits, `_` and `.`), so that the second `arg` does not find a place marker in it. -/
def request (method service : String) (args : Bytes) : Request :=
  ⟨"/" ++ service ++ "/" ++ method, parseQByteArray args⟩

/-- The world: what happens to a request while the caller waits, and the text of the library's status. -/
abbrev World := Request → List Wait × String

/-- `QGrpcChannelPrivate::call` for bytes (qgrpcchannel.cpp:243-257). `none`: the call has not returned yet. -/
def channelCall (world : World) (method service : String) (args : Bytes) : Option (Res (Call.Status × Bytes)) :=
  let (events, message) := world (request method service args)
  match syncCall true .created events with
  | .ok none => none
  | .ok (some (code, data)) => some (.ok (⟨code, message⟩, data))
  | .throw e => some (.throw e)
  | .ub => some .ub
  | .fuel => some .fuel

/-- `call<A, R>(method, arg, ret)` (src/grpc/qabstractgrpcclient.h:92-116) of a client for `service` with a native channel, whose
serializer is the binary one (qgrpcchannel.cpp:343-347). `n` and `k` bound the steps of the serializer. `none`: the call has not
returned (or not within the bounds). -/
def unary (env : Env) (n k : Nat) (world : World) (method service : String) (mA mR : Nat) (arg ret : Obj) : Option (Call.Outcome Obj) :=
  match serializeMessage env n mA arg with
  | .ok argData =>
    match channelCall world method service argData with
    | some (.ok (status, retData)) =>
      let deser : Deserialize Obj := fun r d => (read env n k mR r d).getD (r, none)
      if status.code = Status.Ok ∧ read env n k mR ret retData = none then none
      else some (callTyped (some ⟨some (serializeMessage env n mA, deser), fun _ => (status, retData)⟩) method arg false ret)
    | some (.throw e) => some (.escaped e)
    | some .ub => some .undefined
    | _ => none
  | .throw e => some (.escaped e)
  | _ => none

/-- The loop of the thread of a stream (qgrpcchannel.cpp:94-117): what `ByteBuffer::Dump` gives for each buffer that `Read` brings,
then the status of `Finish`. The data of the signals `dataReady`, and the status at the end of the thread. -/
def readLoop (finish : StatusCode) : List (Except StatusCode (List Bytes)) → List Bytes × StatusCode
  | [] => ([], finish)
  | .error c :: _ => ([], c)
  | .ok slices :: rest =>
    let r := readLoop finish rest
    (appendSlices [] slices :: r.1, r.2)

/-- What the gRPC library gives for a stream: the buffers and the final status. -/
abbrev StreamWorld := Request → List (Except StatusCode (List Bytes)) × StatusCode

/-- A stream over the native channel (qabstractgrpcclient.h:161-184, qgrpcchannel.cpp:259-317) whose reply object is updated, from
the argument to the end of the thread: the updates of the reply object, and the status that the stream reports with `error`, if it
is not Ok (lines 288-291). Simplifications: neither the user nor the client ends the stream, the event loop delivers all
signals (Verif/Stream.lean has the histories). -/
def stream (env : Env) (n k : Nat) (world : StreamWorld) (method service : String) (mA mR : Nat) (arg ret : Obj) :
    Option (List (Obj × Call.Status × List Call.Status) × Option StatusCode) :=
  match serializeMessage env n mA arg with
  | .ok argData =>
    let (buffers, finish) := world (request method service argData)
    let r := readLoop finish buffers
    match updates env n k mR ret r.1 with
    | some us => some (us, if r.2 ≠ Status.Ok then some r.2 else none)
    | none => none
  | _ => none

end QtPb.EndToEnd.Native
