import Verif.Http2
/-
Model of calls through the gRPC client: `QAbstractGrpcClient` (src/grpc/qabstractgrpcclient.h/.cpp),
`QGrpcCallReply` (src/grpc/qgrpccallreply.cpp) and the asynchronous call of the HTTP/2 channel
(src/grpc/qgrpchttp2channel.cpp:231-270).

Simplifications: calls from the client's own thread only (from another thread the same function runs in
the client's thread while the caller waits, qabstractgrpcclient.cpp:78-84, 104-108); signals are lists of
what was emitted.
-/
namespace QtPb.Call
open Http2

/-! ### Synchronous calls -/

/-- `QGrpcStatus`: code and message. -/
structure Status where
  code : StatusCode
  message : String
deriving DecidableEq, Repr

/-- Exceptions that leave `deserialize`: by the catch clause they meet. -/
inductive Thrown
  | invalidArgument
  | outOfRange
  | other
deriving DecidableEq, Repr

/-- A serializer applied to a reply object: the new contents of the object and the exception, if any. -/
abbrev Deserialize (R : Type) := R → Bytes → R × Option Thrown

/-- `tryDeserialize` (qabstractgrpcclient.h:205-232): the object, the returned status, the emitted errors.
`deser` is `none` if there is no serializer. -/
def tryDeserialize {R : Type} (deser : Option (Deserialize R)) (ret : R) (retData : Bytes) :
    R × Status × List Status :=
  match deser with
  | some deser =>
    match deser ret retData with
    | (ret, none) => (ret, ⟨Status.Ok, ""⟩, [])
    | (ret, some .invalidArgument) =>
      let status := ⟨Status.InvalidArgument, "Response deserialization failed invalid field found"⟩
      (ret, status, [status])
    | (ret, some .outOfRange) =>
      let status := ⟨Status.OutOfRange, "Invalid size of received buffer"⟩
      (ret, status, [status])
    | (ret, some .other) =>
      let status := ⟨Status.Internal, "Unknown exception caught during deserialization"⟩
      (ret, status, [status])
  | none =>
    let status := ⟨Status.Unknown, "Deserializing failed. Serializer is not ready"⟩
    (ret, status, [status])

/-- An attached channel: its serializer, if any, and what its synchronous `call` answers. -/
structure Channel (A R : Type) where
  serializer : Option ((A → Res Bytes) × Deserialize R)
  call : Bytes → Status × Bytes

/-- `QAbstractGrpcClient::serializer` (qabstractgrpcclient.cpp:193-199). -/
def serializer {A R : Type} (channel : Option (Channel A R)) : Option ((A → Res Bytes) × Deserialize R) :=
  match channel with
  | none => none
  | some c => c.serializer

/-- `call(method, arg, ret)` on bytes (qabstractgrpcclient.cpp:75-97): returned status, data, errors. -/
def callBytes {A R : Type} (channel : Option (Channel A R)) (arg : Bytes) : Status × Bytes × List Status :=
  let (callStatus, data) : Status × Bytes := match channel with
    | some c => c.call arg
    | none => (⟨Status.Unknown, "No channel(s) attached."⟩, [])
  if callStatus.code ≠ Status.Ok then (callStatus, data, [callStatus]) else (callStatus, data, [])

/-- What a typed call does: return a status and a reply object and emit errors, or let an exception
escape. -/
inductive Outcome (R : Type)
  | returned (ret : R) (status : Status) (errors : List Status)
  | escaped (e : Exn)
  | undefined
  | running

/-- `call<A, R>(method, arg, ret)` (qabstractgrpcclient.h:92-116) with `trySerialize`
(qabstractgrpcclient.h:235-246). `retNull`: the pointer to the reply object is null. -/
def callTyped {A R : Type} (channel : Option (Channel A R)) (method : String) (arg : A) (retNull : Bool) (ret : R) :
    Outcome R :=
  if retNull then
    let status : Status := ⟨Status.InvalidArgument,
      "Unable to call method: " ++ method ++ ". Pointer to return data is null"⟩
    .returned ret status [status]
  else
    match serializer channel with
    | none =>
      let status : Status := ⟨Status.Unknown, "Serializing failed. Serializer is not ready"⟩
      .returned ret status [status]
    | some (ser, deser) =>
      match ser arg with
      | .throw e => .escaped e
      | .ub => .undefined
      | .fuel => .running
      | .ok argData =>
        let (status, retData, errors) := callBytes channel argData
        if status.code = Status.Ok then
          let (ret, status, more) := tryDeserialize (some deser) ret retData
          .returned ret status (errors ++ more)
        else .returned ret status errors

/-! ### Asynchronous calls -/

/-- State of the network reply. -/
inductive Net
  | running
  | finished
  | deleted
deriving DecidableEq, Repr

/-- A signal of the call reply and who emitted it. -/
inductive Signal
  | finished
  /-- emitted by the channel -/
  | error (code : StatusCode)
  /-- emitted by `abort()` -/
  | aborted
deriving DecidableEq, Repr

/-- A call in progress. -/
structure State where
  net : Net
  /-- the connection of the network reply's `finished` to the channel's lambda -/
  connection : Bool
  /-- the connection of the call reply's `error` to the channel's lambda -/
  abortConnection : Bool
  /-- the connections of the call reply's signals to the client's lambdas -/
  client : Bool
  /-- `networkReply->deleteLater()` was called -/
  deletePending : Bool
  /-- `QGrpcCallReply::data` -/
  data : Bytes
  /-- signals of the call reply, oldest first -/
  signals : List Signal
  /-- `error` signals of the client -/
  clientErrors : List StatusCode
deriving DecidableEq, Repr

/-- After `call(method, arg)` (qabstractgrpcclient.cpp:109-126, qgrpchttp2channel.cpp:231-270). -/
def start : State := ⟨.running, true, true, true, false, [], [], []⟩

/-- The slots connected to the call reply's `error` signal, in the order of connection: the client's
lambda (qabstractgrpcclient.cpp:113-118) and the channel's (qgrpchttp2channel.cpp:259-269). -/
def onError (s : State) (code : StatusCode) : State :=
  let s := if s.client then { s with clientErrors := s.clientErrors ++ [code], client := false } else s
  if s.abortConnection ∧ code = Status.Aborted then
    { s with connection := false, abortConnection := false, deletePending := true }
  else s

/-- The channel's lambda for the network reply's `finished` (qgrpchttp2channel.cpp:238-257). `processReply`
never throws (`C33_data_only_ok`). -/
def onNetworkFinished (s : State) (r : Reply) : State :=
  if s.connection then
    match processReply r with
    | .ok (data, grpcStatus) =>
      let s := { s with connection := false, abortConnection := false }
      let s :=
        if grpcStatus = Status.Ok then
          -- the client's lambda for `finished` (qabstractgrpcclient.cpp:120-124) drops its connections
          { s with data := data, signals := s.signals ++ [.finished], client := false }
        else
          onError { s with data := [], signals := s.signals ++ [.error grpcStatus] } grpcStatus
      { s with deletePending := true }
    | _ => s
  else s

/-- The network reply ends and emits `finished`. -/
def netFinish (s : State) (r : Reply) : State :=
  if s.net = .running then onNetworkFinished { s with net := .finished } r else s

/-- What can happen to a call. -/
inductive Ev
  /-- the reply ends, with an error or an answer of the server -/
  | complete (r : Reply)
  /-- the user calls `abort()` on the call reply -/
  | abort
  /-- the timer of 6 seconds (qgrpchttp2channel.cpp:149-152) -/
  | timeout
  /-- the event loop deletes the network reply -/
  | deleteNet
  /-- the channel is destroyed, and the network reply with it -/
  | destroyChannel

/-- `abortNetworkReply` (qgrpchttp2channel.cpp:156-162): `QNetworkReply::abort` emits `finished` with
`OperationCanceledError`. -/
def abortNetworkReply (s : State) : State :=
  if s.net = .running then netFinish s ⟨.OperationCanceledError, none, []⟩ else { s with deletePending := true }

/-- One event. -/
def step (s : State) : Ev → State
  | .complete r => netFinish s r
  -- qgrpccallreply.cpp:32-43
  | .abort => onError { s with data := [], signals := s.signals ++ [.aborted] } Status.Aborted
  | .timeout => if s.net = .deleted then s else abortNetworkReply s
  | .deleteNet => if s.deletePending then { s with net := .deleted, connection := false, abortConnection := false } else s
  | .destroyChannel => { s with net := .deleted, connection := false, abortConnection := false }

/-- A history of events. -/
def run (s : State) (es : List Ev) : State := es.foldl step s

end QtPb.Call
