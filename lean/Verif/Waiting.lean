import Verif.Call
/-
Model of what the program can do to a client, its channel and the objects of replies between a request and its answer: slots and handlers that run in
the event loop of a synchronous call (`QEventLoop::exec`, qgrpchttp2channel.cpp:213-220, qgrpcchannel.cpp:245-253), statements between an asynchronous
call and the reading of its reply.

Simplifications: one thread; the answer of a request is an input; channels are shared and exist as long as they are used (C92 is about channels that
are destroyed); streams are left out (C37, C38, C87); objects that replies are written into are numbered; a nested call is in the loop of the outer one.
-/
namespace QtPb.Waiting
open Http2 QtPb.Call

/-- The serializer of a channel, if it has one. -/
abbrev Ser (A R : Type) := Option ((A → Res Bytes) × Deserialize R)

/-- The client, the objects for replies and the errors that were emitted by the client. -/
structure World (R : Type) where
  /-- the client exists -/
  alive : Bool
  /-- `dPtr->channel` (qabstractgrpcclient.cpp:42) -/
  channel : Option Nat
  /-- objects that pointers for replies point to; `none`: destroyed, which a `QPointer` sees as null -/
  objects : Nat → Option R
  errors : List Status

/-- What the program does while a call waits. -/
inductive Act (A R : Type)
  /-- `attachChannel` -/
  | attach (channel : Nat)
  /-- `delete client` -/
  | destroyClient
  /-- `delete` of an object -/
  | destroyObject (object : Nat)
  /-- an object gets other contents -/
  | write (object : Nat) (r : R)
  /-- a synchronous call with what is done while it waits and the answer of its channel -/
  | call (arg : A) (object : Nat) (inside : List (Act A R)) (status : Status) (data : Bytes)

variable {A R : Type}

def World.emit (w : World R) (s : Status) : World R := { w with errors := w.errors ++ [s] }

/-- `QAbstractGrpcClient::serializer` (qabstractgrpcclient.cpp:193-199): of the channel that is attached now. -/
def World.serializer (sers : Nat → Ser A R) (w : World R) : Ser A R :=
  match w.channel with
  | none => none
  | some n => sers n

/-- The end of a synchronous call (qabstractgrpcclient.cpp:85-96, qabstractgrpcclient.h:106-109): `channel->call` has returned. A client that is gone is
used in any case: by `error` or by `tryDeserialize`. The pointer to the object is dereferenced without another test. -/
def finish (sers : Nat → Ser A R) (w : World R) (object : Nat) (status : Status) (data : Bytes) : Res (World R × Status) :=
  if !w.alive then .ub
  else if status.code ≠ Status.Ok then .ok (w.emit status, status)
  else
    match w.objects object with
    | none => .ub
    | some r =>
      let (r, s, errors) := tryDeserialize ((w.serializer sers).map (·.2)) r data
      .ok ({ w with objects := fun n => if n = object then some r else w.objects n, errors := w.errors ++ errors }, s)

/-- `call<A, R>(method, arg, ret)` (qabstractgrpcclient.h:92-116) with `trySerialize` (qabstractgrpcclient.h:235-246) and
`call(method, arg, ret)` on bytes (qabstractgrpcclient.cpp:75-97). `loop` is what happens while it waits. -/
def callWith (sers : Nat → Ser A R) (loop : World R → Res (World R)) (w : World R) (arg : A) (object : Nat) (status : Status) (data : Bytes) :
    Res (World R × Status) :=
  if !w.alive then .ub
  else if (w.objects object).isNone then
    let s : Status := ⟨Status.InvalidArgument, "Unable to call method: %1. Pointer to return data is null"⟩
    .ok (w.emit s, s)
  else
    match w.serializer sers with
    | none =>
      let s : Status := ⟨Status.Unknown, "Serializing failed. Serializer is not ready"⟩
      .ok (w.emit s, s)
    | some (ser, _) => (ser arg).bind fun _ => (loop w).bind fun w => finish sers w object status data

mutual
/-- The handlers one after the other. -/
def run (sers : Nat → Ser A R) (w : World R) : List (Act A R) → Res (World R)
  | [] => .ok w
  | a :: rest => (act sers w a).bind fun w => run sers w rest
/-- One of them. Using a client that is gone is undefined, as is destroying it again. -/
def act (sers : Nat → Ser A R) (w : World R) : Act A R → Res (World R)
  | .attach n => if w.alive then .ok { w with channel := some n } else .ub
  | .destroyClient => if w.alive then .ok { w with alive := false } else .ub
  | .destroyObject k => .ok { w with objects := fun n => if n = k then none else w.objects n }
  | .write k r => .ok { w with objects := fun n => if n = k then (w.objects n).map fun _ => r else w.objects n }
  | .call arg object inside status data => (callWith sers (fun w => run sers w inside) w arg object status data).bind fun r => .ok r.1
end

/-- A synchronous call with what handlers do while it waits. -/
def syncCall (sers : Nat → Ser A R) (w : World R) (arg : A) (object : Nat) (inside : List (Act A R)) (status : Status) (data : Bytes) :
    Res (World R × Status) :=
  callWith sers (fun w => run sers w inside) w arg object status data

/-- `QGrpcAsyncOperationBase::read` (qgrpcasyncoperationbase_p.h:54-63): the data of a reply are read with the serializer that the client has now. `fresh`
is a new object. The reply is a child of the client: it is gone with it. -/
def read (sers : Nat → Ser A R) (w : World R) (fresh : R) (data : Bytes) : Res (R × World R) :=
  if !w.alive then .ub
  else
    let (r, _, errors) := tryDeserialize ((w.serializer sers).map (·.2)) fresh data
    .ok (r, { w with errors := w.errors ++ errors })

/-- The handler of a stream that writes into an object (qabstractgrpcclient.h:176-184). -/
def update (sers : Nat → Ser A R) (w : World R) (object : Nat) (data : Bytes) : World R :=
  match w.objects object with
  | some r =>
    let (r, _, errors) := tryDeserialize ((w.serializer sers).map (·.2)) r data
    { w with objects := fun n => if n = object then some r else w.objects n, errors := w.errors ++ errors }
  | none => w.emit ⟨Status.InvalidArgument, "Pointer to return data is null while stream update received"⟩

end QtPb.Waiting
