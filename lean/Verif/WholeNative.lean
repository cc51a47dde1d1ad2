import Verif.Whole
import Verif.EndToEndNative
/-
Model of a whole generated program whose clients use the native gRPC channel: the model of `Verif/Whole.lean` with the channel of `Verif/EndToEndNative.lean`.
-/
namespace QtPb.Whole.Native
open Http2 QtPb.Native Call QtPb.SpecCpp QtPb.SpecCpp.Client

section
variable (env : Env) (classes : Nat → Meta.Class) (lib : Lib) (last : Bool)

/-- `call<A, R>(method, arg, ret)` (src/grpc/qabstractgrpcclient.h:92-116) of a client for `service` with a native channel, whose serializer is the binary one
(src/grpc/qgrpcchannel.cpp:343-347). `none`: the call has not returned (or not within the bounds). -/
def unary (n : Nat) (world : EndToEnd.Native.World) (method service : String) (mA mR : Nat) (arg ret : Obj) : Option (Call.Outcome Obj) :=
  match Meta.serializeMessage env classes lib last n mA arg with
  | .ok argData =>
    match EndToEnd.Native.channelCall world method service argData with
    | some (.ok (status, retData)) =>
      let deser : Deserialize Obj := fun r d => (read env classes lib n mR r d).getD (r, none)
      if status.code = Status.Ok ∧ read env classes lib n mR ret retData = none then none
      else some (callTyped (some ⟨some (Meta.serializeMessage env classes lib last n mA, deser), fun _ => (status, retData)⟩) method arg false ret)
    | some (.throw e) => some (.escaped e)
    | some .ub => some .undefined
    | _ => none
  | .throw e => some (.escaped e)
  | _ => none

/-- A stream over the native channel (qabstractgrpcclient.h:161-184, qgrpcchannel.cpp:259-317) whose reply object is updated: the updates, and the status that the stream
reports with `error`, if any. Simplifications: as in `EndToEnd.Native.stream`. -/
def stream (n : Nat) (world : EndToEnd.Native.StreamWorld) (method service : String) (mA mR : Nat) (arg ret : Obj) :
    Option (List (Obj × Call.Status × List Call.Status) × Option StatusCode) :=
  match Meta.serializeMessage env classes lib last n mA arg with
  | .ok argData =>
    let (buffers, finish) := world (EndToEnd.Native.request method service argData)
    let r := EndToEnd.Native.readLoop finish buffers
    match updates env classes lib n mR ret r.1 with
    | some us => some (us, if r.2 ≠ Status.Ok then some r.2 else none)
    | none => none
  | _ => none

/-- The base class does what a function of a generated client asks for: a blocking call (qabstractgrpcclient.h:92-116). The reply object holds `ret`. -/
def answer (n : Nat) (world : EndToEnd.Native.World) (ctor : Fn) (mA mR : Nat) (r : Client.Request Obj) (ret : Obj) : Option (Call.Outcome Obj) :=
  match serviceOf ctor with
  | some service => if r.function = text! "call" then unary env classes lib last n world (String.ofList r.method) (String.ofList service) mA mR r.argument ret else none
  | none => none

/-- The same for a stream with a reply object (qabstractgrpcclient.h:161-184). -/
def answers (n : Nat) (world : EndToEnd.Native.StreamWorld) (ctor : Fn) (mA mR : Nat) (r : Client.Request Obj) (ret : Obj) :
    Option (List (Obj × Call.Status × List Call.Status) × Option StatusCode) :=
  match serviceOf ctor with
  | some service => if r.function = text! "stream" then stream env classes lib last n world (String.ofList r.method) (String.ofList service) mA mR r.argument ret else none
  | none => none

end

end QtPb.Whole.Native
