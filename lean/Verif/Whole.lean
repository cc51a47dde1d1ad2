import Verif.Meta
import Verif.EndToEnd
import Verif.SpecCppClient
/-
Model of a whole generated program: the functions of its clients are run from the text of the generated client source, their requests are carried out by the base class of
clients over the HTTP/2 channel, and the serializer works on objects of generated classes, through the tables, properties and operators in the text of the generated header
and source.
-/
namespace QtPb.Whole
open Http2 Native Call QtPb.SpecCpp QtPb.SpecCpp.Client

section
variable (env : Env) (classes : Nat → Meta.Class) (lib : Lib) (last : Bool)

/-- `QAbstractProtobufSerializer::deserialize<T>` (src/protobuf/qabstractprotobufserializer.h:97-111) for a generated class: a new object is filled through the properties of the
class, and assigned to the target with the `operator =` in the text of the class; also after an exception. -/
def deserialize (n m : Nat) (data : Bytes) (old : Obj) : QtPb.Outcome :=
  let r := Meta.deserializeMessage env classes lib n m data
  ⟨r.1, ((classes m).text.seen ((classes m).text.run lib (classes m).text.assign old r.2)).bind fun x => .ok x.1⟩

/-- What `tryDeserialize` sees (src/grpc/qabstractgrpcclient.h:205-232): the new contents of the object and the exception, if any; `none` with too small bounds or undefined
behaviour. -/
def read (n m : Nat) (ret : Obj) (data : Bytes) : Option (Obj × Option Thrown) :=
  let r := deserialize env classes lib n m data ret
  match r.status, r.target with
  | .ok (), .ok o => some (o, none)
  | .throw .invalidArgument, .ok o => some (o, some .invalidArgument)
  | .throw .outOfRange, .ok o => some (o, some .outOfRange)
  | .throw .badFunctionCall, .ok o => some (o, some .other)
  | _, _ => none

/-- `call<A, R>(method, arg, ret)` (qabstractgrpcclient.h:92-116) of a client for `service` with an HTTP/2 channel and the binary serializer. `none`: the call has not returned
(or not within the bounds). -/
def unary (n : Nat) (world : EndToEnd.World) (method service : String) (mA mR : Nat) (arg ret : Obj) : Option (Call.Outcome Obj) :=
  match Meta.serializeMessage env classes lib last n mA arg with
  | .ok argData =>
    match EndToEnd.channelCall world method service argData with
    | some (.ok (status, retData)) =>
      let deser : Deserialize Obj := fun r d => (read env classes lib n mR r d).getD (r, none)
      if status.code = Status.Ok ∧ read env classes lib n mR ret retData = none then none
      else some (callTyped (some ⟨some (Meta.serializeMessage env classes lib last n mA, deser), fun _ => (status, retData)⟩) method arg false ret)
    | some (.throw e) => some (.escaped e)
    | _ => none
  | .throw e => some (.escaped e)
  | _ => none

/-- The handler of a stream with a reply object (qabstractgrpcclient.h:174-183), called for one message after the other. -/
def updates (n m : Nat) : Obj → List Bytes → Option (List (Obj × Call.Status × List Call.Status))
  | _, [] => some []
  | ret, data :: rest =>
    match read env classes lib n m ret data with
    | none => none
    | some result =>
      let r := tryDeserialize (some fun _ _ => result) ret data
      match updates n m r.1 rest with
      | none => none
      | some more => some (r :: more)

/-- A stream over the HTTP/2 channel (qabstractgrpcclient.h:161-184, qgrpchttp2channel.cpp:272-318) whose reply object is updated. -/
def stream (n : Nat) (chunks : EndToEnd.Request → List Bytes) (method service : String) (mA mR : Nat) (arg ret : Obj) :
    Option (List (Obj × Call.Status × List Call.Status)) :=
  match Meta.serializeMessage env classes lib last n mA arg with
  | .ok argData =>
    match receive n none (chunks (EndToEnd.post method service argData)) with
    | .ok (messages, _) => updates env classes lib n mR ret messages
    | _ => none
  | _ => none

/-- The name of the service that the constructor of a client hands to its base class (src/generator/templates.cpp:303), as the text has it. -/
def serviceOf (ctor : Fn) : Option Text :=
  match ctor.inits with
  | [some (base, .str s :: _)] => if base = text! "QAbstractGrpcClient" then some s else none
  | _ => none

/-- The base class does what a function of a generated client asks for: a blocking call (qabstractgrpcclient.h:92-116). The reply object holds `ret`. -/
def answer (n : Nat) (world : EndToEnd.World) (ctor : Fn) (mA mR : Nat) (r : Client.Request Obj) (ret : Obj) : Option (Call.Outcome Obj) :=
  match serviceOf ctor with
  | some service => if r.function = text! "call" then unary env classes lib last n world (String.ofList r.method) (String.ofList service) mA mR r.argument ret else none
  | none => none

/-- The same for a stream with a reply object (qabstractgrpcclient.h:161-184). -/
def answers (n : Nat) (chunks : EndToEnd.Request → List Bytes) (ctor : Fn) (mA mR : Nat) (r : Client.Request Obj) (ret : Obj) :
    Option (List (Obj × Call.Status × List Call.Status)) :=
  match serviceOf ctor with
  | some service => if r.function = text! "stream" then stream env classes lib last n chunks (String.ofList r.method) (String.ofList service) mA mR r.argument ret else none
  | none => none

/-- A program writes properties of an object, one after another: the index of a property, the type and the value. -/
def writes (m : Nat) : List (Nat × FieldTy × Val) → Obj → Res Obj
  | [], obj => .ok obj
  | (index, ty, v) :: rest, obj =>
    match (classes m).property index with
    | none => .ub
    | some p => ((classes m).write lib p ty v obj).bind (writes m rest)

end

end QtPb.Whole
