import Verif.Whole
import Verif.EndToEndAsync
/-
Model of asynchronous calls of a whole generated program: the functions of its clients are run from the text of the generated client source, their requests become calls of a
session over the HTTP/2 channel (`Verif/EndToEndAsync.lean`), and what happens to a call is what the functions see later.
-/
namespace QtPb.Whole.Async
open Http2 Native Call QtPb.SpecCpp QtPb.SpecCpp.Client EndToEnd.Async

section
variable (env : Env) (classes : Nat → Meta.Class) (lib : Lib) (last : Bool)

/-- The base class does what a function of a generated client asks for: an asynchronous call (qabstractgrpcclient.h:123-131). -/
def actOf (ctor : Fn) (m : Nat) (r : Client.Request Obj) : Option Act :=
  match serviceOf ctor with
  | some service =>
    if r.function = text! "call" ∧ r.target = none then some (.call (String.ofList r.method) (String.ofList service) m r.argument) else none
  | none => none

/-- The serializer of the session, for objects of generated classes. -/
def ser (n : Nat) (m : Nat) (o : Obj) : Res Bytes := Meta.serializeMessage env classes lib last n m o

/-- `read<T>()` (qgrpcasyncoperationbase_p.h:55-63) for a generated class: a new object is filled from the data of the reply. -/
def readReply (n m : Nat) (c : Call.State) : Option (Obj × Call.Status × List Call.Status) :=
  match read env classes lib n m (defaultObj env m) c.data with
  | none => none
  | some result => some (tryDeserialize (some fun _ _ => result) (defaultObj env m) c.data)

end

/-- What the function that made a call sees later (src/grpc/qgrpccallreply.h:56-73): `finished` runs what is connected for the answer,
`error` what is connected for failures, also the error that `abort()` emits (src/grpc/qgrpccallreply.cpp:32-43); `m` is what the program does in between, `readAs` is `read<T>()`. Simplification: of the status only its code, which is not negative. -/
def laterOf (m : Client.World Obj → Client.World Obj) (readAs : List Lexeme → Obj) (c : Call.State) : Later Obj :=
  match c.signals with
  | .finished :: _ => .answered m readAs
  | .error code :: _ => .failed m code.toNat
  | .aborted :: _ => .failed m Status.Aborted.toNat
  | [] => .nothing

end QtPb.Whole.Async
