import Verif.WholeAsync
import Verif.EndToEndAsyncNative
/-
Model of asynchronous calls of a whole generated program over the native channel: `Verif/WholeAsync.lean` with the sessions of `Verif/EndToEndAsyncNative.lean`.
-/
namespace QtPb.Whole.Native.Async
open Http2 QtPb.Native Call QtPb.SpecCpp QtPb.SpecCpp.Client EndToEnd.Native.Async

/-- The base class does what a function of a generated client asks for: an asynchronous call (qabstractgrpcclient.h:123-131). -/
def actOf (ctor : Fn) (m : Nat) (r : Client.Request Obj) : Option Act :=
  match serviceOf ctor with
  | some service =>
    if r.function = text! "call" ∧ r.target = none then some (.call (String.ofList r.method) (String.ofList service) m r.argument) else none
  | none => none

/-- `read<T>()` (qgrpcasyncoperationbase_p.h:55-63) for a generated class: a new object is filled from the data of the reply. -/
def readReply (env : Env) (classes : Nat → Meta.Class) (lib : Lib) (n m : Nat) (c : QtPb.Native.State) : Option (Obj × Call.Status × List Call.Status) :=
  match read env classes lib n m (defaultObj env m) c.data with
  | none => none
  | some result => some (tryDeserialize (some fun _ _ => result) (defaultObj env m) c.data)

/-- What the function that made a call sees later (src/grpc/qgrpccallreply.h:56-73), as in `Verif/WholeAsync.lean`. -/
def laterOf (m : Client.World Obj → Client.World Obj) (readAs : List Lexeme → Obj) (c : QtPb.Native.State) : Later Obj :=
  match c.signals with
  | .finished :: _ => .answered m readAs
  | .error code :: _ => .failed m code.toNat
  | .aborted :: _ => .failed m Status.Aborted.toNat
  | [] => .nothing

end QtPb.Whole.Native.Async
