import Verif.SpecEndToEnd
import Verif.EndToEndNative
/-
Specification of a server behind the gRPC library, independent of the channel: it reads the bytes of the request with the reference
decoder, and the library hands over any encoding of its answers that protobuf encoders produce, cut into any slices. From the model it
takes only the shape of the environment: requests and events.
-/
namespace QtPb.EndToEnd.Native.Spec
open QtPb.EndToEnd.Spec QtPb.Native

/-- The request carries the message `a`: the reference decoder reads it from the bytes of the slices. -/
def Carries (env : Env) (m : Nat) (slices : List Bytes) (a : Obj) : Prop :=
  Ref.decode env m slices.flatten = some a

/-- While the caller waits, the thread begins its call, the library gives the answer and the end of the thread is delivered; before that
the application does not quit and the channel is not destroyed. Other events may come at any place. -/
def Happens (answer : Answer) (events : List Wait) : Prop :=
  ∃ p1 p2 p3 p4, events = p1 ++ .threadBegin :: p2 ++ .threadEnd answer :: p3 ++ .deliver :: p4 ∧
    Wait.threadBegin ∉ p1 ∧ (∀ b, Wait.threadEnd b ∉ p2) ∧ ∀ w ∈ p1 ++ p2 ++ p3, w ≠ .quit ∧ w ≠ .destroyChannel

/-- A server at this path with these argument and reply types computes `f`. -/
def Serves (env : Env) (mA mR : Nat) (path : String) (f : Obj → Obj) (world : World) : Prop :=
  ∀ (slices : List Bytes) (a : Obj), Carries env mA slices a →
    ∃ answer : List Bytes, Happens ⟨0, .ok answer⟩ (world ⟨path, slices⟩).1 ∧ Encodes env mR answer.flatten (f a)

/-- A server at this path refuses the messages with this status code; there is no answer then. -/
def Refuses (env : Env) (mA : Nat) (path : String) (code : Int) (world : World) : Prop :=
  ∀ (slices : List Bytes) (a : Obj), Carries env mA slices a →
    ∃ nothing, Happens ⟨code, nothing⟩ (world ⟨path, slices⟩).1

/-- A server at this path with these argument and reply types streams the messages `f a` for the argument `a` and ends with the
status `finish a`. -/
def ServesStream (env : Env) (mA mR : Nat) (path : String) (f : Obj → List Obj) (finish : Obj → Int) (world : StreamWorld) : Prop :=
  ∀ (slices : List Bytes) (a : Obj), Carries env mA slices a →
    (world ⟨path, slices⟩).2 = finish a ∧
    ∃ buffers : List (List Bytes), (world ⟨path, slices⟩).1 = buffers.map .ok ∧ buffers.length = (f a).length ∧
      ∀ (i : Nat) (answer : List Bytes) (o : Obj), buffers[i]? = some answer → (f a)[i]? = some o → Encodes env mR answer.flatten o

end QtPb.EndToEnd.Native.Spec
