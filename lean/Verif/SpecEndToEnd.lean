import Verif.SpecInterop
import Verif.SpecHttp2
import Verif.SpecEq
import Verif.EndToEnd
/-
Specification of a gRPC server, independent of the library: it reads requests with the reference decoder
(`Verif/Reference.lean`) and answers as the gRPC protocol says (`Verif/SpecHttp2.lean`), with any encoding of its
answers that protobuf encoders produce (`Verif/SpecInterop.lean`). From the model it takes only the shape of the environment: requests
and network events.
-/
namespace QtPb.EndToEnd.Spec
open QtPb.Spec Http2.Spec

/-- The body of a request for a method with arguments of message type `m` carries the message `a`. -/
def Carries (env : Env) (m : Nat) (body : Bytes) (a : Obj) : Prop :=
  ∃ bs, IsFrame bs body ∧ Ref.decode env m bs = some a

/-- `bs` is an encoding of the message `o` of type `m` as protobuf encoders write it, small enough for the library. -/
def Encodes (env : Env) (m : Nat) (bs : Bytes) (o : Obj) : Prop :=
  (∃ d, Usual env d m bs) ∧ Ref.decode env m bs = some o ∧ bs.length + 5 < 2 ^ 31

/-- A server at this path with these argument and reply types computes `f`: whenever a request carries the message `a`, the answer
arrives in any pieces, the network reports no error, the status is 0, and the body is a frame with an encoding of `f a`. -/
def Serves (env : Env) (mA mR : Nat) (path : String) (f : Obj → Obj) (world : World) : Prop :=
  ∀ (body : Bytes) (a : Obj), Carries env mA body a →
    ∃ pieces reply later bs hdr, (world ⟨path, body⟩).1 = pieces ++ Native.Wait2.finished reply :: later ∧
      (∀ w ∈ pieces, ∃ status b, w = Native.Wait2.receive status b) ∧
      reply.error = Http2.NetworkError.NoError ∧ reply.grpcStatus = some hdr ∧ Decimal hdr 0 ∧
      IsFrame bs reply.body ∧ Encodes env mR bs (f a)

/-- A server at this path refuses the message `a` with this status code. -/
def Refuses (env : Env) (mA : Nat) (path : String) (code : Nat) (world : World) : Prop :=
  ∀ (body : Bytes) (a : Obj), Carries env mA body a →
    ∃ pieces reply later hdr, (world ⟨path, body⟩).1 = pieces ++ Native.Wait2.finished reply :: later ∧
      (∀ w ∈ pieces, ∃ status b, w = Native.Wait2.receive status b) ∧
      reply.error = Http2.NetworkError.NoError ∧ reply.grpcStatus = some hdr ∧ Decimal hdr code

/-- What the reply object may hold before the call: it is new, or the message types have no maps of messages (C19). -/
def Target (env : Env) (m : Nat) (old : Obj) : Prop :=
  old = defaultObj env m ∨ NoMessageMaps env ∧ Safe env (.msg m) (.msg old)

/-- The pieces of a stream's body and where they are cut, for messages with these encodings. -/
def Streams (env : Env) (m : Nat) (chunks : List Bytes) (os : List Obj) : Prop :=
  ∃ ms : List Bytes, IsStream ms chunks.flatten ∧ CutWell ms 0 chunks ∧ ms.length = os.length ∧
    ∀ (i : Nat) (bs : Bytes) (o : Obj), ms[i]? = some bs → os[i]? = some o → Encodes env m bs o

/-- A server at this path with these argument and reply types streams the messages `f a` for the argument `a`. -/
def ServesStream (env : Env) (mA mR : Nat) (path : String) (f : Obj → List Obj) (chunks : Request → List Bytes) : Prop :=
  ∀ (body : Bytes) (a : Obj), Carries env mA body a → Streams env mR (chunks ⟨path, body⟩) (f a)

end QtPb.EndToEnd.Spec
