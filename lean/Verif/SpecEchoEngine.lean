import Verif.SpecEndToEnd
import Verif.EchoEngine
/-
Specification of a session with the client of the tutorial, independent of the engine: which texts are entered, in which order, and which answers
come, in which order. From the model it takes the events; servers are those of `Verif/SpecEndToEnd.lean`.
-/
namespace QtPb.EchoEngine.Spec
open EndToEnd EndToEnd.Spec Call

/-- The text that a message of tutorial.proto holds. -/
def Holds (o : Obj) (t : List Char) : Prop := ∃ s : Option (List Char), o = [.sc (.str s)] ∧ s.getD [] = t

/-- A text that survives UTF-8 and is not as large as 2 GB. -/
def Writable (env : Env) (t : List Char) : Prop := env.fromUtf8 (env.toUtf8 t) = t ∧ (env.toUtf8 t).length + 20 < 2 ^ 31

def path : String := "/qtprotobuf.tutorial.EchoService/Echo"

/-- A server as the one of the tutorial: whenever a request carries a text, the answer arrives in any pieces, the network reports no error, the status
is 0, and the body is a frame with an encoding of a message with the same text. -/
def Echoes (env : Env) (world : World) : Prop :=
  ∀ (body : Bytes) (a : Obj) (t : List Char), Carries env 0 body a → Holds a t → Writable env t →
    ∃ pieces reply later bs hdr o, (world ⟨path, body⟩).1 = pieces ++ Native.Wait2.finished reply :: later ∧
      (∀ w ∈ pieces, ∃ status b, w = Native.Wait2.receive status b) ∧
      reply.error = Http2.NetworkError.NoError ∧ reply.grpcStatus = some hdr ∧ Http2.Spec.Decimal hdr 0 ∧
      Http2.Spec.IsFrame bs reply.body ∧ Encodes env 1 bs o ∧ Holds o t

/-- `Session env t0 events entered answered refused t1`: the input field holds `t0` first and `t1` in the end; the texts `entered` were entered, in this
order; the texts `answered` were answered, in the order of the answers; the requests that were refused got the codes `refused`. A request that is
entered while another one waits is answered before it, and whenever a request has been answered or refused the input field is empty. -/
inductive Session (env : Env) : List Char → List Event → List (List Char) → List (List Char) → List Nat → List Char → Prop
  | done (t : List Char) : Session env t [] [] [] [] t
  | type {t u t' : List Char} {rest : List Event} {e a : List (List Char)} {c : List Nat} :
      Session env u rest e a c t' → Session env t (.type u :: rest) e a c t'
  | answered {t u t' : List Char} {meanwhile rest : List Event} {world : World} {e1 a1 e2 a2 : List (List Char)} {c1 c2 : List Nat} :
      Writable env t → Echoes env world → Session env t meanwhile e1 a1 c1 u → Session env [] rest e2 a2 c2 t' →
      Session env t (.enter meanwhile world :: rest) (t :: e1 ++ e2) (a1 ++ t :: a2) (c1 ++ c2) t'
  | refused {t u t' : List Char} {meanwhile rest : List Event} {world : World} {e1 a1 e2 a2 : List (List Char)} {c1 c2 : List Nat} {code : Nat} :
      Writable env t → Refuses env 0 path code world → code ≠ 0 → code < 2 ^ 31 →
      Session env t meanwhile e1 a1 c1 u → Session env [] rest e2 a2 c2 t' →
      Session env t (.enter meanwhile world :: rest) (t :: e1 ++ e2) (a1 ++ a2) (c1 ++ code :: c2) t'

/-- The user enters nothing while a request waits. -/
def Alone : Event → Prop
  | .type _ => True
  | .enter meanwhile _ => ∀ e ∈ meanwhile, ∃ t, e = .type t

/-- These requests carry these texts, one after the other, to the method of the tutorial. -/
def Sent (env : Env) (requests : List Request) (texts : List (List Char)) : Prop :=
  requests.length = texts.length ∧ ∀ (i : Nat) (r : Request) (t : List Char), requests[i]? = some r → texts[i]? = some t →
    r.path = path ∧ ∃ a, Carries env 0 r.body a ∧ Holds a t

end QtPb.EchoEngine.Spec
