import Verif.SpecEndToEnd
/-
Specification of a server that streams messages, of which a part has arrived.
-/
namespace QtPb.StreamBytes.Spec

/-- The pieces of a stream's body that have arrived so far, and where they are cut, for messages with these encodings: the whole body is shorter than `n`. -/
def Arriving (env : Env) (m n : Nat) (chunks : List Bytes) (os : List QtPb.Obj) : Prop :=
  ∃ (ms : List Bytes) (rest : Bytes), Http2.Spec.IsStream ms (chunks.flatten ++ rest) ∧ Http2.Spec.CutWell ms 0 chunks ∧ ms.length = os.length ∧
    (∀ (i : Nat) (bs : Bytes) (o : QtPb.Obj), ms[i]? = some bs → os[i]? = some o → EndToEnd.Spec.Encodes env m bs o) ∧ (chunks.flatten ++ rest).length < n

/-- What has come from a server that answers with the messages `os`: encodings of some of the first of them, in order. -/
def Answering (env : Env) (m n : Nat) (come : List Bytes) (os : List QtPb.Obj) : Prop :=
  come.length ≤ os.length ∧ ∀ (i : Nat) (bs : Bytes) (o : QtPb.Obj), come[i]? = some bs → os[i]? = some o → EndToEnd.Spec.Encodes env m bs o ∧ bs.length < n

end QtPb.StreamBytes.Spec
