import Verif.Basic
/-
The gRPC wire format over HTTP/2 (https://github.com/grpc/grpc/blob/master/doc/PROTOCOL-HTTP2.md),
independent of the model: Length-Prefixed-Message = Compressed-Flag (0) Message-Length (4 bytes, big
endian) Message.
-/
namespace QtPb.Http2.Spec

/-- `bs` are four bytes that hold `n` in big endian order. -/
def BigEndian (bs : Bytes) (n : Nat) : Prop :=
  ∃ b0 b1 b2 b3 : UInt8, bs = [b0, b1, b2, b3] ∧
    n = ((b0.toNat * 256 + b1.toNat) * 256 + b2.toNat) * 256 + b3.toNat

/-- `frame` is the length-prefixed form of the uncompressed message `m`. -/
def IsFrame (m frame : Bytes) : Prop :=
  ∃ size, BigEndian size m.length ∧ frame = [0] ++ size ++ m

/-- `bs` is the body that carries the messages `ms`. -/
inductive IsStream : List Bytes → Bytes → Prop
  | nil : IsStream [] []
  | cons {m frame : Bytes} {ms : List Bytes} {bs : Bytes} :
      IsFrame m frame → IsStream ms bs → IsStream (m :: ms) (frame ++ bs)

/-- Messages of a size that the channel's `int` arithmetic can handle. -/
def Small (m : Bytes) : Prop := m.length + 5 < 2 ^ 31

/-- A position between two frames (or at the start or the end) of the body that carries `ms`. -/
def Boundary (ms : List Bytes) (b : Nat) : Prop :=
  ∃ before after, ms = before ++ after ∧ b = (before.map fun m => m.length + 5).sum

/-- The chunks, the first of which starts at position `s`, are cut at harmless places: no chunk ends 1 to
5 bytes behind the end of a frame that it completes, and no chunk that starts at the start of a frame is
shorter than 5 bytes. -/
def CutWell (ms : List Bytes) : Nat → List Bytes → Prop
  | _, [] => True
  | s, c :: cs =>
    (∀ b, Boundary ms b →
      (s < b → b ≤ s + c.length → s + c.length = b ∨ b + 5 < s + c.length) ∧
      (b = s → 5 ≤ c.length)) ∧
    CutWell ms (s + c.length) cs

/-- `bs` is the decimal notation of `n`. -/
def Decimal (bs : Bytes) (n : Nat) : Prop :=
  bs ≠ [] ∧ (∀ b ∈ bs, 48 ≤ b.toNat ∧ b.toNat ≤ 57) ∧ n = bs.foldl (fun a b => 10 * a + (b.toNat - 48)) 0

end QtPb.Http2.Spec
