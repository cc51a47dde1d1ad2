import Verif.Stream
/-
Model of overlapping server streams over HTTP/2, byte by byte: the client and its streams (`Verif/Stream.lean`) together with the table in which the channel collects
the bytes of unfinished messages (`activeStreamReplies`, src/grpc/qgrpchttp2channel.cpp:112, 280-318). The table is keyed by the address of the network reply.
-/
namespace QtPb.StreamBytes
open Http2 Stream

/-- A client with its channel: the streams, and the table of unfinished messages (qgrpchttp2channel.cpp:103-112). -/
structure Session where
  client : Client
  records : Nat → Option ExpectedData

/-- A new client (qabstractgrpcclient.cpp:49-53) and an empty table. -/
def Session.new (thread : Nat) : Session := ⟨Client.new thread, fun _ => none⟩

/-- What can happen: bytes arrive for an attempt (`readyRead` of its network reply), or anything else of `Stream.Ev`. -/
inductive Act
  | chunk (a : Nat) (data : Bytes)
  | other (e : Ev)

/-- What can be observed: the channel takes bytes from the network reply of an attempt, or an observation of `Stream.Obs`. -/
inductive Seen
  | read (a : Nat) (data : Bytes)
  | obs (o : Obs)
deriving DecidableEq

/-- The messages of one `readyRead` are passed on one after the other (qgrpchttp2channel.cpp:304-306). Simplification: as in `Verif/Stream.lean`, handlers do not call back
into the client. -/
def pass (c : Client) (a : Nat) : List Bytes → Client × List Obs
  | [] => (c, [])
  | m :: ms =>
    let r := c.net a (.data m)
    let q := pass r.1 a ms
    (q.1, r.2 ++ q.2)

/-- The slots of an attempt over HTTP/2 are connected (qgrpchttp2channel.cpp:280, 335): they were not disconnected, and the stream exists. -/
def listens (c : Client) (a : Nat) : Bool :=
  decide (a < c.nAttempts) && decide ((c.attempts a).kind = .http2) && (c.attempts a).connected && !(c.streams (c.attempts a).stream).deleted

/-- Which attempt's entry of the table an event erases: that of an attempt that ends (qgrpchttp2channel.cpp:345). The slot for `abort()` (qgrpchttp2channel.cpp:373-385) and the
deletion of the stream erase none. -/
def erases (c : Client) : Ev → Option Nat
  | .net a (.close _) => if listens c a then some a else none
  | _ => none

/-- Messages over HTTP/2 come only as bytes. -/
def isBytes (c : Client) : Ev → Bool
  | .net a (.data _) => decide ((c.attempts a).kind = .http2)
  | _ => false

/-- One event. `entry a` is the entry of the attempt `a` in the table: two attempts have the same one if they use the same channel and their network replies had the same
address. `n` bounds the loop over the messages. -/
def step (n : Nat) (entry : Nat → Nat) (s : Session) : Act → Res (Session × List Seen)
  | .chunk a data =>
    if listens s.client a then
      (readyRead n false (s.records (entry a)) data).bind fun q =>
        let r := pass s.client a q.1
        .ok (⟨r.1, update s.records (entry a) q.2⟩, .read a data :: r.2.map .obs)
    else .ok (s, [])
  | .other e =>
    if isBytes s.client e then .ok (s, [])
    else
      match s.client.step e with
      | none => .ub
      | some r =>
        let records := match erases s.client e with
          | some a => update s.records (entry a) none
          | none => s.records
        .ok (⟨r.1, records⟩, r.2.map .obs)

/-- A history: the final state and everything observed. -/
def run (n : Nat) (entry : Nat → Nat) (s : Session) : List Act → Res (Session × List Seen)
  | [] => .ok (s, [])
  | a :: as => (step n entry s a).bind fun r => (run n entry r.1 as).bind fun q => .ok (q.1, r.2 ++ q.2)

end QtPb.StreamBytes
