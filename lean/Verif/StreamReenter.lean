import Verif.Http2
/-
Model of the `readyRead` lambda of the HTTP/2 channel (src/grpc/qgrpchttp2channel.cpp:280-318) with handlers that do something while they are called: they abort their
stream, or they run an event loop, for instance by a blocking call, in which further bytes of their stream arrive.

That `QNetworkReply` emits `readyRead` also in the event loop of one of its own slots is taken from Qt 5's implementation for HTTP; the documentation of `QIODevice` says
that `readyRead` is not emitted recursively. Nothing is assumed about it: whether bytes come there is part of the input.
-/
namespace QtPb.StreamReenter
open Http2

/-- What a handler does while it is called: it aborts its stream, or bytes arrive while it runs an event loop. -/
inductive Sub
  | abort
  | chunk (data : Bytes)
deriving DecidableEq

/-- The entry of the network reply in `activeStreamReplies`, with a number for the node of the table it is in, and whether the reply is finished, which it is after
`abort()` (qgrpchttp2channel.cpp:156-162, 383); the connection of `readyRead` is removed then (qgrpchttp2channel.cpp:377-379). -/
structure Reader where
  record : Option (Nat × ExpectedData)
  next : Nat
  finished : Bool
deriving DecidableEq

/-- What the handlers do when they are called the next times, in order; nothing after that. -/
abbrev Script := List (List Sub)

/-- What the lambda passes on to handlers, in the order of the calls. -/
abbrev Out := Res (Reader × List Bytes × Script)

mutual

/-- The lambda (qgrpchttp2channel.cpp:280-318) when `data` has arrived. The first argument bounds the depth and the number of iterations. -/
def lambda : Nat → Reader → Bytes → Script → Out
  | 0, _, _, _ => .fuel
  | n + 1, s, data, script =>
    match s.record with
    | none =>
      (getExpectedDataSize data).bind fun expectedDataSize =>
        if expectedDataSize = 0 then handler n s [] script
        else proceed n { s with record := some (s.next, ⟨expectedDataSize, data⟩), next := s.next + 1 } s.next script
    | some (id, d) => proceed n { s with record := some (id, ⟨d.expectedSize, d.container ++ data⟩) } id script

/-- The loop and the end of the lambda (qgrpchttp2channel.cpp:304-317). `id` is the node that `dataContainer` and `replyIt` refer to: if it has been erased meanwhile, going on is undefined. -/
def proceed : Nat → Reader → Nat → Script → Out
  | 0, _, _, _ => .fuel
  | n + 1, s, id, script =>
    match s.record with
    | none => .ub
    | some (id', d) =>
      if id' ≠ id then .ub
      else if (d.container.length : Int) ≥ d.expectedSize ∧ s.finished = false then
        (handler n s (mid d.container 5 (d.expectedSize - 5)) script).bind fun r =>
          match r.1.record with
          | none => .ub
          | some (id'', d') =>
            if id'' ≠ id then .ub
            else
              let container := removeFront d'.container d'.expectedSize
              (if container.length > 5 then getExpectedDataSize container else .ok d'.expectedSize).bind fun expectedSize =>
                (proceed n { r.1 with record := some (id, ⟨expectedSize, container⟩) } id r.2.2).bind fun q => .ok (q.1, r.2.1 ++ q.2.1, q.2.2)
      else .ok (if d.container.length < 5 ∨ s.finished = true then { s with record := none } else s, [], script)

/-- `QGrpcStream::handler` (qgrpcstream.h:74-80) with a message: the next entry of the script is what is done while it runs. -/
def handler : Nat → Reader → Bytes → Script → Out
  | 0, _, _, _ => .fuel
  | _ + 1, s, m, [] => .ok (s, [m], [])
  | n + 1, s, m, subs :: script => (during n s subs script).bind fun r => .ok (r.1, m :: r.2.1, r.2.2)

/-- What happens during the call of a handler, one after the other. After an abort bytes are not read any more. -/
def during : Nat → Reader → List Sub → Script → Out
  | 0, _, _, _ => .fuel
  | _ + 1, s, [], script => .ok (s, [], script)
  | n + 1, s, .abort :: subs, script => during n { s with finished := true } subs script
  | n + 1, s, .chunk data :: subs, script =>
    if s.finished then during n s subs script
    else (lambda n s data script).bind fun r => (during n r.1 subs r.2.2).bind fun q => .ok (q.1, r.2.1 ++ q.2.1, q.2.2)

end

end QtPb.StreamReenter
