import Verif.Basic
/-
Model of what the library does when the program destroys a client inside a function that the library calls: a slot of `error` of the client, a slot of a reply or of a
stream, a handler of a stream, the callback of a generated method.

One operation (a call or a stream) of one client is looked at. What matters is which objects exist, which functors are connected or running, and who holds copies of the
shared pointers; everything else (data, codes, texts) is left out. Qt is represented as its version 5 is implemented: the functor of a connection lives until it is neither
connected nor running; when the sender of a signal is destroyed in a slot the remaining slots are not called; objects are deleted together with their parents; events for
deferred deletion of an object that is being destroyed are dropped with it; a `QNetworkReply` must not be deleted in a slot of its own signals.
-/
namespace QtPb.Inside

/-- The two channels. -/
inductive Kind
  | http2
  | native
deriving DecidableEq

/-- The functors that matter. `clientError`, `clientFinished`: connected by the client (qabstractgrpcclient.cpp:112-123, 155-183). `callback`: that of a generated method with a callback
(templates.cpp:317-319, 338-341). `end`: the channel's functor for the end of the request, `abort`: its functor for the abort, `destroyed`: its functor for the end of the
client (qgrpchttp2channel.cpp:238-269, 320-385; qgrpcchannel.cpp:220-238, 280-314). -/
inductive Fn
  | clientError
  | clientFinished
  | callback
  | «end»
  | abort
  | destroyed
deriving DecidableEq

/-- The objects. `client`, `op` (the reply or stream, a child of the client), `net` (the `QNetworkReply`, a child of the channel's manager; or the channel's `QGrpcChannelCall` or
`QGrpcChannelStream`, a child of `op`), `channel`, and the entry of the request in the channel's table (`entry`). `elsewhere`: the channel is held by others than the client. `user`:
the program holds a pointer to `op`. `active`: the client's list of streams holds one. -/
structure St where
  kind : Kind
  stream : Bool
  client : Bool
  op : Bool
  net : Bool
  channel : Bool
  elsewhere : Bool
  entry : Bool
  user : Bool
  active : Bool
  connected : Fn → Bool
  running : Fn → Bool
  cleared : Fn → Bool

/-- A functor exists. -/
def St.has (s : St) (f : Fn) : Bool := s.connected f || s.running f

/-- Someone holds a copy of the shared pointer to the reply or stream. The functors of the client and of the callback capture one (qabstractgrpcclient.cpp:112, 119, 155, 171;
templates.cpp:317, 338). -/
def St.opHeld (s : St) : Bool :=
  s.user || s.active || (s.has .clientError && !s.cleared .clientError) || (s.has .clientFinished && !s.cleared .clientFinished) || s.has .callback

/-- Someone holds a copy of the shared pointer to the object of the native channel: its functors do (qgrpcchannel.cpp:220, 233, 280, 294, 305). Over HTTP/2 there is no such pointer. -/
def St.netHeld (s : St) : Bool := s.kind == .native && (s.has .end || s.has .abort || s.has .destroyed)

/-- The program uses an object. -/
def need (alive : Bool) : Res Unit := if alive then .ok () else .ub

/-- Copies of shared pointers have gone from `s` to `t`: with the last one the deleter calls `deleteLater()` (qabstractgrpcclient.cpp:108, 143; qgrpcchannel.cpp:215-218, 271-274), which needs
the object. -/
def dropped (s t : St) : Res St := do
  if s.opHeld && !t.opHeld then need t.op else .ok ()
  if s.netHeld && !t.netHeld then need t.net else .ok ()
  .ok t

/-- Connections go, by `disconnect` or with the sender or receiver. -/
def disconnect (fs : List Fn) (s : St) : Res St := dropped s { s with connected := fun f => s.connected f && !fs.contains f }

/-- A functor is called. -/
def running (f : Fn) (body : St → Res St) (s : St) : Res St := do
  let s ← body { s with running := fun g => if g = f then true else s.running g }
  dropped s { s with running := fun g => if g = f then false else s.running g }

/-- `reset()` of the copy captured by a functor (qabstractgrpcclient.cpp:116, 122, 182). -/
def clear (f : Fn) (s : St) : Res St := dropped s { s with cleared := fun g => if g = f then true else s.cleared g }

/-- The channel goes when the client lets go of it and nobody else holds it; a `QNetworkReply` and the table go with it. -/
def letChannelGo (s : St) : St :=
  if s.elsewhere then s else { s with channel := false, entry := false, net := if s.kind = .http2 then false else s.net }

/-- The channel's functor for `destroyed` of the client, for streams (qgrpchttp2channel.cpp:320-333, qgrpcchannel.cpp:305-314). -/
def clientDestroyed (s : St) : Res St :=
  match s.kind with
  | .http2 =>
    -- the functor goes with the network reply, which is its receiver
    if s.net && s.connected .destroyed then do
      let s ← disconnect [.end, .abort] s
      need s.channel
      .ok { s with entry := false }
    else .ok s
  | .native =>
    if s.connected .destroyed then
      running .destroyed (fun s => do
        let s ← disconnect [.end, .abort, .destroyed] s
        need s.net
        .ok s) s
    else .ok s

/-- The reply or stream is deleted: its connections go first, then its children, over the native channel the object of the channel. -/
def deleteOp (s : St) : Res St := do
  let s ← disconnect [.clientError, .clientFinished, .callback, .end, .abort] s
  let s ← if s.kind = .native && s.net then do
      let s ← disconnect [.end, .abort, .destroyed] s
      .ok { s with net := false }
    else .ok s
  .ok { s with op := false }

/-- The client is destroyed (qabstractgrpcclient.cpp:55-56): its members, streams before the channel; `destroyed` is emitted; connections to it go; its children are deleted. -/
def destroyClient (s : St) : Res St := do
  need s.client
  let s ← dropped s { s with active := false }
  let s := letChannelGo s
  let s ← if s.stream then clientDestroyed s else .ok s
  let s ← disconnect (if s.stream then [.clientError, .clientFinished, .destroyed] else [.clientError]) s
  let s ← if s.op then deleteOp s else .ok s
  .ok { s with client := false }

/-- What a slot or handler of the program does. -/
inductive Act
  | nothing
  | destroy
deriving DecidableEq

/-- A slot or handler of the program. -/
def act (s : St) : Act → Res St
  | .nothing => .ok s
  | .destroy => destroyClient s

/-- The slots of the program that are connected to a signal, in order. None is called once the sender is gone. -/
def slots (sender : St → Bool) : List Act → St → Res St
  | [], s => .ok s
  | a :: as, s => if sender s then do slots sender as (← act s a) else .ok s

/-- The slots of the program: of `error` of the client, of the two signals of the operation, the callback of a generated method; the handlers of a stream and the slots of
`messageReceived`. -/
structure Program where
  clientError : List Act
  error : List Act
  finished : List Act
  callback : Act
  handlers : List Act
  received : List Act

/-- Signal `error` of the client. -/
def emitClientError (p : Program) (s : St) : Res St := do
  need s.client
  slots St.client p.clientError s

/-- The client's functor for `error` of a reply (qabstractgrpcclient.cpp:112-117) or of a stream (155-168: the timer needs the client, the name of the method the stream). -/
def clientErrorFn (p : Program) (s : St) : Res St := do
  let s ← emitClientError p s
  if s.stream then do
    need s.op
    need s.client
    .ok s
  else do
    let s ← disconnect [.clientFinished, .clientError] s
    clear .clientError s

/-- The channel's functor for `error` of a reply (qgrpchttp2channel.cpp:259-269, qgrpcchannel.cpp:233-238). -/
def channelErrorFn (aborted : Bool) (s : St) : Res St :=
  if aborted then do
    let s ← disconnect [.end, .abort] s
    if s.kind = .http2 then need s.net else .ok ()
    .ok s
  else .ok s

/-- Signal `error` of the operation: the functor of the client, that of the channel (replies only), the slots of the program. -/
def emitError (p : Program) (aborted : Bool) (s : St) : Res St := do
  need s.op
  let s ← if s.connected .clientError then running .clientError (clientErrorFn p) s else .ok s
  let s ← if s.op && !s.stream && s.connected .abort then running .abort (channelErrorFn aborted) s else .ok s
  slots St.op p.error s

/-- The client's functor for `finished` of a reply (qabstractgrpcclient.cpp:119-123) or of a stream (171-183: it takes the stream from the client's list). -/
def clientFinishedFn (s : St) : Res St := do
  let s ← if s.stream then do
      need s.client
      dropped s { s with active := false }
    else .ok s
  let s ← disconnect [.clientError, .clientFinished] s
  clear .clientFinished s

/-- The channel's functor for `finished` of a stream, which is what `abort()` emits (qgrpchttp2channel.cpp:373-385, qgrpcchannel.cpp:294-303). -/
def channelFinishedFn (s : St) : Res St := do
  let s ← disconnect (if s.kind = .native then [.end, .abort, .destroyed] else [.end, .abort]) s
  need s.net
  .ok s

/-- Signal `finished` of the operation: the functor of the client, that of the channel (streams only), that of a generated method with a callback, the slots of the program. -/
def emitFinished (p : Program) (s : St) : Res St := do
  need s.op
  let s ← if s.connected .clientFinished then running .clientFinished clientFinishedFn s else .ok s
  let s ← if s.op && s.stream && s.connected .abort then running .abort channelFinishedFn s else .ok s
  let s ← if s.op && s.connected .callback then running .callback (fun s => act s p.callback) s else .ok s
  slots St.op p.finished s

/-- The answer to a call arrives, over HTTP/2 (qgrpchttp2channel.cpp:238-257) or the native channel (qgrpcchannel.cpp:220-231). -/
def answer (p : Program) (ok : Bool) (s : St) : Res St :=
  match s.kind with
  | .http2 => do
    need s.net
    let s ← disconnect [.end, .abort] s
    need s.op
    let s ← if ok then emitFinished p s else emitError p false s
    need s.net
    .ok s
  | .native =>
    running .end (fun s => do
      need s.net
      need s.op
      let s ← if ok then emitFinished p s else emitError p false s
      disconnect [.end, .abort] s) s

/-- `QGrpcCallReply::abort` (qgrpccallreply.cpp:32-43) and `QGrpcStream::abort` (qgrpcstream.cpp:49-56). -/
def abort (p : Program) (s : St) : Res St :=
  if s.stream then emitFinished p s else emitError p true s

/-- The handlers of a stream, one after the other: the list belongs to the stream (qgrpcstream.h:76-78). -/
def handlers : List Act → St → Res St
  | [], s => .ok s
  | a :: as, s => do
    need s.op
    handlers as (← act s a)

/-- `QGrpcStream::handler` (qgrpcstream.h:74-80). -/
def handler (p : Program) (s : St) : Res St := do
  need s.op
  let s ← handlers p.handlers s
  need s.op
  slots St.op p.received s

/-- A message of a stream arrives. Over HTTP/2 the loop goes on with the entry of the table afterwards (qgrpchttp2channel.cpp:304-317); the native channel has nothing more to do
(qgrpcchannel.cpp:276-278). -/
def message (p : Program) (s : St) : Res St :=
  match s.kind with
  | .http2 => do
    need s.channel
    let s ← handler p { s with entry := true }
    need s.entry
    .ok s
  | .native => handler p s

/-- A stream ends: over HTTP/2 with a failure or without (qgrpchttp2channel.cpp:335-371; reconnecting, which calls nobody, is left out); over the native channel (qgrpcchannel.cpp:280-292),
where a good end emits nothing. The first needs the `QNetworkReply` afterwards, since it is in a slot of it. -/
def streamEnd (p : Program) (ok : Bool) (s : St) : Res St :=
  match s.kind with
  | .http2 => do
    need s.net
    let s ← disconnect [.abort] s
    let s := { s with entry := false }
    let s ← if ok then emitFinished p s else emitError p false s
    need s.net
    .ok s
  | .native =>
    running .end (fun s => do
      let s ← disconnect [.end, .abort, .destroyed] s
      need s.net
      if ok then .ok s else emitError p false s) s

/-- A blocking call fails (qabstractgrpcclient.cpp:86-97, qabstractgrpcclient.h:93-115), or something cannot be serialized or read (qabstractgrpcclient.h:207-247), or there is
no channel: `error` of the client is emitted, and then only variables of the functions are used. -/
def failing (p : Program) (s : St) : Res St := emitClientError p s

/-- The program drops its pointer to the operation. -/
def drop (s : St) : Res St := if s.user then dropped s { s with user := false } else .ok s

/-- A call is under way: made by the method that returns a pointer, or by one with a callback, which connects its functor (qabstractgrpcclient.cpp:107-125, templates.cpp:311-344).
`user`: the program still holds a pointer. -/
def call (kind : Kind) (withCallback user elsewhere : Bool) : St :=
  { kind := kind, stream := false, client := true, op := true, net := true, channel := true, elsewhere := elsewhere, entry := false, user := user, active := false
    connected := fun f => match f with
      | .callback => withCallback
      | .destroyed => false
      | _ => true
    running := fun _ => false
    cleared := fun _ => false }

/-- A stream is under way (qabstractgrpcclient.cpp:142-186). -/
def stream (kind : Kind) (user elsewhere : Bool) : St :=
  { kind := kind, stream := true, client := true, op := true, net := true, channel := true, elsewhere := elsewhere, entry := false, user := user, active := true
    connected := fun f => match f with
      | .callback => false
      | _ => true
    running := fun _ => false
    cleared := fun _ => false }

end QtPb.Inside
