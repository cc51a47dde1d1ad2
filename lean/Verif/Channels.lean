import Verif.Basic
/-
Model of channels that are replaced while calls are under way: `QAbstractGrpcClient::attachChannel` and `call`
(src/grpc/qabstractgrpcclient.cpp:57-131), `QGrpcHttp2ChannelPrivate::post` with its timer (src/grpc/qgrpchttp2channel.cpp:115-163),
`QGrpcHttp2Channel::call` (211-270), `QGrpcChannelCall` and `QGrpcChannelPrivate::call` (src/grpc/qgrpcchannel.cpp:138-257).

A channel is shared: the client holds the one that was attached last, the program may hold others. When nobody holds it, it is
destroyed. With an HTTP/2 channel its `QNetworkAccessManager` is destroyed, and with it the `QNetworkReply` objects of its requests, which
are children of the manager (Qt's documentation of `QNetworkAccessManager`); a deleted reply emits nothing. A call of the native channel
runs in a thread which is given a plain pointer to the `grpc::Channel`; once it has begun, the gRPC library holds the channel.

A synchronous call waits in an event loop; handlers that run in it may attach and drop channels and make further calls, which wait in
loops inside it. When the answer arrives, the loop is told to quit; it returns when the loops inside it have returned.

Simplifications: one client, one thread; channels live in this thread; streams are left out (`Stream`); an answer stands for every end
of a request: an answer of the server, an error of the network, the abort by the timer while the request is running.
-/
namespace QtPb.Channels

/-- `QGrpcHttp2Channel` and `QGrpcChannel`. -/
inductive Kind
  | http2
  | native
deriving DecidableEq, Repr

/-- A channel; `held`: the program holds a shared pointer to it. -/
structure Channel where
  kind : Kind
  held : Bool
deriving DecidableEq, Repr

/-- How far a call is: no end of the request yet; the request has ended but the synchronous call has not returned yet; the result is
delivered; the request was deleted and will never end. -/
inductive State
  | waiting
  | answered (a : Bytes)
  | done (a : Bytes)
  | lost
deriving DecidableEq, Repr

/-- A call. `begun`: the thread of a native call has begun; `gone`: what the call points to, the network reply or the `grpc::Channel`,
is deleted. -/
structure Call where
  ch : Nat
  kind : Kind
  sync : Bool
  begun : Bool
  state : State
  gone : Bool
deriving DecidableEq, Repr

/-- The program: all channels there have been, the one that is attached, all calls, the synchronous calls on the stack (innermost
first), and whether something undefined has happened. -/
structure World where
  channels : List Channel
  current : Option Nat
  calls : List Call
  stack : List Nat
  ub : Bool
deriving DecidableEq, Repr

/-- A program that has a client. -/
def start : World := ⟨[], none, [], [], false⟩

/-- Somebody holds the channel. -/
def World.alive (w : World) (c : Nat) : Bool := (w.channels[c]?.any (·.held)) || w.current == some c

/-- What the destruction of its channel does to a call: the network reply is deleted (qgrpchttp2channel.cpp:109), the pointer that a
thread of a native call has not used yet dangles (qgrpcchannel.cpp:142-148). -/
def Call.orphan (c : Call) : Call :=
  match c.kind with
  | .http2 => { c with gone := true, state := if c.state = .waiting then .lost else c.state }
  | .native => { c with gone := c.gone || !c.begun }

/-- The destructors of channels that nobody holds any more; `w` is the program before. -/
def World.bury (w w' : World) : World :=
  { w' with calls := w'.calls.map fun c => if w.alive c.ch && !w'.alive c.ch then c.orphan else c }

/-- What can happen. `create`: the program creates a channel and holds it; `attach`: it gives the client a channel it holds; `drop`: it
lets go of a channel; `call`: it makes a call; `begin`: the thread of a native call begins; `answer`: a request ends; `expire`: the timer
of an HTTP/2 request runs out after the request has ended; `ret`: the innermost event loop ends. -/
inductive Ev
  | create (k : Kind)
  | attach (c : Nat)
  | drop (c : Nat)
  | call (sync : Bool)
  | begin (k : Nat)
  | answer (k : Nat) (a : Bytes)
  | expire (k : Nat)
  | ret
deriving DecidableEq, Repr

/-- The request of a call ends: an asynchronous call delivers the result at once (qgrpchttp2channel.cpp:238-256, qgrpcchannel.cpp:218-230),
the event loop of a synchronous one is told to quit. -/
def Call.finish (c : Call) (a : Bytes) : Call :=
  if c.state = .waiting ∧ (c.kind = .native → c.begun = true) then { c with state := if c.sync then .answered a else .done a } else c

/-- The timer of `post` after the request has ended (qgrpchttp2channel.cpp:149-163): the network reply is deleted by the event loop the
timer ran in. A synchronous call that has not returned still uses it. -/
def Call.expire (c : Call) : Call :=
  match c.kind, c.state with
  | .http2, .answered _ => { c with gone := true }
  | _, _ => c

/-- The innermost event loop ends: the call uses the network reply (qgrpchttp2channel.cpp:223-228); the native one only its own objects
(qgrpcchannel.cpp:255-256). -/
def World.ret (w : World) : World :=
  match w.stack with
  | [] => w
  | k :: rest =>
    match w.calls[k]? with
    | some c =>
      match c.state with
      | .answered a =>
        { w with stack := rest, calls := w.calls.set k { c with state := .done a }, ub := w.ub || (c.kind = .http2 && c.gone) }
      | _ => w
    | none => w

/-- One event. Events that are not possible in the state change nothing. -/
def World.step (w : World) : Ev → World
  | .create k => { w with channels := w.channels ++ [⟨k, true⟩] }
  | .attach c => if w.channels[c]?.any (·.held) then w.bury { w with current := some c } else w
  | .drop c => w.bury { w with channels := w.channels.modify c fun x => { x with held := false } }
  | .call sync =>
    match w.current with
    | none => w
    | some c =>
      match w.channels[c]? with
      | none => w
      | some x =>
        { w with calls := w.calls ++ [⟨c, x.kind, sync, false, .waiting, false⟩],
                 stack := if sync then w.calls.length :: w.stack else w.stack }
  | .begin k =>
    match w.calls[k]? with
    | some c =>
      if c.kind = .native ∧ c.begun = false ∧ c.state = .waiting then
        { w with calls := w.calls.set k { c with begun := true }, ub := w.ub || c.gone }
      else w
    | none => w
  | .answer k a => { w with calls := w.calls.modify k (·.finish a) }
  | .expire k => { w with calls := w.calls.modify k (·.expire) }
  | .ret => w.ret

/-- A history. -/
def World.run (w : World) (es : List Ev) : World := es.foldl World.step w

end QtPb.Channels
