import Verif.Stream
import Verif.Credentials
import Verif.Md5
/-
Model of the client of the chat example, `SimpleChatEngine` (examples/simplechat/simplechatengine.cpp), on top of the model of the gRPC client and its streams (Verif/Stream.lean).

Each `login` makes a new HTTP/2 channel with the name and the hash of the password, attaches it to the client, and subscribes to the list of messages. The functors it connects to the stream
hold the stream, so that it is never deleted. When another channel is attached nobody holds the last one: it is deleted with all its requests. Left out: reading the list from the bytes of a
message, which is what `read` does; the clipboard and images; requests of `sendMessage` after they were sent; TLS.
-/
namespace QtPb.ChatEngine
open Stream (Client Item Close)

/-- A name and a password, as UTF-8. -/
structure Account where
  name : Bytes
  password : Bytes
deriving DecidableEq

/-- The engine (examples/simplechat/simplechatengine.h:49-52): its client, the accounts of the logins so far, the last of which is that of the channel; with which login the request of each
attempt was sent; the slots that are connected to streams, with the captured name (simplechatengine.cpp:77-88); `m_userName`; the bytes of the list that `m_messages` shows. -/
structure Engine where
  client : Client
  accounts : List Account
  loginOf : Nat → Nat
  slots : List (Nat × Bytes)
  userName : Bytes
  messages : Bytes

/-- The constructor (simplechatengine.cpp:48-54). -/
def Engine.new : Engine := ⟨Client.new 0, [], fun _ => 0, [], [], []⟩

inductive Ev
  /-- `login` is called. -/
  | login (account : Account)
  /-- The network delivers something for an attempt. -/
  | net (attempt : Nat) (item : Item)
  /-- A timer of the client for a stream fires. -/
  | timer (stream : Nat)
  /-- `sendMessage` is called. -/
  | send (content : Bytes)

inductive Obs
  /-- A request for the list of messages is sent, for a stream, with the account of a login. -/
  | request (attempt stream login : Nat)
  /-- `userNameChanged` and `loggedIn` are emitted. -/
  | loggedIn (name : Bytes)
  /-- A list that came on this attempt is shown; this is the name of the user then. -/
  | showing (attempt : Nat) (name : Bytes) (list : Bytes)
  /-- A stream fails, and is aborted. -/
  | failed (stream : Nat)
  /-- A message is sent with the account of a login, or cannot be sent. -/
  | sent (login : Nat) (content : Bytes)
  | notSent
deriving DecidableEq

/-- The account of the channel. -/
def Engine.current (e : Engine) : Nat := e.accounts.length - 1

/-- The slot of `messageReceived` (simplechatengine.cpp:81-88). -/
def Engine.onMessage (attempt : Nat) (e : Engine) (slot : Nat × Bytes) : Engine × List Obs :=
  let r : Engine × List Obs := if e.userName ≠ slot.2 then ({ e with userName := slot.2 }, [.loggedIn slot.2]) else (e, [])
  let list := (r.1.client.streams slot.1).data
  ({ r.1 with messages := list }, r.2 ++ [.showing attempt r.1.userName list])

/-- The slot of `error` (simplechatengine.cpp:77-80). -/
def Engine.onError (e : Engine) (slot : Nat × Bytes) : Engine × List Obs := ({ e with client := (e.client.emitFinished slot.1).1 }, [.failed slot.1])

/-- The slots that are connected to a stream are called, in order. -/
def Engine.emit (f : Engine → Nat × Bytes → Engine × List Obs) : List (Nat × Bytes) → Engine → Engine × List Obs
  | [], e => (e, [])
  | slot :: slots, e =>
    let r := f e slot
    let q := Engine.emit f slots r.1
    (q.1, r.2 ++ q.2)

/-- What the engine notices of something that is observed of its client. -/
def Engine.hear (attempt : Nat) (e : Engine) : Stream.Obs → Engine × List Obs
  | .started a s _ => ({ e with loginOf := Stream.update e.loginOf a e.current }, [.request a s e.current])
  | .notified s => Engine.emit (Engine.onMessage attempt) (e.slots.filter fun x => x.1 = s) e
  | .failed s _ => Engine.emit Engine.onError (e.slots.filter fun x => x.1 = s) e
  | _ => (e, [])

def Engine.hearAll (attempt : Nat) : List Stream.Obs → Engine → Engine × List Obs
  | [], e => (e, [])
  | o :: os, e =>
    let r := e.hear attempt o
    let q := Engine.hearAll attempt os r.1
    (q.1, r.2 ++ q.2)

/-- The stream a subscription is given (not in the code: the value that is returned). -/
def given : List Stream.Obs → Option Nat
  | [] => none
  | .subscribed _ _ _ s :: _ => some s
  | _ :: os => given os

/-- `SimpleChatEngine::login` (simplechatengine.cpp:61-89). The argument `None()` has no bytes. -/
def Engine.login (e : Engine) (account : Account) : Res (Engine × List Obs) :=
  let e : Engine := { e with accounts := e.accounts ++ [account] }
  match e.client.attachChannel .http2 0 0 with
  | none => .ub
  | some (c, os) =>
    let r := Engine.hearAll 0 os { e with client := c }
    let s := r.1.client.subscribe "messageList" [] none
    let q := Engine.hearAll 0 s.2 { r.1 with client := s.1 }
    match given s.2 with
    | none => .ub
    | some stream => .ok ({ q.1 with slots := q.1.slots ++ [(stream, account.name)] }, r.2 ++ q.2)

/-- One event. An attempt of a channel that is gone is told nothing more. `send`: simplechatengine.cpp:91-94. -/
def Engine.step (e : Engine) : Ev → Res (Engine × List Obs)
  | .login account => e.login account
  | .net a i =>
    if a < e.client.nAttempts ∧ e.loginOf a = e.current then
      let r := e.client.net a i
      .ok (Engine.hearAll a r.2 { e with client := r.1 })
    else .ok (e, [])
  | .timer s =>
    match e.client.fire s with
    | none => .ub
    | some (c, os) => .ok (Engine.hearAll 0 os { e with client := c })
  | .send content => .ok (e, if e.client.channel.isSome then [.sent e.current content] else [.notSent])

/-- A history. -/
def Engine.run (e : Engine) : List Ev → Res (Engine × List Obs)
  | [] => .ok (e, [])
  | v :: vs => (e.step v).bind fun r => (r.1.run vs).bind fun q => .ok (q.1, r.2 ++ q.2)

/-- The credentials of the channel of an account (simplechatengine.cpp:72-73), with some configuration of TLS. -/
def credentials (config : Nat) (account : Account) : Option Cred.Credentials :=
  Cred.combine (Cred.sslCredentials config)
    (Cred.userPassword [117, 115, 101, 114, 45, 110, 97, 109, 101] [117, 115, 101, 114, 45, 112, 97, 115, 115, 119, 111, 114, 100] (some account.name) (some (Md5.md5Hex account.password)))

end QtPb.ChatEngine
