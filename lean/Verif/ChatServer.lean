import Verif.Basic
/-
Model of the server of the chat example (examples/simplechatserver/main.cpp): who is let in, what is stored, and what is written to the subscribers.

The main thread accepts subscribers one after the other. `sendMessage` runs in threads of grpc++, at any time after the server was started. Simplifications: a call of
`sendMessage` is one step (there is no lock; two that overlap are a data race); grpc++ is represented by what is written to and finished on which stream; the server is
not shut down; output to the console is left out.
-/
namespace QtPb.ChatServer

/-- An entry of `client_metadata()`. The value is not terminated: `behind` are the bytes that follow it in memory up to the next NUL, `none` if there is none in
readable memory. -/
structure Entry where
  key : Bytes
  value : Bytes
  behind : Option Bytes
deriving DecidableEq

/-- `"user-name"` (main.cpp:68). -/
def userName : Bytes := [117, 115, 101, 114, 45, 110, 97, 109, 101]

/-- `"user-password"` (main.cpp:72). -/
def userPassword : Bytes := [117, 115, 101, 114, 45, 112, 97, 115, 115, 119, 111, 114, 100]

/-- `std::string(data())` (main.cpp:69, 73): reads to the next NUL. -/
def cString (e : Entry) : Res Bytes :=
  match e.behind with
  | some rest => .ok ((e.value ++ rest).takeWhile (· ≠ 0))
  | none => if 0 ∈ e.value then .ok (e.value.takeWhile (· ≠ 0)) else .ub

/-- `std::string::resize` (main.cpp:70, 74). -/
def resize (n : Nat) (bs : Bytes) : Bytes := bs.take n ++ List.replicate (n - bs.length) 0

/-- The loop of `extractCredentials` (main.cpp:64-78), with the values of the two variables so far. -/
def extract : List Entry → Bytes × Bytes → Res (Bytes × Bytes)
  | [], c => .ok c
  | e :: es, c =>
    (if e.key = userName then (cString e).bind fun b => .ok (resize 5 b) else .ok c.1).bind fun name =>
      (if e.key = userPassword then (cString e).bind fun b => .ok (resize 32 b) else .ok c.2).bind fun password =>
        extract es (name, password)

/-- The password of all users (main.cpp:25), as the clients send it. -/
def password : Bytes := [100, 56, 53, 55, 56, 101, 100, 102, 56, 52, 53, 56, 99, 101, 48, 54, 102, 98, 99, 53, 98, 98, 55, 54, 97, 53, 56, 99, 53, 99, 97, 52]

/-- The database of users (main.cpp:22-38): user1 to user5. -/
def users : List (Bytes × Bytes) := [([117, 115, 101, 114, 49], password), ([117, 115, 101, 114, 50], password), ([117, 115, 101, 114, 51], password), ([117, 115, 101, 114, 52], password), ([117, 115, 101, 114, 53], password)]

/-- `checkUserCredentials` (main.cpp:54-62). -/
def check (name password : Bytes) : Bool := users.any fun u => u.1 == name && u.2 == password

/-- A `ChatMessage` (examples/simplechat/simplechat.proto:32-42). -/
structure Msg where
  timestamp : Nat
  content : Bytes
  type : Int
  sender : Bytes
deriving DecidableEq

/-- The service and the main thread: the messages, how many writers there are in `m_activeClients` (main.cpp:96), and whether the main thread waits for a subscriber
(main.cpp:148) with the last one of them, or has to make the next handler (main.cpp:144, 162, 167). Simplification: a handler and the writer in it are numbers, in the order in which
they are made; they are never deleted. -/
structure Server where
  messages : List Msg
  writers : Nat
  waiting : Bool
deriving DecidableEq

/-- The server has been started (main.cpp:142) and the first handler is not yet made. -/
def Server.started : Server := ⟨[], 0, false⟩

inductive Ev
  /-- The main thread makes the next handler. -/
  | handler
  /-- A client calls `messageList` and the main thread gets the tag of the last handler. -/
  | subscribe (metadata : List Entry)
  /-- A client calls `sendMessage`. -/
  | send (metadata : List Entry) (m : Msg)

inductive Obs
  /-- The server takes the stream with this number. -/
  | opened (k : Nat)
  /-- A list is written to a stream. -/
  | shown (k : Nat) (ms : List Msg)
  /-- A stream is finished with `UNAUTHENTICATED`. -/
  | finished (k : Nat)
  /-- `sendMessage` stores a message; the caller gets the status OK. -/
  | added (m : Msg)
  /-- The caller of `sendMessage` gets `UNAUTHENTICATED`. -/
  | refused
deriving DecidableEq

/-- `updateMessages` (main.cpp:48-52): all writers but the last. Without any writer `size() - 1` is a huge number and the loop reads beyond the vector. -/
def updateMessages (writers : Nat) (ms : List Msg) : Res (List Obs) :=
  if writers = 0 then .ub else .ok ((List.range (writers - 1)).map fun k => .shown k ms)

/-- One event. `handler`: the constructor of `MessageListHandler` and `loginUser` (main.cpp:102-119). `subscribe`: main.cpp:155-166. `send`: `sendMessage` (main.cpp:80-94). -/
def step (s : Server) : Ev → Res (Server × List Obs)
  | .handler => if s.waiting then .ok (s, []) else .ok (⟨s.messages, s.writers + 1, true⟩, [.opened s.writers])
  | .subscribe metadata =>
    if s.waiting then
      (extract metadata ([], [])).bind fun c =>
        .ok (⟨s.messages, s.writers, false⟩, if check c.1 c.2 then [.shown (s.writers - 1) s.messages] else [.finished (s.writers - 1)])
    else .ok (s, [])
  | .send metadata m =>
    (extract metadata ([], [])).bind fun c =>
      if check c.1 c.2 then
        let m' : Msg := { m with sender := c.1 }
        (updateMessages s.writers (s.messages ++ [m'])).bind fun os => .ok (⟨s.messages ++ [m'], s.writers, s.waiting⟩, .added m' :: os)
      else .ok (s, [.refused])

/-- A history. -/
def run (s : Server) : List Ev → Res (Server × List Obs)
  | [] => .ok (s, [])
  | e :: es => (step s e).bind fun r => (run r.1 es).bind fun q => .ok (q.1, r.2 ++ q.2)

end QtPb.ChatServer
