import Verif.EndToEnd
import Verif.Reference
/-
Model of the client of the tutorial (examples/clienttutorial): its engine (echoclientengine.cpp:36-45), the user interface (main.qml), the messages
of tutorial.proto, and calls of the generated client over HTTP/2, in whose event loop the user interface goes on (qgrpchttp2channel.cpp:213-220).

Simplifications: one window; the text of the input field and the property `message` of the request object, which is bound to it (main.qml:14-17), are
one, and an empty text is an empty `QString`, not a null one; keys pressed between two entries are one event with the text they leave; the engine, the client and its channel live as long as the program; a
call that is made while another one waits is in the event loop of that one and ends first.
-/
namespace QtPb.EchoEngine
open Http2 Call EndToEnd

/-- The message types of tutorial.proto:5-11, 0: `EchoRequest`, 1: `EchoResponse`, with Qt's conversions of texts. -/
def tutorial (toUtf8 : List Char → Bytes) (fromUtf8 : Bytes → List Char) : Env where
  sch := fun m => match m with
    | 0 => [⟨1, .scalar .string⟩]
    | 1 => [⟨1, .scalar .string⟩]
    | _ => []
  ord := fun m => match m with
    | 0 => [0]
    | 1 => [0]
    | _ => []
  toUtf8 := toUtf8
  fromUtf8 := fromUtf8

/-- What there is: the text of the input field (main.qml:28-37), the response of the engine (echoclientengine.h:51), and, as a record, the errors that
the client emitted, the requests that were sent, and the messages that answers put into the response. -/
structure Window where
  text : List Char
  response : Obj
  errors : List Call.Status
  sent : List Request
  shown : List (List Char)

/-- `message()` of a response (the generated getter, templates.cpp:186-188), as line 47 of main.qml shows it. -/
def message : Obj → List Char
  | .sc (.str s) :: _ => s.getD []
  | _ => []

/-- What the user does. -/
inductive Event
  /-- keys are pressed: the input field has this text now -/
  | type (text : List Char)
  /-- the text is accepted (main.qml:32-35); what happens until the answer, and what the network and the server make of the request -/
  | enter (meanwhile : List Event) (world : World)

/-- The end of the call (qabstractgrpcclient.cpp:90-96, qabstractgrpcclient.h:106-109, 205-232): an error is emitted, or the answer is read into the response. -/
def finish (env : Env) (n k : Nat) (w : Window) (status : Call.Status) (data : Bytes) : Res Window :=
  if status.code ≠ Status.Ok then .ok { w with errors := w.errors ++ [status] }
  else
    match read env n k 1 w.response data with
    | none => .fuel
    | some r =>
      let (o, _, errors) := tryDeserialize (some fun _ _ => r) w.response data
      .ok { w with response := o, errors := w.errors ++ errors, shown := w.shown ++ [message o] }

/-- `EchoClientEngine::request` (echoclientengine.cpp:42-45) with the generated `Echo` (clientdefinitionprinter.cpp, C81) and the call of the client
(qabstractgrpcclient.h:92-116): the argument is dereferenced and serialized, the request is sent, the event loop runs, the call ends. -/
def request (env : Env) (n k : Nat) (loop : Window → Res Window) (w : Window) (req : Option Obj) (world : World) : Res Window :=
  match req with
  | none => .ub
  | some o =>
    (serializeMessage env n 0 o).bind fun data =>
      (loop { w with sent := w.sent ++ [post "Echo" "qtprotobuf.tutorial.EchoService" data] }).bind fun w =>
        match channelCall world "Echo" "qtprotobuf.tutorial.EchoService" data with
        | some (.ok (status, ret)) => finish env n k w status ret
        | some (.throw e) => .throw e
        | some .ub => .ub
        | _ => .fuel

mutual
/-- The events one after the other. -/
def run (env : Env) (n k : Nat) (w : Window) : List Event → Res Window
  | [] => .ok w
  | e :: rest => (step env n k w e).bind fun w => run env n k w rest
/-- One event. `onAccepted` (main.qml:32-35): the request, then the input field is cleared. -/
def step (env : Env) (n k : Nat) (w : Window) : Event → Res Window
  | .type t => .ok { w with text := t }
  | .enter meanwhile world =>
    (request env n k (fun w => run env n k w meanwhile) w (some [.sc (.str (some w.text))]) world).bind fun w => .ok { w with text := [] }
end

/-- The server of the tutorial (tutorialserver/main.go:15-17) behind Go's gRPC and protobuf: it reads the request, and its answer has the same text; Go
writes no field for an empty text. It is not asked about other bytes here, and does not answer them. -/
def server (env : Env) : World := fun r =>
  match Ref.decode env 0 (r.body.drop 5) with
  | some [.sc (.str s)] =>
    let data := if s.getD [] = [] then [] else encodeHeader 1 2 ++ prependLengthDelimitedSize (env.toUtf8 (s.getD []))
    ([.finished ⟨.NoError, some [0x30], requestBody data⟩], "")
  | _ => ([], "")

/-- `new EchoResponse` (echoclientengine.cpp:36) and an empty input field. -/
def start (env : Env) : Window := ⟨[], defaultObj env 1, [], [], []⟩

end QtPb.EchoEngine
