import Verif.Basic
/-
Model of the QML stream item `QQuickGrpcStream` (src/grpc/quick/qquickgrpcstream.cpp, qquickgrpcstream_p.h): any
number of items, which share streams as the client does (qabstractgrpcclient.cpp:146-153).

Items, clients, argument objects and streams are numbered. The environment says for which client, method and
argument a subscription succeeds (`ok`: the method exists, the types fit and a channel is attached) and what an
argument object contains (`content`; simplification: it does not change). A stream is over when it has emitted
`finished`; simplification: it does that once. Handlers of change signals written in QML do not write properties.
-/
namespace QtPb.Quick

/-- The environment of the items. -/
structure World where
  ok : Nat → String → Nat → Bool
  content : Nat → Bytes

/-- Members of `QQuickGrpcStream` (qquickgrpcstream_p.h:179-185); `none` is a null pointer. -/
structure Item where
  client : Option Nat
  enabled : Bool
  method : String
  argument : Option Nat
  stream : Option Nat
  returnValue : Bool
deriving DecidableEq, Repr

/-- What the client knows of a stream: its key, whether it is still running, and the items connected to its
signals, in order. -/
structure Stream where
  client : Nat
  method : String
  arg : Bytes
  running : Bool
  listeners : List Nat
deriving DecidableEq, Repr

/-- All items and all streams there have been. -/
structure State where
  items : Nat → Item
  streams : Nat → Stream
  nStreams : Nat

/-- Replace one entry of a table (not in the code). -/
def update {α : Type} (f : Nat → α) (i : Nat) (v : α) : Nat → α := fun j => if j = i then v else f j

/-- A new item (qquickgrpcstream.cpp:34-38). -/
def Item.new : Item := ⟨none, false, "", none, none, false⟩

def start : State := ⟨fun _ => Item.new, fun _ => ⟨0, "", [], false, []⟩, 0⟩

/-- The slot for `finished` (qquickgrpcstream.cpp:173): drop the stream and `setEnabled(false)`, which, if the item
was enabled, runs `updateStream`; there the stream is null and the item disabled, so only the return value is
dropped (qquickgrpcstream.cpp:57-65). -/
def onFinished (it : Item) : Item :=
  if it.enabled then { it with stream := none, enabled := false, returnValue := false }
  else { it with stream := none }

/-- A stream emits `finished`: it is over, and the slots of all connected items run. -/
def finish (st : State) (s : Nat) : State :=
  { st with
    streams := update st.streams s { st.streams s with running := false }
    items := fun j => if j ∈ (st.streams s).listeners then onFinished (st.items j) else st.items j }

/-- The running stream of a client for method and argument, if there is one. -/
def find (st : State) (client : Nat) (method : String) (arg : Bytes) : Option Nat :=
  (List.range st.nStreams).find? fun s =>
    (st.streams s).running && (st.streams s).client == client && (st.streams s).method == method && (st.streams s).arg == arg

/-- `stream()` (qquickgrpcstream.cpp:72-176) for a client, a method and an argument: call the client, remember the
stream and connect to its signals. `none`: it returns false. -/
def subscribe (w : World) (st : State) (i client : Nat) (method : String) (argument : Nat) : Option State :=
  if w.ok client method argument then
    let arg := w.content argument
    let it := { st.items i with returnValue := true }
    match find st client method arg with
    | some s => some { st with
        items := update st.items i { it with stream := some s }
        streams := update st.streams s { st.streams s with listeners := (st.streams s).listeners ++ [i] } }
    | none => some { st with
        items := update st.items i { it with stream := some st.nStreams }
        streams := update st.streams st.nStreams ⟨client, method, arg, true, [i]⟩
        nStreams := st.nStreams + 1 }
  else none

/-- `updateStream` (qquickgrpcstream.cpp:50-70). `abort` emits `finished` before it returns. If the subscription
fails, `setEnabled(false)` runs `updateStream` again, which drops the return value. -/
def updateStream (w : World) (st : State) (i : Nat) : State :=
  let st := match (st.items i).stream with
    | some s =>
      let st := finish st s
      { st with items := update st.items i { st.items i with stream := none } }
    | none => st
  let st := { st with items := update st.items i { st.items i with returnValue := false } }
  match (st.items i).client, (st.items i).argument with
  | some client, some argument =>
    if (st.items i).method = "" ∨ (st.items i).enabled = false then st
    else
      match subscribe w st i client (st.items i).method argument with
      | some st => st
      | none => { st with items := update st.items i { st.items i with enabled := false, returnValue := false } }
  | _, _ => st

/-- What can happen: property writes of item `i`, the server (or another user of the client) ends a stream, a
client or an argument object is destroyed (`QPointer` becomes null). -/
inductive Ev
  | setClient (i : Nat) (c : Option Nat)
  | setEnabled (i : Nat) (e : Bool)
  | setMethod (i : Nat) (m : String)
  | setArgument (i : Nat) (a : Option Nat)
  | ended (s : Nat)
  | clientGone (c : Nat)
  | argumentGone (a : Nat)
deriving DecidableEq, Repr

/-- Store a property of item `i` and update the stream. -/
def write (w : World) (st : State) (i : Nat) (it : Item) : State :=
  updateStream w { st with items := update st.items i it } i

/-- One event (setters: qquickgrpcstream_p.h:129-167). -/
def step (w : World) (st : State) : Ev → State
  | .setClient i c => if (st.items i).client = c then st else write w st i { st.items i with client := c }
  | .setEnabled i e => if (st.items i).enabled = e then st else write w st i { st.items i with enabled := e }
  | .setMethod i m => if (st.items i).method = m then st else write w st i { st.items i with method := m }
  | .setArgument i a => if (st.items i).argument = a then st else write w st i { st.items i with argument := a }
  | .ended s => if (st.streams s).running then finish st s else st
  | .clientGone c => { st with items := fun j =>
      if (st.items j).client = some c then { st.items j with client := none } else st.items j }
  | .argumentGone a => { st with items := fun j =>
      if (st.items j).argument = some a then { st.items j with argument := none } else st.items j }

def run (w : World) (es : List Ev) : State := es.foldl (step w) start

end QtPb.Quick
