import Verif.Basic
/-
Model of the life of sub-message objects: `QProtobufLazyMessagePointer` and the generated accessors that use it.
-/
namespace QtPb.Life

/-- A `QProtobufLazyMessagePointer` (qprotobuflazymessagepointer.h:40-116), the member of a message object that holds a
sub-message. `live`: it is constructed and not yet destroyed; `ptr`: the object in `m_ptr`; `conn`: the object whose `destroyed`
signal is connected by `m_destroyed`. Simplification: the holder of a message inside another one is a holder like any other; it is
destroyed by an event of its own before the object it is in. -/
structure Holder where
  live : Bool
  ptr : Option Nat
  conn : Option Nat

/-- The sub-message objects (numbered in the order of their creation) and their holders. `js`: what
`QQmlEngine::objectOwnership` says of an object. `outside` (made by other code than the holders) and `given` (passed to a holder)
only record the history. -/
structure World where
  next : Nat
  alive : Nat → Bool
  js : Nat → Bool
  outside : Nat → Bool
  given : Nat → Bool
  nextHolder : Nat
  holders : Nat → Holder

/-- What happens: a message is constructed (with a value for the sub-message or without), other code (QML, the deserializer) makes
an object, a sub-message is read (`x()`, `x_p()`), set by pointer (`setX_p`), an object is deleted by other code (such as the garbage
collector of QML), a message is destroyed. -/
inductive Event
  | message (withValue : Bool)
  | make (js : Bool)
  | read (h : Nat)
  | set (h : Nat) (p : Option Nat)
  | delete (p : Nat)
  | destroy (h : Nat)

/-- Function update. -/
def upd {α : Type} (f : Nat → α) (i : Nat) (v : α) : Nat → α := fun j => if j = i then v else f j

/-- Nothing exists. -/
def start : World :=
  ⟨0, fun _ => false, fun _ => false, fun _ => false, fun _ => false, 0, fun _ => ⟨false, none, none⟩⟩

/-- `delete` of an object. `QObject` then emits `destroyed`: holders that are connected let go of their pointer
(qprotobuflazymessagepointer.h:82-85). Deleting an object again is undefined. -/
def del (p : Nat) (w : World) : Res World :=
  if w.alive p then
    .ok { w with
      alive := upd w.alive p false
      holders := fun h => if (w.holders h).conn = some p then { w.holders h with ptr := none, conn := none } else w.holders h }
  else .ub

/-- `unique_ptr` deletes what it held, if anything. -/
def delOpt (o : Option Nat) (w : World) : Res World :=
  match o with
  | none => .ok w
  | some p => del p w

/-- `operator*` and `get` (qprotobuflazymessagepointer.h:47-52, 61-66): an empty holder makes an object; it has no connection. -/
def get (h : Nat) (w : World) : World :=
  match (w.holders h).ptr with
  | some _ => w
  | none =>
    { w with
      next := w.next + 1
      alive := upd w.alive w.next true
      js := upd w.js w.next false
      outside := upd w.outside w.next false
      holders := upd w.holders h { w.holders h with ptr := some w.next } }

/-- `checkAndRelease` (qprotobuflazymessagepointer.h:99-110), with (`qml`) or without QT_QML_LIB. Asking for the ownership of an
object that does not exist any more is undefined. -/
def checkAndRelease (qml : Bool) (h : Nat) (w : World) : Res World :=
  match (w.holders h).ptr with
  | none => .ok w
  | some p =>
    if qml && !w.alive p then .ub
    else if !qml || w.js p then .ok { w with holders := upd w.holders h { w.holders h with ptr := none, conn := none } }
    else .ok w

/-- `reset` (qprotobuflazymessagepointer.h:79-88). `connect` of a null pointer gives no connection; `unique_ptr::reset` stores the
new pointer before it deletes the old object. -/
def reset (qml : Bool) (h : Nat) (p : Option Nat) (w : World) : Res World := do
  let w ← checkAndRelease qml h w
  let old := (w.holders h).ptr
  delOpt old { w with holders := upd w.holders h { w.holders h with ptr := p, conn := p } }

/-- The object was passed to a holder (a record only). -/
def World.give (w : World) : Option Nat → World
  | some o => { w with given := upd w.given o true }
  | none => w

/-- The pointer setter (`SetterPrivateTemplateDefinitionMessageType`, templates.cpp:207-212). -/
def set (qml : Bool) (h : Nat) (p : Option Nat) (w : World) : Res World := do
  let w := get h w
  if (w.holders h).ptr = p then .ok (w.give p)
  else
    let w ← reset qml h p w
    .ok (w.give p)

/-- The destructor of the holder (qprotobuflazymessagepointer.h:44-47), then that of its `unique_ptr`. -/
def destroy (qml : Bool) (h : Nat) (w : World) : Res World := do
  let w ← checkAndRelease qml h w
  let old := (w.holders h).ptr
  delOpt old { w with holders := upd w.holders h ⟨false, none, none⟩ }

/-- One event. Constructors of messages: `MessagePropertyInitializerTemplate`, `MessagePropertyDefaultInitializerTemplate`
(templates.cpp:257-258). Using a message that does not exist, or the reference to an object that does not exist, is undefined. -/
def step (qml : Bool) (w : World) : Event → Res World
  | .message withValue =>
    let w' := { w with nextHolder := w.nextHolder + 1, holders := upd w.holders w.nextHolder ⟨true, none, none⟩ }
    .ok (if withValue then get w.nextHolder w' else w')
  | .make js => .ok { w with
      next := w.next + 1
      alive := upd w.alive w.next true
      js := upd w.js w.next js
      outside := upd w.outside w.next true }
  | .read h =>
    if (w.holders h).live then
      let w := get h w
      if (w.holders h).ptr.all w.alive then .ok w else .ub
    else .ub
  | .set h p =>
    if (w.holders h).live && p.all w.alive then set qml h p w else .ub
  | .delete p => del p w
  | .destroy h => if (w.holders h).live then destroy qml h w else .ub

/-- A history. -/
def run (qml : Bool) : World → List Event → Res World
  | w, [] => .ok w
  | w, e :: es => do
    let w ← step qml w e
    run qml w es

end QtPb.Life
