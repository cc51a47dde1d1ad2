import Verif.Inside
/-
Specification of destroying a client inside a function that the library calls.

A program is one that never destroys the client in some place if no slot, handler or callback of that place does. What is asked for is that an event does nothing undefined,
and that the program may drop its pointer to the call or stream afterwards.
-/
namespace QtPb.SpecInside
open QtPb.Inside

/-- One of the slots or handlers destroys the client. -/
def Destroys (acts : List Act) : Prop := Act.destroy ∈ acts

/-- Nothing undefined happens. -/
def Fine (r : Res St) : Prop := ∃ t, r = .ok t

/-- Something undefined happens. -/
def Undefined (r : Res St) : Prop := r = .ub

/-- What can happen to a call or stream. -/
inductive Event
  /-- the answer of a call arrives, good or not -/
  | answered (ok : Bool)
  /-- a message of a stream arrives -/
  | message
  /-- a stream ends, well or with a failure -/
  | ended (ok : Bool)
  /-- the program calls `abort()` -/
  | aborted
  /-- a blocking call of the same client fails, or something cannot be serialized or read -/
  | failing

/-- What happens then. -/
def happens (p : Program) (s : St) : Event → Res St
  | .answered ok => answer p ok s
  | .message => message p s
  | .ended ok => streamEnd p ok s
  | .aborted => abort p s
  | .failing => failing p s

/-- The starting point of an event: a call for answers, a stream for messages and ends, either for the others. `abort()` needs a pointer. -/
def Start (e : Event) (s : St) : Prop :=
  match e with
  | .answered _ => ∃ kind withCallback user elsewhere, s = call kind withCallback user elsewhere
  | .message | .ended _ => ∃ kind user elsewhere, s = stream kind user elsewhere
  | .aborted => s.user = true ∧ ((∃ kind withCallback user elsewhere, s = call kind withCallback user elsewhere) ∨ ∃ kind user elsewhere, s = stream kind user elsewhere)
  | .failing => (∃ kind withCallback user elsewhere, s = call kind withCallback user elsewhere) ∨ ∃ kind user elsewhere, s = stream kind user elsewhere

/-- A function of the program that is called by the event destroys the client. -/
def Reached (p : Program) (s : St) : Event → Prop
  | .answered true => Destroys p.finished ∨ (s.connected .callback = true ∧ p.callback = .destroy)
  | .answered false => Destroys p.clientError ∨ Destroys p.error
  | .message => Destroys p.handlers ∨ Destroys p.received
  | .ended true => s.kind = .http2 ∧ Destroys p.finished
  | .ended false => Destroys p.clientError ∨ Destroys p.error
  | .aborted => (s.stream = true ∧ Destroys p.finished) ∨ (s.stream = false ∧ (Destroys p.clientError ∨ Destroys p.error))
  | .failing => Destroys p.clientError

/-- The property: whatever the program does, nothing undefined happens, neither at once nor when the pointer is dropped. -/
def Claim : Prop := ∀ p e s, Start e s → ∃ t, happens p s e = .ok t ∧ Fine (drop t)

end QtPb.SpecInside
