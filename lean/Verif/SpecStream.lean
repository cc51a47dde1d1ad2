import Verif.Stream
/-
Specification of server streams, in terms of what is observed only (`Obs`), read from the start of a history.
-/
namespace QtPb.Stream.Spec

/-- What somebody who only sees the observations knows: who has subscribed to which stream (in order), which
stream and channel class each attempt was started for, which attempts are over (ended or cancelled), which
streams are deleted. -/
structure View where
  subscribers : Nat → List Nat
  owner : Nat → Option (Nat × Kind)
  over : Nat → Bool
  gone : Nat → Bool

def View.new : View := ⟨fun _ => [], fun _ => none, fun _ => false, fun _ => false⟩

/-- A further observation. -/
def View.see (v : View) : Obs → View
  | .subscribed _ _ (some h) s =>
      { v with subscribers := fun t => if t = s then v.subscribers t ++ [h] else v.subscribers t }
  | .started a s k => { v with owner := fun b => if b = a then some (s, k) else v.owner b }
  | .closed a => { v with over := fun b => if b = a then true else v.over b }
  | .cancelled a => { v with over := fun b => if b = a then true else v.over b }
  | .deleted s => { v with gone := fun t => if t = s then true else v.gone t }
  | _ => v

/-- The handler calls that are due when attempt `a` passes on message `d`: every subscriber of the stream, in
the order of subscription, once each. -/
def View.due (v : View) (a : Nat) (d : Bytes) : List (Nat × Nat × Bytes) :=
  match v.owner a with
  | some (s, _) => (v.subscribers s).map fun h => (s, h, d)
  | none => []

/-- All handler calls that are due in a history. -/
def dueCalls (v : View) : List Obs → List (Nat × Nat × Bytes)
  | [] => []
  | .recv a d :: rest => v.due a d ++ dueCalls v rest
  | o :: rest => dueCalls (v.see o) rest

/-- All handler calls that were made in a history: stream, handler, message. -/
def calls : List Obs → List (Nat × Nat × Bytes)
  | [] => []
  | .handled s h d :: rest => (s, h, d) :: calls rest
  | _ :: rest => calls rest

/-- Everything known after a history. -/
def view (t : List Obs) : View := t.foldl View.see View.new

/-- The messages that arrived from the network for attempt `a`, in order. -/
def arrived (a : Nat) (t : List Obs) : List Bytes :=
  t.filterMap fun o => match o with | .emitted b d => if b = a then some d else none | _ => none

/-- The messages attempt `a` passed on to its stream, in order. -/
def passedOn (a : Nat) (t : List Obs) : List Bytes :=
  t.filterMap fun o => match o with | .recv b d => if b = a then some d else none | _ => none

/-- An attempt is running: it was started and has neither ended nor been cancelled. -/
def Running (t : List Obs) (a s : Nat) : Prop := ∃ k, (view t).owner a = some (s, k) ∧ (view t).over a = false

/-- The key of a stream: method and argument of the subscriptions that returned it. -/
def HasKey (t : List Obs) (s : Nat) (m : String) (arg : Bytes) : Prop := ∃ h, Obs.subscribed m arg h s ∈ t

/-- The stream was returned by a subscription and has not finished. -/
def Open (t : List Obs) (s : Nat) : Prop := (∃ m arg h, Obs.subscribed m arg h s ∈ t) ∧ Obs.finished s ∉ t

/-- A history of a fresh client and what is observed in it. -/
def Observed (es : List Ev) (t : List Obs) : Prop := ∃ th c, (Client.new th).run es = some (c, t)

end QtPb.Stream.Spec
