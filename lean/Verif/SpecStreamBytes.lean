import Verif.StreamBytes
import Verif.SpecStream
/-
Specification of overlapping streams over HTTP/2, in terms of what is observed only.
-/
namespace QtPb.StreamBytes.Spec
open Stream Stream.Spec

/-- The observations without the bytes. -/
def obsOf (t : List Seen) : List Obs := t.filterMap fun | .obs o => some o | _ => none

/-- The pieces that were read from the network reply of an attempt, in order. -/
def readFrom (a : Nat) (t : List Seen) : List Bytes := t.filterMap fun | .read b d => if b = a then some d else none | _ => none

/-- Two network replies that are in use at the same time have different addresses: when an attempt is started, other attempts with the same entry are over. -/
def Apart (entry : Nat → Nat) (t : List Seen) : Prop :=
  ∀ pre post b s k, t = pre ++ .obs (.started b s k) :: post → ∀ a, a ≠ b → entry a = entry b → (∃ s k, Obs.started a s k ∈ obsOf pre) → (view (obsOf pre)).over a = true

/-- The address of the network reply of an attempt is new, or was that of replies that have ended, or from which nothing was read. (That of a reply that was aborted is not
allowed here.) -/
def Unsoiled (entry : Nat → Nat) (t : List Seen) (a : Nat) : Prop :=
  ∀ pre post s k, t = pre ++ .obs (.started a s k) :: post → ∀ b, b ≠ a → entry b = entry a → readFrom b pre ≠ [] → Obs.closed b ∈ obsOf pre

/-- The data a handler was called with, in order. -/
def heard (h : Nat) (t : List Obs) : List Bytes := t.filterMap fun | .handled _ g d => if g = h then some d else none | _ => none

/-- The messages in `part` that were passed on for the stream `s`, by any of its attempts, in order; `t` is the whole history, from which it is known which attempt is whose. -/
def passedTo (s : Nat) (t part : List Obs) : List Bytes := part.filterMap fun
  | .recv a d => if ((view t).owner a).map (·.1) = some s then some d else none
  | _ => none

end QtPb.StreamBytes.Spec
