import Verif.Replies
/-
Specification for the life of replies and for the callbacks of generated methods (C68, C69): what a user
can do, what the user promises, and what the user is told.
-/
namespace QtPb.Replies
open Http2

/-- Reply `i` of a world. -/
def isReply (w : World) (i : Nat) (r : Reply) : Prop := w.replies[i]? = some r

/-- A user can only call methods of a client they have not destroyed, and can only copy, destroy or use
shared pointers they hold. -/
def CanDo (w : World) : Ev → Prop
  | .call _ => w.clientAlive = true
  | .copy i => ∃ r, isReply w i r ∧ 0 < r.user
  | .drop i => ∃ r, isReply w i r ∧ 0 < r.user
  | .read i => ∃ r, isReply w i r ∧ 0 < r.user
  | .abort i => ∃ r, isReply w i r ∧ 0 < r.user
  | .destroyClient => w.clientAlive = true
  | _ => True

/-- The client outlives the replies the user holds. -/
def ClientLast (w : World) (e : Ev) : Prop :=
  e = .destroyClient → ∀ i r, isReply w i r → r.user = 0

/-- The methods for QML are called on clients with a channel only. -/
def QmlNeedsChannel (w : World) (e : Ev) : Prop :=
  e = .call .qml → w.channel = true

/-- All events of a history satisfy a condition in the world in which they happen. -/
inductive Follows (P : World → Ev → Prop) : World → List Ev → Prop
  | nil (w : World) : Follows P w []
  | cons (w : World) (e : Ev) (es : List Ev) :
      P w e → (∀ w', step w e = .ok w' → Follows P w' es) → Follows P w (e :: es)

/-- The callbacks of call `i` that ran, in order. -/
def callbacksOf (i : Nat) : List Obs → List Obs
  | [] => []
  | .callback j d :: l => if j = i then .callback j d :: callbacksOf i l else callbacksOf i l
  | .errorCallback j c :: l => if j = i then .errorCallback j c :: callbacksOf i l else callbacksOf i l
  | .clientError _ :: l => callbacksOf i l

/-- The event is an answer, a failure or an abort of call `i`. -/
def signals (i : Nat) : Ev → Bool
  | .finish j _ _ => j = i
  | .fail j _ => j = i
  | .abort j => j = i
  | _ => false

/-- The event destroys the receiver of the callbacks of call `i`, or the client. -/
def ends (i : Nat) : Ev → Bool
  | .destroyContext j => j = i
  | .destroyClient => true
  | _ => false

end QtPb.Replies
