import Verif.Native
/-
Specification for calls over the native channel (C70) and for waiting calls (C71).
-/
namespace QtPb.Native
open Http2

/-- The answer as the user should see it: the code, and the bytes of all slices, in order, if the call succeeded. -/
inductive Means : Answer → StatusCode → Bytes → Prop
  | failed {a : Answer} : a.code ≠ 0 → Means a a.code []
  | unreadable {a : Answer} {c : StatusCode} : a.code = 0 → a.dump = .error c → Means a c []
  | good {a : Answer} {slices : List Bytes} : a.code = 0 → a.dump = .ok slices → Means a 0 slices.flatten

/-- The event is not an abort by the user and not the end of the reply. -/
def Undisturbed (es : List Ev) : Prop := Ev.abort ∉ es ∧ Ev.destroyReply ∉ es

/-- In a history the thread begins, then gets answer `a` (its first), which is then delivered. -/
def Answered (a : Answer) (es : List Ev) : Prop :=
  ∃ p1 p2 p3 p4, es = p1 ++ .threadBegin :: p2 ++ .threadEnd a :: p3 ++ .deliver :: p4 ∧ Ev.threadBegin ∉ p1 ∧
    ∀ b, Ev.threadEnd b ∉ p2

/-- The channel is not destroyed before the thread has begun its call. -/
def ChannelLives (es : List Ev) : Prop :=
  ∀ pre post, es = pre ++ .destroyChannel :: post → Ev.threadBegin ∈ pre

/-- The user does not use or destroy a reply that was destroyed. -/
def ReplyLives (es : List Ev) : Prop :=
  ∀ pre post, es = pre ++ .destroyReply :: post → Ev.abort ∉ post ∧ Ev.destroyReply ∉ post

end QtPb.Native
