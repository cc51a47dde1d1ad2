import Verif.ChatServer
/-
Specification of the chat: what the subscribers should be shown, in terms of what is observed.
-/
namespace QtPb.ChatServer.Spec

/-- The chat: the messages that were taken, in order. -/
def chat (t : List Obs) : List Msg := t.filterMap fun | .added m => some m | _ => none

/-- The lists that were written to a stream, in order. -/
def shownTo (k : Nat) (t : List Obs) : List (List Msg) := t.filterMap fun | .shown j ms => if j = k then some ms else none | _ => none

/-- The chat after each further message. -/
def growing (chat : List Msg) : List Msg → List (List Msg)
  | [] => []
  | m :: ms => (chat ++ [m]) :: growing (chat ++ [m]) ms

/-- What a call says about the caller: the last value for a key, if there is one. -/
def says (key : Bytes) (metadata : List Entry) : Option Bytes := ((metadata.filter fun e => e.key = key).getLast?).map (·.value)

/-- A user of the chat, with the hash of the password. -/
def IsUser (name hash : Bytes) : Prop := (name, hash) ∈ users

/-- All values can be read: a NUL follows somewhere. -/
def Readable (metadata : List Entry) : Prop := ∀ e ∈ metadata, e.behind.isSome

/-- The caller gives a name of five bytes and a hash of 32 bytes. -/
def Gives (metadata : List Entry) (name hash : Bytes) : Prop :=
  says userName metadata = some name ∧ says userPassword metadata = some hash ∧ name.length = 5 ∧ hash.length = 32 ∧ 0 ∉ name ∧ 0 ∉ hash

end QtPb.ChatServer.Spec
