import Verif.ChatEngine
import Verif.SpecChatServer
/-
Specification of the client of the chat example, in terms of what it is asked to do and of what is observed.
-/
namespace QtPb.ChatEngine.Spec

/-- The accounts of the logins, in order. -/
def logins (es : List Ev) : List Account := es.filterMap fun | .login a => some a | _ => none

/-- The name and the list that were shown last, at first nothing. -/
def shown (t : List Obs) : Bytes × Bytes := ((t.filterMap fun | .showing _ name list => some (name, list) | _ => none).getLast?).getD ([], [])

/-- Nobody logs in while a request for a stream that failed is still to be repeated. -/
def Calm (es : List Ev) : Prop := ∀ pre account post e t, es = pre ++ .login account :: post → Engine.new.run pre = .ok (e, t) → e.client.timers = []

/-- What is observed when a list arrives under this name while that one is shown. -/
def display (before : Bytes) (attempt : Nat) (name list : Bytes) : List Obs := (if before ≠ name then [.loggedIn name] else []) ++ [.showing attempt name list]

/-- A history in which nobody logs in, and requests only end because the connection was lost. -/
def Undisturbed (es : List Ev) : Prop := ∀ v ∈ es, (∀ account, v ≠ .login account) ∧ ∀ a cause, v = .net a (.close cause) → cause = .remoteHostClosed

/-- The server gets the headers of a request of this account; any readable memory is behind the values. -/
def Sends (config : Nat) (account : Account) (metadata : List ChatServer.Entry) : Prop :=
  ∃ c, credentials config account = some c ∧ (metadata.map fun e => (e.key, e.value)) = (Cred.post c).1 ∧ ChatServer.Spec.Readable metadata

/-- `"qwerty"`, the password of the users of the example. -/
def qwerty : Bytes := [113, 119, 101, 114, 116, 121]

end QtPb.ChatEngine.Spec
