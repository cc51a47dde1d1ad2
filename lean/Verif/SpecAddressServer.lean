import Verif.AddressServer
import Verif.Md5
import Verif.Credentials
/-
Specification of the address book: what those who listen should be shown, in terms of what is observed, and the headers of the client of the example.
-/
namespace QtPb.AddressServer.Spec

/-- The caller gives the name of the authorized user and the hash of the password. -/
def Authorized (md : Metadata) : Prop := (userName, authorizedUser) ∈ md ∧ (userPassword, passwordHash) ∈ md

instance (md : Metadata) : Decidable (Authorized md) := by unfold Authorized; infer_instance

/-- The contacts that were added, in order. -/
def additions (t : List Obs) : List Contact := t.filterMap fun | .added c _ => some c | _ => none

/-- The lists that were written to a stream of contacts, in order. -/
def shownTo (k : Nat) (t : List Obs) : List (List Contact) := t.filterMap fun | .shown j cs => if j = k then some cs else none | _ => none

/-- The statuses that were written to a stream of the status, in order. -/
def toldTo (k : Nat) (t : List Obs) : List Status := t.filterMap fun | .told j st => if j = k then some st else none | _ => none

/-- The list of contacts after each call of `addContact` or `removeContact` that comes to it. -/
def lists (cs : List Contact) : List Obs → List (List Contact)
  | [] => []
  | .added c _ :: t => (cs ++ [c]) :: lists (cs ++ [c]) t
  | .notRemoved :: t => cs :: lists cs t
  | _ :: t => lists cs t

/-- The status of the call after each change of it: a call is answered as active, it is ended, and it is over. -/
def statuses (st : Status) : List Obs → List Status
  | [] => []
  | .called reply :: t => if reply.status = .active then reply :: statuses reply t else statuses st t
  | .hungUp :: t => { st with status := .ended } :: statuses { st with status := .ended } t
  | .hangingDone :: t => { st with status := .inactive } :: statuses { st with status := .inactive } t
  | _ :: t => statuses st t

/-- The status of the call after all changes. -/
def statusAfter (st : Status) (t : List Obs) : Status := (statuses st t).getLast?.getD st

/-- How often an event occurs. -/
def listens (es : List Ev) : Nat := (es.filter fun | .listen => true | _ => false).length
def callListens (es : List Ev) : Nat := (es.filter fun | .listenCalls => true | _ => false).length
def mains (es : List Ev) : Nat := (es.filter fun | .main => true | _ => false).length

/-- A call that comes too early: a change of the contacts before the main thread has made its first handler, or a call before it has made the second one. `n`: the number of steps of the main thread before. -/
def EarlyAt (n : Nat) (e : Ev) : Prop :=
  (n = 0 ∧ ((∃ c, e = .removeContact c) ∨ ∃ md c, e = .addContact md c ∧ Authorized md)) ∨ (n ≤ 1 ∧ ∃ p, e = .makeCall p)

/-- The credentials of the client of the example (examples/addressbook/addressbookengine.cpp:56-57): `"authorizedUser"` and the hash of the password, in the
headers `user-name` and `user-password` (src/grpc/qgrpcuserpasswordcredentials.h:32-33). -/
def engineCredentials (config : Nat) (password : Bytes) : Option Cred.Credentials :=
  Cred.combine (Cred.sslCredentials config) (Cred.userPassword [117, 115, 101, 114, 45, 110, 97, 109, 101] [117, 115, 101, 114, 45, 112, 97, 115, 115, 119, 111, 114, 100]
    (some [97, 117, 116, 104, 111, 114, 105, 122, 101, 100, 85, 115, 101, 114]) (some (Md5.md5Hex password)))

/-- `"test"`, the password of the example. -/
def test : Bytes := [116, 101, 115, 116]

end QtPb.AddressServer.Spec
