import Verif.Basic
/-
Model of the server of the address book example (examples/addressbookserver/main.cpp): the contacts, the status of the call, who may change the contacts, and what is written to those
who listen.

The main thread accepts streams one after the other. The functions of the service run in threads of grpc++, at any time after the server was started. Simplifications: a call of a
function is one step, `endCall` two, as it sleeps in between (there is no lock; two that overlap otherwise are a data race); grpc++ is represented by what is written to which
stream; the server is not shut down; output to the console is left out. A handler and the writer in it are numbers, in the order in which they are made; they are never deleted.
-/
namespace QtPb.AddressServer

/-- `PhoneNumber` (examples/addressbook/proto/addressbook.proto:30-33). -/
structure Phone where
  countryCode : Nat
  number : Nat
deriving DecidableEq

/-- `Address` (addressbook.proto:35-41). -/
structure Address where
  zipCode : Nat
  streetAddress1 : String
  streetAddress2 : String
  state : String
  country : Nat
deriving DecidableEq

/-- `Job` (addressbook.proto:43-46). -/
structure Job where
  title : String
  officeAddress : Option Address
deriving DecidableEq

/-- `Contact` (addressbook.proto:48-62). -/
structure Contact where
  firstName : String
  lastName : String
  middleName : String
  phones : List Phone
  address : Option Address
  job : Option Job
deriving DecidableEq

/-- `CallStatus.Status` (addressbook.proto:69-74). -/
inductive State
  | invalid
  | inactive
  | active
  | ended
deriving DecidableEq

/-- `CallStatus` (addressbook.proto:68-78). -/
structure Status where
  status : State
  phone : Option Phone
deriving DecidableEq

/-- A contact with nothing but a name (main.cpp:23-37). -/
def named (first last : String) : Contact := ⟨first, last, "", [], none, none⟩

/-- The contacts the service starts with (main.cpp:23-43). -/
def initial : List Contact :=
  [named "John" "Doe", named "Jane" "Doe", named "John" "McClane", named "Alexey" "Edelev",
    { named "Ebenezer" "Scrooge" with job := some ⟨"Job title", none⟩, phones := [⟨49, 12324534679⟩] }]

/-- The status of the call the service starts with (main.cpp:45-46). -/
def quiet : Status := ⟨.inactive, some ⟨0, 0⟩⟩

/-- What the main thread does next: it makes the first handlers (main.cpp:198, 199), waits for a stream (main.cpp:203), or makes the next handler for contacts (main.cpp:210) or for the
status of the call (main.cpp:215). -/
inductive Pc
  | first
  | second
  | next
  | contacts
  | calls
deriving DecidableEq

/-- The service and the main thread: `m_contacts`, `m_lastCallStatus`, how many calls of `endCall` sleep, and how many writers there are in `m_clients` and `m_callClients`. -/
structure Server where
  contacts : List Contact
  status : Status
  sleeping : Nat
  clients : Nat
  callClients : Nat
  pc : Pc
deriving DecidableEq

/-- The server has been started (main.cpp:196) and no handler is made yet. -/
def Server.started : Server := ⟨initial, quiet, 0, 0, 0, .first⟩

/-- An entry of `client_metadata()`: a name and a value. -/
abbrev Metadata := List (Bytes × Bytes)

/-- `"user-name"` and `"authorizedUser"` (main.cpp:65). -/
def userName : Bytes := [117, 115, 101, 114, 45, 110, 97, 109, 101]
def authorizedUser : Bytes := [97, 117, 116, 104, 111, 114, 105, 122, 101, 100, 85, 115, 101, 114]

/-- `"user-password"` and the hash of the password (main.cpp:68). -/
def userPassword : Bytes := [117, 115, 101, 114, 45, 112, 97, 115, 115, 119, 111, 114, 100]
def passwordHash : Bytes := [48, 57, 56, 102, 54, 98, 99, 100, 52, 54, 50, 49, 100, 51, 55, 51, 99, 97, 100, 101, 52, 101, 56, 51, 50, 54, 50, 55, 98, 52, 102, 54]

inductive Ev
  /-- The main thread makes the handler it has to make. -/
  | main
  /-- A client calls `contacts`, and the main thread gets the tag of the last handler for contacts. -/
  | listen
  /-- A client calls `callStatus`, and the main thread gets the tag of the last handler for the status. -/
  | listenCalls
  /-- The functions of the service are called. -/
  | addContact (metadata : Metadata) (c : Contact)
  | removeContact (c : Contact)
  | navigateTo (a : Address)
  | makeCall (p : Phone)
  | endCall
  /-- A call of `endCall` has slept for a second. -/
  | wake

inductive Obs
  /-- The server takes the stream of contacts, or of the status, with this number. -/
  | opened (k : Nat)
  | openedCalls (k : Nat)
  /-- A list of contacts, or a status, is written to a stream. -/
  | shown (k : Nat) (cs : List Contact)
  | told (k : Nat) (st : Status)
  /-- `addContact` stores a contact; the caller gets this list. -/
  | added (c : Contact) (reply : List Contact)
  /-- The caller of `addContact` gets `UNAUTHENTICATED`. -/
  | refused
  /-- The caller of `removeContact`, or of `navigateTo`, gets `UNIMPLEMENTED`. -/
  | notRemoved
  | notNavigated
  /-- The caller of `makeCall` gets this status. -/
  | called (reply : Status)
  /-- `endCall` finds no active call; the caller gets OK. -/
  | noCall
  /-- `endCall` has ended the call. -/
  | hungUp
  /-- `endCall` has slept, and the caller gets OK. -/
  | hangingDone
deriving DecidableEq

/-- The loop over the metadata (main.cpp:62-72), with the values of the two variables so far. -/
def checkLoop : Metadata → Bool × Bool → Bool × Bool
  | [], ok => ok
  | (key, value) :: md, (user, password) =>
    checkLoop md (if key = userName ∧ value = authorizedUser then true else user,
      if key = userPassword ∧ value = passwordHash then true else password)

/-- The indices of a loop `for (unsigned int i = 0; i < (v.size() - 1); i++)` (main.cpp:52, 89, 107, 115): all but the last. Without any element `size() - 1` is a huge number and the
loop reads beyond the vector. -/
def butLast (size : Nat) : Res (List Nat) := if size = 0 then .ub else .ok (List.range (size - 1))

/-- `updateContacts` (main.cpp:51-55). -/
def updateContacts (s : Server) : Res (List Obs) := (butLast s.clients).bind fun is => .ok (is.map fun k => .shown k s.contacts)

/-- The loop of `makeCall` (main.cpp:89-95), with `response` and `m_lastCallStatus` so far. -/
def callLoop (p : Phone) : List Nat → Status × Status → List Obs → Status × Status × List Obs
  | [], (response, last), out => (response, last, out)
  | k :: is, _, out =>
    let response : Status := ⟨.active, some p⟩
    callLoop p is (response, response) (out ++ [.told k response])

/-- A loop of `endCall` (main.cpp:107-109, 115-117). -/
def tellAll (s : Server) : Res (List Obs) := (butLast s.callClients).bind fun is => .ok (is.map fun k => .told k s.status)

/-- The values of the tags (main.cpp:137, 153). -/
def contactsTag : UInt32 := 0xdeadbeef
def callsTag : UInt32 := 0xdeadbeee

/-- The body of the loop of the main thread after `Next` (main.cpp:204-216), up to the next handler. The two conditions exclude each other. -/
def dispatch (s : Server) (tag : UInt32) : Server × List Obs :=
  if tag = 0xdeadbeef then ({ s with pc := .contacts }, [.shown (s.clients - 1) s.contacts])
  else if tag = 0xdeadbeee then ({ s with pc := .calls }, [.told (s.callClients - 1) s.status])
  else (s, [])

/-- The constructor of `ContactsHandler` (main.cpp:137-143), with `registerWriter` (main.cpp:167-169). -/
def contactsHandler (s : Server) (pc : Pc) : Server × List Obs := ({ s with clients := s.clients + 1, pc := pc }, [.opened s.clients])

/-- The constructor of `CallHandler` (main.cpp:153-159), with `registerCallStatusHandler` (main.cpp:171-173). -/
def callHandler (s : Server) (pc : Pc) : Server × List Obs := ({ s with callClients := s.callClients + 1, pc := pc }, [.openedCalls s.callClients])

/-- One event. `main`, `listen`, `listenCalls`: `main` (main.cpp:198-217); a stream that comes before the main thread waits is taken later, by another event. `addContact`: main.cpp:60-84.
`makeCall`: main.cpp:86-97. `endCall`, `wake`: main.cpp:99-119. `removeContact`, `navigateTo`: main.cpp:121-132. -/
def step (s : Server) : Ev → Res (Server × List Obs)
  | .main =>
    match s.pc with
    | .first => .ok (contactsHandler s .second)
    | .second => .ok (callHandler s .next)
    | .next => .ok (s, [])
    | .contacts => .ok (contactsHandler s .next)
    | .calls => .ok (callHandler s .next)
  | .listen => if s.pc = .next then .ok (dispatch s contactsTag) else .ok (s, [])
  | .listenCalls => if s.pc = .next then .ok (dispatch s callsTag) else .ok (s, [])
  | .addContact md c =>
    let ok := checkLoop md (false, false)
    if ¬ ok.1 ∨ ¬ ok.2 then .ok (s, [.refused])
    else
      let s : Server := { s with contacts := s.contacts ++ [c] }
      (updateContacts s).bind fun os => .ok (s, .added c s.contacts :: os)
  | .removeContact _ => (updateContacts s).bind fun os => .ok (s, .notRemoved :: os)
  | .navigateTo _ => .ok (s, [.notNavigated])
  | .makeCall p =>
    (butLast s.callClients).bind fun is =>
      let r := callLoop p is (⟨.invalid, none⟩, s.status) []
      .ok ({ s with status := r.2.1 }, .called r.1 :: r.2.2)
  | .endCall =>
    if s.status.status ≠ .active then .ok (s, [.noCall])
    else
      let s : Server := { s with status := { s.status with status := .ended }, sleeping := s.sleeping + 1 }
      (tellAll s).bind fun os => .ok (s, .hungUp :: os)
  | .wake =>
    if s.sleeping = 0 then .ok (s, [])
    else
      let s : Server := { s with status := { s.status with status := .inactive }, sleeping := s.sleeping - 1 }
      (tellAll s).bind fun os => .ok (s, .hangingDone :: os)

/-- A history. -/
def run (s : Server) : List Ev → Res (Server × List Obs)
  | [] => .ok (s, [])
  | e :: es => (step s e).bind fun r => (run r.1 es).bind fun q => .ok (q.1, r.2 ++ q.2)

end QtPb.AddressServer
