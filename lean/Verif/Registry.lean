/-
Model of the registry of serialization handlers,
`HandlersRegistry` in src/protobuf/qabstractprotobufserializer.cpp:38-78, as a transition system: any
number of threads, each executing one statement at a time, in any interleaving.

Simplifications: handlers are an opaque type `H`; the construction of the singleton (`instance()`,
lines 69-72, a function local static, thread safe in C++11) has happened; a mutex grants exclusive
ownership and a semaphore hands out its permits all at once, in no particular order (Qt's
documentation of QMutex and QSemaphore). The two accesses to the `std::unordered_map` are not atomic:
they begin and end in separate steps, and while a write is under way the contents are torn.
-/
namespace QtPb.Registry

/-- `MaximumSimultaniousThreads` (qabstractprotobufserializer.cpp:38). -/
def maxThreads : Nat := 64

/-- An operation of the registry (lines 49 and 56). -/
inductive Op (H : Type)
  | reg (ty : Nat) (h : H)
  | look (ty : Nat)

/-- Where a thread is. In `registerHandler` (lines 49-54): -/
inductive Pc (H : Type)
  /-- outside -/
  | idle
  /-- before `QMutexLocker locker(&m_writeLock)` (line 50) -/
  | regLock (ty : Nat) (h : H)
  /-- before `m_readLock.acquire(MaximumSimultaniousThreads)` (line 52) -/
  | regAcquire (ty : Nat) (h : H)
  /-- before `m_registry[userType] = handlers` (line 53) -/
  | regWrite (ty : Nat) (h : H)
  /-- inside that assignment; the map had the given contents -/
  | regWriting (ty : Nat) (h : H) (old : Nat → Option H)
  /-- before the destructor of `releaser`, which releases all permits (line 51) -/
  | regRelease (ty : Nat) (h : H)
  /-- before the destructor of `locker` (line 50) -/
  | regUnlock (ty : Nat) (h : H)
  /-- registration finished, not yet returned -/
  | regReturn (ty : Nat) (h : H)
  /-- in `findHandler` (lines 56-67): before `QMutexLocker locker(&m_writeLock)` (line 58) -/
  | lookLock (ty : Nat)
  /-- before `m_readLock.acquire()` (line 60) -/
  | lookAcquire (ty : Nat)
  /-- before `locker.unlock()` (line 61) -/
  | lookUnlock (ty : Nat)
  /-- before `m_registry.find(userType)` (line 62) -/
  | lookRead (ty : Nat)
  /-- inside `find` and the copy of the handlers (lines 62-65) -/
  | lookReading (ty : Nat)
  /-- before the destructor of `releaser` (line 59) with the result to return, `none` for `empty` -/
  | lookRelease (ty : Nat) (r : Option H)
  /-- lookup finished, not yet returned -/
  | lookReturn (ty : Nat) (r : Option H)

/-- Contents of `m_registry`: a map, or torn while a write is under way. -/
inductive Store (H : Type)
  | whole (f : Nat → Option H)
  | torn

/-- What happened, for the specification: a thread invokes an operation, the operation takes effect,
and returns. A registration has no result (`none`). -/
inductive Ev (H : Type)
  | inv (i : Nat) (op : Op H)
  | effect (i : Nat) (op : Op H) (r : Option H)
  | ret (i : Nat) (op : Op H) (r : Option H)

/-- State of the registry (members, lines 74-76), of the threads, and the history, newest event first.
`broken` records undefined behaviour: an access to torn contents. -/
structure State (H : Type) where
  pcs : List (Pc H)
  mutex : Option Nat
  sem : Nat
  store : Store H
  broken : Bool
  trace : List (Ev H)

/-- Replace the program counter of thread `i`. -/
def State.goto {H : Type} (s : State H) (i : Nat) (pc : Pc H) : State H :=
  { s with pcs := s.pcs.set i pc }

/-- `m_registry[ty] = h`. -/
def assign {H : Type} (f : Nat → Option H) (ty : Nat) (h : H) : Nat → Option H :=
  fun t => if t = ty then some h else f t

/-- Thread `i` starts an operation. -/
inductive Call {H : Type} (i : Nat) : State H → State H → Prop
  | reg {s : State H} (ty : Nat) (h : H) : s.pcs[i]? = some .idle →
      Call i s { s.goto i (.regLock ty h) with trace := .inv i (.reg ty h) :: s.trace }
  | look {s : State H} (ty : Nat) : s.pcs[i]? = some .idle →
      Call i s { s.goto i (.lookLock ty) with trace := .inv i (.look ty) :: s.trace }

/-- Thread `i`, inside an operation, executes its next statement. -/
inductive Step {H : Type} (i : Nat) : State H → State H → Prop
  /-- line 50: needs the mutex -/
  | regLock {s : State H} {ty : Nat} {h : H} : s.pcs[i]? = some (.regLock ty h) → s.mutex = none →
      Step i s { s.goto i (.regAcquire ty h) with mutex := some i }
  /-- line 52: needs all permits -/
  | regAcquire {s : State H} {ty : Nat} {h : H} : s.pcs[i]? = some (.regAcquire ty h) →
      maxThreads ≤ s.sem →
      Step i s { s.goto i (.regWrite ty h) with sem := s.sem - maxThreads }
  /-- line 53, begin -/
  | regWrite {s : State H} {ty : Nat} {h : H} {f : Nat → Option H} :
      s.pcs[i]? = some (.regWrite ty h) → s.store = .whole f →
      Step i s { s.goto i (.regWriting ty h f) with store := .torn }
  /-- line 53, begin, while another thread is writing: undefined -/
  | regBroken {s : State H} {ty : Nat} {h : H} :
      s.pcs[i]? = some (.regWrite ty h) → s.store = .torn →
      Step i s { s.goto i (.regRelease ty h) with broken := true }
  /-- line 53, end -/
  | regWriting {s : State H} {ty : Nat} {h : H} {old : Nat → Option H} :
      s.pcs[i]? = some (.regWriting ty h old) →
      Step i s { s.goto i (.regRelease ty h) with
        store := .whole (assign old ty h)
        trace := .effect i (.reg ty h) none :: s.trace }
  /-- `~QSemaphoreReleaser` of line 51 -/
  | regRelease {s : State H} {ty : Nat} {h : H} : s.pcs[i]? = some (.regRelease ty h) →
      Step i s { s.goto i (.regUnlock ty h) with sem := s.sem + maxThreads }
  /-- `~QMutexLocker` of line 50 -/
  | regUnlock {s : State H} {ty : Nat} {h : H} : s.pcs[i]? = some (.regUnlock ty h) →
      Step i s { s.goto i (.regReturn ty h) with mutex := none }
  | regReturn {s : State H} {ty : Nat} {h : H} : s.pcs[i]? = some (.regReturn ty h) →
      Step i s { s.goto i .idle with trace := .ret i (.reg ty h) none :: s.trace }
  /-- line 58: needs the mutex -/
  | lookLock {s : State H} {ty : Nat} : s.pcs[i]? = some (.lookLock ty) → s.mutex = none →
      Step i s { s.goto i (.lookAcquire ty) with mutex := some i }
  /-- line 60: needs one permit -/
  | lookAcquire {s : State H} {ty : Nat} : s.pcs[i]? = some (.lookAcquire ty) → 1 ≤ s.sem →
      Step i s { s.goto i (.lookUnlock ty) with sem := s.sem - 1 }
  /-- line 61 -/
  | lookUnlock {s : State H} {ty : Nat} : s.pcs[i]? = some (.lookUnlock ty) →
      Step i s { s.goto i (.lookRead ty) with mutex := none }
  /-- line 62, begin -/
  | lookRead {s : State H} {ty : Nat} : s.pcs[i]? = some (.lookRead ty) →
      Step i s (s.goto i (.lookReading ty))
  /-- lines 62-65, end -/
  | lookReading {s : State H} {ty : Nat} {f : Nat → Option H} :
      s.pcs[i]? = some (.lookReading ty) → s.store = .whole f →
      Step i s { s.goto i (.lookRelease ty (f ty)) with
        trace := .effect i (.look ty) (f ty) :: s.trace }
  /-- lines 62-65 while another thread is writing: undefined -/
  | lookBroken {s : State H} {ty : Nat} :
      s.pcs[i]? = some (.lookReading ty) → s.store = .torn →
      Step i s { s.goto i (.lookRelease ty none) with broken := true }
  /-- `~QSemaphoreReleaser` of line 59 -/
  | lookRelease {s : State H} {ty : Nat} {r : Option H} : s.pcs[i]? = some (.lookRelease ty r) →
      Step i s { s.goto i (.lookReturn ty r) with sem := s.sem + 1 }
  | lookReturn {s : State H} {ty : Nat} {r : Option H} : s.pcs[i]? = some (.lookReturn ty r) →
      Step i s { s.goto i .idle with trace := .ret i (.look ty) r :: s.trace }

/-- The registry after construction (lines 45-47), with `n` threads that have not called it yet. -/
def start (H : Type) (n : Nat) : State H where
  pcs := List.replicate n .idle
  mutex := none
  sem := maxThreads
  store := .whole fun _ => none
  broken := false
  trace := []

/-- States reachable in some interleaving of `n` threads. -/
inductive Reachable (H : Type) (n : Nat) : State H → Prop
  | start : Reachable H n (start H n)
  | call {s s' : State H} {i : Nat} : Reachable H n s → Call i s s' → Reachable H n s'
  | step {s s' : State H} {i : Nat} : Reachable H n s → Step i s s' → Reachable H n s'

end QtPb.Registry
