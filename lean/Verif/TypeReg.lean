import Verif.Basic
/-
Model of the registration of generated types: `registerFunctions()` and `qRegisterProtobufTypes()`
(src/protobuf/qtprotobuf.cpp:57-103) and `ProtoTypeRegistrar` (src/protobuf/qtprotobuftypes.h:270-276).

Registration functions are numbered. What a function does is a list of actions: most do something else
(`other`), but a function may call `qRegisterProtobufTypes()` again or append another function to the
list. The registration of the built-in types (lines 68-98) is one log entry. `Res.fuel` stands for a
call that has not returned yet.
-/
namespace QtPb.TypeReg

/-- What a registration function can do to the state modelled here. -/
inductive Act
  | other
  | callAgain
  | append (f : Nat)

/-- What has run. -/
inductive Entry
  | builtin
  | fn (f : Nat)
deriving DecidableEq

/-- `registrationList` (line 58), the static `registred` (line 63) and what has run so far. -/
structure State where
  functions : List Nat
  registred : Bool
  log : List Entry

/-- Constructor of `ProtoTypeRegistrar` (qtprotobuftypes.h:273-275): `push_back`. -/
def append (s : State) (f : Nat) : State := { s with functions := s.functions ++ [f] }

/-- Execute the body of a registration function. -/
def runBody (call : State → Res State) : List Act → State → Res State
  | [], s => .ok s
  | .other :: as, s => runBody call as s
  | .callAgain :: as, s => (call s).bind (runBody call as)
  | .append f :: as, s => runBody call as (append s f)

/-- The loop over the list (lines 100-102), now at position `i`. A `std::list` may grow at its end while
it is iterated. -/
def loop (body : Nat → List Act) (call : State → Res State) : Nat → Nat → State → Res State
  | 0, _, _ => .fuel
  | n + 1, i, s => match s.functions[i]? with
    | none => .ok s
    | some f =>
      (runBody call (body f) { s with log := s.log ++ [.fn f] }).bind (loop body call n (i + 1))

/-- `qRegisterProtobufTypes()` (lines 62-103). -/
def qRegister (body : Nat → List Act) : Nat → State → Res State
  | 0, _ => .fuel
  | n + 1, s =>
    if s.registred then .ok s
    else loop body (qRegister body n) n 0 { s with registred := true, log := s.log ++ [.builtin] }

/-- Before `main`: nothing registered. -/
def start : State := ⟨[], false, []⟩

/-- What a program does. -/
inductive Ev
  | append (f : Nat)
  | call

/-- Execute a program. -/
def run (body : Nat → List Act) (n : Nat) : List Ev → State → Res State
  | [], s => .ok s
  | .append f :: es, s => run body n es (append s f)
  | .call :: es, s => (qRegister body n s).bind (run body n es)

/-! ### Two threads

The check and the assignment of the static `registred` (lines 64-67) are separate steps. -/

/-- Where a thread is. -/
inductive Pc
  | idle
  /-- before `if (registred)` -/
  | check
  /-- before `registred = true` -/
  | set
  /-- in the loop, before the function at position `i` -/
  | running (i : Nat)
  | returned

/-- Threads, the flag, the list of functions and the log. -/
structure Threads where
  pcs : List Pc
  registred : Bool
  functions : List Nat
  log : List Entry

/-- Thread `i` takes a step. -/
inductive Step (i : Nat) : Threads → Threads → Prop
  | call {s : Threads} : s.pcs[i]? = some .idle → Step i s { s with pcs := s.pcs.set i .check }
  | known {s : Threads} : s.pcs[i]? = some .check → s.registred = true →
      Step i s { s with pcs := s.pcs.set i .returned }
  | unknown {s : Threads} : s.pcs[i]? = some .check → s.registred = false →
      Step i s { s with pcs := s.pcs.set i .set }
  | set {s : Threads} : s.pcs[i]? = some .set →
      Step i s { s with pcs := s.pcs.set i (.running 0), registred := true }
  | run {s : Threads} {k f : Nat} : s.pcs[i]? = some (.running k) → s.functions[k]? = some f →
      Step i s { s with pcs := s.pcs.set i (.running (k + 1)), log := s.log ++ [.fn f] }
  | done {s : Threads} {k : Nat} : s.pcs[i]? = some (.running k) → s.functions[k]? = none →
      Step i s { s with pcs := s.pcs.set i .returned }

/-- `n` threads after static initialisation. -/
def init (n : Nat) (functions : List Nat) : Threads := ⟨List.replicate n .idle, false, functions, []⟩

/-- Reachable states. -/
inductive Reachable (n : Nat) (functions : List Nat) : Threads → Prop
  | init : Reachable n functions (init n functions)
  | step {s s' : Threads} {i : Nat} : Reachable n functions s → Step i s s' → Reachable n functions s'

end QtPb.TypeReg
