import Verif.Objects
/-
Model of the generated property setters and change signals.
-/
namespace QtPb

/-- A data member of a generated message (templates.cpp:102-104): a plain value, a list or map of
shared pointers (here: of addresses), or a lazy pointer to a sub-message (address and contents). -/
inductive Slot
  | plain (v : Val)
  | ptrs (l : List Nat)
  | ptrMap (es : List (Scalar × Nat))
  | sub (p : Option (Nat × Obj))

/-- Argument of a setter: a value, a list or map of shared pointers, a message by reference, or a
pointer to a message (the setter used by QML; simplification: not null). -/
inductive Arg
  | plain (v : Val)
  | ptrs (l : List Nat)
  | ptrMap (es : List (Scalar × Nat))
  | copy (o : Obj)
  | take (addr : Nat) (o : Obj)

/-- A message object with the signals it has emitted (indices of the properties, oldest first).
`next` is the address of the next message created by a lazy pointer. -/
structure MsgState where
  slots : List Slot
  next : Nat
  log : List Nat

/-- C++ `==` on the types of plain members. -/
def plainEq (ty : FieldTy) (a b : Val) : Bool :=
  match ty, a, b with
  | .scalar k, .sc x, .sc y => scalarEq k x y
  | .list k, .scList x, .scList y => scalarListEq k x y
  | .enum, .enum x, .enum y => x == y
  | .enumList, .enumList x, .enumList y => x == y
  | .map kk (.scalar vk), .map x, .map y => mapScalarEq kk vk x y
  | .map kk .enum, .map x, .map y => mapEnumEq kk x y
  | _, _, _ => false

/-- `QMap<K, QSharedPointer<T>>::operator==`: same size, equivalent keys and equal pointers. -/
def ptrMapEq (kk : Kind) : List (Scalar × Nat) → List (Scalar × Nat) → Bool
  | [], [] => true
  | (ka, pa) :: as, (kb, pb) :: bs =>
    !keyLt kk ka kb && !keyLt kk kb ka && pa == pb && ptrMapEq kk as bs
  | _, _ => false

/-- Store a new member and emit the change signal. -/
def MsgState.change (s : MsgState) (i : Nat) (v : Slot) : MsgState :=
  { s with slots := s.slots.set i v, log := s.log ++ [i] }

/-- Setter of property `i` (`SetterTemplate` templates.cpp:230-235, `...ComplexType` 223-228,
`...MessageType` 215-220, `SetterPrivateTemplateDefinitionMessageType` 207-212). `*m_x` and
`m_x.get()` create an unset sub-message (qprotobuflazymessagepointer.h:47-52, 61-66). `n` bounds
comparison and assignment of sub-messages. A sub-message created by `get()` in the pointer setter has
a new address, which differs from the argument. Arguments of the wrong type do not compile; here they do
nothing. -/
def setProperty (env : Env) (n : Nat) (fs : List Field) (s : MsgState) (i : Nat) (arg : Arg) :
    Res MsgState :=
  match fs[i]?, s.slots[i]?, arg with
  | some f, some (.plain cur), .plain new =>
    .ok (if plainEq f.ty cur new then s else s.change i (.plain new))
  | some _, some (.ptrs cur), .ptrs new => .ok (if cur == new then s else s.change i (.ptrs new))
  | some ⟨_, .map kk _⟩, some (.ptrMap cur), .ptrMap new =>
    .ok (if ptrMapEq kk cur new then s else s.change i (.ptrMap new))
  | some ⟨_, .msg m⟩, some (.sub cur), .copy o => do
    let c := cur.getD (s.next, defaultObj env m)
    let s := { s with slots := s.slots.set i (.sub (some c)), next := if cur.isNone then s.next + 1 else s.next }
    let differ ← objNe env n m c.2 o
    if differ then
      let o' ← assign env n m c.2 o
      .ok (s.change i (.sub (some (c.1, o'))))
    else .ok s
  | some ⟨_, .msg _⟩, some (.sub cur), .take a o =>
    .ok (if cur.map (·.1) == some a then s else s.change i (.sub (some (a, o))))
  | _, _, _ => .ok s

/-- A history of setter calls. -/
def runSetters (env : Env) (n : Nat) (fs : List Field) : MsgState → List (Nat × Arg) → Res MsgState
  | s, [] => .ok s
  | s, (i, a) :: ops => do
    let s' ← setProperty env n fs s i a
    runSetters env n fs s' ops

end QtPb
