import Verif.Setters
import Verif.SpecEq
import Verif.SpecFields
/-
Specification of properties and their change signals.
-/
namespace QtPb.Spec

/-- What a reader of the property sees. An unset sub-message reads as a default one. -/
inductive Reading
  | value (v : Val)
  | pointers (l : List Nat)
  | pointerMap (es : List (Scalar × Nat))
  | message (o : Obj)

def reading (env : Env) : FieldTy → Slot → Reading
  | _, .plain v => .value v
  | _, .ptrs l => .pointers l
  | _, .ptrMap es => .pointerMap es
  | .msg m, .sub p => .message ((p.map (·.2)).getD (defaultObj env m))
  | _, .sub p => .message ((p.map (·.2)).getD [])

/-- The member has the type of its field. -/
inductive SlotOk (env : Env) : FieldTy → Slot → Prop
  | plain {ty : FieldTy} {v : Val} : (∀ m, ty ≠ .msg m) → (∀ m, ty ≠ .msgList m) →
      (∀ kk m, ty ≠ .map kk (.msg m)) → Safe env ty v → SlotOk env ty (.plain v)
  | ptrs {m : Nat} (l : List Nat) : SlotOk env (.msgList m) (.ptrs l)
  | ptrMap {kk : Kind} {m : Nat} {es : List (Scalar × Nat)} : mapKey kk → (∀ e ∈ es, kk.holds e.1) →
      SlotOk env (.map kk (.msg m)) (.ptrMap es)
  | unset {m : Nat} : SlotOk env (.msg m) (.sub none)
  | sub {m : Nat} {a : Nat} {o : Obj} : Safe env (.msg m) (.msg o) → SlotOk env (.msg m) (.sub (some (a, o)))

/-- The argument has the type of the property. -/
inductive ArgOk (env : Env) : FieldTy → Arg → Prop
  | plain {ty : FieldTy} {v : Val} : (∀ m, ty ≠ .msg m) → (∀ m, ty ≠ .msgList m) →
      (∀ kk m, ty ≠ .map kk (.msg m)) → Safe env ty v → ArgOk env ty (.plain v)
  | ptrs {m : Nat} (l : List Nat) : ArgOk env (.msgList m) (.ptrs l)
  | ptrMap {kk : Kind} {m : Nat} {es : List (Scalar × Nat)} : (∀ e ∈ es, kk.holds e.1) →
      ArgOk env (.map kk (.msg m)) (.ptrMap es)
  | copy {m : Nat} {o : Obj} : Safe env (.msg m) (.msg o) → ArgOk env (.msg m) (.copy o)
  | take {m : Nat} {o : Obj} (a : Nat) : Safe env (.msg m) (.msg o) → ArgOk env (.msg m) (.take a o)

/-- The property already has the value that is written: the same value in the sense of `Same`, the same
pointers, or the same object. -/
def already (env : Env) : FieldTy → Slot → Arg → Prop
  | ty, .plain v, .plain w => Same env ty v w
  | _, .ptrs l, .ptrs l' => l = l'
  | _, .ptrMap es, .ptrMap es' =>
      es.length = es'.length ∧ ∀ (i : Nat) (x y : Scalar × Nat), es[i]? = some x → es'[i]? = some y →
        sameKey x.1 y.1 = true ∧ x.2 = y.2
  | .msg m, .sub p, .copy o =>
      Same env (.msg m) (.msg ((p.map (·.2)).getD (defaultObj env m))) (.msg o)
  | _, .sub p, .take a _ => p.map (·.1) = some a
  | _, _, _ => False

/-- The property holds what was written: exactly, or a copy of the message. -/
def exactly (env : Env) : FieldTy → Slot → Arg → Prop
  | _, .plain v, .plain w => v = w
  | _, .ptrs l, .ptrs l' => l = l'
  | _, .ptrMap es, .ptrMap es' => es = es'
  | .msg m, .sub (some p), .copy o => Mirrors env (.msg m) (.msg p.2) (.msg o)
  | _, .sub p, .take a o => p = some (a, o)
  | _, _, _ => False

/-- The last value written to property `i`. -/
def lastWrite (i : Nat) (ops : List (Nat × Arg)) : Option Arg :=
  (ops.reverse.find? fun op => op.1 == i).map (·.2)

/-- All members have the types of their fields. -/
def SlotsOk (env : Env) (fs : List Field) (slots : List Slot) : Prop :=
  slots.length = fs.length ∧ ∀ (i : Nat) (f : Field) (sl : Slot), fs[i]? = some f →
    slots[i]? = some sl → SlotOk env f.ty sl

/-- `History env fs a ops b signals`: writing the properties as listed in `ops` leads from members `a`
to members `b` and emits `signals`. Writing what the property already has emits nothing and leaves what
readers see; writing something else stores it and emits the signal of that property, once. -/
inductive History (env : Env) (fs : List Field) :
    List Slot → List (Nat × Arg) → List Slot → List Nat → Prop
  | nil (a : List Slot) : History env fs a [] a []
  | quiet {a b : List Slot} {i : Nat} {f : Field} {cur new : Slot} {arg : Arg} {ops : List (Nat × Arg)}
      {signals : List Nat} : fs[i]? = some f → a[i]? = some cur → already env f.ty cur arg →
      reading env f.ty new = reading env f.ty cur → History env fs (a.set i new) ops b signals →
      History env fs a ((i, arg) :: ops) b signals
  | loud {a b : List Slot} {i : Nat} {f : Field} {cur new : Slot} {arg : Arg} {ops : List (Nat × Arg)}
      {signals : List Nat} : fs[i]? = some f → a[i]? = some cur → ¬ already env f.ty cur arg →
      exactly env f.ty new arg → History env fs (a.set i new) ops b signals →
      History env fs a ((i, arg) :: ops) b (i :: signals)

end QtPb.Spec
