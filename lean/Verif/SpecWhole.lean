import Verif.Whole
import Verif.SpecWire
import Verif.SpecEndToEnd
import Verif.SpecDefs
/-
Specification for C106: what a program that uses generated classes and clients sees. Properties are those that moc finds in the generated header (`Verif/Meta.lean`).
-/
namespace QtPb.Whole.Spec
open QtPb.Spec QtPb.Gen.Text QtPb.Gen.Text.Spec

/-- The value that was written last to a property. -/
def lastTo (index : Nat) (ws : List (Nat × FieldTy × Val)) : Option Val := (ws.reverse.find? (·.1 == index)).map (·.2.2)

/-- Every write of the list is one to a property of the class, with a value of its type. (The property 0 is `objectName`.) -/
def Writable (env : Env) (m : Nat) (ws : List (Nat × FieldTy × Val)) : Prop :=
  ∀ w ∈ ws, ∃ (i : Nat) (g : QtPb.Field), w.1 = i + 1 ∧ (env.sch m)[i]? = some g ∧ w.2.1 = g.ty ∧ Clean env g.ty w.2.2

/-- The properties of an object of a generated class have the values of the fields of a message. -/
def Shows (env : Env) (classes : Nat → Meta.Class) (lib : SpecCpp.Lib) (m : Nat) (obj msg : Obj) : Prop :=
  ∀ (i : Nat) (g : QtPb.Field), (env.sch m)[i]? = some g → ∃ p x y, (classes m).property (i + 1) = some p ∧ (classes m).read lib p obj = .ok (g.ty, x) ∧
    msg[i]? = some y ∧ Same env g.ty x y

/-- The full name of a service, with its package. -/
def fullService (c : Ctx) (s : ServiceText) : String := String.ofList ((text! ".").intercalate (c.package ++ [s.name]))

/-- The path of a method: the full name of the service and the name of the method. -/
def pathOf (c : Ctx) (s : ServiceText) (d : MethodD) : String := "/" ++ fullService c s ++ "/" ++ String.ofList d.name

/-- The parameters of a function that takes an argument of one class and an object of another for the reply. -/
def replyParams (A R : List SpecCpp.Text) : List (List SpecCpp.Lexeme × SpecCpp.Text) :=
  let I := SpecCpp.qualified A
  let O := SpecCpp.qualified R
  [(cpp! "const @I@ &", text! "arg"), (cpp! "const QPointer<@O@> &", text! "ret")]

end QtPb.Whole.Spec
