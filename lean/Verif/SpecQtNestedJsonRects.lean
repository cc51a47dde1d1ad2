import Verif.SpecQtNestedJsonSafe
import Verif.SpecQtNestedBytes
/-
Specification for C126: rectangles in a text.
-/
namespace QtPb.Qt.NestedRectSpec
open QtPb QtPb.Spec QtPb.Json

/-- The text `data` of an object of class `c` has `body` as the value of a field of type `QRect`, in the object itself, in an object inside of it, or in an
element of a list inside of it. -/
inductive RectIn (env : REnv) (cls : Classes) (num : Nat → Nat) : Nat → Bytes → Bytes → Prop
  | here {c i : Nat} {data body name : Bytes} {t : JType} {ps : List (Bytes × JType × Bytes)} {f : DeepField} : env.objectOf data = .ok ps →
      (name, t, body) ∈ ps → env.fromUtf8 name = env.jsonName (num c) i → (cls.tab c)[i]? = some f → f.ty = .qt mRect → RectIn env cls num c data body
  | sub {c c' i : Nat} {data text body name : Bytes} {t : JType} {ps : List (Bytes × JType × Bytes)} {f : DeepField} : env.objectOf data = .ok ps →
      (name, t, text) ∈ ps → env.fromUtf8 name = env.jsonName (num c) i → (cls.tab c)[i]? = some f → f.ty = .sub c' →
      RectIn env cls num c' text body → RectIn env cls num c data body
  | subs {c c' i : Nat} {data text item body name : Bytes} {t u : JType} {ps : List (Bytes × JType × Bytes)} {es : List (JType × Bytes)} {f : DeepField} :
      env.objectOf data = .ok ps → (name, t, text) ∈ ps → env.fromUtf8 name = env.jsonName (num c) i → (cls.tab c)[i]? = some f → f.ty = .subs c' →
      env.elementsOf text = .ok es → (u, item) ∈ es → RectIn env cls num c' item body → RectIn env cls num c data body

/-- Some rectangle in the text ends beyond the range of `int`. -/
def FarRect (env envQ : REnv) (cls : Classes) (num : Nat → Nat) (c : Nat) (data : Bytes) : Prop :=
  ∃ body k o, RectIn env cls num c data body ∧ Json.deserializeMessage envQ k mRect body = (.ok (), o) ∧ NestedBytesSpec.TooFar o

end QtPb.Qt.NestedRectSpec
