import Verif.MetaJson
import Verif.SpecWire
/-
Specification for C105: programs whose classes are in generated files, with the JSON names of their fields.
-/
namespace QtPb.MetaJson.Spec
open QtPb.Gen QtPb.Gen.Spec QtPb.Meta QtPb.Meta.Spec QtPb.Json

/-- A program: the class of every message was generated, no field has the name of a repeated message field with "Data" after it, and the JSON names are those of the fields
in the .proto file (`json_name`, which protoc fills in if it is not given). -/
def Program (env : JEnv) (classes : Nat → Meta.Class) : Prop :=
  ∀ k, ∃ u b, GeneratedFor u b (env.sch k) (classes k) ∧ NoDataNames b.2 ∧ ∀ (i : Nat) (f : FieldD), b.2[i]? = some f → env.jsonName k i = f.json

end QtPb.MetaJson.Spec
