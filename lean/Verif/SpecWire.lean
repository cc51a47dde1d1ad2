import Verif.Meta
import Verif.PropsGenClass
/-
Specification for C104: programs whose classes are in generated files.
-/
namespace QtPb.Meta.Spec
open QtPb.Gen QtPb.Gen.Spec QtPb.SpecCpp QtPb.Gen.Text.Spec

/-- The class was generated for a message with these fields: a header and a source were printed for a file with plain names that has the message, and the class was read
from them. The numbers of the fields are those in the file. -/
structure GeneratedFor (u : Sources) (b : Printed × List FieldD) (fs : List QtPb.Field) (c : Class) : Prop where
  plain : u.Plain
  body : b ∈ u.bodies
  fields : Represents u.c b.2 fs
  numbers : b.2.map FieldD.number = fs.map QtPb.Field.num
  valid : ValidFields b.2
  getters : Getters b.2
  header : u.headerText = some c.header
  source : u.sourceText = some c.source
  name : c.name = b.1.cpp
  text : SpecCpp.classOf c.header c.source c.name (fs.map (·.ty)) = some c.text

/-- A program: the class of every message was generated, and no field has the name of a repeated message field with "Data" after it. -/
def Program (env : Env) (classes : Nat → Class) : Prop := ∀ k, ∃ u b, GeneratedFor u b (env.sch k) (classes k) ∧ NoDataNames b.2

end QtPb.Meta.Spec
