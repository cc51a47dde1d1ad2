import Verif.JsonHandlers
import Verif.SpecRegister
/-
What the right way to write and to read a value of a type in JSON is.
-/
namespace QtPb.Gen.Reg.Json
open QtPb.Gen QtPb.Gen.Reg

/-- The way of writing is the one for this type: integers, doubles and bools may be written as they are printed; texts, bytes (which
need quotes), floats and lists need the functions of the table; all others need the handler for exactly this type. -/
inductive RightWriter : CppT → Writer → Prop
  | asPrinted (t : FType) (h : t ∈ [FType.int32, .int64, .uint32, .uint64, .sint32, .sint64, .fixed32, .fixed64, .sfixed32, .sfixed64, .bool,
      .double]) : RightWriter (.basic t) .text
  | table (t : FType) (h : t ∈ [FType.float, .string, .bytes]) : RightWriter (.basic t) .table
  | lists (t : FType) : RightWriter (.list (.basic t)) .table
  | registered (t : CppT) (h : Handler) (hr : Right t (.registered h)) : RightWriter t (.registered h)

/-- The way of reading is the one for this type. -/
inductive RightReader : CppT → Reader → Prop
  | scalar (t : FType) : RightReader (.basic t) .table
  | lists (t : FType) : RightReader (.list (.basic t)) .table
  | registered (t : CppT) (h : Handler) (hr : Right t (.registered h)) : RightReader t (.registered h)

end QtPb.Gen.Reg.Json
