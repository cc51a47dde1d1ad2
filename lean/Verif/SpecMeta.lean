import Verif.SpecText
/-
Specification for C97: types that are declared to the meta-type system of Qt. `Q_DECLARE_METATYPE(T)` is an explicit specialisation of a template for `T`:
two of them for one type do not compile.
-/
namespace QtPb.SpecCpp

/-- The lines of a text. -/
def linesOf (s : Text) : List Text :=
  s.foldr (fun c ls => if c = '\n' then [] :: ls else match ls with | l :: r => (c :: l) :: r | [] => [[c]]) [[]]

/-- The lines that the preprocessor leaves: `#ifndef X` up to `#endif` is left out if `X` was defined before. -/
def activeLines : List Text → List Text → Bool → List Text
  | [], _, _ => []
  | l :: ls, macros, skip =>
    if "#ifndef ".toList.isPrefixOf l then activeLines ls macros (macros.contains (l.drop 8))
    else if "#endif".toList.isPrefixOf l then activeLines ls macros false
    else if skip then activeLines ls macros true
    else if "#define ".toList.isPrefixOf l then activeLines ls (l.drop 8 :: macros) false
    else l :: activeLines ls macros false

def active (s : Text) : Text := (activeLines (linesOf s) [] false).flatMap (· ++ ['\n'])

end QtPb.SpecCpp

namespace QtPb.Gen.Text.Spec
open QtPb.SpecCpp

/-- The enumerations of a message that its fields have, once for every field. -/
def usedEnums (c : Ctx) (b : Path × List FieldD) : List Path :=
  (b.2.filter fun f => f.type == .enum && c.visibility b.1 (f.enumType.getD []) == .local).map fun f => f.enumType.getD []

/-- The types of the maps of a message. -/
def mapTypes (o : Options) (c : Ctx) (b : Path × List FieldD) : List (List Lexeme) := (b.2.filter (·.isMap)).map (messageType o c)

/-- A name up to the case of its first letter. -/
def upTo (q : Path) : Path × Str := (q.dropLast, upperCaseName (q.getLastD []))

/-- What a file declares: no two messages or enumerations have one name up to the case of its first letter, and no enumeration of a message is the type
of two of its fields; no name ends in "Repeated"; no message has the name of the class of a top-level enumeration. -/
structure Apart (c : Ctx) (enums : List EnumD) (messages : List (Path × List FieldD)) : Prop where
  names : (messages.flatMap fun b => b.1 :: usedEnums c b).map upTo |>.Nodup
  suffix : ∀ q ∈ messages.flatMap (fun b => b.1 :: usedEnums c b), ¬ kRepeated <:+ upperCaseName (q.getLastD [])
  top : (enums.map fun e => upperCaseName e.name).Nodup
  gadget : ∀ q ∈ messages.flatMap (fun b => b.1 :: usedEnums c b), ∀ e ∈ enums, q.dropLast ≠ c.package ++ [upperCaseName e.name ++ kGadget]

end QtPb.Gen.Text.Spec
