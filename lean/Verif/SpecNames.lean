import Verif.GenNames
import Verif.SpecGen
import Verif.PropsOptions
/-
What the names of types in generated code have to denote.
-/
namespace QtPb.Gen.Spec

/-- A component of a name: not empty, and without dots and colons. -/
def Ident (s : Str) : Prop := s ≠ [] ∧ '.' ∉ s ∧ ':' ∉ s

/-- The name does not change when it is capitalised. -/
def Capital (s : Str) : Prop := upperCaseName s = s

/-- The type with the given place: package, the messages it is in and its name. -/
def typeAt (package inside : List Str) (name : Str) : TypeD :=
  ⟨joined ['.'] (package ++ inside ++ [name]), name, joined ['.'] package⟩

/-- `Denotes c q`: in the code generated for the file, the C++ name `c`, starting at the global namespace, denotes the type with
the full name `q`. `enums q` are the enumerations declared in `q`, a message or the package. -/
inductive Denotes (extra : Str) (f : File) (enums : Path → List Str) : List Str → Path → Prop
  /-- The class of a message. -/
  | cls {p : Printed} : p ∈ f.classes extra → Denotes extra f enums p.cpp p.msg
  /-- A class has an alias for each message nested in its message (messagedeclarationprinter.cpp:168-175, templates.cpp:71). -/
  | alias {c : List Str} {q : Path} {x n : Msg} : Denotes extra f enums c q → Has f q x → n ∈ x.nested →
      x.fields = [] ∨ UsesAsField x (q ++ [n.name]) → Denotes extra f enums (c ++ [upperCaseName n.name]) (q ++ [n.name])
  /-- A class has an alias for each map field of its message, with the name of the map entry (messagedeclarationprinter.cpp:154-166,
  templates.cpp:69-70). -/
  | map {c : List Str} {q : Path} {x : Msg} {fd : FieldD} {n : Str} : Denotes extra f enums c q → Has f q x → fd ∈ x.fields →
      fd.isMap = true → fd.msgType = some (q ++ [n]) → Denotes extra f enums (c ++ [upperCaseName n]) (q ++ [n])
  /-- An enumeration of a message is declared in the class of the message (messagedeclarationprinter.cpp:358-373). -/
  | enum {c : List Str} {q : Path} {e : Str} : Denotes extra f enums c q → e ∈ enums q →
      Denotes extra f enums (c ++ [upperCaseName e]) (q ++ [e])
  /-- An enumeration of a file is declared in a class of its own (enumdeclarationprinter.cpp). -/
  | gadget {e : Str} : e ∈ enums f.package →
      Denotes extra f enums ((if extra = [] then [] else [extra]) ++ f.package ++ [upperCaseName e ++ kGadget] ++ [upperCaseName e])
        (f.package ++ [e])

/-- `Found S P t`: the name with the components `P`, written in the scope `S`, is the name of `t` in one of the scopes around it. -/
def Found (denotes : List Str → Path → Prop) (S P : List Str) (t : Path) : Prop := ∃ A, A <+: S ∧ denotes (A ++ P) t

/-- Name look-up of C++: the first component is looked for in the scopes from the inside out, the others in what was found. -/
def LooksUp (declared : List Str → Prop) (S P R : List Str) : Prop :=
  ∃ A c rest, A <+: S ∧ P = c :: rest ∧ R = A ++ P ∧ declared (A ++ [c]) ∧
    ∀ B, B <+: S → declared (B ++ [c]) → B.length ≤ A.length

end QtPb.Gen.Spec
