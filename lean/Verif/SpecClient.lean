import Verif.GenClient
import Verif.SpecNames
/-
What the methods of a generated client have to do: stand for the methods of its service.
-/
namespace QtPb.Gen.Spec

/-- The path gRPC prescribes for the requests of a method: "/", the full name of the service, "/", the name of the method. -/
def methodPath (package : List Str) (service method : Str) : Str := ['/'] ++ joined ['.'] (package ++ [service]) ++ ['/'] ++ method

/-- The C++ name with the components of the full name. -/
def withColons (q : Path) : Str := joined kScope q

/-- The name of the C++ function for a method: its own name, or "stream" and its capitalised name for a stream of answers. -/
def functionName (m : MethodD) : Str := if m.serverStreaming then ['s', 't', 'r', 'e', 'a', 'm'] ++ upperCaseName m.name else m.name

/-- The types of the methods of a service have names of identifiers. -/
def ValidService (s : ServiceD) : Prop :=
  ∀ m ∈ s.methods, m.name ≠ [] ∧ (∀ c ∈ m.input, Ident c) ∧ ∀ c ∈ m.output, Ident c

/-- The argument a parameter carries: a message of that type. -/
inductive Carries : Param → Str → Prop
  | ref (t : Str) : Carries (.ref t) t
  | ptr (t : Str) : Carries (.ptr t) t

/-- The result a parameter is for: a message of that type. -/
inductive Receives : Param → Str → Prop
  | ptr (t : Str) : Receives (.ptr t) t
  | pointer (t : Str) : Receives (.pointer t) t

/-- A member of a class hides the function of the base class with its name: calls by that name in the class do not find it. -/
def Hides (members : List Sig) (base : Str) : Prop := ∃ d ∈ members, d.name = base

end QtPb.Gen.Spec
