import Verif.SpecFiles
/-
What a C++ header may use at a point: the order of declarations in generated headers, with include directives that open a header once
(`#pragma once`).
-/
namespace QtPb.Gen.Spec

/-- A declaration in a generated header, by C++ names from the global namespace: a class without body (`class X;`), the name of the list type
of a class (`using XRepeated = …;`), the class of an enumeration that is in no message, and the class of the message `q` with its body, in
which the types of the fields `types` are used. -/
inductive Decl
  | fwd (cpp : List Str)
  | list (cpp : List Str)
  | gadget (cpp : List Str)
  | cls (cpp : List Str) (q : Path) (types : List FieldD)
deriving DecidableEq, Repr

/-- A line of a header: it opens another header or is a declaration. -/
inductive Line (κ : Type)
  | incl (k : κ)
  | decl (d : Decl)
deriving DecidableEq, Repr

/-- What the compiler sees of the lines, after the headers `seen` were opened: a header is opened only once. The second list of headers are
those that were opened at the end. -/
inductive Expands {κ : Type} (header : κ → List (Line κ)) : List κ → List (Line κ) → List κ → List Decl → Prop
  | nil {seen : List κ} : Expands header seen [] seen []
  | decl {seen seen' : List κ} {d : Decl} {ls : List (Line κ)} {out : List Decl} : Expands header seen ls seen' out →
      Expands header seen (.decl d :: ls) seen' (d :: out)
  | again {seen seen' : List κ} {k : κ} {ls : List (Line κ)} {out : List Decl} : k ∈ seen → Expands header seen ls seen' out →
      Expands header seen (.incl k :: ls) seen' out
  | once {seen seen' seen'' : List κ} {k : κ} {ls : List (Line κ)} {inner out : List Decl} : k ∉ seen →
      Expands header (k :: seen) (header k) seen' inner → Expands header seen' ls seen'' out →
      Expands header seen (.incl k :: ls) seen'' (inner ++ out)

/-- A source file that includes the header `k` is compiled: the compiler sees `out`. -/
def Compiles {κ : Type} (header : κ → List (Line κ)) (k : κ) (out : List Decl) : Prop := ∃ seen, Expands header [k] (header k) seen out

section
variable (extra : Str) (pkgOf : Path → List Str)

/-- The C++ name of the class of the message `q`. -/
def nameOf (q : Path) : List Str := cppName extra (pkgOf q) ((q.drop (pkgOf q).length).dropLast) (q.getLastD [])

/-- The class of the message `t` was declared, with its body or without. -/
def ClassDeclared (before : List Decl) (t : Path) : Prop :=
  .fwd (nameOf extra pkgOf t) ∈ before ∨ ∃ types, .cls (nameOf extra pkgOf t) t types ∈ before

/-- The list type of the message `t` was declared. -/
def ListDeclared (before : List Decl) (t : Path) : Prop := .list (nameOf extra pkgOf t) ∈ before

/-- The enumeration `e` was declared: it is in no message and its class was declared, or the class of its message was declared with its body
(a name in a class can be used only after the body of the class). -/
def EnumDeclared (before : List Decl) (e : Path) : Prop :=
  if e.length = (pkgOf e).length + 1 then
    .gadget ((if extra = [] then [] else [extra]) ++ pkgOf e ++ [upperCaseName (e.getLastD []) ++ ['G', 'a', 'd', 'g', 'e', 't']]) ∈ before
  else ∃ types, .cls (nameOf extra pkgOf e.dropLast) e.dropLast types ∈ before

/-- What a field of this type needs in the class of the message `q`: the class of its message type, or the list type if it is repeated, or
the enumeration, unless it is one of `q`. The name of a class can be used in its own body. -/
def FieldReady (before : List Decl) (q : Path) (fd : FieldD) : Prop :=
  (∀ t, fd.type = .message → fd.msgType = some t → ¬ IsQt (pkgOf q) t →
    if fd.repeated then ListDeclared extra pkgOf before t else t = q ∨ ClassDeclared extra pkgOf before t) ∧
  ∀ e, fd.type = .enum → fd.enumType = some e → e.dropLast = q ∨ EnumDeclared extra pkgOf before e

/-- What is used in a declaration was declared before. -/
def Ready (before : List Decl) : Decl → Prop
  | .cls _ q types => ∀ fd ∈ types, FieldReady extra pkgOf before q fd
  | _ => True

/-- Everything is declared before it is used. -/
def Ordered (out : List Decl) : Prop := ∀ a d b, out = a ++ d :: b → Ready extra pkgOf a d

end

/-- The header `k` is `k'` or includes it, directly or not. -/
inductive Reach {κ : Type} (header : κ → List (Line κ)) : κ → κ → Prop
  | refl {k : κ} : Reach header k k
  | step {k k1 k' : κ} : .incl k1 ∈ header k → Reach header k1 k' → Reach header k k'

/-! ### Which classes of a file come first -/

/-- A nested message that is used: the fields of the message it is in are `fields`. -/
def Used (pre : Path) (fields : List FieldD) (n : Msg) : Prop :=
  fields = [] ∨ ∃ fd ∈ fields, fd.isMap = false ∧ fd.msgType = some (pre ++ [n.name])

/-- Among the messages `l` in `pre` and those in them, `p` comes before `q` in the order in which a message follows the messages that are in
it: they are in two messages side by side, or `p` is in `q`. `fields` are the fields of the message that the messages of `l` are in, none at top level. -/
inductive Before : Path → List FieldD → List Msg → Path → Path → Prop
  | side {pre p q : Path} {fields : List FieldD} {a b c : List Msg} {m1 m2 x y : Msg} : Used pre fields m1 → Used pre fields m2 →
      Reached pre m1 p x → Reached pre m2 q y → Before pre fields (a ++ m1 :: b ++ m2 :: c) p q
  | within {pre p : Path} {fields : List FieldD} {l : List Msg} {m n x : Msg} : m ∈ l → Used pre fields m → n ∈ m.nested →
      Used (pre ++ [m.name]) m.fields n → Reached (pre ++ [m.name]) n p x → Before pre fields l p (pre ++ [m.name])
  | deeper {pre p q : Path} {fields : List FieldD} {l : List Msg} {m : Msg} : m ∈ l → Used pre fields m →
      Before (pre ++ [m.name]) m.fields m.nested p q → Before pre fields l p q

/-- The file `g` is `f` or imported by it, directly or not (QtCore.proto and QtGui.proto have no generated headers). -/
inductive Sees (files : List ProtoFile) : ProtoFile → ProtoFile → Prop
  | refl {f : ProtoFile} : Sees files f f
  | step {f f1 g : ProtoFile} : f1 ∈ files → f1.name ∈ f.deps → f1.name ≠ "QtProtobuf/QtCore.proto".toList →
      f1.name ≠ "QtProtobuf/QtGui.proto".toList → Sees files f1 g → Sees files f g

/-- The file has a class for the message `q`. -/
def Generated (f : ProtoFile) (q : Path) : Prop := ∃ m ∈ f.messages, ∃ x, Reached f.package m q x

/-- The types of the fields of a file: messages are generated in it or in an imported file; enumerations are in no message, or in one of an
imported file, or in one that comes before the message with the field. -/
structure TypesInOrder (pkgOf : Path → List Str) (files : List ProtoFile) (f : ProtoFile) : Prop where
  msg : ∀ m ∈ f.messages, ∀ q x, Reached f.package m q x → ∀ fd, UsesType q x fd → ∀ t, fd.type = .message → fd.msgType = some t →
    ¬ IsQt f.package t → ∃ g, Sees files f g ∧ pkgOf t = g.package ∧ Generated g t
  enum : ∀ m ∈ f.messages, ∀ q x, Reached f.package m q x → ∀ fd, UsesType q x fd → ∀ e, fd.type = .enum → fd.enumType = some e →
    e.dropLast ≠ q → ∃ g, Sees files f g ∧ pkgOf e = g.package ∧
      ((∃ n ∈ g.enums, e = g.package ++ [n]) ∨
       (pkgOf e.dropLast = g.package ∧ g.package.length + 1 < e.length ∧
        ((g.name ≠ f.name ∧ Generated g e.dropLast) ∨ (g = f ∧ Before f.package [] f.messages e.dropLast q))))

/-- Files as protoc hands them over: the names are different, imports do not go in circles, the trees of messages are proper, `pkgOf` is the
package of the messages, and map fields have message types. -/
structure ValidFiles (pkgOf : Path → List Str) (files : List ProtoFile) : Prop where
  names : (files.map ProtoFile.name).Nodup
  imports : ∃ rank : Str → Nat, ∀ f ∈ files, ∀ d ∈ f.deps, rank d < rank f.name
  valid : ∀ f ∈ files, ValidFile ⟨f.package, f.messages⟩
  packages : ∀ f ∈ files, ∀ m ∈ f.messages, ∀ q x, Contains f.package m q x → pkgOf q = f.package
  maps : ∀ f ∈ files, ∀ m ∈ f.messages, ∀ q x, Contains f.package m q x → ∀ fd ∈ x.fields, fd.isMap = true → fd.type = .message

/-! ### Multi-file mode -/

/-- One of the headers of a project is of the top-level message `n` of the file `g`; it is included in the header of the message `m` of `f`, but does
not include that one, directly or not. -/
def Above (files : List ProtoFile) (header : Str → List (Line Str)) (f : ProtoFile) (m : Msg) (g : ProtoFile) (n : Msg) : Prop :=
  g ∈ files ∧ n ∈ g.messages ∧ .incl (headerOf g.package n.name) ∈ header (headerOf f.package m.name) ∧
    ¬ Reach header (headerOf g.package n.name) (headerOf f.package m.name)

/-- The types of the fields of the message `m` of `f` and of the messages in it: messages are the message itself if the field is not repeated, or
come before it, or are in a header above, or are used by a field that is not repeated while there is no extra namespace and they are not directly
in `m`; enumerations are in no message, or in one that comes before, or in a header above. -/
structure TypesAbove (extra : Str) (pkgOf : Path → List Str) (files : List ProtoFile) (header : Str → List (Line Str)) (f : ProtoFile) (m : Msg) :
    Prop where
  msg : ∀ q x, Reached f.package m q x → ∀ fd, UsesType q x fd → ∀ t, fd.type = .message → fd.msgType = some t → ¬ IsQt f.package t →
    (fd.repeated = false ∧ t = q) ∨ Before f.package [] [m] t q ∨
    (∃ g n y, Above files header f m g n ∧ Reached g.package n t y) ∨
    (extra = [] ∧ fd ∈ x.fields ∧ fd.isMap = false ∧ fd.repeated = false ∧ t.dropLast ≠ f.package ++ [m.name] ∧
      ∀ c ∈ (t.drop (pkgOf t).length).dropLast, upperCaseName c = c)
  enum : ∀ q x, Reached f.package m q x → ∀ fd, UsesType q x fd → ∀ e, fd.type = .enum → fd.enumType = some e → e.dropLast ≠ q →
    (∃ g ∈ files, pkgOf e = g.package ∧ (∃ n ∈ g.enums, e = g.package ++ [n]) ∧
      .incl (['g', 'l', 'o', 'b', 'a', 'l', 'e', 'n', 'u', 'm', 's', '.', 'h']) ∈ header (headerOf f.package m.name)) ∨
    ((pkgOf e).length + 1 < e.length ∧
      (Before f.package [] [m] e.dropLast q ∨ ∃ g n y, Above files header f m g n ∧ Reached g.package n e.dropLast y))

end QtPb.Gen.Spec
