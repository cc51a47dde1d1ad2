import Verif.QtMedia
/-
Specification for C118: which URLs and images are expected to survive, and what programs in other languages see of them. Qt's parser, printer and codecs
are parameters, the messages are those of QtCore.proto and QtGui.proto.
-/
namespace QtPb.Media.Spec
open QtPb

variable {U I : Type}

/-- The messages of QtCore.proto and QtGui.proto: each field with its name, its number and its type. 0 is `QUrl`, 1 is `QImage`. -/
def proto : Nat → List (String × Nat × FieldTy)
  | 0 => [("url", 1, .scalar .string)]
  | 1 => [("data", 1, .scalar .bytes), ("format", 2, .scalar .string)]
  | _ => []

/-- The message that carries a value. -/
def carrier : Media U I → Nat
  | .url _ => 0
  | .image _ => 1

/-- Values that Qt itself gets back: a URL from its text, which survives UTF-8, and an image from its PNG file. -/
def Faithful (env : Env) (qt : Qt U I) : Media U I → Prop
  | .url u => qt.parse (qt.print u) = u ∧ env.fromUtf8 (env.toUtf8 (qt.print u)) = qt.print u
  | .image i => qt.load ((qt.save i).getD []) [0x50, 0x4e, 0x47] = i

/-- The message `o` is a URL with this text. -/
def IsUrl (o : Obj) (text : List Char) : Prop := ∃ s : Option (List Char), o = [.sc (.str s)] ∧ s.getD [] = text

/-- The message `o` is an image file with these contents and this format. -/
def IsFile (o : Obj) (data : Bytes) (format : List Char) : Prop :=
  ∃ (b : Option Bytes) (s : Option (List Char)), o = [.sc (.bytes b), .sc (.str s)] ∧ b.getD [] = data ∧ s.getD [] = format

/-- What a program in another language finds in the message for a value. -/
def Seen (qt : Qt U I) (o : Obj) : Media U I → Prop
  | .url u => IsUrl o (qt.print u)
  | .image i => IsFile o ((qt.save i).getD []) ['P', 'N', 'G']

/-- Names of formats: letters, digits and the like, as Qt's formats have. -/
def Name (format : List Char) : Prop := ∀ c ∈ format, 0 < c.toNat ∧ c.toNat < 128

end QtPb.Media.Spec
