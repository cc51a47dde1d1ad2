import Verif.QtMediaJson
import Verif.SpecQtMedia
import Verif.SpecJsonRead
/-
Specification for C127: which URLs and images are expected to survive JSON, and what is assumed of Qt and of the JSON library.
-/
namespace QtPb.Media.Spec
open QtPb QtPb.Json QtPb.Spec

variable {U I : Type}

/-- The messages are those of QtCore.proto and QtGui.proto, in JSON their fields have the names they have there, and none is an enumeration; the JSON
library reads JSON, and Qt prints and reads ASCII text. -/
structure MediaWorld (env : REnv) : Prop where
  sch : env.sch = fun m => (Media.Spec.proto m).map fun f => ⟨f.2.1, f.2.2⟩
  order : ValidOrder env.toEnv
  names : ∀ (m i : Nat) (f : String × Nat × FieldTy), (Media.Spec.proto m)[i]? = some f → env.jsonName m i = f.1.toList
  noEnums : ∀ m i e, env.enumKey m i e = none
  noNames : ∀ m i name, env.enumValue m i name = none
  ascii : ∀ t : List Char, (∀ c ∈ t, c.toNat < 128) → env.toUtf8 t = t.map (fun c => UInt8.ofNat c.toNat) ∧ env.fromUtf8 (env.toUtf8 t) = t
  library : ReadsJson env
  reads : QtReads env
  prints : QtNumbers env.toJEnv

/-- URLs whose text survives UTF-8 and has no quotes, backslashes and control characters; all images. -/
def Plain (env : REnv) (qt : Qt U I) : Media U I → Prop
  | .url u => NoEscapes (env.toUtf8 (qt.print u)) ∧ env.fromUtf8 (env.toUtf8 (qt.print u)) = qt.print u
  | .image _ => True

/-- The message `o` stands for the value, as Qt parses or decodes it. -/
def StandsFor (qt : Qt U I) (o : Obj) : Media U I → Prop
  | .url u => ∃ t, IsUrl o t ∧ qt.parse t = u
  | .image i => ∃ d f, IsFile o d f ∧ Name f ∧ qt.load d (f.map fun c => UInt8.ofNat c.toNat) = i

end QtPb.Media.Spec
