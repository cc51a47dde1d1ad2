import Verif.QtJson
import Verif.SpecQtPeers
import Verif.SpecJsonRead
/-
Specification for C119: which values of Qt's types are expected to survive JSON, and what is assumed of Qt and of the JSON library.
-/
namespace QtPb.Qt.JsonSpec
open QtPb QtPb.Json QtPb.Spec

/-- Qt reads the text that it prints for this finite number as the same number; a `float` is printed with 6 digits. -/
def Exact32 (env : REnv) (b : BitVec 32) : Prop := finite32 b ∧ ∃ c, env.toFloat (env.float32g b) = (c, true) ∧ f32Eq b c = true
def Exact64 (env : REnv) (b : BitVec 64) : Prop := finite64 b ∧ ∃ c, env.toDouble (env.float64s b) = (c, true) ∧ f64Eq b c = true

/-- All floating point numbers in the value are printed so that Qt reads them back. -/
def NumbersExact (env : REnv) : QtVal → Prop
  | .sizeF s => Exact64 env s.w ∧ Exact64 env s.h
  | .pointF p => Exact64 env p.x ∧ Exact64 env p.y
  | .rectF r => Exact64 env r.x ∧ Exact64 env r.y ∧ Exact64 env r.w ∧ Exact64 env r.h
  | .polygonF l => ∀ p ∈ l, Exact64 env p.x ∧ Exact64 env p.y
  | .matrix q => ∀ i, Exact32 env (q.m i)
  | .vector2 v => Exact32 env v.x ∧ Exact32 env v.y
  | .vector3 v => Exact32 env v.x ∧ Exact32 env v.y ∧ Exact32 env v.z
  | .vector4 v => Exact32 env v.x ∧ Exact32 env v.y ∧ Exact32 env v.z ∧ Exact32 env v.w
  | .transform t => Exact64 env t.m11 ∧ Exact64 env t.m12 ∧ Exact64 env t.m13 ∧ Exact64 env t.m21 ∧ Exact64 env t.m22 ∧ Exact64 env t.m23 ∧
      Exact64 env t.m31 ∧ Exact64 env t.m32 ∧ Exact64 env t.m33
  | .quaternion q => Exact32 env q.scalar ∧ Exact32 env q.x ∧ Exact32 env q.y ∧ Exact32 env q.z
  | _ => True

/-- The messages are those of QtCore.proto and QtGui.proto, in JSON their fields have the names they have there, and none is an enumeration; the JSON
library reads JSON, and Qt prints and reads numbers and ASCII text. -/
structure World (env : REnv) : Prop where
  sch : env.sch = Peer.schema
  order : ValidOrder env.toEnv
  names : ∀ (m i : Nat) (f : String × Nat × FieldTy), (Peer.proto m)[i]? = some f → env.jsonName m i = f.1.toList
  noEnums : ∀ m i e, env.enumKey m i e = none
  noNames : ∀ m i name, env.enumValue m i name = none
  ascii : ∀ t : List Char, (∀ c ∈ t, c.toNat < 128) → env.toUtf8 t = t.map (fun c => UInt8.ofNat c.toNat) ∧ env.fromUtf8 (env.toUtf8 t) = t
  library : ReadsJson env
  reads : QtReads env
  prints : QtNumbers env.toJEnv

end QtPb.Qt.JsonSpec
