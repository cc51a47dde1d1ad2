import Verif.GenMulti
import Verif.SpecCppCtor
/-
What single-file and multi-file mode have in common: the same classes, in one file or in many.
-/
namespace QtPb.Gen.Text.Spec
open QtPb.Gen QtPb.SpecCpp

/-- The lexemes of lines `#include "x.h"` and `#include <X>`. -/
def quotedInclude (x : Text) : List Lexeme := [.punct '#', .word (text! "include"), .str (x ++ text! ".h")]
def angleInclude (x : Text) : List Lexeme := [.punct '#', .word (text! "include"), .punct '<', .word x, .punct '>']

/-- A declaration without body is all that is found. -/
def OnlyForwards (evs : List Event) : Prop := ∀ e ∈ evs, ∃ scope name, e = .forward scope name

/-- The packages of the files that messages and enumerations come from have plain names. -/
def PlainPackages (pkgOf : Path → List Str) : Prop := ∀ q, ∀ s ∈ pkgOf q, Named s

/-- The files of a message in multi-file mode: its header, and its source after the lines with `#include`, where the definitions of its class
begin. -/
structure OwnFiles (u : Sources) (pkgOf : Path → List Str) (m : Msg) (header source : Text) : Prop where
  declarations : printed (Text.multiHeader u.o u.c pkgOf m) = some header
  definitions : printed (classDefinition u.o u.c m) = some source
  includes : ∃ top, printed (multiSource u.o u.c m) = some (top ++ source) ∧
    lex top = some (quotedInclude (m.name.map Char.toLower) ++ if u.o.qml then angleInclude (text! "QQmlEngine") else [])

/-- A program as `Generated`, and the copy constructors as `GeneratedCopy`, of classes that were read from the files of multi-file mode. -/
def GeneratedMulti (env : Env) (prog : Nat → ClassText) : Prop :=
  ∀ k, ∃ (u : Sources) (pkgOf : Path → List Str) (m : Msg) (b : Printed × List FieldD) (header source : Text), u.Plain ∧ PlainPackages pkgOf ∧
    m ∈ u.msgs ∧ b ∈ bodies (around u.o u.c) u.c.package m ∧ Represents u.c b.2 (env.sch k) ∧ OwnFiles u pkgOf m header source ∧
    SpecCpp.classOf header source b.1.cpp ((env.sch k).map (·.ty)) = some (prog k)

def GeneratedCopyMulti (env : Env) (prog : Nat → ClassText) (copies : Nat → Fn) : Prop :=
  ∀ k, ∃ (u : Sources) (pkgOf : Path → List Str) (m : Msg) (b : Printed × List FieldD) (header source : Text), u.Plain ∧ PlainPackages pkgOf ∧
    m ∈ u.msgs ∧ b ∈ bodies (around u.o u.c) u.c.package m ∧ Represents u.c b.2 (env.sch k) ∧ OwnFiles u pkgOf m header source ∧
    SpecCpp.classOf header source b.1.cpp ((env.sch k).map (·.ty)) = some (prog k) ∧
    let K := b.1.cpp.getLastD []
    ctorOf source b.1.cpp [cpp! "const $K$ &"] = some (copies k)

end QtPb.Gen.Text.Spec
