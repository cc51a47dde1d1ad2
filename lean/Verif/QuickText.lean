import Verif.Convert
/-
Model of the converters of texts that the QML plugin registers for number types (src/protobuf/quick/qtprotobufquickplugin.cpp:31-46). QML calls
them for a text that is assigned to a property of the type.
-/
namespace QtPb.Convert

/-- `coverter<T>` (qtprotobufquickplugin.cpp:31-36). `parse` is `QString::toDouble` of Qt, `none` if the text is no number: the call gives 0 then.
A `QVariant` that cannot be converted becomes empty (`none`). -/
def coverter (parse : Bytes → Option (BitVec 64)) (w : Wrapper) (t : Bytes) : Option (Res Value) :=
  convert .double (.wrap w) (.dbl ((parse t).getD 0))

/-- Types with a converter (qtprotobufquickplugin.cpp:43-45). -/
def textConverters : List Wrapper := [.int32, .fixed32, .sfixed32]

/-- What QML gives a property of type `w` for the text `t`. `none`: there is no converter, and QML refuses the document. (Qt's
`QQmlStringConverters::variantFromString`.) -/
def assignText (parse : Bytes → Option (BitVec 64)) (w : Wrapper) (t : Bytes) : Option (Res Value) :=
  if w ∈ textConverters then coverter parse w t else none

end QtPb.Convert
