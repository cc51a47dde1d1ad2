import Verif.GenNames
/-
The types of generated code in QML: what `registerTypes()` of the generated classes registers if the option QML is given.
-/
namespace QtPb.Gen

/-- A call of `qmlRegisterType<cls>(uri, 1, 0, name)` or `qmlRegisterUncreatableType<cls>(uri, 1, 0, name, …)`. -/
structure QmlEntry where
  cls : Str
  uri : Str
  name : Str
  creatable : Bool
  deriving DecidableEq, Repr

/-- "qml_package" of the type maps (generatorcommon.cpp:97-100, 108 and 139-142, 145). -/
def qmlPackage (extra : Str) (type : TypeD) : Str :=
  getNamespacesString ['.'] ((if extra = [] then [] else [extra]) ++ getNamespaces (some type))

/-- `MessageDefinitionPrinter::printRegisterBody` (messagedefinitionprinter.cpp:68-76) with `QmlRegisterTypeTemplate`
(templates.cpp:377); the type map is made without a scope (messagedefinitionprinter.cpp:36, messagedeclarationprinter.cpp:39).
`nested` is `isNested(type)`. -/
def qmlRegisterMessage (qml : Bool) (extra : Str) (type : TypeD) (nested : Bool) : List QmlEntry :=
  let typeMap := messageTypeMap extra type nested none
  if qml then [⟨typeMap.scope_type, qmlPackage extra type, typeMap.type, true⟩] else []

/-- `EnumDefinitionPrinter::printRegisterBody` (enumdefinitionprinter.cpp:47-55) with `QmlRegisterEnumTypeTemplate`
(templates.cpp:378), for the enumerations of a file; "enum_gadget" is the name of the class around it
(generatorcommon.cpp:147-150). -/
def qmlRegisterEnum (qml : Bool) (extra : Str) (type : TypeD) : List QmlEntry :=
  let typeMap := enumTypeMap extra type .global none
  if qml then [⟨typeMap.type ++ kGadget, qmlPackage extra type, typeMap.type, false⟩] else []

end QtPb.Gen
