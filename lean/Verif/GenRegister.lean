import Verif.GenMembers
/-
Model of the registration of serialization handlers for the types of a generated program, and of the lookup of a handler: what
the printed `registerTypes()` functions and registrars register (src/generator/messagedefinitionprinter.cpp,
enumdefinitionprinter.cpp, templates.cpp, src/protobuf/qabstractprotobufserializer.h, src/qttypes/qtprotobufqttypes.cpp), and
which types QProtobufSerializer looks up for a property (src/protobuf/qprotobufserializer.cpp).

Types of C++ are told apart by what they stand for, not by their text. Left out: the registrations with Qt's meta type system
and with QML, which stand beside those of the handlers; the printed text is assumed to compile.
-/
namespace QtPb.Gen.Reg
open QtPb.Gen

/-- The C++ types that occur as types of properties or in registrations. -/
inductive CppT
  /-- the type of a field of scalar type (templates.cpp:402-418, `TypeReflection`) -/
  | basic (t : FType)
  /-- the C++ enumeration of an enum -/
  | enum (q : Path)
  /-- the generated class of a message -/
  | cls (q : Path)
  /-- the Qt class that stands for a message of package QtProtobuf -/
  | qt (q : Path)
  | ptr (of : CppT)
  | shared (of : CppT)
  | list (of : CppT)
  | map (key value : CppT)
deriving DecidableEq, Repr

/-- A generated program and the descriptors that the generator asks for. -/
structure Program where
  /-- the files that are generated -/
  files : List File
  /-- `file->enum_type(i)` of these files -/
  fileEnums : List Path
  /-- `message->enum_type(i)` of a message -/
  enumsIn : Path → List Path
  /-- `field(0)` and `field(1)` of the entry message of a map -/
  entry : Path → FieldD × FieldD
  /-- the Qt types the user has handlers registered for, with `qRegisterProtobufQtTypes()` -/
  qtTypes : List Path

/-- A class with its package and the fields of its message. -/
structure Cls where
  package : List Str
  path : Path
  fields : List FieldD

/-! ### What is registered -/

mutual
/-- The classes for which `MessageDefinitionPrinter::printClassDefinitionPrivate` prints `registerTypes()` and the registrar
(messagedefinitionprinter.cpp:40-59, 68-89, 390-392). -/
def classesOf (package : List Str) (path : Path) : Msg → List Cls
  | .mk name fields nested _ =>
    (if hasNested (path ++ [name]) fields nested then classesOfList package (path ++ [name]) fields nested else []) ++
      [⟨package, path ++ [name], fields⟩]
/-- `iterateNestedMessages` with `printClassDefinitionPrivate` as callback (messagedefinitionprinter.cpp:44-47). -/
def classesOfList (package : List Str) (path : Path) (fields : List FieldD) : List Msg → List Cls
  | [] => []
  | n :: rest => (if visits fields (path ++ [n.name]) then classesOf package path n else []) ++ classesOfList package path fields rest
end

/-- The classes of all files. -/
def classes (p : Program) : List Cls := p.files.flatMap fun f => f.messages.flatMap (classesOf f.package f.package)

/-- "scope_type" of `produceTypeMap` (generatorcommon.cpp:280-306) for a field that is not a map, as a C++ type. -/
def element (package : List Str) (f : FieldD) : CppT :=
  match f.type with
  | .message => if isQtType package f then .qt (f.msgType.getD []) else .cls (f.msgType.getD [])
  | .enum => .enum (f.enumType.getD [])
  | t => .basic t

/-- The pair of functions in a `SerializationHandler` (qabstractprotobufserializer_p.h:65-69), by the template and its arguments. -/
inductive Handler
  /-- `serializeObject<T>`, `deserializeObject<T>` -/
  | object (t : CppT)
  /-- `serializeList<T>`, `deserializeList<T>` -/
  | objects (t : CppT)
  /-- `serializeMap<K, V>`, `deserializeMap<K, V>` -/
  | map (k v : CppT)
  /-- `serializeEnum<T>`, `deserializeEnum<T>` -/
  | enum (t : CppT)
  /-- `serializeEnumList<T>`, `deserializeEnumList<T>` -/
  | enums (t : CppT)
  /-- the lambdas of `registerQtTypeHandler` -/
  | qt (t : CppT)
deriving DecidableEq, Repr

/-- A call of `registerHandler(qMetaTypeId<T>(), handler)`. -/
abbrev Entry := CppT × Handler

/-- `qRegisterProtobufEnumType<T>()` (qabstractprotobufserializer.h:325-332). -/
def registerEnum (t : CppT) : List Entry := [(t, .enum t), (.list t, .enums t)]

/-- `std::is_base_of<QObject, V>`: generated classes are derived from QObject. -/
def isObject : CppT → Bool
  | .cls _ => true
  | _ => false

/-- `qRegisterProtobufMapType<K, V>()` (qabstractprotobufserializer.h:300-318), by whether V is derived from QObject. -/
def registerMap (k v : CppT) : List Entry :=
  if isObject v then [(.map k (.shared v), .map k v)] else [(.map k v, .map k v)]

/-- One round of the loop of `printRegisterBody` (messagedefinitionprinter.cpp:78-85): what is registered for one field.
"key_type" and "value_type" are those of the fields of the entry (generatorcommon.cpp:339-345). -/
def registerField (p : Program) (c : Cls) (f : FieldD) : List Entry :=
  if f.type == .enum && (p.enumsIn c.path).contains (f.enumType.getD []) then registerEnum (element c.package f)
  else if f.isMap then
    let kv := p.entry (f.msgType.getD [])
    registerMap (element c.package kv.1) (element c.package kv.2)
  else []

/-- `qRegisterProtobufType<T>()` (qabstractprotobufserializer.h:286-293), which the registrar of a class runs (templates.cpp:375). -/
def registerClass (p : Program) (c : Cls) : List Entry :=
  c.fields.flatMap (registerField p c) ++
    [(.ptr (.cls c.path), .object (.cls c.path)), (.list (.shared (.cls c.path)), .objects (.cls c.path))]

/-- `registerTypes()` of the gadget of an enum (enumdefinitionprinter.cpp:47-62), printed for the enums of a file
(singlefilegenerator.cpp:146-150, multifilegenerator.cpp:223-232), not for those of a message. -/
def registerFileEnum (q : Path) : List Entry := registerEnum (.enum q)

/-- `registerQtTypeHandler<QType, PType>()` (qtprotobufqttypes.cpp:278-289). -/
def registerQt (q : Path) : List Entry := [(.qt q, .qt (.qt q))]

/-- All calls of `registerHandler`. -/
def registrations (p : Program) : List Entry :=
  (classes p).flatMap (registerClass p) ++ p.fileEnums.flatMap registerFileEnum ++ p.qtTypes.flatMap registerQt

/-! ### What is looked up -/

/-- What serves a type: the built-in table or the registry. -/
inductive Server
  | builtin
  | registered (h : Handler)
deriving DecidableEq, Repr

/-- Has the scalar type an entry of its own in `handlers` (qprotobufserializer.cpp:183-197)? -/
def scalarBuiltin : FType → Bool
  | .group | .message | .enum => false
  | _ => true

/-- `handlers.find(userType) != handlers.end()`: the table filled by the constructor of `QProtobufSerializerPrivate`
(qprotobufserializer.cpp:179-214). There is no entry for a list of bool. -/
def builtin : CppT → Bool
  | .basic t => scalarBuiltin t
  | .list (.basic t) => scalarBuiltin t && t != .bool
  | _ => false

/-- `HandlersRegistry::findHandler` (qabstractprotobufserializer.cpp:56-67) after these registrations: the last one for the type
counts, `m_registry[userType] = handlers` (line 53). None is the empty handler. -/
def findHandler : List Entry → CppT → Option Handler
  | [], _ => none
  | e :: rest, t => (findHandler rest t).or (if e.1 = t then some e.2 else none)

/-- The choice of the handler in `serializeProperty`, `deserializeProperty` and `deserializeMapPair`
(qprotobufserializer.cpp:270-282, 316-322, 327-353). None: an empty `std::function` is called, `std::bad_function_call` is thrown. -/
def serve (reg : List Entry) (t : CppT) : Option Server :=
  if builtin t then some .builtin else (findHandler reg t).map .registered

/-- `QMetaProperty::userType` of the property of a field: the type in the Q_PROPERTY that the property ordering refers to
(messagedeclarationprinter.cpp:215-261, templates.cpp:94-111); for maps the `using` of `printMaps` (messagedeclarationprinter.cpp:154-166,
templates.cpp:69-70). A list of a Qt type, whose printed name is wrong (see `qtListType`), is what the name stands for. -/
def propertyType (p : Program) (package : List Str) (f : FieldD) : CppT :=
  if f.isMap then
    let kv := p.entry (f.msgType.getD [])
    if kv.2.type == .message then .map (element package kv.1) (.shared (element package kv.2))
    else .map (element package kv.1) (element package kv.2)
  else
    match element package f with
    | .cls q => if f.repeated then .list (.shared (.cls q)) else .ptr (.cls q)
    | t => if f.repeated then .list t else t

/-- The types that the functions of a handler look up in turn: those of key and value in `serializeMap` and `deserializeMap`
(qabstractprotobufserializer_p.h:109-150, 206-250), a pointer for values derived from QObject. The other templates go to the class or
to the enumeration itself, and the lambdas for a Qt type to the message that stands for it. -/
def asksFor : Handler → List CppT
  | .map k v => [k, if isObject v then .ptr v else v]
  | _ => []

/-- Serialization or deserialization of a property of this type: every lookup finds a handler. -/
def property (reg : List Entry) (t : CppT) : Bool :=
  match serve reg t with
  | none => false
  | some .builtin => true
  | some (.registered h) => (asksFor h).all fun u => (serve reg u).isSome

end QtPb.Gen.Reg
