import Verif.SpecCppDef
import Verif.SpecText
import Verif.GenMembers
/-
What is expected of generated sources: readers of heads of functions, parameters, initialisers and calls, and the functions, constructors,
tables, objects and calls that a schema stands for.
-/
set_option linter.unusedVariables false

namespace QtPb.SpecCpp

/-- The lexemes of a text (none of them if it cannot be cut into lexemes). -/
def lexemesOf (t : Text) : List Lexeme := (lex t).getD []

/-! ### Heads of functions -/

/-- What stands before the bracket that closes, and what stands after it. -/
def closing : Nat → List Lexeme → Option (List Lexeme × List Lexeme)
  | _, [] => none
  | n, x :: xs =>
    if x = .punct ')' then
      match n with
      | 0 => some ([], xs)
      | n + 1 => (closing n xs).map fun p => (x :: p.1, p.2)
    else (closing (if x = .punct '(' then n + 1 else n) xs).map fun p => (x :: p.1, p.2)

/-- The parts between commas outside of brackets. -/
def partsFrom (depth : Nat) (acc : List Lexeme) : List Lexeme → List (List Lexeme)
  | [] => if acc = [] then [] else [acc]
  | x :: xs =>
    if x = .punct '(' then partsFrom (depth + 1) (acc ++ [x]) xs
    else if x = .punct ')' then partsFrom (depth - 1) (acc ++ [x]) xs
    else if x = .punct ',' ∧ depth = 0 then acc :: partsFrom 0 [] xs
    else partsFrom depth (acc ++ [x]) xs

def parts (ls : List Lexeme) : List (List Lexeme) := partsFrom 0 [] ls

/-- A parameter: its type, with what stands around, and its name ("" if it has none). -/
def paramOf (ls : List Lexeme) : List Lexeme × Text :=
  match ls.getLast? with
  | some (.word n) => (ls.dropLast, n)
  | _ => (ls, [])

/-- An initialiser `member(value)`. -/
def initOf : List Lexeme → Option (Text × List Lexeme)
  | .word m :: .punct '(' :: rest => if rest.getLast? = some (.punct ')') then some (m, rest.dropLast) else none
  | _ => none

/-- A function that is defined outside of its class: the type of the result, the class with its namespaces, the name, the parameters,
what stands behind them, the body. -/
structure Fn where
  result : List Lexeme
  cls : List Text
  name : List Lexeme
  params : List (List Lexeme × Text)
  behind : List Lexeme
  body : List Lexeme
deriving DecidableEq, Repr

/-- What stands in front of the class, the class, and the name behind the last `::` before the first bracket. -/
def splitHead (head : List Lexeme) : Option (List Lexeme × Text × List Lexeme) :=
  let r := (head.takeWhile (· ≠ .punct '(')).reverse
  match r.dropWhile (· ≠ .punct ':') with
  | .punct ':' :: .punct ':' :: .word c :: before => some (before.reverse, c, (r.takeWhile (· ≠ .punct ':')).reverse)
  | _ => none

def fnOf (s : List Text) (head body : List Lexeme) : Option Fn :=
  match splitHead head, closing 0 ((head.dropWhile (· ≠ .punct '(')).drop 1) with
  | some (r, c, n), some (ps, behind) => some ⟨r, s ++ [c], n, (parts ps).map paramOf, behind, body⟩
  | _, _ => none

/-- The functions of a source. -/
def fnsIn (is : List Item) : List Fn :=
  is.filterMap fun
    | .block s head body => fnOf s head body
    | _ => none

/-- The declaration of a function: result, class, name, parameters, whether it is `const`. -/
structure Sig where
  result : List Lexeme
  cls : List Text
  name : List Lexeme
  params : List (List Lexeme × Text)
  isConst : Bool
deriving DecidableEq, Repr

def Fn.sig (f : Fn) : Sig := ⟨f.result, f.cls, f.name, f.params, f.behind == [.word (text! "const")]⟩

/-- The initialisers of a constructor. -/
def Fn.inits (f : Fn) : List (Option (Text × List Lexeme)) :=
  match f.behind with
  | .punct ':' :: rest => (parts rest).map initOf
  | _ => []

/-- A constructor has the name of its class and no result. -/
def Fn.isCtor (f : Fn) : Bool := f.result == [] && f.name == [.word (f.cls.getLastD [])]

/-! ### Calls -/

/-- The arguments behind the first one, up to the bracket that closes. -/
def argsOf (rest : List Lexeme) : List (List Lexeme) :=
  match closing 0 rest with
  | some (a, _) => parts (a.drop 1)
  | none => []

/-- Calls `f("s", …)`: functions called with a string first, the string, the other arguments. -/
def namedCalls : List Lexeme → List (Text × Text × List (List Lexeme))
  | .word f :: .punct '(' :: .str s :: rest => (f, s, argsOf rest) :: namedCalls rest
  | _ :: rest => namedCalls rest
  | [] => []

/-- The statements of a body, without the semicolons. -/
def cutFrom (acc : List Lexeme) : List Lexeme → List (List Lexeme)
  | [] => if acc = [] then [] else [acc]
  | x :: xs => if x = .punct ';' then acc :: cutFrom [] xs else cutFrom (acc ++ [x]) xs

def cut (body : List Lexeme) : List (List Lexeme) := cutFrom [] body

/-- A call `f<types>(args)`: the function, the types, the strings given. -/
def typedCall : List Lexeme → Option (Text × List Lexeme × List Text)
  | .word f :: .punct '<' :: rest =>
    some (f, (rest.takeWhile (· ≠ .punct '(')).dropLast, (rest.dropWhile (· ≠ .punct '(')).filterMap fun | .str s => some s | _ => none)
  | _ => none

end QtPb.SpecCpp

namespace QtPb.Gen.Text.Spec
open QtPb.SpecCpp

/-! ### Functions -/

/-- The type of a field as it is written in the class of the message `scope`: the one "scope_type" and "scope_list_type" name, of which C42
says what it denotes. -/
def valueType (o : Options) (c : Ctx) (scope : Path) (f : FieldD) (list : Bool) : List Lexeme :=
  match f.type with
  | .message =>
    let q := f.msgType.getD []
    if isQtType c.package f then
      (if list then [.word (text! "QList"), .punct '<', .word kRepeated, .punct '>'] else [.word (q.getLastD [])])
    else
      let t := messageTypeMap o.extra (typeD c q) (c.nestedType q) (some (typeD c scope))
      lexemesOf (if list then t.scope_list_type else t.scope_type)
  | .enum =>
    let q := f.enumType.getD []
    let t := enumTypeMap o.extra (typeD c q) (c.visibility scope q) (some (typeD c scope))
    lexemesOf (if list then t.scope_list_type else t.scope_type)
  | t => qualified (if list then scalarListName t else scalarName t)

def isList (f : FieldD) : Bool := f.repeated && !f.isMap

/-- The type of the parameter of a constructor or setter: texts, messages, lists and maps are given by reference. -/
def paramType (o : Options) (c : Ctx) (scope : Path) (f : FieldD) : List Lexeme :=
  let T := valueType o c scope f (isList f)
  if isList f || f.type == .bytes || f.type == .string || f.type == .message then cpp! "const @T@ &" else T

def objectParam : List Lexeme × Text := (cpp! "QObject *", text! "parent")

/-- The constructor that takes the first `n` fields. -/
def ctorSig (o : Options) (c : Ctx) (b : Printed × List FieldD) (n : Nat) : Sig :=
  ⟨[], b.1.cpp, [.word (b.1.cpp.getLastD [])], (b.2.take n).map (fun f => (paramType o c b.1.msg f, f.prop)) ++ [objectParam], false⟩

/-- The name of the parameter of functions that copy; without fields there is none. -/
def sourceName (fields : List FieldD) : Text := if fields = [] then [] else text! "other"

/-- Functions every class has. -/
def commonSigs (b : Printed × List FieldD) : List Sig :=
  let K := b.1.cpp.getLastD []
  let copied : List Lexeme × Text := (cpp! "const $K$ &", sourceName b.2)
  let moved : List Lexeme × Text := (cpp! "$K$ &&", sourceName b.2)
  [⟨[], b.1.cpp, cpp! "$K$", [copied], false⟩,
   ⟨cpp! "$K$ &", b.1.cpp, cpp! "operator =", [copied], false⟩,
   ⟨[], b.1.cpp, cpp! "$K$", [moved], false⟩,
   ⟨cpp! "$K$ &", b.1.cpp, cpp! "operator =", [moved], false⟩,
   ⟨cpp! "bool", b.1.cpp, cpp! "operator ==", [copied], true⟩,
   ⟨cpp! "bool", b.1.cpp, cpp! "operator !=", [(cpp! "const $K$ &", text! "other")], true⟩]

/-- Conversion from and to QDateTime. -/
def dateSigs (b : Printed × List FieldD) : List Sig :=
  if b.1.msg = [text! "google", text! "protobuf", text! "Timestamp"] then
    [⟨[], b.1.cpp, cpp! "Timestamp", [(cpp! "const QDateTime &", text! "datetime"), objectParam], false⟩,
     ⟨[], b.1.cpp, cpp! "operator QDateTime", [], true⟩]
  else []

/-- Getters that are not defined in the class: of single messages (the pointer for QML, and the message), and of lists of messages for
QML. -/
def getterSigs (o : Options) (c : Ctx) (b : Printed × List FieldD) (f : FieldD) : List Sig :=
  let T := valueType o c b.1.msg f false
  let F := messageType o c f
  let N := f.prop
  (if isPureMessage c.package f then
    [⟨cpp! "@T@ *", b.1.cpp, cpp! "$N$_p", [], true⟩, ⟨cpp! "@T@ &", b.1.cpp, cpp! "$N$", [], true⟩] else []) ++
  (if isList f && f.type == .message && !isQtType c.package f && o.qml then
    [⟨cpp! "QQmlListProperty<@F@>", b.1.cpp, cpp! "$N$_l", [], false⟩] else [])

/-- Setters that are not defined in the class: those of messages (of the pointer too for single ones) and of texts. -/
def setterSigs (o : Options) (c : Ctx) (b : Printed × List FieldD) (f : FieldD) : List Sig :=
  let T := valueType o c b.1.msg f (isList f)
  let N := f.prop
  let S := f.setter
  if f.type == .message || f.type == .string || f.type == .bytes then
    (if isPureMessage c.package f then [⟨cpp! "void", b.1.cpp, cpp! "$S$_p", [(cpp! "@T@ *", N)], false⟩] else []) ++
    [⟨cpp! "void", b.1.cpp, cpp! "$S$", [(cpp! "const @T@ &", N)], false⟩]
  else []

/-- The functions defined in the source for a class. -/
def sigsOf (o : Options) (c : Ctx) (b : Printed × List FieldD) : List Sig :=
  let K := b.1.cpp.getLastD []
  [⟨[], b.1.cpp, cpp! "~$K$", [], false⟩, ⟨cpp! "void", b.1.cpp, cpp! "registerTypes", [], false⟩] ++
  (List.range (b.2.length + 1)).map (ctorSig o c b) ++ dateSigs b ++ commonSigs b ++
  b.2.flatMap (getterSigs o c b) ++ b.2.flatMap (setterSigs o c b)

/-! ### Initialisers -/

/-- What a member is initialised with in a constructor that has a parameter for the field, or has none. -/
def initial (o : Options) (c : Ctx) (scope : Path) (given : Bool) (f : FieldD) : Option (List Lexeme) :=
  let T := valueType o c scope f false
  let N := f.prop
  if isPureMessage c.package f then some (if given then cpp! "new @T@($N$)" else cpp! "nullptr")
  else if given then some (cpp! "$N$")
  else if f.repeated || f.isMap then none
  else match f.type with
    | .double | .float => some (cpp! "0.0")
    | .fixed32 | .fixed64 | .int32 | .int64 | .sint32 | .sint64 | .uint32 | .uint64 => some (cpp! "0")
    | .bool => some (cpp! "false")
    | .enum => let v := c.firstValue (f.enumType.getD []); some (cpp! "@T@::$v$")
    | _ => none

def initials (o : Options) (c : Ctx) (scope : Path) (given : Bool) (fields : List FieldD) : List (Text × List Lexeme) :=
  fields.filterMap fun f => (initial o c scope given f).map fun v => (f.member, v)

/-- The constructors of a class and their initialisers. -/
def ctorsOf (o : Options) (c : Ctx) (b : Printed × List FieldD) : List (List Text × List (Option (Text × List Lexeme))) :=
  let nulls : List (Text × List Lexeme) := (b.2.filter (isPureMessage c.package)).map fun f => (f.member, cpp! "nullptr")
  (List.range (b.2.length + 1)).map (fun n =>
    (b.1.cpp, ((text! "QObject", cpp! "parent") ::
      (initials o c b.1.msg true (b.2.take n) ++ initials o c b.1.msg false (b.2.drop n))).map some)) ++
  (if b.1.msg = [text! "google", text! "protobuf", text! "Timestamp"] then
    [(b.1.cpp, [some (text! "QObject", cpp! "parent"), some (text! "m_seconds", cpp! "datetime.toMSecsSinceEpoch() / 1000"),
      some (text! "m_nanos", cpp! "(datetime.toMSecsSinceEpoch() % 1000) * 1000")])] else []) ++
  [(b.1.cpp, ((text! "QObject", []) :: nulls).map some), (b.1.cpp, ((text! "QObject", []) :: nulls).map some)]

/-! ### Tables and objects -/

/-- The table of a class: the number of the field, the index of its property (0 is the one of QObject), its JSON name. -/
def orderingOf (fields : List FieldD) : List (Text × Text × Text) :=
  fields.zipIdx.map fun p => ((toString p.1.number).toList, (toString (p.2 + 1)).toList, p.1.json)

/-- The statements for a class: it is registered when the program starts; its meta object has the table. -/
def statementsOf (b : Printed × List FieldD) : List (List Text × List Lexeme) :=
  let K := b.1.cpp.getLastD []
  [(b.1.cpp.dropLast, cpp! "static QtProtobuf::ProtoTypeRegistrar<$K$> ProtoTypeRegistrar$K$(qRegisterProtobufType<$K$>)"),
   (b.1.cpp.dropLast, cpp! "const QtProtobuf::QProtobufMetaObject $K$::protobufMetaObject = QtProtobuf::QProtobufMetaObject($K$::staticMetaObject, $K$::propertyOrdering)")]

/-- The statement for a top-level enumeration. -/
def enumStatement (o : Options) (c : Ctx) (e : EnumD) : List Text × List Lexeme :=
  let G := upperCaseName e.name ++ text! "Gadget"
  (around o c, cpp! "static QtProtobuf::ProtoTypeRegistrar<$G$> ProtoTypeRegistrar$G$($G$::registerTypes)")

/-- What stands in front: the header of the source, headers of Qt, and the namespace that is used. -/
def topStatement (header : Text) (external : List Text) : List Lexeme :=
  let h := header ++ text! ".h"
  let names := external.flatMap fun i => cpp! "#include <$i$>"
  cpp! "#include \"$h$\" @names@ using namespace QtProtobuf"

/-- The function of the class of a top-level enumeration. -/
def enumSig (o : Options) (c : Ctx) (e : EnumD) : Sig := ⟨cpp! "void", gadgetClass o c e, cpp! "registerTypes", [], false⟩

/-! ### Registration -/

/-- The full name of a type as text. -/
def written (p : List Text) : Text := (text! "::").intercalate p

def metaType (types : List Lexeme) (name : Text) : Text × List Lexeme × List Text := (text! "qRegisterMetaType", types, [name])

/-- The package of a type in QML. -/
def qmlName (o : Options) (p : Path) : Text := (text! ".").intercalate (extraNs o ++ p.dropLast)

/-- What is registered for a field of a class: enumerations of the message that are used in it, maps. -/
def fieldRegistrations (o : Options) (c : Ctx) (scope : Path) (f : FieldD) : List (Text × List Lexeme × List Text) :=
  if f.type == .enum && c.visibility scope (f.enumType.getD []) == .local then
    let q := f.enumType.getD []
    [(text! "qRegisterProtobufEnumType", valueType o c scope f false, []),
     metaType (valueType o c scope f false) (upperCaseName (q.getLastD [])), metaType (valueType o c scope f false) (written (typeName o q [])),
     metaType (valueType o c scope f true) (written (typeName o q kRepeated))]
  else if f.isMap then
    let q := f.msgType.getD []
    let e := c.entry q
    let names := if isQtType c.package f then (q.getLastD [], text! "QList<Repeated>") else (written (typeName o q []), written (typeName o q kRepeated))
    [metaType (valueType o c scope f false) names.1, metaType (valueType o c scope f false) names.2,
     (text! "qRegisterProtobufMapType", valueType o c scope e.1 false ++ [.punct ','] ++ valueType o c scope e.2 false, [])]
  else []

/-- What the class of a message registers: itself, a pointer to it, lists of it; for QML lists and the class by its name; what its fields
need. -/
def registrations (o : Options) (c : Ctx) (b : Printed × List FieldD) : List (Text × List Lexeme × List Text) :=
  let K := b.1.cpp.getLastD []
  let full := written (typeName o b.1.msg [])
  let F := qualified (typeName o b.1.msg [])
  let own := (messageTypeMap o.extra (typeD c b.1.msg) (c.nestedType b.1.msg) none).scope_type
  [metaType (cpp! "$K$") full, metaType (cpp! "$K$*") (full ++ text! "*"), metaType (cpp! "$K$Repeated") (written (typeName o b.1.msg kRepeated))] ++
  (if o.qml then
    [metaType (cpp! "QQmlListProperty<@F@>") (text! "QQmlListProperty<" ++ full ++ text! ">"),
     (text! "qmlRegisterType", lexemesOf own, [qmlName o b.1.msg, K])] else []) ++
  b.2.flatMap (fieldRegistrations o c b.1.msg)

/-- What the class of a top-level enumeration registers. -/
def enumRegistrations (o : Options) (c : Ctx) (e : EnumD) : List (Text × List Lexeme × List Text) :=
  let E := upperCaseName e.name
  let F := gadgetClass o c e ++ [E]
  let G := E ++ text! "Gadget"
  (if o.qml then [(text! "qmlRegisterUncreatableType", cpp! "$G$",
    [(text! ".").intercalate (around o c), E, written F ++ text! " Could not be created from qml context"])] else []) ++
  [metaType (cpp! "$E$") (written F), metaType (qualified F) (written F), (text! "qRegisterProtobufEnumType", qualified F, [])]

/-! ### Clients -/

def methodType (p : Path) : List Lexeme := qualified p

/-- The functions of a method with the call each makes: `call` for a method, `stream` for a stream, with the name of the method and what it
was given. -/
def methodSigs (o : Options) (cls : List Text) (d : MethodD) : List (Sig × List (Text × Text × List (List Lexeme))) :=
  let I := methodType d.input
  let O := methodType d.output
  let M := d.name
  let U := upperCaseName d.name
  let arg : List Lexeme × Text := (cpp! "const @I@ &", text! "arg")
  let argP : List Lexeme × Text := (cpp! "@I@ *", text! "arg")
  let ret : List Lexeme × Text := (cpp! "const QPointer<@O@> &", text! "ret")
  let retP : List Lexeme × Text := (cpp! "@O@ *", text! "ret")
  let callback : List Lexeme × Text := (cpp! "const std::function<void(QGrpcCallReplyShared)> &", text! "callback")
  let js (n : Text) : List Lexeme × Text := (cpp! "const QJSValue &", n)
  let name : List Lexeme := cpp! "$M$"
  let streamName : List Lexeme := cpp! "stream$U$"
  let call (given : List (List Lexeme)) := [(text! "call", M, given)]
  let stream (given : List (List Lexeme)) := [(text! "stream", M, given)]
  if d.streaming then
    [(⟨cpp! "QtProtobuf::QGrpcStreamShared", cls, streamName, [arg], false⟩, stream [cpp! "arg"]),
     (⟨cpp! "QtProtobuf::QGrpcStreamShared", cls, streamName, [arg, ret], false⟩, stream [cpp! "arg", cpp! "ret"])] ++
    (if o.qml then [(⟨cpp! "QtProtobuf::QGrpcStreamShared", cls, cpp! "qmlStream$U$_p", [argP, retP], false⟩,
      stream [cpp! "*arg", cpp! "QPointer<@O@>(ret)"])] else [])
  else
    [(⟨cpp! "QtProtobuf::QGrpcStatus", cls, name, [arg, ret], false⟩, call [cpp! "arg", cpp! "ret"]),
     (⟨cpp! "QtProtobuf::QGrpcCallReplyShared", cls, name, [arg], false⟩, call [cpp! "arg"]),
     (⟨cpp! "void", cls, name, [arg, (cpp! "const QObject *", text! "context"), callback], false⟩, call [cpp! "arg"])] ++
    (if o.qml then
      [(⟨cpp! "void", cls, name, [argP, js (text! "callback"), js (text! "errorCallback")], false⟩, call [cpp! "*arg"]),
       (⟨cpp! "void", cls, name, [argP, retP, js (text! "errorCallback")], false⟩, call [cpp! "*arg"])] else [])

/-- The functions of a client: the constructor makes no calls. -/
def clientSigs (o : Options) (c : Ctx) (s : ServiceText) : List (Sig × List (Text × Text × List (List Lexeme))) :=
  let cls := around o c ++ [upperCaseName s.name ++ text! "Client"]
  (⟨[], cls, [.word (upperCaseName s.name ++ text! "Client")], [objectParam], false⟩, []) :: s.methods.flatMap (methodSigs o cls)

/-- The constructor of a client hands the full name of the service to the class it is derived from. -/
def clientInits (c : Ctx) (s : ServiceText) : List (Option (Text × List Lexeme)) :=
  [some (text! "QAbstractGrpcClient", [.str ((text! ".").intercalate (c.package ++ [s.name])), .punct ',', .word (text! "parent")])]

end QtPb.Gen.Text.Spec
