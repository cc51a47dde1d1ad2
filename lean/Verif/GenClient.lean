import Verif.GenFiles
/-
Model of the client classes the generator prints for services (src/generator/clientdeclarationprinter.cpp,
clientdefinitionprinter.cpp, templates.cpp). A method is modelled by its signature and by the call of the base class
(`QAbstractGrpcClient::call`, `stream`) its body makes. Left out: the rest of the bodies.
-/
namespace QtPb.Gen

def kStream : Str := ['s', 't', 'r', 'e', 'a', 'm']
def kCall : Str := ['c', 'a', 'l', 'l']
def kQmlStream : Str := ['q', 'm', 'l', 'S', 't', 'r', 'e', 'a', 'm']
def kPrivate : Str := ['_', 'p']
def kClientClass : Str := ['C', 'l', 'i', 'e', 'n', 't']

example : kQmlStream = "qmlStream".toList := by simp [kQmlStream]

/-- `utils::replace` (utils.h:70-76) with "." and "::", as it is called for names of types. -/
def replaceDots : Str → Str
  | [] => []
  | c :: s => if c = '.' then ':' :: ':' :: replaceDots s else c :: replaceDots s

/-- The type of a parameter of a printed method, by the template: `const T &`, `T *`, `const QPointer<T> &`, `const QObject *`,
`const std::function<…> &`, `const QJSValue &`. -/
inductive Param
  | ref (t : Str)
  | ptr (t : Str)
  | pointer (t : Str)
  | context
  | callback
  | jsValue
deriving DecidableEq, Repr

/-- What a declaration of a method says: its name and the types of its parameters. -/
structure Sig where
  name : Str
  params : List Param
deriving DecidableEq, Repr

/-- The definition of a method. `base`: the function of the base class its body calls; `method`: the first argument of that call;
`reads`: the type the answer is read into (none if the caller reads it). -/
structure MethodDef where
  sig : Sig
  base : Str
  method : Str
  reads : Option Str
deriving DecidableEq, Repr

/-- `full_name()` of a message or service: the components with dots between them. -/
def fullName (q : Path) : Str := getNamespacesString ['.'] q

/-- "param_type" of `common::produceMethodMap` (generatorcommon.cpp:409-426). -/
def paramType (m : MethodD) : Str := replaceDots (fullName m.input)
/-- "return_type" of `common::produceMethodMap` (generatorcommon.cpp:409-426). -/
def returnType (m : MethodD) : Str := replaceDots (fullName m.output)
/-- "method_name_upper" of `common::produceMethodMap` (generatorcommon.cpp:414-415). -/
def methodUpper (m : MethodD) : Str := upperCaseName m.name

/-- The declarations for a call (templates.cpp:294-298, clientdeclarationprinter.cpp:86-92). -/
def unaryDecls (qml : Bool) (m : MethodD) : List Sig :=
  [⟨m.name, [.ref (paramType m), .pointer (returnType m)]⟩,
   ⟨m.name, [.ref (paramType m)]⟩,
   ⟨m.name, [.ref (paramType m), .context, .callback]⟩] ++
  if qml then [⟨m.name, [.ptr (paramType m), .jsValue, .jsValue]⟩, ⟨m.name, [.ptr (paramType m), .ptr (returnType m), .jsValue]⟩] else []

/-- The public declarations for a stream (templates.cpp:382-383, clientdeclarationprinter.cpp:82-84). -/
def streamDecls (m : MethodD) : List Sig :=
  [⟨kStream ++ methodUpper m, [.ref (paramType m)]⟩, ⟨kStream ++ methodUpper m, [.ref (paramType m), .pointer (returnType m)]⟩]

/-- The private declaration for a stream (templates.cpp:384, clientdeclarationprinter.cpp:103-107). -/
def qmlStreamDecls (qml : Bool) (m : MethodD) : List Sig :=
  if qml then [⟨kQmlStream ++ methodUpper m ++ kPrivate, [.ptr (paramType m), .ptr (returnType m)]⟩] else []

/-- `ClientDeclarationPrinter::printClientMethodsDeclaration` (clientdeclarationprinter.cpp:75-111). -/
def declaredMethods (qml : Bool) (s : ServiceD) : List Sig :=
  (s.methods.flatMap fun m => if m.serverStreaming then streamDecls m else unaryDecls qml m) ++
  s.methods.flatMap fun m => if m.serverStreaming then qmlStreamDecls qml m else []

/-- The definitions for a call (templates.cpp:306-371, clientdefinitionprinter.cpp:56-63). -/
def unaryDefs (qml : Bool) (m : MethodD) : List MethodDef :=
  [⟨⟨m.name, [.ref (paramType m), .pointer (returnType m)]⟩, kCall, m.name, some (returnType m)⟩,
   ⟨⟨m.name, [.ref (paramType m)]⟩, kCall, m.name, none⟩,
   ⟨⟨m.name, [.ref (paramType m), .context, .callback]⟩, kCall, m.name, none⟩] ++
  if qml then
    [⟨⟨m.name, [.ptr (paramType m), .jsValue, .jsValue]⟩, kCall, m.name, some (returnType m)⟩,
     ⟨⟨m.name, [.ptr (paramType m), .ptr (returnType m), .jsValue]⟩, kCall, m.name, some (returnType m)⟩]
  else []

/-- The definitions for a stream (templates.cpp:386-397, clientdefinitionprinter.cpp:50-55). -/
def streamDefs (qml : Bool) (m : MethodD) : List MethodDef :=
  [⟨⟨kStream ++ methodUpper m, [.ref (paramType m)]⟩, kStream, m.name, none⟩,
   ⟨⟨kStream ++ methodUpper m, [.ref (paramType m), .pointer (returnType m)]⟩, kStream, m.name, some (returnType m)⟩] ++
  if qml then
    [⟨⟨kQmlStream ++ methodUpper m ++ kPrivate, [.ptr (paramType m), .ptr (returnType m)]⟩, kStream, m.name, some (returnType m)⟩]
  else []

/-- `ClientDefinitionPrinter::printMethods` (clientdefinitionprinter.cpp:45-66). -/
def definedMethods (qml : Bool) (s : ServiceD) : List MethodDef :=
  s.methods.flatMap fun m => if m.serverStreaming then streamDefs qml m else unaryDefs qml m

/-- The class of the client (descriptorprinterbase.h:52, clientdeclarationprinter.cpp:45). -/
def clientClass (s : ServiceD) : Str := upperCaseName s.name ++ kClientClass

/-- The name of the service given to the base class (clientdefinitionprinter.cpp:68-73): `full_name()`. -/
def serviceName (package : List Str) (s : ServiceD) : Str := fullName (package ++ [s.name])

/-- The path of the request for a call or stream with the given method: `QGrpcHttp2ChannelPrivate::post` (qgrpchttp2channel.cpp:117),
with the service of the client (qabstractgrpcclient.cpp:87, 125, 185). -/
def requestPath (package : List Str) (s : ServiceD) (m : MethodDef) : Str :=
  '/' :: serviceName package s ++ '/' :: m.method

end QtPb.Gen
