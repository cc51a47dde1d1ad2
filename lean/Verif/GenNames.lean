import Verif.Gen
/-
Model of the names of types that the generator prints (src/generator/generatorcommon.h/.cpp).
-/
namespace QtPb.Gen

/-- What the functions below see of a message or enumeration: `full_name()`, `name()`, `file()->package()`. -/
structure TypeD where
  full : Str
  name : Str
  package : Str
deriving DecidableEq, Repr

/-- `Templates::EnumClassSuffix` (templates.cpp:423). -/
def kGadget : Str := ['G', 'a', 'd', 'g', 'e', 't']
/-- `Templates::ListSuffix` (templates.cpp:399). -/
def kRepeated : Str := ['R', 'e', 'p', 'e', 'a', 't', 'e', 'd']

example : kGadget = "Gadget".toList := by simp [kGadget]
example : kRepeated = "Repeated".toList := by simp [kRepeated]

/-- `common::getNamespaces` (generatorcommon.h:52-63); none is the null pointer. -/
def getNamespaces : Option TypeD → List Str
  | none => []
  | some t => (split '.' t.full).dropLast

/-- `common::getNestedNamespaces` (generatorcommon.h:65-72). -/
def getNestedNamespaces (t : TypeD) : List Str :=
  let namespaces := getNamespaces (some t)
  let package := split '.' t.package
  namespaces.take package.length ++ (namespaces.drop package.length).map (· ++ kNested)

/-- `common::isNested` (generatorcommon.cpp:472-490): the fields of the containing message (none if there is none) and the message. -/
def isNested (containing : Option (List FieldD)) (q : Path) : Bool :=
  match containing with
  | none => false
  | some fields =>
    match fields.find? (fun f => f.msgType == some q) with
    | some f => !f.isMap
    | none => true

/-- The entries of a type map that are used to print types. -/
structure TypeMap where
  type : Str
  full_type : Str
  scope_type : Str
  list_type : Str
  full_list_type : Str
  scope_list_type : Str
  namespaces : Str
  scope_namespaces : Str
deriving DecidableEq, Repr

/-- `namespaces.empty() ? name : (namespaces + "::" + name)`. -/
def qualify (namespaces name : Str) : Str := if namespaces = [] then name else namespaces ++ kScope ++ name

/-- `common::produceMessageTypeMap` (generatorcommon.cpp:95-134); `nested` is `isNested(type)`. -/
def messageTypeMap (extra : Str) (type : TypeD) (nested : Bool) (scope : Option TypeD) : TypeMap :=
  let namespaceList := (if extra = [] then [] else [extra]) ++ getNamespaces (some type)
  let nestedNamespaceList := if nested then getNestedNamespaces type else namespaceList
  let namespaces := getNamespacesString kScope namespaceList
  let scopeNamespaces := getScopeNamespacesString (getNamespacesString kScope nestedNamespaceList)
    (getNamespacesString kScope (getNamespaces scope))
  let name := upperCaseName type.name
  { type := name, full_type := qualify namespaces name, scope_type := qualify scopeNamespaces name, list_type := name ++ kRepeated,
    full_list_type := qualify namespaces (name ++ kRepeated), scope_list_type := qualify scopeNamespaces (name ++ kRepeated),
    namespaces := namespaces, scope_namespaces := scopeNamespaces }

/-- `common::EnumVisibility` (generatorcommon.h:46-50). -/
inductive EnumVisibility | global | local | neighbor
deriving DecidableEq, Repr

/-- `common::enumVisibility` (generatorcommon.cpp:378-398) with `isLocalEnum` (362-376): the enumerations are given by their full
names; `scopeEnums` are those of the scope, `topEnums` those of the top-level messages of the file. -/
def enumVisibility (full : Str) (scopeEnums topEnums : List Str) : EnumVisibility :=
  if scopeEnums.contains full then .local else if topEnums.contains full then .neighbor else .global

/-- `common::produceEnumTypeMap` (generatorcommon.cpp:136-186). -/
def enumTypeMap (extra : Str) (type : TypeD) (visibility : EnumVisibility) (scope : Option TypeD) : TypeMap :=
  let name := upperCaseName type.name
  let namespaceList := (if extra = [] then [] else [extra]) ++ getNamespaces (some type) ++
    (if visibility = .global then [name ++ kGadget] else [])
  let namespaces := getNamespacesString kScope namespaceList
  let scopeNamespaces := getScopeNamespacesString namespaces (getNamespacesString kScope (getNamespaces scope))
  { type := name, full_type := qualify namespaces name, scope_type := qualify scopeNamespaces name, list_type := name ++ kRepeated,
    full_list_type := qualify namespaces (name ++ kRepeated), scope_list_type := qualify scopeNamespaces (name ++ kRepeated),
    namespaces := namespaces, scope_namespaces := scopeNamespaces }

end QtPb.Gen
