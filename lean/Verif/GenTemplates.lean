import Verif.GenText
/-
The templates of the generator (src/generator/templates.cpp), as far as they are used to print messages, enumerations and clients.
A text is a list of characters; `text!` writes it as a text in quotation marks.
-/
namespace QtPb.Gen.Text
open QtPb.Gen

open Lean in
/-- `text! "ab"` is the list `['a', 'b']` (the kernel computes with this). -/
macro "text! " s:str : term => do
  let cs := s.getString.toList.map fun c => Syntax.mkCharLit c
  `([$(cs.toArray),*])

example : text! "a\"\n" = ['a', '"', '\n'] := rfl

/-- `Templates::DefaultProtobufIncludesTemplate` (templates.cpp:34-42). -/
def tDefaultProtobufIncludesTemplate : Str := text! "#include <QMetaType>\n#include <QList>\n#include <QProtobufObject>\n#include <QProtobufLazyMessagePointer>\n#include <QSharedPointer>\n\n#include <memory>\n#include <unordered_map>\n\n"
/-- `Templates::QmlProtobufIncludesTemplate` (templates.cpp:44-45). -/
def tQmlProtobufIncludesTemplate : Str := text! "#include <QtQml/QQmlListProperty>\n#include <QQmlListPropertyConstructor>\n\n"
/-- `Templates::DisclaimerTemplate` (templates.cpp:49). -/
def tDisclaimerTemplate : Str := text! "/* This file is autogenerated. DO NOT CHANGE. All changes will be lost */\n\n"
/-- `Templates::PreambleTemplate` (templates.cpp:51-52). -/
def tPreambleTemplate : Str := text! "#pragma once\n\n#include <QObject>\n"
/-- `Templates::InternalIncludeTemplate` (templates.cpp:54). -/
def tInternalIncludeTemplate : Str := text! "#include \"$include$.h\"\n"
/-- `Templates::ExternalIncludeTemplate` (templates.cpp:55). -/
def tExternalIncludeTemplate : Str := text! "#include <$include$>\n"
/-- `Templates::ManualRegistrationDeclaration` (templates.cpp:59). -/
def tManualRegistrationDeclaration : Str := text! "static void registerTypes();\n"
/-- `Templates::ManualRegistrationComplexTypeDefinition` (templates.cpp:60-64). -/
def tManualRegistrationComplexTypeDefinition : Str := text! "void $type$::registerTypes()\n{\n    qRegisterMetaType<$type$>(\"$full_type$\");\n    qRegisterMetaType<$type$*>(\"$full_type$*\");\n    qRegisterMetaType<$list_type$>(\"$full_list_type$\");\n"
/-- `Templates::ManualRegistrationGlobalEnumDefinition` (templates.cpp:65-66). -/
def tManualRegistrationGlobalEnumDefinition : Str := text! "void $enum_gadget$::registerTypes()\n{\n"
/-- `Templates::ComplexGlobalEnumFieldRegistrationTemplate` (templates.cpp:67). -/
def tComplexGlobalEnumFieldRegistrationTemplate : Str := text! "qRegisterMetaType<$type$>(\"$full_type$\");\n"
/-- `Templates::ComplexListTypeUsingTemplate` (templates.cpp:68). -/
def tComplexListTypeUsingTemplate : Str := text! "using $classname$Repeated = QList<QSharedPointer<$classname$>>;\n"
/-- `Templates::MapTypeUsingTemplate` (templates.cpp:69). -/
def tMapTypeUsingTemplate : Str := text! "using $type$ = QMap<$key_type$, $value_type$>;\n"
/-- `Templates::MessageMapTypeUsingTemplate` (templates.cpp:70). -/
def tMessageMapTypeUsingTemplate : Str := text! "using $type$ = QMap<$key_type$, QSharedPointer<$value_type$>>;\n"
/-- `Templates::NestedMessageUsingTemplate` (templates.cpp:71-72). -/
def tNestedMessageUsingTemplate : Str := text! "using $type$ = $scope_namespaces$::$type$;\nusing $list_type$ = $scope_namespaces$::$list_type$;\n"
/-- `Templates::EnumTypeRepeatedTemplate` (templates.cpp:74). -/
def tEnumTypeRepeatedTemplate : Str := text! "using $list_type$ = QList<$type$>;\n"
/-- `Templates::NamespaceTemplate` (templates.cpp:76). -/
def tNamespaceTemplate : Str := text! "namespace $namespace$ {\n"
/-- `Templates::UsingNamespaceTemplate` (templates.cpp:77). -/
def tUsingNamespaceTemplate : Str := text! "using namespace $namespace$;\n"
/-- `Templates::ClassDeclarationTemplate` (templates.cpp:78-80). -/
def tClassDeclarationTemplate : Str := text! "\nclass $classname$ : public QObject\n{\n    Q_OBJECT\n"
/-- `Templates::ProtoClassForwardDeclarationTemplate` (templates.cpp:81). -/
def tProtoClassForwardDeclarationTemplate : Str := text! "class $classname$;\n"
/-- `Templates::ProtoClassDeclarationBeginTemplate` (templates.cpp:82-86). -/
def tProtoClassDeclarationBeginTemplate : Str := text! "\nclass $classname$ : public QObject\n{\n    Q_OBJECT\n    Q_PROTOBUF_OBJECT\n    Q_DECLARE_PROTOBUF_SERIALIZERS($classname$)\n"
/-- `Templates::PropertyTemplate` (templates.cpp:88). -/
def tPropertyTemplate : Str := text! "Q_PROPERTY($property_type$ $property_name$ READ $property_name$ WRITE set$property_name_cap$ NOTIFY $property_name$Changed SCRIPTABLE $scriptable$)\n"
/-- `Templates::RepeatedPropertyTemplate` (templates.cpp:89). -/
def tRepeatedPropertyTemplate : Str := text! "Q_PROPERTY($property_list_type$ $property_name$ READ $property_name$ WRITE set$property_name_cap$ NOTIFY $property_name$Changed SCRIPTABLE $scriptable$)\n"
/-- `Templates::RepeatedMessagePropertyTemplate` (templates.cpp:90). -/
def tRepeatedMessagePropertyTemplate : Str := text! "Q_PROPERTY($property_list_type$ $property_name$Data READ $property_name$ WRITE set$property_name_cap$ NOTIFY $property_name$Changed SCRIPTABLE $scriptable$)\n"
/-- `Templates::NonScriptablePropertyTemplate` (templates.cpp:91). -/
def tNonScriptablePropertyTemplate : Str := text! "Q_PROPERTY($property_type$ $property_name$_p READ $property_name$ WRITE set$property_name_cap$ NOTIFY $property_name$Changed SCRIPTABLE false)\n"
/-- `Templates::NonScriptableAliasPropertyTemplate` (templates.cpp:92). -/
def tNonScriptableAliasPropertyTemplate : Str := text! "Q_PROPERTY($qml_alias_type$ $property_name$ READ $property_name$_p WRITE set$property_name_cap$_p NOTIFY $property_name$Changed SCRIPTABLE true)\n"
/-- `Templates::MessagePropertyTemplate` (templates.cpp:93). -/
def tMessagePropertyTemplate : Str := text! "Q_PROPERTY($property_type$ *$property_name$ READ $property_name$_p WRITE set$property_name_cap$_p NOTIFY $property_name$Changed)\n"
/-- `Templates::QmlListPropertyTemplate` (templates.cpp:94). -/
def tQmlListPropertyTemplate : Str := text! "Q_PROPERTY(QQmlListProperty<$property_type$> $property_name$ READ $property_name$_l NOTIFY $property_name$Changed)\n"
/-- `Templates::ConstructorParameterTemplate` (templates.cpp:96). -/
def tConstructorParameterTemplate : Str := text! "$scope_type$ $property_name$,"
/-- `Templates::ConstructorMessageParameterTemplate` (templates.cpp:97). -/
def tConstructorMessageParameterTemplate : Str := text! "const $scope_type$ &$property_name$,"
/-- `Templates::ConstructorRepeatedParameterTemplate` (templates.cpp:98). -/
def tConstructorRepeatedParameterTemplate : Str := text! "const $scope_list_type$ &$property_name$,"
/-- `Templates::ProtoConstructorBeginTemplate` (templates.cpp:99). -/
def tProtoConstructorBeginTemplate : Str := text! "$classname$("
/-- `Templates::ProtoConstructorEndTemplate` (templates.cpp:100). -/
def tProtoConstructorEndTemplate : Str := text! "QObject *parent = nullptr);\n"
/-- `Templates::MemberTemplate` (templates.cpp:102). -/
def tMemberTemplate : Str := text! "$scope_type$ m_$property_name$;\n"
/-- `Templates::ListMemberTemplate` (templates.cpp:103). -/
def tListMemberTemplate : Str := text! "$scope_list_type$ m_$property_name$;\n"
/-- `Templates::ComplexMemberTemplate` (templates.cpp:104). -/
def tComplexMemberTemplate : Str := text! "QProtobufLazyMessagePointer<$scope_type$> m_$property_name$;\n"
/-- `Templates::PublicBlockTemplate` (templates.cpp:105). -/
def tPublicBlockTemplate : Str := text! "\npublic:\n"
/-- `Templates::PrivateBlockTemplate` (templates.cpp:106). -/
def tPrivateBlockTemplate : Str := text! "\nprivate:\n"
/-- `Templates::EnumDefinitionTemplate` (templates.cpp:107). -/
def tEnumDefinitionTemplate : Str := text! "enum $type$ {\n"
/-- `Templates::EnumFieldTemplate` (templates.cpp:108). -/
def tEnumFieldTemplate : Str := text! "$enumvalue$ = $value$,\n"
/-- `Templates::ProtoConstructorDefinitionBeginTemplate` (templates.cpp:111). -/
def tProtoConstructorDefinitionBeginTemplate : Str := text! "$type$::$type$("
/-- `Templates::ProtoConstructorDefinitionEndTemplate` (templates.cpp:112). -/
def tProtoConstructorDefinitionEndTemplate : Str := text! "QObject *parent) : QObject(parent)"
/-- `Templates::QObjectConstructorTemplate` (templates.cpp:115). -/
def tQObjectConstructorTemplate : Str := text! "explicit $classname$(QObject *parent = nullptr);\n"
/-- `Templates::ConstructorHeaderTemplate` (templates.cpp:116). -/
def tConstructorHeaderTemplate : Str := text! "$classname$() {}\n"
/-- `Templates::CopyConstructorDeclarationTemplate` (templates.cpp:117). -/
def tCopyConstructorDeclarationTemplate : Str := text! "$classname$(const $classname$ &other);\n"
/-- `Templates::MoveConstructorDeclarationTemplate` (templates.cpp:118). -/
def tMoveConstructorDeclarationTemplate : Str := text! "$classname$($classname$ &&other);\n"
/-- `Templates::CopyConstructorDefinitionTemplate` (templates.cpp:119). -/
def tCopyConstructorDefinitionTemplate : Str := text! "$classname$::$classname$(const $classname$ &other) : QObject()"
/-- `Templates::MoveConstructorDefinitionTemplate` (templates.cpp:120). -/
def tMoveConstructorDefinitionTemplate : Str := text! "$classname$::$classname$($classname$ &&other) : QObject()"
/-- `Templates::EmptyCopyConstructorDefinitionTemplate` (templates.cpp:121). -/
def tEmptyCopyConstructorDefinitionTemplate : Str := text! "$classname$::$classname$(const $classname$ &) : QObject()"
/-- `Templates::EmptyMoveConstructorDefinitionTemplate` (templates.cpp:122). -/
def tEmptyMoveConstructorDefinitionTemplate : Str := text! "$classname$::$classname$($classname$ &&) : QObject()"
/-- `Templates::DeletedCopyConstructorTemplate` (templates.cpp:123). -/
def tDeletedCopyConstructorTemplate : Str := text! "$classname$(const $classname$ &) = delete;\n"
/-- `Templates::DeletedMoveConstructorTemplate` (templates.cpp:124). -/
def tDeletedMoveConstructorTemplate : Str := text! "$classname$($classname$ &&) = delete;\n"
/-- `Templates::CopyFieldTemplate` (templates.cpp:125). -/
def tCopyFieldTemplate : Str := text! "set$property_name_cap$(other.m_$property_name$);\n"
/-- `Templates::CopyComplexFieldTemplate` (templates.cpp:126-128). -/
def tCopyComplexFieldTemplate : Str := text! "if (m_$property_name$ != other.m_$property_name$) {\n    *m_$property_name$ = *other.m_$property_name$;\n}\n"
/-- `Templates::AssignComplexFieldTemplate` (templates.cpp:129-132). -/
def tAssignComplexFieldTemplate : Str := text! "if (m_$property_name$ != other.m_$property_name$) {\n    *m_$property_name$ = *other.m_$property_name$;\n    $property_name$Changed();\n}\n"
/-- `Templates::MoveMessageFieldTemplate` (templates.cpp:133-135). -/
def tMoveMessageFieldTemplate : Str := text! "if (m_$property_name$ != other.m_$property_name$) {\n    *m_$property_name$ = std::move(*other.m_$property_name$);\n}\n"
/-- `Templates::MoveAssignMessageFieldTemplate` (templates.cpp:136-140). -/
def tMoveAssignMessageFieldTemplate : Str := text! "if (m_$property_name$ != other.m_$property_name$) {\n    *m_$property_name$ = std::move(*other.m_$property_name$);\n    $property_name$Changed();\n    other.$property_name$Changed();\n}\n"
/-- `Templates::MoveComplexFieldTemplate` (templates.cpp:141-145). -/
def tMoveComplexFieldTemplate : Str := text! "if (m_$property_name$ != other.m_$property_name$) {\n    m_$property_name$ = std::move(other.m_$property_name$);\n    $property_name$Changed();\n    other.$property_name$Changed();\n}"
/-- `Templates::MoveComplexFieldConstructorTemplate` (templates.cpp:147-148). -/
def tMoveComplexFieldConstructorTemplate : Str := text! "m_$property_name$ = std::move(other.m_$property_name$);\nother.$property_name$Changed();\n"
/-- `Templates::MoveFieldTemplate` (templates.cpp:150-151). -/
def tMoveFieldTemplate : Str := text! "set$property_name_cap$(std::exchange(other.m_$property_name$, 0));\nother.$property_name$Changed();\n"
/-- `Templates::EnumMoveFieldTemplate` (templates.cpp:152). -/
def tEnumMoveFieldTemplate : Str := text! "m_$property_name$ = other.m_$property_name$;\n"
/-- `Templates::AssignmentOperatorDeclarationTemplate` (templates.cpp:154). -/
def tAssignmentOperatorDeclarationTemplate : Str := text! "$classname$ &operator =(const $classname$ &other);\n"
/-- `Templates::AssignmentOperatorDefinitionTemplate` (templates.cpp:155). -/
def tAssignmentOperatorDefinitionTemplate : Str := text! "$classname$ &$classname$::operator =(const $classname$ &other)\n{\n"
/-- `Templates::EmptyAssignmentOperatorDefinitionTemplate` (templates.cpp:156). -/
def tEmptyAssignmentOperatorDefinitionTemplate : Str := text! "$classname$ &$classname$::operator =(const $classname$ &)\n{\n"
/-- `Templates::AssignmentOperatorReturnTemplate` (templates.cpp:157). -/
def tAssignmentOperatorReturnTemplate : Str := text! "return *this;\n"
/-- `Templates::MoveAssignmentOperatorDeclarationTemplate` (templates.cpp:159). -/
def tMoveAssignmentOperatorDeclarationTemplate : Str := text! "$classname$ &operator =($classname$ &&other);\n"
/-- `Templates::MoveAssignmentOperatorDefinitionTemplate` (templates.cpp:160). -/
def tMoveAssignmentOperatorDefinitionTemplate : Str := text! "$classname$ &$classname$::operator =($classname$ &&other)\n{\n"
/-- `Templates::EmptyMoveAssignmentOperatorDefinitionTemplate` (templates.cpp:161). -/
def tEmptyMoveAssignmentOperatorDefinitionTemplate : Str := text! "$classname$ &$classname$::operator =($classname$ &&)\n{\n"
/-- `Templates::EqualOperatorDeclarationTemplate` (templates.cpp:163). -/
def tEqualOperatorDeclarationTemplate : Str := text! "bool operator ==(const $classname$ &other) const;\n"
/-- `Templates::EqualOperatorDefinitionTemplate` (templates.cpp:164-165). -/
def tEqualOperatorDefinitionTemplate : Str := text! "bool $classname$::operator ==(const $classname$ &other) const\n{\n    return "
/-- `Templates::EmptyEqualOperatorDefinitionTemplate` (templates.cpp:166-168). -/
def tEmptyEqualOperatorDefinitionTemplate : Str := text! "bool $classname$::operator ==(const $classname$ &) const\n{\n    return true;\n}\n\n"
/-- `Templates::EqualOperatorPropertyTemplate` (templates.cpp:169). -/
def tEqualOperatorPropertyTemplate : Str := text! "m_$property_name$ == other.m_$property_name$"
/-- `Templates::EqualOperatorMessagePropertyTemplate` (templates.cpp:170-171). -/
def tEqualOperatorMessagePropertyTemplate : Str := text! "(m_$property_name$ == other.m_$property_name$\n    || *m_$property_name$ == *other.m_$property_name$)\n"
/-- `Templates::EqualOperatorRepeatedPropertyTemplate` (templates.cpp:172). -/
def tEqualOperatorRepeatedPropertyTemplate : Str := text! "QtProtobuf::repeatedValueCompare(m_$property_name$, other.m_$property_name$)"
/-- `Templates::NotEqualOperatorDeclarationTemplate` (templates.cpp:174). -/
def tNotEqualOperatorDeclarationTemplate : Str := text! "bool operator !=(const $classname$ &other) const;\n"
/-- `Templates::NotEqualOperatorDefinitionTemplate` (templates.cpp:175-177). -/
def tNotEqualOperatorDefinitionTemplate : Str := text! "bool $classname$::operator !=(const $classname$ &other) const\n{\n    return !this->operator ==(other);\n}\n\n"
/-- `Templates::GetterPrivateMessageDeclarationTemplate` (templates.cpp:179). -/
def tGetterPrivateMessageDeclarationTemplate : Str := text! "$getter_type$ *$property_name$_p() const;\n"
/-- `Templates::GetterPrivateMessageDefinitionTemplate` (templates.cpp:180-182). -/
def tGetterPrivateMessageDefinitionTemplate : Str := text! "$getter_type$ *$classname$::$property_name$_p() const\n{\n    return m_$property_name$.get();\n}\n\n"
/-- `Templates::GetterMessageDeclarationTemplate` (templates.cpp:184). -/
def tGetterMessageDeclarationTemplate : Str := text! "$getter_type$ &$property_name$() const;\n"
/-- `Templates::GetterMessageDefinitionTemplate` (templates.cpp:185-187). -/
def tGetterMessageDefinitionTemplate : Str := text! "$getter_type$ &$classname$::$property_name$() const\n{\n    return *m_$property_name$;\n}\n\n"
/-- `Templates::GetterTemplate` (templates.cpp:189-191). -/
def tGetterTemplate : Str := text! "$getter_type$ $property_name$() const {\n    return m_$property_name$;\n}\n\n"
/-- `Templates::NonScriptableGetterTemplate` (templates.cpp:193-195). -/
def tNonScriptableGetterTemplate : Str := text! "$qml_alias_type$ $property_name$_p() const {\n    return m_$property_name$;\n}\n\n"
/-- `Templates::GetterContainerExtraTemplate` (templates.cpp:197-199). -/
def tGetterContainerExtraTemplate : Str := text! "$getter_type$ &$property_name$() {\n    return m_$property_name$;\n}\n\n"
/-- `Templates::GetterQmlListDeclarationTemplate` (templates.cpp:201). -/
def tGetterQmlListDeclarationTemplate : Str := text! "QQmlListProperty<$scope_type$> $property_name$_l();\n"
/-- `Templates::GetterQmlListDefinitionTemplate` (templates.cpp:202-204). -/
def tGetterQmlListDefinitionTemplate : Str := text! "QQmlListProperty<$full_type$> $classname$::$property_name$_l()\n{\n    return QtProtobuf::constructQmlListProperty<$scope_type$>(this, &m_$property_name$);\n}\n\n"
/-- `Templates::SetterPrivateTemplateDeclarationMessageType` (templates.cpp:206). -/
def tSetterPrivateTemplateDeclarationMessageType : Str := text! "void set$property_name_cap$_p($setter_type$ *$property_name$);\n"
/-- `Templates::SetterPrivateTemplateDefinitionMessageType` (templates.cpp:207-212). -/
def tSetterPrivateTemplateDefinitionMessageType : Str := text! "void $classname$::set$property_name_cap$_p($setter_type$ *$property_name$)\n{\n    if (m_$property_name$.get() != $property_name$) {\n        m_$property_name$.reset($property_name$);\n        $property_name$Changed();\n    }\n}\n\n"
/-- `Templates::SetterTemplateDeclarationMessageType` (templates.cpp:214). -/
def tSetterTemplateDeclarationMessageType : Str := text! "void set$property_name_cap$(const $setter_type$ &$property_name$);\n"
/-- `Templates::SetterTemplateDefinitionMessageType` (templates.cpp:215-220). -/
def tSetterTemplateDefinitionMessageType : Str := text! "void $classname$::set$property_name_cap$(const $setter_type$ &$property_name$)\n{\n    if (*m_$property_name$ != $property_name$) {\n        *m_$property_name$ = $property_name$;\n        $property_name$Changed();\n    }\n}\n\n"
/-- `Templates::SetterTemplateDeclarationComplexType` (templates.cpp:222). -/
def tSetterTemplateDeclarationComplexType : Str := text! "void set$property_name_cap$(const $setter_type$ &$property_name$);\n"
/-- `Templates::SetterTemplateDefinitionComplexType` (templates.cpp:223-228). -/
def tSetterTemplateDefinitionComplexType : Str := text! "void $classname$::set$property_name_cap$(const $setter_type$ &$property_name$)\n{\n    if (m_$property_name$ != $property_name$) {\n        m_$property_name$ = $property_name$;\n        $property_name$Changed();\n    }\n}\n\n"
/-- `Templates::SetterTemplate` (templates.cpp:230-235). -/
def tSetterTemplate : Str := text! "void set$property_name_cap$(const $setter_type$ &$property_name$) {\n    if (m_$property_name$ != $property_name$) {\n        m_$property_name$ = $property_name$;\n        $property_name$Changed();\n    }\n}\n\n"
/-- `Templates::NonScriptableSetterTemplate` (templates.cpp:236-241). -/
def tNonScriptableSetterTemplate : Str := text! "void set$property_name_cap$_p(const $qml_alias_type$ &$property_name$) {\n    if (m_$property_name$ != $property_name$) {\n        m_$property_name$ = $property_name$;\n        $property_name$Changed();\n    }\n}\n\n"
/-- `Templates::SignalsBlockTemplate` (templates.cpp:243). -/
def tSignalsBlockTemplate : Str := text! "\nsignals:\n"
/-- `Templates::SignalTemplate` (templates.cpp:244). -/
def tSignalTemplate : Str := text! "void $property_name$Changed();\n"
/-- `Templates::FieldsOrderingContainerTemplate` (templates.cpp:246-247). -/
def tFieldsOrderingContainerTemplate : Str := text! "const QtProtobuf::QProtobufMetaObject $type$::protobufMetaObject = QtProtobuf::QProtobufMetaObject($type$::staticMetaObject, $type$::propertyOrdering);\nconst QtProtobuf::QProtobufPropertyOrdering $type$::propertyOrdering = {"
/-- `Templates::FieldOrderTemplate` (templates.cpp:248). -/
def tFieldOrderTemplate : Str := text! "{$field_number$, {$property_number$, \"$json_name$\"}}"
/-- `Templates::SimpleBlockEnclosureTemplate` (templates.cpp:252). -/
def tSimpleBlockEnclosureTemplate : Str := text! "}\n"
/-- `Templates::SemicolonBlockEnclosureTemplate` (templates.cpp:253). -/
def tSemicolonBlockEnclosureTemplate : Str := text! "};\n"
/-- `Templates::PropertyInitializerTemplate` (templates.cpp:255). -/
def tPropertyInitializerTemplate : Str := text! "\n    , m_$property_name$($property_name$)"
/-- `Templates::PropertyDefaultInitializerTemplate` (templates.cpp:256). -/
def tPropertyDefaultInitializerTemplate : Str := text! "\n    , m_$property_name$($initializer$)"
/-- `Templates::MessagePropertyInitializerTemplate` (templates.cpp:257). -/
def tMessagePropertyInitializerTemplate : Str := text! "\n    , m_$property_name$(new $scope_type$($property_name$))"
/-- `Templates::MessagePropertyDefaultInitializerTemplate` (templates.cpp:258). -/
def tMessagePropertyDefaultInitializerTemplate : Str := text! "\n    , m_$property_name$(nullptr)"
/-- `Templates::ConstructorContentTemplate` (templates.cpp:259). -/
def tConstructorContentTemplate : Str := text! "\n{\n}\n"
/-- `Templates::DeclareMetaTypeTemplate` (templates.cpp:261). -/
def tDeclareMetaTypeTemplate : Str := text! "Q_DECLARE_METATYPE($full_type$)\n"
/-- `Templates::DeclareMetaTypeListTemplate` (templates.cpp:262). -/
def tDeclareMetaTypeListTemplate : Str := text! "Q_DECLARE_METATYPE($full_list_type$)\n"
/-- `Templates::DeclareComplexListTypeTemplate` (templates.cpp:266). -/
def tDeclareComplexListTypeTemplate : Str := text! "Q_DECLARE_METATYPE($full_list_type$)\n"
/-- `Templates::DeclareComplexQmlListTypeTemplate` (templates.cpp:267). -/
def tDeclareComplexQmlListTypeTemplate : Str := text! "Q_DECLARE_METATYPE(QQmlListProperty<$full_type$>)\n"
/-- `Templates::DeclareMetaTypeMapTemplate` (templates.cpp:269-272). -/
def tDeclareMetaTypeMapTemplate : Str := text! "#ifndef Q_PROTOBUF_MAP_$key_type_underscore$_$value_type_underscore$\n#define Q_PROTOBUF_MAP_$key_type_underscore$_$value_type_underscore$\nQ_DECLARE_METATYPE($full_type$)\n#endif\n"
/-- `Templates::RegisterLocalEnumTemplate` (templates.cpp:275-278). -/
def tRegisterLocalEnumTemplate : Str := text! "qRegisterProtobufEnumType<$scope_type$>();\nqRegisterMetaType<$scope_type$>(\"$type$\");\nqRegisterMetaType<$scope_type$>(\"$full_type$\");\nqRegisterMetaType<$scope_list_type$>(\"$full_list_type$\");\n"
/-- `Templates::RegisterMapTemplate` (templates.cpp:279-281). -/
def tRegisterMapTemplate : Str := text! "qRegisterMetaType<$scope_type$>(\"$full_type$\");\nqRegisterMetaType<$scope_type$>(\"$full_list_type$\");\nqRegisterProtobufMapType<$key_type$, $value_type$>();\n"
/-- `Templates::RegisterGlobalEnumMetaTypeTemplate` (templates.cpp:285). -/
def tRegisterGlobalEnumMetaTypeTemplate : Str := text! "qRegisterMetaType<$full_type$>(\"$full_type$\");\n"
/-- `Templates::RegisterQmlListPropertyMetaTypeTemplate` (templates.cpp:286). -/
def tRegisterQmlListPropertyMetaTypeTemplate : Str := text! "qRegisterMetaType<QQmlListProperty<$full_type$>>(\"QQmlListProperty<$full_type$>\");\n"
/-- `Templates::QEnumTemplate` (templates.cpp:289). -/
def tQEnumTemplate : Str := text! "Q_ENUM($type$)\n"
/-- `Templates::ClassDefinitionTemplate` (templates.cpp:291-292). -/
def tClassDefinitionTemplate : Str := text! "\nclass $classname$ : public $parent_class$\n{\n"
/-- `Templates::QObjectMacro` (templates.cpp:293). -/
def tQObjectMacro : Str := text! "Q_OBJECT"
/-- `Templates::ClientMethodDeclarationSyncTemplate` (templates.cpp:294). -/
def tClientMethodDeclarationSyncTemplate : Str := text! "QtProtobuf::QGrpcStatus $method_name$(const $param_type$ &$param_name$, const QPointer<$return_type$> &$return_name$);\n"
/-- `Templates::ClientMethodDeclarationAsyncTemplate` (templates.cpp:295). -/
def tClientMethodDeclarationAsyncTemplate : Str := text! "QtProtobuf::QGrpcCallReplyShared $method_name$(const $param_type$ &$param_name$);\n"
/-- `Templates::ClientMethodDeclarationAsync2Template` (templates.cpp:296). -/
def tClientMethodDeclarationAsync2Template : Str := text! "Q_INVOKABLE void $method_name$(const $param_type$ &$param_name$, const QObject *context, const std::function<void(QtProtobuf::QGrpcCallReplyShared)> &callback);\n"
/-- `Templates::ClientMethodDeclarationQmlTemplate` (templates.cpp:297). -/
def tClientMethodDeclarationQmlTemplate : Str := text! "Q_INVOKABLE void $method_name$($param_type$ *$param_name$, const QJSValue &callback, const QJSValue &errorCallback);\n"
/-- `Templates::ClientMethodDeclarationQml2Template` (templates.cpp:298). -/
def tClientMethodDeclarationQml2Template : Str := text! "Q_INVOKABLE void $method_name$($param_type$ *$param_name$, $return_type$ *$return_name$, const QJSValue &errorCallback);\n"
/-- `Templates::ClientConstructorDefinitionTemplate` (templates.cpp:303-305). -/
def tClientConstructorDefinitionTemplate : Str := text! "\n$classname$::$classname$(QObject *parent) : $parent_class$(\"$service_name$\", parent)\n{\n}\n"
/-- `Templates::ClientMethodDefinitionSyncTemplate` (templates.cpp:306-309). -/
def tClientMethodDefinitionSyncTemplate : Str := text! "\nQtProtobuf::QGrpcStatus $classname$::$method_name$(const $param_type$ &$param_name$, const QPointer<$return_type$> &$return_name$)\n{\n    return call(\"$method_name$\", $param_name$, $return_name$);\n}\n"
/-- `Templates::ClientMethodDefinitionAsyncTemplate` (templates.cpp:310-313). -/
def tClientMethodDefinitionAsyncTemplate : Str := text! "\nQtProtobuf::QGrpcCallReplyShared $classname$::$method_name$(const $param_type$ &$param_name$)\n{\n    return call(\"$method_name$\", $param_name$);\n}\n"
/-- `Templates::ClientMethodDefinitionAsync2Template` (templates.cpp:314-320). -/
def tClientMethodDefinitionAsync2Template : Str := text! "\nvoid $classname$::$method_name$(const $param_type$ &$param_name$, const QObject *context, const std::function<void(QGrpcCallReplyShared)> &callback)\n{\n    QtProtobuf::QGrpcCallReplyShared reply = call(\"$method_name$\", $param_name$);\n    QObject::connect(reply.get(), &QtProtobuf::QGrpcCallReply::finished, context, [reply, callback]() {\n        callback(reply);\n    });\n}\n"
/-- `Templates::ClientMethodDefinitionQmlTemplate` (templates.cpp:322-345). -/
def tClientMethodDefinitionQmlTemplate : Str := text! "\nvoid $classname$::$method_name$($param_type$ *$param_name$, const QJSValue &callback, const QJSValue &errorCallback)\n{\n    if (!callback.isCallable()) {\n        qProtoWarning() << \"Unable to call $classname$::$method_name$, callback is not callable\";\n        return;\n    }\n\n    if (arg == nullptr) {\n        qProtoWarning() << \"Invalid argument provided for method $classname$::$method_name$, argument of type '$param_type$ *' expected\";\n        return;\n    }\n\n    QJSEngine *jsEngine = qjsEngine(this);\n    if (jsEngine == nullptr) {\n        qProtoWarning() << \"Unable to call $classname$::$method_name$, it's only callable from JS engine context\";\n        return;\n    }\n\n    QtProtobuf::QGrpcCallReplyShared reply = call(\"$method_name$\", *$param_name$);\n    reply->subscribe(jsEngine, [this, reply, callback, jsEngine]() {\n        auto result = new $return_type$(reply->read<$return_type$>());\n        qmlEngine(this)->setObjectOwnership(result, QQmlEngine::JavaScriptOwnership);\n        QJSValue(callback).call(QJSValueList{jsEngine->toScriptValue(result)});\n    }, [errorCallback, jsEngine](const QGrpcStatus &status) {\n        QJSValue(errorCallback).call(QJSValueList{jsEngine->toScriptValue(status)});\n    });\n}\n"
/-- `Templates::ClientMethodDefinitionQml2Template` (templates.cpp:346-372). -/
def tClientMethodDefinitionQml2Template : Str := text! "\nvoid $classname$::$method_name$($param_type$ *$param_name$, $return_type$ *$return_name$, const QJSValue &errorCallback)\n{\n    if ($return_name$ == nullptr) {\n        qProtoWarning() << \"Invalid argument provided for method $classname$::$method_name$, argument of type '$return_type$ *' expected\";\n        return;\n    }\n\n    QPointer<$return_type$> safeReturn($return_name$);\n\n    if ($param_name$ == nullptr) {\n        qProtoWarning() << \"Invalid argument provided for method $classname$::$method_name$, argument of type '$param_type$ *' expected\";\n        return;\n    }\n\n    QJSEngine *jsEngine = qjsEngine(this);\n    if (jsEngine == nullptr) {\n        qProtoWarning() << \"Unable to call $classname$::$method_name$, it's only callable from JS engine context\";\n        return;\n    }\n\n    QtProtobuf::QGrpcCallReplyShared reply = call(\"$method_name$\", *$param_name$);\n    reply->subscribe(jsEngine, [this, reply, jsEngine, safeReturn]() {\n        if (safeReturn.isNull()) {\n            qProtoWarning() << \"Return value is destroyed. Ignore call result\";\n            return;\n        }\n        *safeReturn = $return_type$(reply->read<$return_type$>());\n    }, [errorCallback, jsEngine](const QGrpcStatus &status) {\n        QJSValue(errorCallback).call(QJSValueList{jsEngine->toScriptValue(status)});\n    });\n}\n"
/-- `Templates::RegisterEnumSerializersTemplate` (templates.cpp:374). -/
def tRegisterEnumSerializersTemplate : Str := text! "qRegisterProtobufEnumType<$full_type$>();\n"
/-- `Templates::RegistrarTemplate` (templates.cpp:375). -/
def tRegistrarTemplate : Str := text! "static QtProtobuf::ProtoTypeRegistrar<$classname$> ProtoTypeRegistrar$classname$(qRegisterProtobufType<$classname$>);\n"
/-- `Templates::EnumRegistrarTemplate` (templates.cpp:376). -/
def tEnumRegistrarTemplate : Str := text! "static QtProtobuf::ProtoTypeRegistrar<$enum_gadget$> ProtoTypeRegistrar$enum_gadget$($enum_gadget$::registerTypes);\n"
/-- `Templates::QmlRegisterTypeTemplate` (templates.cpp:377). -/
def tQmlRegisterTypeTemplate : Str := text! "qmlRegisterType<$scope_type$>(\"$qml_package$\", 1, 0, \"$type$\");\n"
/-- `Templates::QmlRegisterEnumTypeTemplate` (templates.cpp:378). -/
def tQmlRegisterEnumTypeTemplate : Str := text! "qmlRegisterUncreatableType<$enum_gadget$>(\"$qml_package$\", 1, 0, \"$type$\", \"$full_type$ Could not be created from qml context\");\n"
/-- `Templates::ClientMethodServerStreamDeclarationTemplate` (templates.cpp:382). -/
def tClientMethodServerStreamDeclarationTemplate : Str := text! "QtProtobuf::QGrpcStreamShared stream$method_name_upper$(const $param_type$ &$param_name$);\n"
/-- `Templates::ClientMethodServerStream2DeclarationTemplate` (templates.cpp:383). -/
def tClientMethodServerStream2DeclarationTemplate : Str := text! "QtProtobuf::QGrpcStreamShared stream$method_name_upper$(const $param_type$ &$param_name$, const QPointer<$return_type$> &$return_name$);\n"
/-- `Templates::ClientMethodServerStreamQmlDeclarationTemplate` (templates.cpp:384). -/
def tClientMethodServerStreamQmlDeclarationTemplate : Str := text! "Q_INVOKABLE QtProtobuf::QGrpcStreamShared qmlStream$method_name_upper$_p($param_type$ *$param_name$, $return_type$ *$return_name$);\n"
/-- `Templates::ClientMethodServerStreamDefinitionTemplate` (templates.cpp:386-389). -/
def tClientMethodServerStreamDefinitionTemplate : Str := text! "QtProtobuf::QGrpcStreamShared $classname$::stream$method_name_upper$(const $param_type$ &$param_name$)\n{\n    return stream(\"$method_name$\", $param_name$);\n}\n"
/-- `Templates::ClientMethodServerStream2DefinitionTemplate` (templates.cpp:390-393). -/
def tClientMethodServerStream2DefinitionTemplate : Str := text! "QtProtobuf::QGrpcStreamShared $classname$::stream$method_name_upper$(const $param_type$ &$param_name$, const QPointer<$return_type$> &$return_name$)\n{\n    return stream(\"$method_name$\", $param_name$, $return_name$);\n}\n"
/-- `Templates::ClientMethodServerStreamQmlDefinitionTemplate` (templates.cpp:394-397). -/
def tClientMethodServerStreamQmlDefinitionTemplate : Str := text! "QtProtobuf::QGrpcStreamShared $classname$::qmlStream$method_name_upper$_p($param_type$ *$param_name$, $return_type$ *$return_name$)\n{\n    return stream(\"$method_name$\", *$param_name$, QPointer<$return_type$>($return_name$));\n}\n"
/-- `Templates::FieldEnumTemplate` (templates.cpp:429). -/
def tFieldEnumTemplate : Str := text! "enum QtProtobufFieldEnum {\n"
/-- `Templates::FieldNumberTemplate` (templates.cpp:430). -/
def tFieldNumberTemplate : Str := text! "$property_name_cap$ProtoFieldNumber = $number$,\n"

end QtPb.Gen.Text
