import Verif.Codec
import Verif.SpecCppProgram
/-
Model of how the serializer gets at the fields of an object: through the table and the properties of its class (src/protobuf/qprotobufserializer.cpp:81-104,
285-325, src/protobuf/qprotobufmetaobject.h:37-46). Both are read from the text of the generated header and source, and the functions of the properties are run
from the text of the class. What the serializer does with the values is that of `Verif/Codec.lean`.
-/
namespace QtPb.Meta
open QtPb.SpecCpp

/-- A generated class: its files, its name with the namespaces around it, and what can be run. -/
structure Class where
  header : Text
  source : Text
  name : List Text
  text : ClassText

/-- A decimal number in the text. -/
def number (t : Text) : Option Nat := (String.ofList t).toNat?

/-- `propertyOrdering` of the class (qprotobufmetaobject.h:42): field numbers and indexes of properties, in the order of the text. (The JSON names are for the JSON
serializer.) -/
def Class.table (c : Class) : Option (List (Nat × Nat)) :=
  match items c.source with
  | none => none
  | some is =>
    match (tablesIn (text! "propertyOrdering") is).find? (·.1 == c.name) with
    | some (_, some es) => es.mapM fun e => (number e.1).bind fun a => (number e.2.1).bind fun b => some (a, b)
    | _ => none

/-- The properties of the class itself, as moc finds them. -/
def Class.properties (c : Class) : Option (List Prop') :=
  match read c.header with
  | none => none
  | some evs => ((propertiesIn evs).filter (·.1 == c.name)).mapM (·.2)

/-- `QMetaObject::property` (Qt). The property 0 is `objectName` of QObject. -/
def Class.property (c : Class) (index : Nat) : Option Prop' :=
  match index, c.properties with
  | i + 1, some ps => ps[i]?
  | _, _ => none

/-- The property that `QObject::property` finds for a name (Qt): the last one of the class in Qt 5, the first one in Qt 6. (What base classes have is not modelled: no
field is looked for there before the class itself is searched.) -/
def Class.named (c : Class) (last : Bool) (name : Text) : Option Prop' :=
  match c.properties with
  | some ps => (if last then ps.reverse else ps).find? (·.name == name)
  | none => none

/-- The value of a property: its READ function is run. A pointer to a message of the object stands for the member that holds the message. -/
def Class.read (c : Class) (lib : Lib) (p : Prop') (obj : Obj) : Res (FieldTy × Val) :=
  match nullaryOf c.header c.source c.name p.read with
  | some (body :: _) =>
    (runNullary lib c.text.cls body (c.text.objects obj [])).bind fun x =>
      match x.1 with
      | .pointer (.own .this m) =>
        match c.text.cls.types m with
        | some ty => .ok (ty, x.2.get .this m)
        | none => .ub
      | r => (readValue lib c.text.cls x.2 r).bind fun
        | .inl v => .ok v
        | .inr _ => .ub
  | _ => .ub

/-- What a WRITE function is called with: messages are handed over as pointers (`QVariant::fromValue<T *>`, qabstractprotobufserializer_p.h:174-181), and a variant
without a value as a null pointer (`QMetaProperty::write`, Qt). -/
def argument (ty : FieldTy) (v : Val) : Rt :=
  match ty, v with
  | .msg m, .msg o => .pointer (.given m o)
  | .msg _, .msgNull => .pointer .null
  | _, _ => .data ty v

/-- Writes a property: its WRITE function is run. -/
def Class.write (c : Class) (lib : Lib) (p : Prop') (ty : FieldTy) (v : Val) (obj : Obj) : Res Obj :=
  match p.write with
  | none => .ub
  | some w => (c.text.callSetter lib w (argument ty v) obj).bind fun x => .ok x.1

section
variable (env : Env) (classes : Nat → Class) (lib : Lib) (last : Bool)

/-- `QProtobufSerializer::serializeMessage` (qprotobufserializer.cpp:81-97): the table gives the index of a property, the property its name, and the value is that of
the property of the object with this name. `env.ord` is the order in which the table is gone through. -/
def serializeMessage : Nat → Nat → Obj → Res Bytes
  | 0, _, _ => .fuel
  | n + 1, m, obj =>
    match (classes m).table with
    | none => .ub
    | some t =>
      concatRes <| (env.ord m).map fun i =>
        match t[i]? with
        | none => .ok []
        | some (num, index) =>
          match ((classes m).property index).bind fun p => (classes m).named last p.name with
          | none => .ub
          | some p => ((classes m).read lib p obj).bind fun v => serializeProperty env (serializeMessage n) num v.1 v.2

/-- `deserializeProperty` (qprotobufserializer.cpp:285-325): the value is read and written by the index of the property. -/
def deserializeProperty (rec : Nat → Bytes → MsgResult) (m : Nat) (n : Nat) (it : It) (obj : Obj) : Res (It × Obj) := do
  let (h, it) ← decodeHeader it
  if !h.valid then .throw .invalidArgument
  else match (classes m).table with
    | none => .ub
    | some t =>
      match t.find? (·.1 == h.num) with
      | none => do
        let it ← skipField it h.wt
        .ok (it, obj)
      | some (_, index) =>
        match (classes m).property index with
        | none => .ub
        | some p => do
          let cur ← (classes m).read lib p obj
          let (v, it) ← deserializeValue env rec cur.1 n cur.2 it
          let obj ← (classes m).write lib p cur.1 v obj
          .ok (it, obj)

/-- Loop of `QProtobufSerializer::deserializeMessage` (qprotobufserializer.cpp:99-104). -/
def messageLoop (rec : Nat → Bytes → MsgResult) (m : Nat) : Nat → It → Obj → MsgResult
  | 0, _, obj => (.fuel, obj)
  | n + 1, it, obj =>
    if it.pos = it.data.length then (.ok (), obj)
    else match deserializeProperty env classes lib rec m n it obj with
      | .ok (it, obj) => messageLoop rec m n it obj
      | .throw e => (.throw e, obj)
      | .ub => (.ub, obj)
      | .fuel => (.fuel, obj)

/-- `deserializeMessage` into a new object (qprotobufserializer.cpp:99-104). -/
def deserializeMessage : Nat → Nat → Bytes → MsgResult
  | 0, m, _ => (.fuel, defaultObj env m)
  | n + 1, m, data => messageLoop env classes lib (deserializeMessage n) m (n + 1) (It.start data) (defaultObj env m)

end

end QtPb.Meta
