import Verif.Meta
import Verif.JsonRead
/-
Model of how the JSON serializer gets at the fields of an object: through the table and the properties of its class (src/protobuf/qprotobufjsonserializer.cpp:176-197,
335-362). Both are read from the text of the generated header and source, and the functions of the properties are run from the text of the class
(`Verif/Meta.lean`). What the serializer does with the values is that of `Verif/Json.lean` and `Verif/JsonRead.lean`.
-/
namespace QtPb.MetaJson
open QtPb.SpecCpp QtPb.Meta QtPb.Json

/-- `propertyOrdering` of the class (qprotobufmetaobject.h:42, qtprotobuftypes.h:57-74): indexes of properties and JSON names, in the order of the text. -/
def table (c : Class) : Option (List (Nat × Text)) :=
  match items c.source with
  | none => none
  | some is =>
    match (tablesIn (text! "propertyOrdering") is).find? (·.1 == c.name) with
    | some (_, some es) => es.mapM fun e => (number e.2.1).bind fun b => some (b, e.2.2)
    | _ => none

section
variable (env : JEnv) (classes : Nat → Class) (lib : Lib) (last : Bool)

/-- The loop over the fields (qprotobufjsonserializer.cpp:182-193) with `serializeProperty` (176-178): the table gives the index of a property and the name of the member,
the property its name, and the value is that of the property of the object with this name. -/
def members (rec : Nat → Obj → Res Bytes) (m : Nat) (t : List (Nat × Text)) (obj : Obj) : List Nat → Res Bytes
  | [] => .ok []
  | i :: is =>
    match t[i]? with
    | none => members rec m t obj is
    | some (index, json) =>
      match ((classes m).property index).bind fun p => (classes m).named last p.name with
      | none => .ub
      | some p => do
        let v ← (classes m).read lib p obj
        let s ← serializeValue env rec m i v.1 v.2
        let r ← members rec m t obj is
        .ok (quote (env.toUtf8 json) ++ 58 :: s ++ 44 :: r)

/-- `serializeObject` (qprotobufjsonserializer.cpp:180-197). `env.ord` is the order in which the table is gone through. -/
def serializeObject : Nat → Nat → Obj → Res Bytes
  | 0, _, _ => .fuel
  | n + 1, m, obj =>
    match table (classes m) with
    | none => .ub
    | some t => do
      let s ← members env classes lib last (serializeObject n) m t obj (env.ord m)
      .ok ((123 :: s).dropLast ++ [125])

end

section
variable (env : REnv) (classes : Nat → Class) (lib : Lib)

/-- `write(object, QVariant())` (qprotobufjsonserializer.cpp:349-352): the WRITE function gets the default value of the type, but `QMetaProperty::write` (Qt) refuses a variant
without a value for an enumeration. -/
def writeNull (c : Class) (p : Prop') (ty : FieldTy) (obj : Obj) : Res Obj :=
  match ty with
  | .enum => .ok obj
  | _ => c.write lib p ty (defaultVal ty) obj

/-- Loop of `deserializeObject` (qprotobufjsonserializer.cpp:338-361): the first entry of the table with the name of the member gives the index of the property. The type of the
property is that of the value its READ function returns (simplification: the code asks Qt for it and does not run the function). -/
def readMembers (rec : Nat → Bytes → MsgResult) (m : Nat) (t : List (Nat × Text)) : List (Bytes × JType × Bytes) → Obj → MsgResult
  | [], obj => (.ok (), obj)
  | e :: es, obj =>
    match (env.ord m).find? fun i => (t[i]?.map (·.2)) == some (env.fromUtf8 e.1) with
    | none => readMembers rec m t es obj
    | some i =>
      match t[i]?.bind fun x => (classes m).property x.1 with
      | none => (.ub, obj)
      | some p =>
        match (classes m).read lib p obj with
        | .ok cur =>
          if e.2.2 = kNull ∧ e.2.1 = .object then
            match writeNull lib (classes m) p cur.1 obj with
            | .ok obj => readMembers rec m t es obj
            | _ => (.ub, obj)
          else match Json.deserializeValue env rec m i cur.1 e.2.1 e.2.2 with
            | .ok (v, true) =>
              match (classes m).write lib p cur.1 v obj with
              | .ok obj => readMembers rec m t es obj
              | _ => (.ub, obj)
            | .ok (_, false) => readMembers rec m t es obj
            | .throw e => (.throw e, obj)
            | .ub => (.ub, obj)
            | .fuel => (.fuel, obj)
        | _ => (.ub, obj)

/-- `deserializeMessage` and `deserializeObject` (qprotobufjsonserializer.cpp:335-362, 382-385) into a new object. -/
def deserializeMessage : Nat → Nat → Bytes → MsgResult
  | 0, m, _ => (.fuel, defaultObj env.toEnv m)
  | n + 1, m, data =>
    match env.objectOf data with
    | .ok es =>
      match table (classes m) with
      | none => (.ub, defaultObj env.toEnv m)
      | some t => readMembers env classes lib (deserializeMessage n) m t es (defaultObj env.toEnv m)
    | .throw e => (.throw e, defaultObj env.toEnv m)
    | .ub => (.ub, defaultObj env.toEnv m)
    | .fuel => (.fuel, defaultObj env.toEnv m)

end

end QtPb.MetaJson
