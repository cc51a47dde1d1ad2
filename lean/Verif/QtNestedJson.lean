import Verif.QtNested
import Verif.QtJson
/-
Model of the JSON serializer and deserializer for message classes that refer to each other and have fields of Qt's types, at any depth.
Extends `Verif/Json.lean` and `Verif/JsonRead.lean`, the classes and their values are those of `Verif/QtNested.lean`, with the same simplification.
`env`: messages without fields of Qt's types. `envQ`: the messages of Qt's types. `num c`: the number under which the tables of `env` list the JSON
names and enumerations of class `c`.
-/
namespace QtPb.Qt
open QtPb

section
variable (env envQ : Json.JEnv) (cls : Classes) (num : Nat → Nat) (rec : Nat → List Deep → Res Bytes) (n : Nat)

/-- `serializeList<V>` (qabstractprotobufserializer_p.h:89-106) with `serializeListObject` (qprotobufjsonserializer.cpp:403-406): null pointers are
skipped. -/
def jsonSubs (c : Nat) : List Deep → Res Bytes
  | [] => .ok []
  | .sub o :: vs => do
    let t ← rec c o
    let r ← jsonSubs c vs
    .ok (t ++ 44 :: r)
  | _ :: vs => jsonSubs c vs

/-- `serializeValue` (qprotobufjsonserializer.cpp:159-174) of member `i` of class `c`: the registered handler, for a Qt type the one of
`registerQtTypeHandler`, or the serializer of a built-in type. -/
def jsonValue (c i : Nat) (ty : DeepTy) (s : Deep) : Res Bytes :=
  match ty, s with
  | .plain ty, .val v => Json.serializeValue env (Json.serializeObject env n) (num c) i ty v
  | .qt _, .qt q => jsonSerialize envQ n q
  | .sub c', s => rec c' (lazyGet cls c' s)
  | .subs c', .subs l => do
    let t ← jsonSubs rec c' l
    .ok (Json.closeWith 93 (91 :: t))
  | _, _ => .ok []

/-- The loop over the fields (qprotobufjsonserializer.cpp:176-193): names, values and commas in the iteration order of `propertyOrdering`. -/
def jsonMembers (c : Nat) (o : List Deep) : List Nat → Res Bytes
  | [] => .ok []
  | i :: is =>
    match (cls.tab c)[i]?, o[i]? with
    | some f, some s => do
      let t ← jsonValue env envQ cls num rec n c i f.ty s
      let r ← jsonMembers c o is
      .ok (Json.quote (env.toUtf8 (env.jsonName (num c) i)) ++ 58 :: t ++ 44 :: r)
    | _, _ => jsonMembers c o is

end

/-- `serializeObject` (qprotobufjsonserializer.cpp:180-197) of an object of class `c`: the last character is cut off before the closing brace. The first
argument bounds the nesting of calls. -/
def jsonDeep (env envQ : Json.JEnv) (cls : Classes) (num : Nat → Nat) : Nat → Nat → List Deep → Res Bytes
  | 0, _, _ => .fuel
  | n + 1, c, o => do
    let t ← jsonMembers env envQ cls num (jsonDeep env envQ cls num n) n c o (cls.ord c)
    .ok ((123 :: t).dropLast ++ [125])

section
variable (eq : QtVal → QtVal → Bool) (env envQ : Json.REnv) (cls : Classes) (num : Nat → Nat) (rec : Nat → Bytes → Res Unit × List Deep) (n : Nat)

/-- Handler `deserializeObject<T>` (qabstractprotobufserializer_p.h:174-181, qprotobufjsonserializer.cpp:392-396): a new object is read. -/
def jsonReadSub (c : Nat) (data : Bytes) : Res (List Deep) :=
  match rec c data with
  | (.ok (), o) => .ok o
  | (.throw e, _) => .throw e
  | (.ub, _) => .ub
  | (.fuel, _) => .fuel

/-- Handler `deserializeList<V>` (qabstractprotobufserializer_p.h:187-201, qprotobufjsonserializer.cpp:416-432). -/
def jsonReadSubs (c : Nat) : List (Json.JType × Bytes) → Res (List Deep)
  | [] => .ok []
  | e :: es => do
    let o ← jsonReadSub rec c e.2
    let r ← jsonReadSubs c es
    .ok (.sub o :: r)

/-- `deserializeValue` (qprotobufjsonserializer.cpp:314-333) for member `i` of class `c`, with the write if `ok` (353-357): the new value of the member,
none if it is left alone. -/
def jsonReadValue (c i : Nat) (ty : DeepTy) (cur : Deep) (t : Json.JType) (data : Bytes) : Res (Option Deep) :=
  match ty, cur with
  | .plain ty, .val cur => do
    let r ← Json.deserializeValue env (Json.deserializeMessage env n) (num c) i ty t data
    .ok (if r.2 then some (.val (writeVal ty cur r.1)) else none)
  | .qt m, .qt cur => do
    let r ← jsonDeserialize envQ n m data
    .ok (r.map fun q => .qt (setQt eq cur q))
  | .sub c', _ => if data = [] then .ok none else do
    let o ← jsonReadSub rec c' data
    .ok (some (.sub o))
  | .subs c', _ => if data = [] then .ok none else do
    let es ← env.elementsOf data
    let l ← jsonReadSubs rec c' es
    .ok (some (.subs l))
  | _, _ => .ub

/-- `write(object, QVariant())` (qprotobufjsonserializer.cpp:349-352): the setter gets the default value of the type. -/
def jsonNulled (ty : DeepTy) (cur : Deep) : Deep :=
  match ty, cur with
  | .plain ty, .val cur => .val (Json.nulled ty cur)
  | .qt m, .qt cur => .qt (setQt eq cur (qtDefault m))
  | .sub _, _ => .unset
  | .subs _, _ => .subs []
  | _, cur => cur

/-- `std::find_if` over `propertyOrdering` (qprotobufjsonserializer.cpp:340-344). -/
def jsonFind (c : Nat) (name : Bytes) : Option Nat := (cls.ord c).find? fun i => env.jsonName (num c) i == env.fromUtf8 name

/-- Loop of `deserializeObject` (qprotobufjsonserializer.cpp:338-361). -/
def jsonReadMembers (c : Nat) : List (Bytes × Json.JType × Bytes) → List Deep → Res Unit × List Deep
  | [], o => (.ok (), o)
  | e :: es, o =>
    match jsonFind env cls num c e.1 with
    | none => jsonReadMembers c es o
    | some i =>
      match (cls.tab c)[i]?, o[i]? with
      | some f, some cur =>
        if e.2.2 = Json.kNull ∧ e.2.1 = .object then jsonReadMembers c es (o.set i (jsonNulled eq f.ty cur))
        else match jsonReadValue eq env envQ num rec n c i f.ty cur e.2.1 e.2.2 with
          | .ok (some s) => jsonReadMembers c es (o.set i s)
          | .ok none => jsonReadMembers c es o
          | .throw x => (.throw x, o)
          | .ub => (.ub, o)
          | .fuel => (.fuel, o)
      | _, _ => (.ub, o)

end

/-- `deserializeObject` (qprotobufjsonserializer.cpp:335-362) into a new object of class `c`. The first argument bounds the nesting of calls. -/
def jsonReadDeep (eq : QtVal → QtVal → Bool) (env envQ : Json.REnv) (cls : Classes) (num : Nat → Nat) : Nat → Nat → Bytes → Res Unit × List Deep
  | 0, c, _ => (.fuel, newObject cls c)
  | n + 1, c, data =>
    match env.objectOf data with
    | .ok es => jsonReadMembers eq env envQ cls num (jsonReadDeep eq env envQ cls num n) n c es (newObject cls c)
    | .throw e => (.throw e, newObject cls c)
    | .ub => (.ub, newObject cls c)
    | .fuel => (.fuel, newObject cls c)

end QtPb.Qt
