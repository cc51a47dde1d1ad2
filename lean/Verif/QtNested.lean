import Verif.QtFields
/-
Model of the serializer and deserializer for message classes that refer to each other and have fields of Qt's types, at any depth.
Extends `Verif/QtFields.lean`, where only the outermost class has such fields. The types of `env` are messages that contain no fields of Qt's types.
Simplification: maps whose values are messages with fields of Qt's types, and lists and maps of Qt's types, are left out.
-/
namespace QtPb.Qt
open QtPb

/-- Type of a member: without Qt values, a Qt type, another class (templates.cpp:103), a list of objects of a class (generatorcommon.cpp:114-116). -/
inductive DeepTy
  | plain (ty : FieldTy)
  | qt (m : Nat)
  | sub (c : Nat)
  | subs (c : Nat)
deriving DecidableEq, Repr

/-- A field of a class. -/
structure DeepField where
  num : Nat
  ty : DeepTy
deriving DecidableEq, Repr

/-- Value of a member. A member of class type is a lazy pointer (qprotobuflazymessagepointer.h:36-120), unset or to an object; lists contain pointers. -/
inductive Deep
  | val (v : Val)
  | qt (q : QtVal)
  | unset
  | sub (o : List Deep)
  | subs (l : List Deep)

/-- The classes of a program and the iteration orders of their `propertyOrdering`. -/
structure Classes where
  tab : Nat → List DeepField
  ord : Nat → List Nat

/-- A member of a default constructed object (messagedefinitionprinter.cpp:110-199). -/
def DeepField.default (f : DeepField) : Deep :=
  match f.ty with
  | .plain ty => .val (defaultVal ty)
  | .qt m => .qt (qtDefault m)
  | .sub _ => .unset
  | .subs _ => .subs []

/-- A default constructed object. -/
def newObject (cls : Classes) (c : Nat) : List Deep := (cls.tab c).map DeepField.default

/-- Reading a property of class type: the lazy pointer creates the object when it is unset (qprotobuflazymessagepointer.h:61-66). -/
def lazyGet (cls : Classes) (c : Nat) : Deep → List Deep
  | .sub o => o
  | _ => newObject cls c

/-- Handler `serializeList<V>` (qabstractprotobufserializer_p.h:89-106): null pointers are skipped. -/
def serializeSubs (rec : Nat → List Deep → Res Bytes) (num c : Nat) : List Deep → Res Bytes
  | [] => .ok []
  | .sub o :: vs => do
    let body ← rec c o
    let r ← serializeSubs rec num c vs
    .ok (frameObject num body ++ r)
  | _ :: vs => serializeSubs rec num c vs

/-- One property in `serializeMessage` (qprotobufserializer.cpp:81-97, 258-283). -/
def serializeDeepField (env envQ : Env) (cls : Classes) (rec : Nat → List Deep → Res Bytes) (n : Nat) (f : DeepField) (s : Deep) : Res Bytes :=
  match f.ty, s with
  | .plain ty, .val v => serializeProperty env (serializeMessage env n) f.num ty v
  | .qt _, .qt q => handlerSerialize envQ n f.num q
  | .sub c, s => do
    let body ← rec c (lazyGet cls c s)
    .ok (frameObject f.num body)
  | .subs c, .subs l => serializeSubs rec f.num c l
  | _, _ => .ok []

/-- `serializeMessage` (qprotobufserializer.cpp:81-97) of an object of class `c`. The first argument bounds the nesting. -/
def serializeDeep (env envQ : Env) (cls : Classes) : Nat → Nat → List Deep → Res Bytes
  | 0, _, _ => .fuel
  | n + 1, c, o =>
    concatRes <| (cls.ord c).map fun i =>
      match (cls.tab c)[i]?, o[i]? with
      | some f, some s => serializeDeepField env envQ cls (serializeDeep env envQ cls n) n f s
      | _, _ => .ok []

/-- `deserializeObject` into a new object (qprotobufserializer.cpp:113-117, qabstractprotobufserializer_p.h:174-181). -/
def deserializeSub (rec : Nat → Bytes → Res Unit × List Deep) (c : Nat) (it : It) : Res (List Deep × It) := do
  let (body, it) ← deserializeLengthDelimited it
  match rec c body with
  | (.ok (), o) => .ok (o, it)
  | (.throw e, _) => .throw e
  | (.ub, _) => .ub
  | (.fuel, _) => .fuel

/-- The handler call and the write of `deserializeProperty` (qprotobufserializer.cpp:311-324): an object replaces the previous one, an object of a list
is appended (qabstractprotobufserializer_p.h:187-200). -/
def readDeep (eq : QtVal → QtVal → Bool) (env envQ : Env) (rec : Nat → Bytes → Res Unit × List Deep) (n k : Nat) (f : DeepField) (cur : Deep) (it : It) :
    Res (Deep × It) :=
  match f.ty, cur with
  | .plain ty, .val cur => do
    let (v, it) ← deserializeValue env (deserializeMessage env n) ty k cur it
    .ok (.val (writeVal ty cur v), it)
  | .qt m, .qt cur => do
    let (q, it) ← handlerDeserialize envQ n m it
    .ok (.qt (setQt eq cur q), it)
  | .sub c, _ => do
    let (o, it) ← deserializeSub rec c it
    .ok (.sub o, it)
  | .subs c, .subs l => do
    let (o, it) ← deserializeSub rec c it
    .ok (.subs (l ++ [.sub o]), it)
  | _, _ => .ub

/-- `propertyOrdering.find` (qprotobufserializer.cpp:297-305). -/
def findDeep (fs : List DeepField) (num : Nat) : Option Nat := fs.findIdx? fun f => f.num == num

/-- `deserializeProperty` (qprotobufserializer.cpp:285-325). -/
def deepProperty (eq : QtVal → QtVal → Bool) (env envQ : Env) (rec : Nat → Bytes → Res Unit × List Deep) (n k : Nat) (fs : List DeepField) (it : It)
    (o : List Deep) : Res (It × List Deep) := do
  let (h, it) ← decodeHeader it
  if !h.valid then .throw .invalidArgument
  else match findDeep fs h.num with
    | none => do
      let it ← skipField it h.wt
      .ok (it, o)
    | some i =>
      match fs[i]?, o[i]? with
      | some f, some cur => do
        let (s, it) ← readDeep eq env envQ rec n k f cur it
        .ok (it, o.set i s)
      | _, _ => .ub

/-- Loop of `deserializeMessage` (qprotobufserializer.cpp:99-104). -/
def deepLoop (eq : QtVal → QtVal → Bool) (env envQ : Env) (rec : Nat → Bytes → Res Unit × List Deep) (n : Nat) (fs : List DeepField) :
    Nat → It → List Deep → Res Unit × List Deep
  | 0, _, o => (.fuel, o)
  | k + 1, it, o =>
    if it.pos = it.data.length then (.ok (), o)
    else match deepProperty eq env envQ rec n k fs it o with
      | .ok (it, o) => deepLoop eq env envQ rec n fs k it o
      | .throw e => (.throw e, o)
      | .ub => (.ub, o)
      | .fuel => (.fuel, o)

/-- `deserializeMessage` into a default constructed object of class `c` (qprotobufserializer.cpp:99-104). `n` bounds the loop and the nesting. -/
def deserializeDeep (eq : QtVal → QtVal → Bool) (env envQ : Env) (cls : Classes) : Nat → Nat → Bytes → Res Unit × List Deep
  | 0, c, _ => (.fuel, newObject cls c)
  | n + 1, c, data => deepLoop eq env envQ (deserializeDeep eq env envQ cls n) n (cls.tab c) (n + 1) (It.start data) (newObject cls c)

end QtPb.Qt
