import Verif.QtTypes
/-
Model of message classes that have fields of Qt's types among others: the generated members and setters, and the serializer's and deserializer's
treatment of such a field.
The Qt messages have numbers of their own (`Verif/QtTypes.lean`) and an environment of their own; the types of `env` are the messages of the user's
files that the other fields refer to. Simplification: these have no fields of Qt's types themselves, and lists and maps of Qt's types are left out.
`QUrl` and `QImage` (`Verif/QtMedia.lean`) are left out.
-/
namespace QtPb.Qt
open QtPb

/-- Type of a member (`Templates::MemberTemplate` and its variants, templates.cpp:102-104; messagedeclarationprinter.cpp:425-437): a Qt type, named by its
message type, or any other. -/
inductive SlotTy
  | plain (ty : FieldTy)
  | qt (m : Nat)
deriving DecidableEq, Repr

/-- A field of the class, with its number in the proto file. -/
structure Member where
  num : Nat
  ty : SlotTy
deriving DecidableEq, Repr

/-- Value of a member. -/
inductive Slot
  | val (v : Val)
  | qt (q : QtVal)

/-- A new value of a Qt type: the member is default constructed (templates.cpp:102). What it is is Qt's matter: sizes are (-1, -1), times and dates are
null, colours are invalid, matrices, transformations and quaternions are the identity, everything else is 0 or empty. -/
def qtDefault : Nat → QtVal
  | 0 => .char 0
  | 1 => .uuid ⟨fun _ => 0⟩
  | 2 => .time ⟨-1⟩
  | 3 => .date ⟨none⟩
  | 4 => .dateTime ⟨⟨none⟩, ⟨-1⟩, .local⟩
  | 5 => .size ⟨-1, -1⟩
  | 6 => .sizeF ⟨0xbff0000000000000#64, 0xbff0000000000000#64⟩
  | 7 => .point ⟨0, 0⟩
  | 8 => .pointF ⟨0, 0⟩
  | 9 => .rect ⟨0, 0, -1, -1⟩
  | 10 => .rectF ⟨0, 0, 0, 0⟩
  | 11 => .polygon []
  | 12 => .polygonF []
  | 13 => .color ⟨.invalid, 0xffff, 0, 0, 0⟩
  | 14 => .matrix ⟨fun i => if i.1 % 5 = 0 then 0x3f800000#32 else 0⟩
  | 15 => .vector2 ⟨0, 0⟩
  | 16 => .vector3 ⟨0, 0, 0⟩
  | 17 => .vector4 ⟨0, 0, 0, 0⟩
  | 18 => .transform ⟨0x3ff0000000000000#64, 0, 0, 0, 0x3ff0000000000000#64, 0, 0, 0, 0x3ff0000000000000#64⟩
  | _ => .quaternion ⟨0x3f800000#32, 0, 0, 0⟩

/-- A member of a default constructed object (messagedefinitionprinter.cpp:110-199). -/
def Member.default (f : Member) : Slot :=
  match f.ty with
  | .plain ty => .val (defaultVal ty)
  | .qt m => .qt (qtDefault m)

/-- One property in `serializeMessage` (qprotobufserializer.cpp:81-97, 258-283): a property of a Qt type is given to the handler that
`qRegisterProtobufQtTypes` registered (qtprotobufqttypes.cpp:278-317). `n` bounds the nesting. -/
def serializeMember (env envQ : Env) (n : Nat) (f : Member) (s : Slot) : Res Bytes :=
  match f.ty, s with
  | .plain ty, .val v => serializeProperty env (serializeMessage env n) f.num ty v
  | .qt _, .qt q => handlerSerialize envQ n f.num q
  | _, _ => .ok []

/-- `serializeMessage` (qprotobufserializer.cpp:81-97): all properties in the iteration order `ord` of `propertyOrdering`. -/
def serializeMembers (env envQ : Env) (n : Nat) (ord : List Nat) (fs : List Member) (o : List Slot) : Res Bytes :=
  concatRes <| ord.map fun i =>
    match fs[i]?, o[i]? with
    | some f, some s => serializeMember env envQ n f s
    | _, _ => .ok []

/-- The setter of a member of a Qt type (templates.cpp:223-228, 230-235): the member is only written when Qt's `!=` tells the values apart. `eq` is Qt's
`==`; for floating point types it is a fuzzy comparison. -/
def setQt (eq : QtVal → QtVal → Bool) (cur q : QtVal) : QtVal := if eq cur q then cur else q

/-- The handler call and the write of `deserializeProperty` (qprotobufserializer.cpp:311-324). The Qt handler reads a new message, whatever the
property was before (qtprotobufqttypes.cpp:285-289). -/
def readMember (eq : QtVal → QtVal → Bool) (env envQ : Env) (rec : Nat → Bytes → MsgResult) (n k : Nat) (f : Member) (cur : Slot) (it : It) :
    Res (Slot × It) :=
  match f.ty, cur with
  | .plain ty, .val cur => do
    let (v, it) ← deserializeValue env rec ty k cur it
    .ok (.val (writeVal ty cur v), it)
  | .qt m, .qt cur => do
    let (q, it) ← handlerDeserialize envQ n m it
    .ok (.qt (setQt eq cur q), it)
  | _, _ => .ub

/-- `propertyOrdering.find` (qprotobufserializer.cpp:297-305). -/
def findMember (fs : List Member) (num : Nat) : Option Nat := fs.findIdx? fun f => f.num == num

/-- `deserializeProperty` (qprotobufserializer.cpp:285-325). -/
def readProperty (eq : QtVal → QtVal → Bool) (env envQ : Env) (rec : Nat → Bytes → MsgResult) (n k : Nat) (fs : List Member) (it : It) (o : List Slot) :
    Res (It × List Slot) := do
  let (h, it) ← decodeHeader it
  if !h.valid then .throw .invalidArgument
  else match findMember fs h.num with
    | none => do
      let it ← skipField it h.wt
      .ok (it, o)
    | some i =>
      match fs[i]?, o[i]? with
      | some f, some cur => do
        let (s, it) ← readMember eq env envQ rec n k f cur it
        .ok (it, o.set i s)
      | _, _ => .ub

/-- Loop of `deserializeMessage` (qprotobufserializer.cpp:99-104). -/
def membersLoop (eq : QtVal → QtVal → Bool) (env envQ : Env) (rec : Nat → Bytes → MsgResult) (n : Nat) (fs : List Member) :
    Nat → It → List Slot → Res Unit × List Slot
  | 0, _, o => (.fuel, o)
  | k + 1, it, o =>
    if it.pos = it.data.length then (.ok (), o)
    else match readProperty eq env envQ rec n k fs it o with
      | .ok (it, o) => membersLoop eq env envQ rec n fs k it o
      | .throw e => (.throw e, o)
      | .ub => (.ub, o)
      | .fuel => (.fuel, o)

/-- `deserializeMessage` into a default constructed object (qprotobufserializer.cpp:99-104). `n` bounds the loop and the nesting. -/
def deserializeMembers (eq : QtVal → QtVal → Bool) (env envQ : Env) (fs : List Member) : Nat → Bytes → Res Unit × List Slot
  | 0, _ => (.fuel, fs.map Member.default)
  | n + 1, data => membersLoop eq env envQ (deserializeMessage env n) n fs (n + 1) (It.start data) (fs.map Member.default)

end QtPb.Qt
