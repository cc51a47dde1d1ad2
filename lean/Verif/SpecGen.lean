import Verif.Gen
/-
What the generator has to do with the messages of a file, and what protoc guarantees about them.
-/
namespace QtPb.Gen.Spec

/-- `Contains pre m q x`: `x` is the message with the full name `q` among `m` and all messages nested in it at any depth, where
`pre` is the full name of what `m` is in. -/
inductive Contains : List Str → Msg → Path → Msg → Prop
  | self {pre : List Str} {m : Msg} : Contains pre m (pre ++ [m.name]) m
  | nested {pre : List Str} {m n x : Msg} {q : Path} : n ∈ m.nested → Contains (pre ++ [m.name]) n q x → Contains pre m q x

/-- The file has the message `x` with the full name `q`. -/
def Has (f : File) (q : Path) (x : Msg) : Prop := ∃ m ∈ f.messages, Contains f.package m q x

/-- Some field of `x` has the type `q`, and is not a map. -/
def UsesAsField (x : Msg) (q : Path) : Prop := ∃ fd ∈ x.fields, fd.isMap = false ∧ fd.msgType = some q

/-- What protoc guarantees about a message `x` with the full name `q`: the names of its nested messages are distinct, the
messages it makes for map fields (entries) are used by a map field of the message and by no other field, and contain no messages. -/
structure Valid (q : Path) (x : Msg) : Prop where
  names : (x.nested.map Msg.name).Nodup
  entry_used : ∀ n ∈ x.nested, n.entry = true → ∃ fd ∈ x.fields, fd.isMap = true ∧ fd.msgType = some (q ++ [n.name])
  entry_only : ∀ n ∈ x.nested, n.entry = true → ¬ UsesAsField x (q ++ [n.name])
  entry_leaf : x.entry = true → x.nested = []

/-- What protoc guarantees about a file. -/
structure ValidFile (f : File) : Prop where
  names : (f.messages.map Msg.name).Nodup
  top : ∀ m ∈ f.messages, m.entry = false
  valid : ∀ q x, Has f q x → Valid q x

/-- Every nested message is the type of a field of the message it is in, unless that has no fields. -/
def AllUsed (f : File) : Prop :=
  ∀ q x, Has f q x → ∀ n ∈ x.nested, n.entry = false → x.fields = [] ∨ UsesAsField x (q ++ [n.name])

/-- The messages the generator gets to: as `Contains`, but it goes from a message to a nested one only if the message has no
fields or uses the nested message as the type of a field. -/
inductive Reached : List Str → Msg → Path → Msg → Prop
  | self {pre : List Str} {m : Msg} : Reached pre m (pre ++ [m.name]) m
  | nested {pre : List Str} {m n x : Msg} {q : Path} : n ∈ m.nested →
      (m.fields = [] ∨ UsesAsField m (pre ++ [m.name] ++ [n.name])) → Reached (pre ++ [m.name]) n q x → Reached pre m q x

/-- The C++ name of a message: in the namespaces of its package, after the extra namespace; the messages it is in give a
namespace each. -/
def cppName (extra : Str) (package : List Str) (inside : List Str) (name : Str) : List Str :=
  (if extra = [] then [] else [extra]) ++ package ++ inside.map (fun c => upperCaseName c ++ kNested) ++ [upperCaseName name]

end QtPb.Gen.Spec
