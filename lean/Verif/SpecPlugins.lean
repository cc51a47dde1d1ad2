import Verif.Plugins
/-
What users of the serializer registry expect (C30), in terms of the history of calls only.
-/
namespace QtPb.Plugins.Spec

/-- The name under which a library is registered: the one in its metadata, empty if it has none. -/
def registeredName (lib : Lib) : String := (lib.metaData.map Meta.name).getD ""

/-- The library that answers for `plugin`: the first one loaded under that name. -/
def firstLoaded (plugin : String) : List Op → Option Lib
  | [] => none
  | .load _ lib :: ops => if registeredName lib = plugin then some lib else firstLoaded plugin ops
  | _ :: ops => firstLoaded plugin ops

/-- The serializer of a library for `id`: made by the plugin if its metadata lists the type. -/
def libSerializer (lib : Lib) (id : String) : Option Ser :=
  match lib.metaData, lib.inst with
  | some m, some make => if id ∈ m.types then some (make id) else none
  | _, _ => none

/-- The built-in serializers. -/
def builtin : String → Option Ser
  | "protobuf" => some .protobuf
  | "json" => some .json
  | _ => none

/-- Value or `std::out_of_range`. -/
def orThrow : Option Ser → Res Answer
  | some s => .ok (.serializer s)
  | none => .throw .outOfRange

/-- Answer to a question about the metadata of a plugin. -/
def metaAnswer (history : List Op) (plugin : String) (empty : Answer) (value : Meta → Answer) : Res Answer :=
  .ok <| if plugin = "Default" then empty else
    match (firstLoaded plugin history).bind Lib.metaData with
    | none => empty
    | some m => value m

/-- The answer to a call after a history. `none`: the interface promises nothing (a serializer of a plugin
that was never loaded, see `C30_unknown_plugin_violated`; an empty file name). -/
def answer (history : List Op) : Op → Option (Res Answer)
  | .load file lib => if file = "" then none else some (.ok (.name (registeredName lib)))
  | .getDefault id => some (orThrow (builtin id))
  | .getSerializer id plugin =>
    if plugin = "Default" then some (orThrow (builtin id))
    else (firstLoaded plugin history).map fun lib => orThrow (libSerializer lib id)
  | .version plugin => some (metaAnswer history plugin (.number 0) fun m => .number m.version)
  | .serializers plugin => some (metaAnswer history plugin (.names []) fun m => .names (m.types.filter (· ≠ "")))
  | .protobufVersion plugin => some (metaAnswer history plugin (.number 0) fun m => .number m.protoVersion)
  | .rating plugin => some (metaAnswer history plugin (.number 0) fun m => .number m.rating)

/-- A lookup is a call that loads nothing. -/
def IsLookup : Op → Prop
  | .load _ _ => False
  | _ => True

/-- A history in which no call asked for a serializer of a plugin that had not been loaded. -/
inductive Proper : List Op → List (Res Answer) → Prop
  | nil : Proper [] []
  | snoc {h : List Op} {as : List (Res Answer)} {op : Op} {a : Res Answer} :
      Proper h as → answer h op = some a → Proper (h ++ [op]) (as ++ [a])

end QtPb.Plugins.Spec
