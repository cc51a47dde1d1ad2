import Verif.Basic
/-
Model of the serializer registry `QProtobufSerializerRegistry`
(src/protobuf/qprotobufserializerregistry.cpp).

The file system and Qt's plugin loader are the environment: every `loadPlugin` event says what the loader
finds behind the path at that time (`Lib`). Maps are functions from keys to optional values. Not
modelled: the plugin path, warnings, the destructor, unloading.
-/
namespace QtPb.Plugins

/-- The "MetaData" object of a plugin (lines 92-95): name, types, version, protobufVersion, rating.
The floating point numbers are only copied, so an integer stands for each. -/
structure Meta where
  name : String
  types : List String
  version : Int
  protoVersion : Int
  rating : Int

/-- A serializer object: one of the two built-in ones or the `n`-th made by a plugin. -/
inductive Ser
  | protobuf
  | json
  | made (n : Nat)
deriving DecidableEq

/-- What the plugin loader finds: the metadata, absent if the file is missing or is not a plugin, and the
instance, absent if it cannot be loaded or has the wrong interface. -/
structure Lib where
  metaData : Option Meta
  inst : Option (String → Ser)

/-- `QProtobufSerializerRegistryPrivateRecord` (lines 62-128). -/
structure Record where
  serializers : String → Option Ser
  metaData : Option Meta
  pluginLoadedName : String
  typeArray : List String

/-- `map[key] = value`. -/
def put {α : Type} (m : String → Option α) (key : String) (value : α) : String → Option α :=
  fun k => if k = key then some value else m k

/-- A new record (line 64). -/
def Record.new : Record := ⟨fun _ => none, none, "", []⟩

/-- `createDefaultImpl` (lines 75-83). -/
def Record.createDefaultImpl (r : Record) : Record :=
  let r1 := if (r.serializers "protobuf").isNone then
      { r with serializers := put r.serializers "protobuf" .protobuf } else r
  if (r1.serializers "json").isNone then { r1 with serializers := put r1.serializers "json" .json } else r1

/-- `loadPluginMetadata` (lines 85-97). -/
def Record.loadPluginMetadata (r : Record) (lib : Lib) : Record :=
  match lib.metaData with
  | none => r
  | some m => { r with metaData := some m, pluginLoadedName := m.name, typeArray := m.types }

/-- `loadPlugin` of a record (lines 99-118): one serializer for every type in the metadata. -/
def Record.loadPlugin (r : Record) (lib : Lib) : Record :=
  match r.metaData, lib.inst with
  | some _, some make =>
    { r with serializers := r.typeArray.foldl (fun m typeName => put m typeName (make typeName)) r.serializers }
  | _, _ => r

/-- `m_plugins` (line 167): names to shared pointers; `some none` is an entry with a null pointer. -/
structure State where
  plugins : String → Option (Option Record)

/-- Constructor of the private class (lines 134-145). -/
def start : State := ⟨put (fun _ => none) "Default" (some Record.new.createDefaultImpl)⟩

/-- Calls of the public interface. -/
inductive Op
  | load (file : String) (lib : Lib)
  | getDefault (id : String)
  | getSerializer (id plugin : String)
  | version (plugin : String)
  | serializers (plugin : String)
  | protobufVersion (plugin : String)
  | rating (plugin : String)

/-- Their results. -/
inductive Answer
  | name (s : String)
  | serializer (s : Ser)
  | number (n : Int)
  | names (l : List String)
deriving DecidableEq

/-- `loadPlugin(name)` (lines 147-164). An empty file name fails the assertion of line 149. -/
def loadPlugin (s : State) (file : String) (lib : Lib) : State × Res Answer :=
  if file = "" then (s, .ub)
  else
    let plugin := Record.new.loadPluginMetadata lib
    match s.plugins plugin.pluginLoadedName with
    | none => (⟨put s.plugins plugin.pluginLoadedName (some (plugin.loadPlugin lib))⟩,
        .ok (.name plugin.pluginLoadedName))
    | some _ => (s, .ok (.name plugin.pluginLoadedName))

/-- `m_plugins[plugin]` (lines 189, 194, 208, ...): inserts a null pointer if there is no entry. -/
def index (s : State) (plugin : String) : State × Option Record :=
  match s.plugins plugin with
  | some r => (s, r)
  | none => (⟨put s.plugins plugin none⟩, none)

/-- `getSerializer(id, plugin)` (lines 192-195), and with "Default" `getSerializer(id)` (lines 187-190):
`at` throws, a null pointer is dereferenced. -/
def getSerializer (s : State) (id plugin : String) : State × Res Answer :=
  match index s plugin with
  | (s', none) => (s', .ub)
  | (s', some r) => match r.serializers id with
    | some ser => (s', .ok (.serializer ser))
    | none => (s', .throw .outOfRange)

/-- The common shape of `pluginVersion`, `pluginSerializers`, `pluginProtobufVersion` and `pluginRating`
(lines 203-255). -/
def info (s : State) (plugin : String) (empty : Answer) (value : Meta → Answer) : State × Res Answer :=
  match s.plugins plugin with
  | none => (s, .ok empty)
  | some _ => match index s plugin with
    | (s', none) => (s', .ub)
    | (s', some r) => match r.metaData with
      | none => (s', .ok empty)
      | some m => (s', .ok (value m))

/-- One call. -/
def exec (s : State) : Op → State × Res Answer
  | .load file lib => loadPlugin s file lib
  | .getDefault id => getSerializer s id "Default"
  | .getSerializer id plugin => getSerializer s id plugin
  | .version plugin => info s plugin (.number 0) fun m => .number m.version
  | .serializers plugin => info s plugin (.names []) fun m => .names (m.types.filter (· ≠ ""))
  | .protobufVersion plugin => info s plugin (.number 0) fun m => .number m.protoVersion
  | .rating plugin => info s plugin (.number 0) fun m => .number m.rating

/-- A history of calls: the final state and the answers. -/
def run : State → List Op → State × List (Res Answer)
  | s, [] => (s, [])
  | s, op :: ops =>
    let (s', a) := exec s op
    let (s'', as) := run s' ops
    (s'', a :: as)

end QtPb.Plugins
