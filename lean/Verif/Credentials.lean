import Verif.Basic
/-
Model of credentials and of the headers of a request: `QGrpcCredentials` and `operator |`
(src/grpc/qgrpccredentials.h:64-126), the reference implementations of credentials, the constructor of the HTTP/2
channel (src/grpc/qgrpchttp2channel.cpp:181-193) and the headers `post` sets (src/grpc/qgrpchttp2channel.cpp:120-130).

Header names and values are byte strings. A `QVariant` is the byte array that `toString().toUtf8()` gives, `none`
if it is null, or an SSL configuration.
-/
namespace QtPb.Cred

/-- `QVariant` in a credential map. `text none` is a null string. -/
inductive Value
  | text (s : Option Bytes)
  | ssl (config : Nat)
deriving DecidableEq, Repr

/-- `QGrpcCredentialMap` (qabstractgrpccredentials.h:36): a `QHash`, here the list of its entries in the order
they are iterated in, which is arbitrary. -/
abbrev Map := List (Bytes × Value)

/-- An argument of `operator |`: a functor for the credentials of a call (the result of its `k`-th invocation), an
object with channel credentials, an object that derives from both base classes, or from none. -/
inductive Operand
  | call (f : Nat → Map)
  | channel (m : Map)
  | both (f : Nat → Map) (m : Map)
  | other

/-- `std::is_base_of<QGrpcCallCredentials, T>`. -/
def Operand.asCall : Operand → Option (Nat → Map)
  | .call f => some f
  | .both f _ => some f
  | _ => none

/-- `std::is_base_of<QGrpcChannelCredentials, T>`. -/
def Operand.asChannel : Operand → Option Map
  | .channel m => some m
  | .both _ m => some m
  | _ => none

/-- `QGrpcCredentials` (qgrpccredentials.h:67-100): copies of both; `used` counts the invocations. -/
structure Credentials where
  call : Nat → Map
  used : Nat
  channel : Map

/-- The first `operator |` (qgrpccredentials.h:110-117), if its `enable_if` holds. -/
def orCallChannel (a b : Operand) : Option Credentials :=
  match a.asCall, b.asChannel with
  | some f, some m => some ⟨f, 0, m⟩
  | _, _ => none

/-- The second `operator |` (qgrpccredentials.h:119-126), if its `enable_if` holds. -/
def orChannelCall (a b : Operand) : Option Credentials :=
  match a.asChannel, b.asCall with
  | some m, some f => some ⟨f, 0, m⟩
  | _, _ => none

/-- The expression `a | b`: it compiles (`some`) if exactly one of the operators is viable. -/
def combine (a b : Operand) : Option Credentials :=
  match orCallChannel a b, orChannelCall a b with
  | some c, none => some c
  | none, some c => some c
  | _, _ => none

/-- `callCredentials()` (qgrpccredentials.h:86-88). -/
def Credentials.callCredentials (c : Credentials) : Map × Credentials := (c.call c.used, { c with used := c.used + 1 })

/-- `channelCredentials()` (qgrpccredentials.h:90-92). -/
def Credentials.channelCredentials (c : Credentials) : Map := c.channel

/-- `QGrpcUserPasswordCredentials` (qgrpcuserpasswordcredentials.h:45-67). -/
def userPassword (userField passwordField : Bytes) (user password : Option Bytes) : Operand :=
  .call fun _ => [(userField, .text user), (passwordField, .text password)]

/-- `SslConfigCredential` (qgrpccredentials.cpp:30): "sslConfig". -/
def sslConfigCredential : Bytes := "sslConfig".toUTF8.toList

/-- `QGrpcSslCredentials` (qgrpcsslcredentials.h:42-49). -/
def sslCredentials (config : Nat) : Operand := .channel [(sslConfigCredential, .ssl config)]

/-- `QGrpcInsecureChannelCredentials` and `QGrpcInsecureCallCredentials` (qgrpcinsecurecredentials.h:39-60): empty
maps. -/
def insecureChannel : Operand := .channel []
def insecureCall : Operand := .call fun _ => []

/-- `QHash::value`. -/
def find (m : Map) (key : Bytes) : Option Value := (m.find? (·.1 = key)).map (·.2)

/-- The scheme of the URL and the SSL configuration of a new HTTP/2 channel (qgrpchttp2channel.cpp:181-193). A
value of another type gives the default configuration, `none`. -/
def newChannel (scheme : String) (c : Credentials) : Res (String × Option Nat) :=
  if scheme = "https" then
    match find c.channelCredentials sslConfigCredential with
    | none => .throw .invalidArgument
    | some (.ssl config) => .ok (scheme, some config)
    | some (.text _) => .ok (scheme, none)
  else if scheme = "" then .ok ("http", none)
  else .ok (scheme, none)

/-- Letters in lower case: header names are compared like this by Qt. -/
def lower (n : Bytes) : Bytes := n.map fun b => if 65 ≤ b.toNat ∧ b.toNat ≤ 90 then b + 32 else b

/-- `QNetworkRequest::setRawHeader`: the header of that name is replaced; a null value only removes it. -/
def setRawHeader (headers : List (Bytes × Bytes)) (name : Bytes) (value : Option Bytes) : List (Bytes × Bytes) :=
  let rest := headers.filter (fun h => lower h.1 ≠ lower name)
  match value with
  | some v => rest ++ [(name, v)]
  | none => rest

/-- `QVariant::toString().toUtf8()`: an SSL configuration has no text. -/
def Value.toUtf8 : Value → Option Bytes
  | .text s => s
  | .ssl _ => none

def ascii (s : String) : Bytes := s.toUTF8.toList

/-- The headers set first (qgrpchttp2channel.cpp:121-124). -/
def fixedHeaders : List (Bytes × Bytes) :=
  let h : List (Bytes × Bytes) := []
  let h := setRawHeader h (ascii "Content-Type") (some (ascii "application/grpc"))
  let h := setRawHeader h (ascii "grpc-accept-encoding") (some (ascii "identity,deflate,gzip"))
  let h := setRawHeader h (ascii "accept-encoding") (some (ascii "identity,gzip"))
  setRawHeader h (ascii "te") (some (ascii "trailers"))

/-- The headers of a request (qgrpchttp2channel.cpp:120-130) and the credentials afterwards. -/
def post (c : Credentials) : List (Bytes × Bytes) × Credentials :=
  let (m, c) := c.callCredentials
  (m.foldl (fun h e => setRawHeader h e.1 e.2.toUtf8) fixedHeaders, c)

/-- The headers of `n` requests in a row. -/
def posts (c : Credentials) : Nat → List (List (Bytes × Bytes))
  | 0 => []
  | n + 1 => let (h, c) := post c; h :: posts c n

/-- The header of a name, as the server reads it. -/
def header (headers : List (Bytes × Bytes)) (name : Bytes) : Option Bytes :=
  (headers.find? (fun h => lower h.1 = lower name)).map (·.2)

end QtPb.Cred
