import Verif.Basic
/-
Model of the framing and the status mapping of the HTTP/2 channel (src/grpc/qgrpchttp2channel.cpp).
The network is the environment: it says which bytes arrive and with which error a reply ends.
`QByteArray` sizes are `int`; the model uses natural numbers and the theorems assume that the sizes fit.
Not modelled: HTTP headers other than grpc-status, TLS, logging.
-/
namespace QtPb.Http2

/-- The bytes that `qToBigEndian(int)` puts into memory (line 137). -/
def qToBigEndian (v : BitVec 32) : Bytes :=
  [UInt8.ofNat (v.toNat / 2 ^ 24), UInt8.ofNat (v.toNat / 2 ^ 16), UInt8.ofNat (v.toNat / 2 ^ 8), UInt8.ofNat v.toNat]

/-- The body that `post` sends (lines 136-138): five zero bytes, the size over the last four, the
arguments. `args.size()` is an `int`. -/
def requestBody (args : Bytes) : Bytes :=
  let msg : Bytes := List.replicate 5 0
  let msg := msg.take 1 ++ qToBigEndian (BitVec.ofNat 32 args.length)
  msg ++ args

/-- `qFromBigEndian` of the `int` stored in four bytes (line 196). -/
def qFromBigEndian (b0 b1 b2 b3 : UInt8) : Int :=
  (BitVec.ofNat 32 (b0.toNat * 2 ^ 24 + b1.toNat * 2 ^ 16 + b2.toNat * 2 ^ 8 + b3.toNat)).toInt

/-- `getExpectedDataSize` (lines 195-197). A `QByteArray` has one zero byte after its contents, reading
behind that is undefined, and so is the signed overflow of the addition. -/
def getExpectedDataSize (container : Bytes) : Res Int :=
  match (container ++ [0]).drop 1 with
  | b0 :: b1 :: b2 :: b3 :: _ =>
    let size := qFromBigEndian b0 b1 b2 b3 + 5
    if size < 2 ^ 31 then .ok size else .ub
  | _ => .ub

/-- `QByteArray::mid`: a negative length means up to the end. -/
def mid (b : Bytes) (pos : Nat) (len : Int) : Bytes :=
  if len < 0 then b.drop pos else (b.drop pos).take len.toNat

/-- `QByteArray::remove(0, len)`: nothing happens if the length is not positive. -/
def removeFront (b : Bytes) (len : Int) : Bytes := if len ≤ 0 then b else b.drop len.toNat

/-- `ExpectedData` (lines 103-106): `expectedSize` and `container`. -/
structure ExpectedData where
  expectedSize : Int
  container : Bytes
deriving DecidableEq, Repr

/-- The loop of the readyRead lambda (lines 304-313): the messages passed to the handler and the new
contents of the record. `finished` is `networkReply->isFinished()`; handlers that change it are not
modelled. The first argument bounds the iterations. -/
def messageLoop (finished : Bool) : Nat → ExpectedData → Res (List Bytes × ExpectedData)
  | 0, _ => .fuel
  | n + 1, d =>
    if (d.container.length : Int) ≥ d.expectedSize ∧ finished = false then do
      let message := mid d.container 5 (d.expectedSize - 5)
      let container := removeFront d.container d.expectedSize
      let expectedSize ← if container.length > 5 then getExpectedDataSize container else .ok d.expectedSize
      let (messages, d) ← messageLoop finished n ⟨expectedSize, container⟩
      .ok (message :: messages, d)
    else .ok ([], d)

/-- The readyRead lambda (lines 280-318) for a reply with the given entry in `activeStreamReplies`:
messages passed to the handler and the new entry. -/
def readyRead (n : Nat) (finished : Bool) (record : Option ExpectedData) (data : Bytes) :
    Res (List Bytes × Option ExpectedData) := do
  match record with
  | none =>
    let expectedDataSize ← getExpectedDataSize data
    if expectedDataSize = 0 then .ok ([[]], none)
    else proceed ⟨expectedDataSize, []⟩
  | some d => proceed d
where
  /-- Lines 300-317. -/
  proceed (d : ExpectedData) : Res (List Bytes × Option ExpectedData) := do
    let (messages, d) ← messageLoop finished n ⟨d.expectedSize, d.container ++ data⟩
    if d.container.length < 5 ∨ finished = true then .ok (messages, none) else .ok (messages, some d)

/-- Chunks that arrive one after the other while the reply is running. -/
def receive (n : Nat) : Option ExpectedData → List Bytes → Res (List Bytes × Option ExpectedData)
  | record, [] => .ok ([], record)
  | record, data :: chunks => do
    let (messages, record) ← readyRead n false record data
    let (more, record) ← receive n record chunks
    .ok (messages ++ more, record)

/-! ### Status of replies -/

/-- `QNetworkReply::NetworkError` of Qt 5. -/
inductive NetworkError
  | NoError | ConnectionRefusedError | RemoteHostClosedError | HostNotFoundError | TimeoutError
  | OperationCanceledError | SslHandshakeFailedError | TemporaryNetworkFailureError
  | NetworkSessionFailedError | BackgroundRequestNotAllowedError | TooManyRedirectsError
  | InsecureRedirectError | UnknownNetworkError | ProxyConnectionRefusedError
  | ProxyConnectionClosedError | ProxyNotFoundError | ProxyTimeoutError
  | ProxyAuthenticationRequiredError | UnknownProxyError | ContentAccessDenied
  | ContentOperationNotPermittedError | ContentNotFoundError | AuthenticationRequiredError
  | ContentReSendError | ContentConflictError | ContentGoneError | UnknownContentError
  | ProtocolUnknownError | ProtocolInvalidOperationError | ProtocolFailure | InternalServerError
  | OperationNotImplementedError | ServiceUnavailableError | UnknownServerError
deriving DecidableEq, Repr

/-- `QGrpcStatus::StatusCode` (qgrpcstatus.h): an enumeration that can hold any `int`. -/
abbrev StatusCode := Int

namespace Status
def Ok : StatusCode := 0
def Cancelled : StatusCode := 1
def Unknown : StatusCode := 2
def InvalidArgument : StatusCode := 3
def DeadlineExceeded : StatusCode := 4
def NotFound : StatusCode := 5
def PermissionDenied : StatusCode := 7
def Aborted : StatusCode := 10
def OutOfRange : StatusCode := 11
def Unimplemented : StatusCode := 12
def Internal : StatusCode := 13
def Unavailable : StatusCode := 14
def DataLoss : StatusCode := 15
def Unauthenticated : StatusCode := 16
end Status

open NetworkError in
/-- `StatusCodeMap` (lines 56-89), in the order of the source. -/
def statusCodeMap : List (NetworkError × StatusCode) :=
  [(ConnectionRefusedError, Status.Unavailable),
   (RemoteHostClosedError, Status.Unavailable),
   (HostNotFoundError, Status.Unavailable),
   (TimeoutError, Status.DeadlineExceeded),
   (OperationCanceledError, Status.Unavailable),
   (SslHandshakeFailedError, Status.PermissionDenied),
   (TemporaryNetworkFailureError, Status.Unknown),
   (NetworkSessionFailedError, Status.Unavailable),
   (BackgroundRequestNotAllowedError, Status.Unknown),
   (TooManyRedirectsError, Status.Unavailable),
   (InsecureRedirectError, Status.PermissionDenied),
   (UnknownNetworkError, Status.Unknown),
   (ProxyConnectionRefusedError, Status.Unavailable),
   (ProxyConnectionClosedError, Status.Unavailable),
   (ProxyNotFoundError, Status.Unavailable),
   (ProxyTimeoutError, Status.DeadlineExceeded),
   (ProxyAuthenticationRequiredError, Status.Unauthenticated),
   (UnknownProxyError, Status.Unknown),
   (ContentAccessDenied, Status.PermissionDenied),
   (ContentOperationNotPermittedError, Status.PermissionDenied),
   (ContentNotFoundError, Status.NotFound),
   (AuthenticationRequiredError, Status.PermissionDenied),
   (ContentReSendError, Status.DataLoss),
   (ContentConflictError, Status.InvalidArgument),
   (ContentGoneError, Status.DataLoss),
   (UnknownContentError, Status.Unknown),
   (ProtocolUnknownError, Status.Unknown),
   (ProtocolInvalidOperationError, Status.Unimplemented),
   (ProtocolFailure, Status.Unknown),
   (InternalServerError, Status.Internal),
   (OperationNotImplementedError, Status.Unimplemented),
   (ServiceUnavailableError, Status.Unavailable),
   (UnknownServerError, Status.Unknown)]

/-- `StatusCodeMap.at(error)` (lines 167, 368). -/
def statusCodeAt (e : NetworkError) : Res StatusCode :=
  match statusCodeMap.lookup e with
  | some c => .ok c
  | none => .throw .outOfRange

/-- The digits of `QByteArray::toInt` up to the first other byte, which makes it fail. -/
def parseDigits : Nat → Bytes → Option Nat
  | acc, [] => some acc
  | acc, b :: bs => if 48 ≤ b.toNat ∧ b.toNat ≤ 57 then parseDigits (10 * acc + (b.toNat - 48)) bs else none

/-- `QByteArray::toInt`: 0 if the text is no decimal number in the range of `int`. Simplification: no
white space and no plus sign. -/
def toInt : Bytes → Int
  | [] => 0
  | 45 :: bs => match bs with
    | [] => 0
    | _ => match parseDigits 0 bs with
      | some n => if n ≤ 2 ^ 31 then -(n : Int) else 0
      | none => 0
  | bs => match parseDigits 0 bs with
    | some n => if n < 2 ^ 31 then n else 0
    | none => 0

/-- What a finished network reply holds: the error, the grpc-status header (`rawHeader` gives an empty
array if it is missing) and the body. -/
structure Reply where
  error : NetworkError
  grpcStatus : Option Bytes
  body : Bytes

/-- `processReply` (lines 164-179): data and status code. -/
def processReply (r : Reply) : Res (Bytes × StatusCode) := do
  if r.error ≠ .NoError then
    let statusCode ← statusCodeAt r.error
    .ok ([], statusCode)
  else
    let statusCode := toInt (r.grpcStatus.getD [])
    if statusCode ≠ Status.Ok then .ok ([], statusCode)
    else .ok (r.body.drop 5, statusCode)

end QtPb.Http2
