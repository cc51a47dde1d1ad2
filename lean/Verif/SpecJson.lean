import Verif.SpecObj
/-
Specification for C47: a reader of JSON texts, written from RFC 8259, and what the JSON text of a message has to
contain. Independent of `Verif/Json.lean`, except that Qt's text conversions are the same arbitrary functions.
-/
namespace QtPb.Spec

/-- A JSON value. Strings are kept as they stand between the quotes (escape sequences are checked but not replaced),
numbers as their text. -/
inductive JVal
  | null
  | bool (b : Bool)
  | num (text : Bytes)
  | str (raw : Bytes)
  | arr (items : List JVal)
  | obj (members : List (Bytes × JVal))

/-- Skip white space. -/
def skipWs : Bytes → Bytes
  | [] => []
  | b :: r => if b = 0x20 ∨ b = 0x09 ∨ b = 0x0a ∨ b = 0x0d then skipWs r else b :: r

def isDigit (b : UInt8) : Bool := 48 ≤ b && b ≤ 57
def isHex (b : UInt8) : Bool := isDigit b || (65 ≤ b && b ≤ 70) || (97 ≤ b && b ≤ 102)

/-- Characters behind a backslash: `"`, `\`, `/`, `b`, `f`, `n`, `r`, `t`. -/
def isEscape (b : UInt8) : Bool := [0x22, 0x5c, 0x2f, 0x62, 0x66, 0x6e, 0x72, 0x74].contains b

/-- The rest of a string behind the opening quote: what stands between the quotes, and what follows. -/
def stringRest : Bytes → Option (Bytes × Bytes)
  | [] => none
  | b :: r =>
    if b = 0x22 then some ([], r)
    else if b = 0x5c then
      match r with
      | 0x75 :: h1 :: h2 :: h3 :: h4 :: r' =>
        if isHex h1 && isHex h2 && isHex h3 && isHex h4 then
          (stringRest r').map fun x => (0x5c :: 0x75 :: h1 :: h2 :: h3 :: h4 :: x.1, x.2)
        else none
      | e :: r' => if isEscape e then (stringRest r').map fun x => (0x5c :: e :: x.1, x.2) else none
      | [] => none
    else if b < 0x20 then none
    else (stringRest r).map fun x => (b :: x.1, x.2)

/-- `[ e|E [+|-] digits ]` -/
def isExponent : Bytes → Bool
  | [] => true
  | e :: r =>
    (e == 0x65 || e == 0x45) &&
      match r with
      | s :: d => if s == 0x2b || s == 0x2d then !d.isEmpty && d.all isDigit else (s :: d).all isDigit
      | [] => false

/-- `[ . digits ] exponent` -/
def isFraction : Bytes → Bool
  | 0x2e :: d :: r => isDigit d && isExponent (r.dropWhile isDigit)
  | r => isExponent r

/-- `0 | (1-9) digits*`, then fraction and exponent. -/
def isUnsignedNumber : Bytes → Bool
  | 0x30 :: r => isFraction r
  | d :: r => isDigit d && isFraction (r.dropWhile isDigit)
  | [] => false

/-- Is the text a JSON number? -/
def isNumber : Bytes → Bool
  | 0x2d :: r => isUnsignedNumber r
  | r => isUnsignedNumber r

/-- The characters of numbers: digits, `+`, `-`, `.`, `e`, `E`. -/
def numberChar (b : UInt8) : Bool := isDigit b || [0x2b, 0x2d, 0x2e, 0x65, 0x45].contains b

mutual
/-- A value, behind optional white space. The first argument bounds the steps. -/
def readValue : Nat → Bytes → Option (JVal × Bytes)
  | 0, _ => none
  | n + 1, s =>
    match skipWs s with
    | 0x7b :: r =>
      match skipWs r with
      | 0x7d :: r => some (.obj [], r)
      | r => (readMembers n r).map fun x => (.obj x.1, x.2)
    | 0x5b :: r =>
      match skipWs r with
      | 0x5d :: r => some (.arr [], r)
      | r => (readItems n r).map fun x => (.arr x.1, x.2)
    | 0x22 :: r => (stringRest r).map fun x => (.str x.1, x.2)
    | 0x74 :: 0x72 :: 0x75 :: 0x65 :: r => some (.bool true, r)
    | 0x66 :: 0x61 :: 0x6c :: 0x73 :: 0x65 :: r => some (.bool false, r)
    | 0x6e :: 0x75 :: 0x6c :: 0x6c :: r => some (.null, r)
    | s => if isNumber (s.takeWhile numberChar) then some (.num (s.takeWhile numberChar), s.dropWhile numberChar) else none
/-- `"name" : value` separated by commas, up to the closing brace. -/
def readMembers : Nat → Bytes → Option (List (Bytes × JVal) × Bytes)
  | 0, _ => none
  | n + 1, s =>
    match skipWs s with
    | 0x22 :: r =>
      match stringRest r with
      | none => none
      | some (name, r) =>
        match skipWs r with
        | 0x3a :: r =>
          match readValue n r with
          | none => none
          | some (v, r) =>
            match skipWs r with
            | 0x2c :: r => (readMembers n r).map fun x => ((name, v) :: x.1, x.2)
            | 0x7d :: r => some ([(name, v)], r)
            | _ => none
        | _ => none
    | _ => none
/-- Values separated by commas, up to the closing bracket. -/
def readItems : Nat → Bytes → Option (List JVal × Bytes)
  | 0, _ => none
  | n + 1, s =>
    match readValue n s with
    | none => none
    | some (v, r) =>
      match skipWs r with
      | 0x2c :: r => (readItems n r).map fun x => (v :: x.1, x.2)
      | 0x5d :: r => some ([v], r)
      | _ => none
end

/-- The value of a JSON document: one value, with white space around it. -/
def readJson (s : Bytes) : Option JVal :=
  match readValue (s.length + 1) s with
  | some (v, r) => if skipWs r = [] then some v else none
  | none => none

/-! ### Base64 (RFC 4648) -/

/-- Number of a character of the alphabet. -/
def base64Value (b : UInt8) : Option Nat :=
  if 65 ≤ b && b ≤ 90 then some (b.toNat - 65)
  else if 97 ≤ b && b ≤ 122 then some (b.toNat - 97 + 26)
  else if 48 ≤ b && b ≤ 57 then some (b.toNat - 48 + 52)
  else if b = 43 then some 62 else if b = 47 then some 63 else none

/-- Decode: groups of four characters; padding `=` only at the end. -/
def base64Decode : Bytes → Option Bytes
  | [] => some []
  | [a, b, 61, 61] =>
    match base64Value a, base64Value b with
    | some x, some y => if y % 16 = 0 then some [UInt8.ofNat (x * 4 + y / 16)] else none
    | _, _ => none
  | [a, b, c, 61] =>
    match base64Value a, base64Value b, base64Value c with
    | some x, some y, some z =>
      if z % 4 = 0 then some [UInt8.ofNat (x * 4 + y / 16), UInt8.ofNat (y % 16 * 16 + z / 4)] else none
    | _, _, _ => none
  | a :: b :: c :: d :: r =>
    match base64Value a, base64Value b, base64Value c, base64Value d, base64Decode r with
    | some x, some y, some z, some w, some l =>
      some (UInt8.ofNat (x * 4 + y / 16) :: UInt8.ofNat (y % 16 * 16 + z / 4) :: UInt8.ofNat (z % 4 * 64 + w) :: l)
    | _, _, _, _, _ => none
  | _ => none

end QtPb.Spec
