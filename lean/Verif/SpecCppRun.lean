import Verif.SpecDefs
import Verif.Values
/-
A reader and an interpreter of the bodies of functions of generated classes, made for this specification and independent of the generator. A
body is read as statements: `if (e) { … }`, `return e;`, `a = b;`, `e;`. Expressions are names, `x.y`, calls, `*e`, `!e`, `==`, `!=`, `&&`,
`||` and parentheses. Running a body reads and changes the members of two objects (`*this` and the parameter) and emits signals. What is not
known (another kind of statement, an unknown name, a wrong type, a missing function) has no meaning: the outcome is `ub`.
What the types of Qt and the library do (comparison, copies, moves) is a parameter.
-/
set_option linter.unusedVariables false

namespace QtPb.SpecCpp

/-! ### Reading -/

/-- A token: a name (the names of operators too, `operator==`) or a mark. -/
inductive Token
  | name (w : Text)
  | mark (s : Text)
deriving DecidableEq, Repr

/-- Tokens of lexemes: marks of two characters are put together; there are no string literals in expressions. -/
def tokensOf : List Lexeme → Option (List Token)
  | [] => some []
  | .word w :: .punct '=' :: .punct '=' :: r =>
    if w = text! "operator" then (tokensOf r).map (Token.name (text! "operator==") :: ·)
    else (tokensOf r).map fun l => .name w :: .mark (text! "==") :: l
  | .word w :: r => (tokensOf r).map (.name w :: ·)
  | .punct '=' :: .punct '=' :: r => (tokensOf r).map (.mark (text! "==") :: ·)
  | .punct '!' :: .punct '=' :: r => (tokensOf r).map (.mark (text! "!=") :: ·)
  | .punct '&' :: .punct '&' :: r => (tokensOf r).map (.mark (text! "&&") :: ·)
  | .punct '|' :: .punct '|' :: r => (tokensOf r).map (.mark (text! "||") :: ·)
  | .punct ':' :: .punct ':' :: r => (tokensOf r).map (.mark (text! "::") :: ·)
  | .punct '-' :: .punct '>' :: r => (tokensOf r).map (.mark (text! "->") :: ·)
  | .punct c :: r => (tokensOf r).map (.mark [c] :: ·)
  | .str _ :: _ => none

def isMark (s : Text) : Token → Bool
  | .mark t => t == s
  | _ => false

/-- The parts between a mark, outside of parentheses; none if parentheses do not match. -/
def splitFrom (sep : Text) (depth : Nat) (acc : List Token) : List Token → Option (List (List Token))
  | [] => if depth = 0 then some [acc] else none
  | t :: r =>
    if isMark sep t && depth == 0 then (splitFrom sep 0 [] r).map (acc :: ·)
    else if isMark (text! "(") t then splitFrom sep (depth + 1) (acc ++ [t]) r
    else if isMark (text! ")") t then (match depth with | 0 => none | d + 1 => splitFrom sep d (acc ++ [t]) r)
    else splitFrom sep depth (acc ++ [t]) r

def splitMarks (sep : Text) (ts : List Token) : Option (List (List Token)) := splitFrom sep 0 [] ts

inductive Expr
  | var (x : Text)
  | field (x y : Text)
  | deref (e : Expr)
  | not (e : Expr)
  | eq (a b : Expr)
  | ne (a b : Expr)
  | and (a b : Expr)
  | or (a b : Expr)
  | call0 (f : List Text)
  | call1 (f : List Text) (a : Expr)
  | call2 (f : List Text) (a b : Expr)
deriving DecidableEq, Repr

def tokenText : Token → Text
  | .name w => w
  | .mark s => s

/-- A name, `x.y`, or a call: what stands in front of the first parenthesis, and the arguments. -/
def primary (sub : List Token → Option Expr) (ts : List Token) : Option Expr :=
  match ts with
  | [.name x] => some (.var x)
  | [.name x, .mark ['.'], .name y] => some (.field x y)
  | .name x :: r =>
    let f := (Token.name x :: r).takeWhile fun t => !isMark (text! "(") t
    match (r.dropWhile fun t => !isMark (text! "(") t).drop 1 with
    | [] => none
    | a :: as =>
      if isMark (text! ")") ((a :: as).getLastD a) then
        let inner := (a :: as).dropLast
        if inner = [] then some (.call0 (f.map tokenText))
        else match splitMarks (text! ",") inner with
          | some [e] => (sub e).map (.call1 (f.map tokenText))
          | some [e, e'] =>
            match sub e, sub e' with
            | some a, some b => some (.call2 (f.map tokenText) a b)
            | _, _ => none
          | _ => none
      else none
  | _ => none

/-- `*e`, `!e`, `(e)`, or a name or call. -/
def unary (sub : List Token → Option Expr) (ts : List Token) : Option Expr :=
  match ts with
  | .mark ['*'] :: r => (sub r).map .deref
  | .mark ['!'] :: r => (sub r).map .not
  | .mark ['('] :: r => if isMark (text! ")") (r.getLastD (.name [])) then sub r.dropLast else none
  | _ => primary sub ts

/-- Operands joined by an operator, from the right. -/
def joinRight (op : Expr → Expr → Expr) : List (Option Expr) → Option Expr
  | [] => none
  | [e] => e
  | e :: es =>
    match e, joinRight op es with
    | some a, some b => some (op a b)
    | _, _ => none

/-- Expressions, by the strength of the operators; `n` bounds how deep they are nested. -/
def expr : Nat → List Token → Option Expr
  | 0, _ => none
  | n + 1, ts =>
    match splitMarks (text! "||") ts with
    | some [_] =>
      match splitMarks (text! "&&") ts with
      | some [_] =>
        match splitMarks (text! "==") ts with
        | some [_] =>
          match splitMarks (text! "!=") ts with
          | some [_] => unary (expr n) ts
          | some [a, b] => joinRight .ne [expr n a, expr n b]
          | _ => none
        | some [a, b] => joinRight .eq [expr n a, expr n b]
        | _ => none
      | some l => joinRight .and (l.map (expr n))
      | none => none
    | some l => joinRight .or (l.map (expr n))
    | none => none

/-- The depth of expressions that is read. -/
def exprOf (ts : List Token) : Option Expr := expr 8 ts

inductive Stmt
  | expr (e : Expr)
  | assign (a b : Expr)
  | ret (e : Expr)
  | cond (e : Expr) (body : List Stmt)

/-- A statement without body. -/
def simpleOf (ls : List Lexeme) : Option Stmt :=
  match tokensOf ls with
  | none => none
  | some ts =>
    match ts with
    | .name w :: r =>
      if w = text! "return" then (exprOf r).map .ret
      else
        match splitMarks (text! "=") ts with
        | some [e] => (exprOf e).map .expr
        | some [a, b] =>
          match exprOf a, exprOf b with
          | some x, some y => some (.assign x y)
          | _, _ => none
        | _ => none
    | _ =>
      match splitMarks (text! "=") ts with
      | some [a, b] =>
        match exprOf a, exprOf b with
        | some x, some y => some (.assign x y)
        | _, _ => none
      | _ => none

/-- The condition of `if (e)`. -/
def condOf : List Lexeme → Option Expr
  | .word w :: .punct '(' :: r =>
    if w = text! "if" ∧ r.getLast? = some (.punct ')') then (tokensOf r.dropLast).bind exprOf else none
  | _ => none

/-- The state of the reader: the statements read in the open blocks, from the outermost, with the condition of the block inside of each;
the statements of the innermost block; the lexemes read since the last statement. -/
structure BodyReader where
  open_ : List (List Stmt × Expr) := []
  done : List Stmt := []
  head : List Lexeme := []

def onBody (r : BodyReader) (x : Lexeme) : Option BodyReader :=
  match x with
  | .punct ';' => (simpleOf r.head).map fun s => { r with done := r.done ++ [s], head := [] }
  | .punct '{' => (condOf r.head).map fun e => ⟨(r.done, e) :: r.open_, [], []⟩
  | .punct '}' =>
    match r.open_, r.head with
    | (before, e) :: up, [] => some ⟨up, before ++ [.cond e r.done], []⟩
    | _, _ => none
  | x => some { r with head := r.head ++ [x] }

def bodyAll : BodyReader → List Lexeme → Option BodyReader
  | r, [] => some r
  | r, x :: xs =>
    match onBody r x with
    | none => none
    | some r' => bodyAll r' xs

/-- The statements of a body. -/
def stmtsOf (body : List Lexeme) : Option (List Stmt) :=
  match bodyAll {} body with
  | some ⟨[], done, []⟩ => some done
  | _ => none

/-! ### Running -/

/-- The two objects a function of a class works with. -/
inductive Who
  | this
  | other
deriving DecidableEq, Repr

/-- The members of both objects, and the signals they have emitted. -/
structure Objects where
  this : Text → Val
  other : Text → Val
  log : List (Who × Text) := []

def Objects.get (s : Objects) : Who → Text → Val
  | .this => s.this
  | .other => s.other

def Objects.set (s : Objects) (w : Who) (x : Text) (v : Val) : Objects :=
  match w with
  | .this => { s with this := fun y => if y = x then v else s.this y }
  | .other => { s with other := fun y => if y = x then v else s.other y }

def Objects.emit (s : Objects) (w : Who) (signal : Text) : Objects := { s with log := s.log ++ [(w, signal)] }

/-- A member `m_x`, or the message `*m_x` behind a member that is a lazy pointer. -/
inductive Place
  | member (w : Who) (x : Text)
  | content (w : Who) (x : Text)

/-- A pointer to a message: to the one behind a member of an object, to another one, to none. -/
inductive Pointer
  | own (w : Who) (x : Text)
  | given (m : Nat) (o : Obj)
  | null

/-- What an expression stands for: a truth value, the number 0, a value of a type, a message, an object of the class, a place, a place that
may be moved from, a pointer to a message, nothing. -/
inductive Rt
  | bool (b : Bool)
  | zero
  | data (ty : FieldTy) (v : Val)
  | message (m : Nat) (o : Obj)
  | object (w : Who)
  | place (p : Place)
  | moved (p : Place)
  | pointer (p : Pointer)
  | void

/-- What the types of Qt and of the library do, and the classes of sub-messages. -/
structure Lib where
  /-- `==` of members that are not messages. -/
  same : FieldTy → Val → Val → Bool
  /-- `==` of lazy pointers to messages. -/
  lazy : Nat → Val → Val → Res Bool
  /-- `repeatedValueCompare`. -/
  repeated : FieldTy → Val → Val → Res Bool
  /-- `==` of messages. -/
  equal : Nat → Obj → Obj → Res Bool
  /-- Assignment of messages. -/
  assign : Nat → Obj → Obj → Res Obj
  /-- Move assignment of messages: what the target and the source are afterwards. -/
  move : Nat → Obj → Obj → Res (Obj × Obj)
  /-- What `a = std::move(b)` leaves in `b`, for members that are not messages. -/
  left : FieldTy → Val → Val → Val
  /-- A new message. -/
  fresh : Nat → Obj

/-- A class: the types of its members, its signals, the functions with one parameter (name, name of the parameter, body) that can be called. -/
structure Cls where
  types : Text → Option FieldTy
  signals : List Text
  functions : List (Text × Text × List Lexeme)

/-- The number 0 as a value of a type of number. -/
def zeroOf : Kind → Option Scalar
  | .float | .int32 | .uint32 | .sint32 | .fixed32 | .sfixed32 => some (.w32 0)
  | .double | .int64 | .uint64 | .sint64 | .fixed64 | .sfixed64 => some (.w64 0)
  | .bool => some (.bool false)
  | .string | .bytes => none

section
variable (lib : Lib) (cls : Cls)

/-- The message behind a lazy pointer: dereferencing one that is not set makes a new message. (That it stays there is not recorded for
reading: nothing tells an unset pointer from one to a new message.) -/
def behind (m : Nat) : Val → Obj
  | .msg o => o
  | _ => lib.fresh m

/-- The value of an expression that is read: a type and a value, or a message. -/
def readValue (s : Objects) : Rt → Res (FieldTy × Val ⊕ Nat × Obj)
  | .data ty v => .ok (.inl (ty, v))
  | .message m o => .ok (.inr (m, o))
  | .place (.member w x) =>
    match cls.types x with
    | some ty => .ok (.inl (ty, s.get w x))
    | none => .ub
  | .place (.content w x) =>
    match cls.types x with
    | some (.msg m) => .ok (.inr (m, behind lib m (s.get w x)))
    | _ => .ub
  | _ => .ub

/-- `==` of pointers. The addresses of messages that were given are not known. -/
def samePointer : Pointer → Pointer → Res Bool
  | .own w x, .own w' x' => .ok (decide (w = w' ∧ x = x'))
  | .null, .null => .ok true
  | .given _ _, .given _ _ => .ub
  | _, _ => .ok false

/-- `a == b`. -/
def compareValues (s : Objects) (a b : Rt) : Res Bool :=
  match a, b with
  | .pointer p, .pointer p' => samePointer p p'
  | a, b => do
    let x ← readValue lib cls s a
    let y ← readValue lib cls s b
    match x, y with
    | .inl (.msg m, v), .inl (.msg m', v') => if m = m' then lib.lazy m v v' else .ub
    | .inl (ty, v), .inl (ty', v') => if ty = ty' then .ok (lib.same ty v v') else .ub
    | .inr (m, o), .inr (m', o') => if m = m' then lib.equal m o o' else .ub
    | _, _ => .ub

/-- `m_x.get()` of a lazy pointer. -/
def getPointer : Rt → Res Rt
  | .place (.member w x) =>
    match cls.types x with
    | some (.msg _) => .ok (.pointer (.own w x))
    | _ => .ub
  | _ => .ub

/-- `m_x.reset(p)` of a lazy pointer: the object owns the message from now on. It may not be given the one it has. -/
def resetPointer (s : Objects) : Rt → Rt → Res Objects
  | .place (.member w x), .pointer p =>
    match cls.types x, p with
    | some (.msg m), .given m' o => if m = m' then .ok (s.set w x (.msg o)) else .ub
    | some (.msg _), .null => .ok (s.set w x .msgNull)
    | _, _ => .ub
  | _, _ => .ub

/-- `a = b`. Lazy pointers cannot be copied. -/
def assignValue (s : Objects) (a b : Rt) : Res Objects :=
  match a, b with
  | .place (.member w x), .moved (.member w' x') =>
    match cls.types x, cls.types x' with
    | some (.msg _), _ => .ub
    | some ty, some ty' =>
      if ty = ty' ∧ w ≠ w' then
        .ok ((s.set w x (s.get w' x')).set w' x' (lib.left ty (s.get w x) (s.get w' x')))
      else .ub
    | _, _ => .ub
  | .place (.content w x), .moved (.content w' x') =>
    match cls.types x, cls.types x' with
    | some (.msg m), some (.msg m') =>
      if m = m' ∧ w ≠ w' then do
        let r ← lib.move m (behind lib m (s.get w x)) (behind lib m (s.get w' x'))
        .ok ((s.set w x (.msg r.1)).set w' x' (.msg r.2))
      else .ub
    | _, _ => .ub
  | .place (.member w x), b => do
    let y ← readValue lib cls s b
    match cls.types x, y with
    | some (.msg _), _ => .ub
    | some ty, .inl (ty', v) => if ty = ty' then .ok (s.set w x v) else .ub
    | _, _ => .ub
  | .place (.content w x), b => do
    let y ← readValue lib cls s b
    match cls.types x, y with
    | some (.msg m), .inr (m', o) =>
      if m = m' then do
        let r ← lib.assign m (behind lib m (s.get w x)) o
        .ok (s.set w x (.msg r))
      else .ub
    | _, _ => .ub
  | _, _ => .ub

/-- A name: a parameter, `this`, a literal, a member. -/
def nameValue (locals : List (Text × Rt)) (x : Text) : Res Rt :=
  match locals.lookup x with
  | some v => .ok v
  | none =>
    if x = text! "true" then .ok (.bool true)
    else if x = text! "0" then .ok .zero
    else if x = text! "this" then .ok (.object .this)
    else if (cls.types x).isSome then .ok (.place (.member .this x))
    else .ub

def derefValue : Rt → Res Rt
  | .object w => .ok (.object w)
  | .place (.member w x) => .ok (.place (.content w x))
  | _ => .ub

/-- The library: `std::move`, `std::exchange(x, 0)`, `repeatedValueCompare`. -/
def moveFn : List Text := [text! "std", text! "::", text! "move"]
def exchangeFn : List Text := [text! "std", text! "::", text! "exchange"]
def repeatedFn : List Text := [text! "QtProtobuf", text! "::", text! "repeatedValueCompare"]
def equalFn : List Text := [text! "this", text! "->", text! "operator=="]

/-- `call` runs a function of the class. -/
def eval (call : Text → Rt → Objects → Res (Rt × Objects)) (locals : List (Text × Rt)) : Expr → Objects → Res (Rt × Objects)
  | .var x, s => do
    let v ← nameValue cls locals x
    .ok (v, s)
  | .field x y, s => do
    let v ← nameValue cls locals x
    match v with
    | .object w => if (cls.types y).isSome then .ok (.place (.member w y), s) else .ub
    | _ => .ub
  | .deref e, s => do
    let r ← eval call locals e s
    let v ← derefValue r.1
    .ok (v, r.2)
  | .not e, s => do
    let r ← eval call locals e s
    match r.1 with
    | .bool b => .ok (.bool (!b), r.2)
    | _ => .ub
  | .eq a b, s => do
    let x ← eval call locals a s
    let y ← eval call locals b x.2
    let r ← compareValues lib cls y.2 x.1 y.1
    .ok (.bool r, y.2)
  | .ne a b, s => do
    let x ← eval call locals a s
    let y ← eval call locals b x.2
    let r ← compareValues lib cls y.2 x.1 y.1
    .ok (.bool (!r), y.2)
  | .and a b, s => do
    let x ← eval call locals a s
    match x.1 with
    | .bool true => do
      let y ← eval call locals b x.2
      match y.1 with
      | .bool r => .ok (.bool r, y.2)
      | _ => .ub
    | .bool false => .ok (.bool false, x.2)
    | _ => .ub
  | .or a b, s => do
    let x ← eval call locals a s
    match x.1 with
    | .bool true => .ok (.bool true, x.2)
    | .bool false => do
      let y ← eval call locals b x.2
      match y.1 with
      | .bool r => .ok (.bool r, y.2)
      | _ => .ub
    | _ => .ub
  | .call0 f, s =>
    match f with
    | [x] => if cls.signals.contains x then .ok (.void, s.emit .this x) else .ub
    | [o, ['.'], x] => do
      let v ← nameValue cls locals o
      match v with
      | .object w => if cls.signals.contains x then .ok (.void, s.emit w x) else .ub
      | .place p =>
        if x = text! "get" then do
          let r ← getPointer cls (.place p)
          .ok (r, s)
        else .ub
      | _ => .ub
    | _ => .ub
  | .call1 f a, s => do
    let x ← eval call locals a s
    if f = moveFn then
      match x.1 with
      | .place p => .ok (.moved p, x.2)
      | _ => .ub
    else if f = equalFn then call (text! "operator==") x.1 x.2
    else
      match f with
      | [n] => call n x.1 x.2
      | [o, ['.'], n] =>
        if n = text! "reset" then do
          let v ← nameValue cls locals o
          let s' ← resetPointer cls x.2 v x.1
          .ok (.void, s')
        else .ub
      | _ => .ub
  | .call2 f a b, s => do
    let x ← eval call locals a s
    let y ← eval call locals b x.2
    if f = exchangeFn then
      match x.1, y.1 with
      | .place (.member w m), .zero =>
        match cls.types m with
        | some (.scalar k) =>
          match zeroOf k with
          | some z => .ok (.data (.scalar k) (y.2.get w m), y.2.set w m (.sc z))
          | none => .ub
        | _ => .ub
      | _, _ => .ub
    else if f = repeatedFn then do
      let v ← readValue lib cls y.2 x.1
      let v' ← readValue lib cls y.2 y.1
      match v, v' with
      | .inl (ty, p), .inl (ty', p') =>
        if ty = ty' then do
          let r ← lib.repeated ty p p'
          .ok (.bool r, y.2)
        else .ub
      | _, _ => .ub
    else .ub

mutual
/-- A statement: the value it returns, if it returns. -/
def execOne (call : Text → Rt → Objects → Res (Rt × Objects)) (locals : List (Text × Rt)) : Stmt → Objects → Res (Option Rt × Objects)
  | .expr e, s => do
    let r ← eval lib cls call locals e s
    .ok (none, r.2)
  | .assign a b, s => do
    let y ← eval lib cls call locals b s
    let x ← eval lib cls call locals a y.2
    let s' ← assignValue lib cls x.2 x.1 y.1
    .ok (none, s')
  | .ret e, s => do
    let r ← eval lib cls call locals e s
    .ok (some r.1, r.2)
  | .cond e body, s => do
    let r ← eval lib cls call locals e s
    match r.1 with
    | .bool true => execAll call locals body r.2
    | .bool false => .ok (none, r.2)
    | _ => .ub
def execAll (call : Text → Rt → Objects → Res (Rt × Objects)) (locals : List (Text × Rt)) : List Stmt → Objects → Res (Option Rt × Objects)
  | [], s => .ok (none, s)
  | t :: ts, s => do
    let r ← execOne call locals t s
    match r.1 with
    | some v => .ok (some v, r.2)
    | none => execAll call locals ts r.2
end

/-- A function: the body is read and run; the parameter is given. -/
def runBody (call : Text → Rt → Objects → Res (Rt × Objects)) (param : Text) (body : List Lexeme) (arg : Rt) (s : Objects) :
    Res (Rt × Objects) :=
  match stmtsOf body with
  | none => .ub
  | some ss => do
    let r ← execAll lib cls call [(param, arg)] ss s
    .ok (r.1.getD .void, r.2)

/-- A function without parameters. -/
def runNullary (body : List Lexeme) (s : Objects) : Res (Rt × Objects) :=
  match stmtsOf body with
  | none => .ub
  | some ss => do
    let r ← execAll lib cls (fun _ _ _ => .ub) [] ss s
    .ok (r.1.getD .void, r.2)

/-- Functions of the class that call functions of the class, `n` deep. -/
def callFn : Nat → Text → Rt → Objects → Res (Rt × Objects)
  | 0, _, _, _ => .ub
  | n + 1, f, arg, s =>
    match cls.functions.find? (·.1 == f) with
    | some (_, p, body) => runBody lib cls (callFn n) p body arg s
    | none => .ub

end

end QtPb.SpecCpp
