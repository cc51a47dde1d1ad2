import Verif.SpecDefs
import Verif.Basic
/-
A reader and an interpreter of the bodies of functions of generated clients, made for this specification and independent of the generator. The
bodies are read as the few kinds of statements that can stand there; a body with anything else has no meaning. Running a body reads objects,
makes requests to the class that clients are derived from, and connects functions that run when the answer arrives or the request has failed.
The use of a null pointer, of an object that is gone, of a variable that is not captured or of a value of a wrong kind is `ub`.
Not followed: types of variables other than of messages that are read and stored; QML engines that are not the JavaScript engine; destruction of
the engine or the client (then nothing is called any more).
-/
set_option linter.unusedVariables false

namespace QtPb.SpecCpp.Client

/-! ### Reading -/

/-- Something given in a call: `x`, `*x`, `QPointer<T>(x)`. -/
inductive Arg
  | var (x : Text)
  | deref (x : Text)
  | guarded (T : List Lexeme) (x : Text)
deriving DecidableEq, Repr

/-- `!x.isCallable()`, `x == nullptr`, `x.isNull()`. -/
inductive Cond
  | notCallable (x : Text)
  | null (x : Text)
  | gone (x : Text)
deriving DecidableEq, Repr

inductive Stmt
  /-- `qProtoWarning() << "…";` -/
  | warn
  /-- `return;` -/
  | leave
  /-- `return f("M", args…);` -/
  | give (f M : Text) (args : List Arg)
  /-- `if (c) { … }` -/
  | when (c : Cond) (body : List Stmt)
  /-- `QJSEngine *x = qjsEngine(this);` -/
  | engine (x : Text)
  /-- `QPointer<T> x(y);` -/
  | guard (T : List Lexeme) (x y : Text)
  /-- `QtProtobuf::QGrpcCallReplyShared x = f("M", args…);` -/
  | request (x f M : Text) (args : List Arg)
  /-- `auto x = new T(r->read<T'>());` -/
  | create (x : Text) (T : List Lexeme) (r : Text) (T' : List Lexeme)
  /-- `qmlEngine(this)->setObjectOwnership(x, QQmlEngine::JavaScriptOwnership);` -/
  | own (x : Text)
  /-- `QJSValue(f).call(QJSValueList{e->toScriptValue(x)});` -/
  | script (f e x : Text)
  /-- `*g = T(r->read<T'>());` -/
  | store (g : Text) (T : List Lexeme) (r : Text) (T' : List Lexeme)
  /-- `f(x);` -/
  | invoke (f x : Text)
  /-- `QObject::connect(r.get(), &QtProtobuf::QGrpcCallReply::finished, c, [captures]() { … });` -/
  | connect (r c : Text) (captures : List Text) (body : List Stmt)
  /-- `r->subscribe(e, [captures]() { … }, [captures'](const QGrpcStatus &s) { … });` -/
  | subscribe (r e : Text) (captures : List Text) (body : List Stmt) (captures' : List Text) (s : Text) (body' : List Stmt)

abbrev Reader (β : Type) := List Lexeme → Option (β × List Lexeme)

/-- Exactly these lexemes. -/
def lit : List Lexeme → Reader Unit
  | [], ts => some ((), ts)
  | x :: l, t :: ts => if x = t then lit l ts else none
  | _ :: _, [] => none

def name : Reader Text
  | .word w :: r => some (w, r)
  | _ => none

def string : Reader Text
  | .str s :: r => some (s, r)
  | _ => none

/-- The name of a type: words and colons. -/
def type : List Lexeme → List Lexeme × List Lexeme
  | .word w :: r => let p := type r; (.word w :: p.1, p.2)
  | .punct ':' :: r => let p := type r; (.punct ':' :: p.1, p.2)
  | r => ([], r)

/-- `, a, b, …)` -/
def args : Nat → Reader (List Arg)
  | 0, _ => none
  | n + 1, ts =>
    match lit (cpp! ")") ts with
    | some (_, r) => some ([], r)
    | none =>
      match (do
        let (_, r) ← lit (cpp! ", *") ts
        let (x, r) ← name r
        some (Arg.deref x, r)) <|>
      (do
        let (_, r) ← lit (cpp! ", QPointer<") ts
        let (T, r) := type r
        let (_, r) ← lit (cpp! ">(") r
        let (x, r) ← name r
        let (_, r) ← lit (cpp! ")") r
        some (Arg.guarded T x, r)) <|>
      (do
        let (_, r) ← lit (cpp! ",") ts
        let (x, r) ← name r
        some (Arg.var x, r)) with
      | some (a, r) => (args n r).map fun p => (a :: p.1, p.2)
      | none => none

/-- `f("M", args…);` -/
def callee : Reader (Text × Text × List Arg) := fun ts => do
  let (f, r) ← name ts
  let (_, r) ← lit (cpp! "(") r
  let (M, r) ← string r
  let (as, r) ← args 4 r
  let (_, r) ← lit (cpp! ";") r
  some ((f, M, as), r)

def cond : Reader Cond := fun ts =>
  (do
    let (_, r) ← lit (cpp! "!") ts
    let (x, r) ← name r
    let (_, r) ← lit (cpp! ".isCallable()") r
    some (.notCallable x, r)) <|>
  (do
    let (x, r) ← name ts
    let (_, r) ← lit (cpp! "== nullptr") r
    some (.null x, r)) <|>
  (do
    let (x, r) ← name ts
    let (_, r) ← lit (cpp! ".isNull()") r
    some (.gone x, r))

/-- `a, b, …]` -/
def captures : Nat → Reader (List Text)
  | 0, _ => none
  | n + 1, ts => do
    let (x, r) ← name ts
    match lit (cpp! ",") r with
    | some (_, r) => (captures n r).map fun p => (x :: p.1, p.2)
    | none =>
      let (_, r) ← lit (cpp! "]") r
      some ([x], r)

/-- `T(r->read<T'>());` -/
def readAs : Reader (List Lexeme × Text × List Lexeme) := fun ts => do
  let (T, r) := type ts
  let (_, r) ← lit (cpp! "(") r
  let (x, r) ← name r
  let (_, r) ← lit (cpp! "->read<") r
  let (T', r) := type r
  let (_, r) ← lit (cpp! ">());") r
  some ((T, x, T'), r)

section
variable (block : Reader (List Stmt))

def rWhen : Reader Stmt := fun ts => do
  let (_, r) ← lit (cpp! "if (") ts
  let (c, r) ← cond r
  let (_, r) ← lit (cpp! ") {") r
  let (b, r) ← block r
  let (_, r) ← lit (cpp! "}") r
  some (.when c b, r)

def rWarn : Reader Stmt := fun ts => do
  let (_, r) ← lit (cpp! "qProtoWarning() <<") ts
  let (_, r) ← string r
  let (_, r) ← lit (cpp! ";") r
  some (.warn, r)

def rLeave : Reader Stmt := fun ts => do
  let (_, r) ← lit (cpp! "return;") ts
  some (.leave, r)

def rGive : Reader Stmt := fun ts => do
  let (_, r) ← lit (cpp! "return") ts
  let (c, r) ← callee r
  some (.give c.1 c.2.1 c.2.2, r)

def rEngine : Reader Stmt := fun ts => do
  let (_, r) ← lit (cpp! "QJSEngine *") ts
  let (x, r) ← name r
  let (_, r) ← lit (cpp! "= qjsEngine(this);") r
  some (.engine x, r)

def rGuard : Reader Stmt := fun ts => do
  let (_, r) ← lit (cpp! "QPointer<") ts
  let (T, r) := type r
  let (_, r) ← lit (cpp! ">") r
  let (x, r) ← name r
  let (_, r) ← lit (cpp! "(") r
  let (y, r) ← name r
  let (_, r) ← lit (cpp! ");") r
  some (.guard T x y, r)

def rRequest : Reader Stmt := fun ts => do
  let (_, r) ← lit (cpp! "QtProtobuf::QGrpcCallReplyShared") ts
  let (x, r) ← name r
  let (_, r) ← lit (cpp! "=") r
  let (c, r) ← callee r
  some (.request x c.1 c.2.1 c.2.2, r)

def rCreate : Reader Stmt := fun ts => do
  let (_, r) ← lit (cpp! "auto") ts
  let (x, r) ← name r
  let (_, r) ← lit (cpp! "= new") r
  let (p, r) ← readAs r
  some (.create x p.1 p.2.1 p.2.2, r)

def rOwn : Reader Stmt := fun ts => do
  let (_, r) ← lit (cpp! "qmlEngine(this)->setObjectOwnership(") ts
  let (x, r) ← name r
  let (_, r) ← lit (cpp! ", QQmlEngine::JavaScriptOwnership);") r
  some (.own x, r)

def rScript : Reader Stmt := fun ts => do
  let (_, r) ← lit (cpp! "QJSValue(") ts
  let (f, r) ← name r
  let (_, r) ← lit (cpp! ").call(QJSValueList{") r
  let (e, r) ← name r
  let (_, r) ← lit (cpp! "->toScriptValue(") r
  let (x, r) ← name r
  let (_, r) ← lit (cpp! ")});") r
  some (.script f e x, r)

def rStore : Reader Stmt := fun ts => do
  let (_, r) ← lit (cpp! "*") ts
  let (g, r) ← name r
  let (_, r) ← lit (cpp! "=") r
  let (p, r) ← readAs r
  some (.store g p.1 p.2.1 p.2.2, r)

def rConnect : Reader Stmt := fun ts => do
  let (_, r) ← lit (cpp! "QObject::connect(") ts
  let (x, r) ← name r
  let (_, r) ← lit (cpp! ".get(), &QtProtobuf::QGrpcCallReply::finished,") r
  let (c, r) ← name r
  let (_, r) ← lit (cpp! ", [") r
  let (cs, r) ← captures 5 r
  let (_, r) ← lit (cpp! "() {") r
  let (b, r) ← block r
  let (_, r) ← lit (cpp! "});") r
  some (.connect x c cs b, r)

def rSubscribe : Reader Stmt := fun ts => do
  let (x, r) ← name ts
  let (_, r) ← lit (cpp! "->subscribe(") r
  let (e, r) ← name r
  let (_, r) ← lit (cpp! ", [") r
  let (cs, r) ← captures 5 r
  let (_, r) ← lit (cpp! "() {") r
  let (b, r) ← block r
  let (_, r) ← lit (cpp! "}, [") r
  let (cs', r) ← captures 5 r
  let (_, r) ← lit (cpp! "(const QGrpcStatus &") r
  let (s, r) ← name r
  let (_, r) ← lit (cpp! ") {") r
  let (b', r) ← block r
  let (_, r) ← lit (cpp! "});") r
  some (.subscribe x e cs b cs' s b', r)

def rInvoke : Reader Stmt := fun ts => do
  let (f, r) ← name ts
  let (_, r) ← lit (cpp! "(") r
  let (x, r) ← name r
  let (_, r) ← lit (cpp! ");") r
  some (.invoke f x, r)

def stmt : Reader Stmt := fun ts =>
  rWhen block ts <|> rWarn ts <|> rLeave ts <|> rGive ts <|> rEngine ts <|> rGuard ts <|> rRequest ts <|> rCreate ts <|> rOwn ts <|> rScript ts <|>
    rStore ts <|> rConnect block ts <|> rSubscribe block ts <|> rInvoke ts

end

/-- Statements up to a bracket `}` or the end. -/
def stmts : Nat → Reader (List Stmt)
  | 0, _ => none
  | n + 1, ts =>
    match ts with
    | [] => some ([], [])
    | .punct '}' :: r => some ([], .punct '}' :: r)
    | ts =>
      match stmt (stmts n) ts with
      | some (s, r) => (stmts n r).map fun p => (s :: p.1, p.2)
      | none => none

/-- The statements of a body. -/
def body (ls : List Lexeme) : Option (List Stmt) :=
  match stmts (ls.length + 1) ls with
  | some (l, []) => some l
  | _ => none

/-! ### Running -/

/-- A value of a variable. Objects, functions, JavaScript values and statuses are numbered. -/
inductive Value
  | this
  /-- a reference to an object -/
  | ref (o : Nat)
  /-- a pointer, null or to an object -/
  | ptr (o : Option Nat)
  /-- a `QPointer<T>` -/
  | guard (T : List Lexeme) (o : Option Nat)
  | js (f : Nat) (callable : Bool)
  | fn (f : Nat)
  | context
  | engine (there : Bool)
  /-- what the class that clients are derived from returns for a request: a shared pointer to a reply or a stream, or a status -/
  | made (request : Nat)
  | status (s : Nat)

/-- A request to the class that clients are derived from: `call` or `stream`, the method, the argument, where the answer goes to. -/
structure Request (α : Type) where
  function : Text
  method : Text
  argument : α
  target : Option (Option Nat)

/-- What the program or the user is told. -/
inductive Told
  | warning
  /-- a JavaScript function is called with an object -/
  | object (f o : Nat)
  /-- a JavaScript function is called with a status -/
  | status (f s : Nat)
  /-- a C++ function is called with the reply -/
  | reply (f request : Nat)

structure World (α : Type) where
  /-- messages; `none`: there is no such object (any more) -/
  objects : Nat → Option α
  /-- the number of the next object -/
  fresh : Nat
  /-- the client belongs to a JavaScript engine -/
  hasEngine : Bool
  /-- asynchronous requests are given a reply (there is a channel with a serializer); otherwise the shared pointer is null -/
  accepts : Bool
  requests : List (Request α)
  /-- objects that the JavaScript engine deletes -/
  owned : List Nat
  told : List Told

abbrev Vars := List (Text × Value)

def Vars.get (vs : Vars) (x : Text) : Option Value := (vs.find? fun p => p.1 == x).map (·.2)

/-- A function that is connected to the reply: variables, name for the status, body. -/
structure Handler where
  vars : Vars
  status : Text
  body : List Stmt

/-- The functions connected for the answer and for a failure. -/
structure Connected where
  answer : List Handler
  failure : List Handler

structure State (α : Type) where
  vars : Vars
  world : World α
  connected : Connected

inductive Flow (α : Type)
  | next (s : State α)
  | done (result : Option Value) (world : World α) (connected : Connected)

section
variable {α : Type}

def World.tell (w : World α) (t : Told) : World α := { w with told := w.told ++ [t] }

/-- The message that is given. -/
def message (s : State α) : Arg → Option α
  | .var x => match s.vars.get x with | some (.ref o) => s.world.objects o | _ => none
  | .deref x => match s.vars.get x with | some (.ptr (some o)) => s.world.objects o | _ => none
  | .guarded _ _ => none

/-- Where the answer goes to. -/
def target (s : State α) : Arg → Option (Option Nat)
  | .var x => match s.vars.get x with | some (.guard _ o) => some o | _ => none
  | .guarded _ x => match s.vars.get x with | some (.ptr o) => some o | _ => none
  | .deref _ => none

/-- A request to the class that clients are derived from. -/
def ask (s : State α) (f M : Text) : List Arg → Res (World α)
  | [a] => match message s a with
    | some v => .ok { s.world with requests := s.world.requests ++ [⟨f, M, v, none⟩] }
    | none => .ub
  | [a, t] => match message s a, target s t with
    | some v, some o => .ok { s.world with requests := s.world.requests ++ [⟨f, M, v, some o⟩] }
    | _, _ => .ub
  | _ => .ub

def holds (s : State α) : Cond → Res Bool
  | .notCallable x => match s.vars.get x with | some (.js _ c) => .ok (!c) | _ => .ub
  | .null x => match s.vars.get x with
    | some (.ptr o) => .ok o.isNone
    | some (.engine e) => .ok (!e)
    | _ => .ub
  | .gone x => match s.vars.get x with
    | some (.guard _ o) => .ok ((o.bind s.world.objects).isNone)
    | _ => .ub

/-- The variables that are captured. -/
def capture (vs : Vars) (cs : List Text) : Option Vars := cs.mapM fun x => (vs.get x).map fun v => (x, v)

variable (data : Option (List Lexeme → α))

mutual
/-- One statement. `data`: the answer that was received, as a message of a type. -/
def exec : Stmt → State α → Res (Flow α)
  | .warn, s => .ok (.next { s with world := s.world.tell .warning })
  | .leave, s => .ok (.done none s.world s.connected)
  | .give f M as, s => match ask s f M as with
    | .ok w => .ok (.done (some (.made s.world.requests.length)) w s.connected)
    | _ => .ub
  | .when c b, s => match holds s c with
    | .ok true => execAll b s
    | .ok false => .ok (.next s)
    | _ => .ub
  | .engine x, s => match s.vars.get (text! "this") with
    | some .this => .ok (.next { s with vars := (x, .engine s.world.hasEngine) :: s.vars })
    | _ => .ub
  | .guard T x y, s => match s.vars.get y with
    | some (.ptr o) => .ok (.next { s with vars := (x, .guard T o) :: s.vars })
    | _ => .ub
  | .request x f M as, s => match ask s f M as with
    | .ok w => .ok (.next { s with world := w, vars := (x, .made s.world.requests.length) :: s.vars })
    | _ => .ub
  | .create x T r T', s => match s.vars.get r, data with
    | some (.made _), some d => if T = T' then
        .ok (.next { s with
          world := { s.world with objects := fun n => if n = s.world.fresh then some (d T) else s.world.objects n, fresh := s.world.fresh + 1 },
          vars := (x, .ptr (some s.world.fresh)) :: s.vars })
      else .ub
    | _, _ => .ub
  | .own x, s => match s.vars.get (text! "this"), s.vars.get x with
    | some .this, some (.ptr (some o)) => .ok (.next { s with world := { s.world with owned := s.world.owned ++ [o] } })
    | _, _ => .ub
  | .script f e x, s => match s.vars.get f, s.vars.get e, s.vars.get x with
    | some (.js f c), some (.engine true), some (.ptr (some o)) => .ok (.next { s with world := if c then s.world.tell (.object f o) else s.world })
    | some (.js f c), some (.engine true), some (.status k) => .ok (.next { s with world := if c then s.world.tell (.status f k) else s.world })
    | _, _, _ => .ub
  | .store g T r T', s => match s.vars.get g, s.vars.get r, data with
    | some (.guard G (some o)), some (.made _), some d => if G = T ∧ T = T' ∧ (s.world.objects o).isSome then
        .ok (.next { s with world := { s.world with objects := fun n => if n = o then some (d T) else s.world.objects n } })
      else .ub
    | _, _, _ => .ub
  | .invoke f x, s => match s.vars.get f, s.vars.get x with
    | some (.fn f), some (.made k) => .ok (.next { s with world := s.world.tell (.reply f k) })
    | _, _ => .ub
  -- a null pointer is refused with a warning
  | .connect r c cs b, s => match s.vars.get r, s.vars.get c, capture s.vars cs with
    | some (.made _), some .context, some vs => .ok (.next (if s.world.accepts then
        { s with connected := { s.connected with answer := s.connected.answer ++ [⟨vs, [], b⟩] } } else { s with world := s.world.tell .warning }))
    | _, _, _ => .ub
  | .subscribe r e cs b cs' x b', s => match s.vars.get r, s.vars.get e, capture s.vars cs, capture s.vars cs' with
    | some (.made _), some (.engine true), some vs, some vs' => if s.world.accepts then
        .ok (.next { s with connected := ⟨s.connected.answer ++ [⟨vs, [], b⟩], s.connected.failure ++ [⟨vs', x, b'⟩]⟩ })
      else .ub
    | _, _, _, _ => .ub
def execAll : List Stmt → State α → Res (Flow α)
  | [], s => .ok (.next s)
  | x :: l, s => match exec x s with
    | .ok (.next s) => execAll l s
    | .ok (.done v w c) => .ok (.done v w c)
    | _ => .ub
end

/-- A body from its beginning: result, world, what is connected. -/
def start (l : List Stmt) (vs : Vars) (w : World α) : Res (Option Value × World α × Connected) :=
  match execAll data l ⟨vs, w, ⟨[], []⟩⟩ with
  | .ok (.next s) => .ok (none, s.world, s.connected)
  | .ok (.done v w c) => .ok (v, w, c)
  | _ => .ub

/-- What happens to a request after the function has returned: nothing yet, or anything else and then an answer or a failure. -/
inductive Later (α : Type)
  | nothing
  | answered (meanwhile : World α → World α) (data : List Lexeme → α)
  | failed (meanwhile : World α → World α) (status : Nat)

/-- The functions that are connected run one after another. -/
def runHandlers (data : Option (List Lexeme → α)) (k : Option Nat) : List Handler → World α → Res (World α)
  | [], w => .ok w
  | h :: l, w =>
    match start data h.body (match k with | some k => (h.status, .status k) :: h.vars | none => h.vars) w with
    | .ok (_, w, _) => runHandlers data k l w
    | _ => .ub

/-- A body, and what happens afterwards. -/
def run (ls : List Lexeme) (vs : Vars) (w : World α) (later : Later α) : Res (Option Value × World α) :=
  match body ls with
  | none => .ub
  | some l => match start none l vs w with
    | .ok (v, w, c) => match later with
      | .nothing => .ok (v, w)
      | .answered f d => (runHandlers (some d) none c.answer (f w)).bind fun w => .ok (v, w)
      | .failed f k => (runHandlers none (some k) c.failure (f w)).bind fun w => .ok (v, w)
    | _ => .ub

end

/-- What a function is given, by the names of its parameters. -/
structure Given where
  ref : Text → Nat
  ptr : Text → Option Nat
  js : Text → Nat × Bool
  fn : Text → Nat

/-- The value of a parameter, by its type. -/
def Given.value (g : Given) (p : List Lexeme × Text) : Value :=
  if p.1 = cpp! "const QJSValue &" then .js (g.js p.2).1 (g.js p.2).2
  else if p.1 = cpp! "const QObject *" then .context
  else if (lit (cpp! "const std::function<") p.1).isSome then .fn (g.fn p.2)
  else match lit (cpp! "const QPointer<") p.1 with
    | some (_, r) => .guard (type r).1 (g.ptr p.2)
    | none => if p.1.getLast? = some (.punct '*') then .ptr (g.ptr p.2) else .ref (g.ref p.2)

/-- What a function does. -/
def does {α : Type} (f : Fn) (g : Given) (w : World α) (later : Later α) : Res (Option Value × World α) :=
  run f.body ((text! "this", .this) :: f.params.map fun p => (p.2, g.value p)) w later

end QtPb.SpecCpp.Client
