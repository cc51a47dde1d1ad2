import Verif.SpecClientRun
import Verif.TextDefs2
/-
The bodies of the functions of generated clients, read and run.
-/
namespace QtPb.TextProof
open QtPb.Gen QtPb.Gen.Text QtPb.SpecCpp QtPb.Gen.Text.Spec QtPb.SpecCpp.Client

/-- Words and colons only. -/
def TypeName (O : List Lexeme) : Prop := ∀ x ∈ O, (∃ w, x = .word w) ∨ x = .punct ':'

theorem type_run : ∀ {O : List Lexeme}, TypeName O → ∀ {c : Char}, c ≠ ':' → ∀ r, type (O ++ .punct c :: r) = (O, .punct c :: r)
  | [], _, c, hc, r => by
    rw [List.nil_append]
    unfold type
    split
    · rename_i e; simp at e
    · rename_i e; simp at e; exact absurd e.1 hc
    · rfl
  | x :: O, h, c, hc, r => by
    have ih := type_run (O := O) (fun y hy => h y (by simp [hy])) hc r
    rcases h x (by simp) with ⟨w, rfl⟩ | rfl
    · rw [List.cons_append, type, ih]
    · rw [List.cons_append, type, ih]

section
variable (K M input output : Text) {O : List Lexeme} (hO : TypeName O)

theorem body_sync : body (Src.syncBody M) = some [.give (text! "call") M [.var (text! "arg"), .var (text! "ret")]] := by rfl
theorem body_async : body (Src.asyncBody M) = some [.give (text! "call") M [.var (text! "arg")]] := by rfl
theorem body_stream : body (Src.streamBody M) = some [.give (text! "stream") M [.var (text! "arg")]] := by rfl
theorem body_stream2 : body (Src.stream2Body M) = some [.give (text! "stream") M [.var (text! "arg"), .var (text! "ret")]] := by rfl
theorem body_async2 : body (Src.async2Body M) = some [.request (text! "reply") (text! "call") M [.var (text! "arg")],
    .connect (text! "reply") (text! "context") [text! "reply", text! "callback"] [.invoke (text! "callback") (text! "reply")]] := by rfl

include hO

theorem readAs_run (r : List Lexeme) : readAs (O ++ (cpp! "(reply->read<") ++ (O ++ (cpp! ">());") ++ r)) = some ((O, text! "reply", O), r) := by
  have h1 : type (O ++ (cpp! "(reply->read<") ++ (O ++ (cpp! ">());") ++ r)) = (O, (cpp! "(reply->read<") ++ (O ++ (cpp! ">());") ++ r)) := by
    have := type_run hO (c := '(') (by decide) ((cpp! "reply->read<") ++ (O ++ (cpp! ">());") ++ r))
    simpa using this
  have h2 : type (O ++ (cpp! ">());") ++ r) = (O, (cpp! ">());") ++ r) := by
    have := type_run hO (c := '>') (by decide) ((cpp! "());") ++ r)
    simpa using this
  have e : ∀ p : List Lexeme × List Lexeme, p = (O, (cpp! "(reply->read<") ++ (O ++ (cpp! ">());") ++ r)) →
      (do
        let (T, r) := p
        let (_, r) ← lit (cpp! "(") r
        let (x, r) ← name r
        let (_, r) ← lit (cpp! "->read<") r
        let (T', r) := type r
        let (_, r) ← lit (cpp! ">());") r
        some ((T, x, T'), r)) = some ((O, text! "reply", O), r) := by
    rintro _ rfl
    show (do
        let (T', r) := type (O ++ (cpp! ">());") ++ r)
        let (_, r) ← lit (cpp! ">());") r
        some ((O, text! "reply", T'), r)) = _
    rw [h2]
    rfl
  exact e _ h1

theorem stmt_create (b : Reader (List Stmt)) (r : List Lexeme) :
    stmt b ((cpp! "auto result = new") ++ (O ++ (cpp! "(reply->read<") ++ (O ++ (cpp! ">());") ++ r))) =
      some (.create (text! "result") O (text! "reply") O, r) := by
  have h : rCreate ((cpp! "auto result = new") ++ (O ++ (cpp! "(reply->read<") ++ (O ++ (cpp! ">());") ++ r))) =
      some (.create (text! "result") O (text! "reply") O, r) := by
    show ((readAs (O ++ (cpp! "(reply->read<") ++ (O ++ (cpp! ">());") ++ r))).bind fun p => some (Stmt.create (text! "result") p.1.1 p.1.2.1 p.1.2.2, p.2)) = _
    rw [readAs_run hO]
    rfl
  show (rCreate _ <|> _) = _
  rw [h]
  rfl

theorem stmt_store (b : Reader (List Stmt)) (r : List Lexeme) :
    stmt b ((cpp! "*safeReturn =") ++ (O ++ (cpp! "(reply->read<") ++ (O ++ (cpp! ">());") ++ r))) =
      some (.store (text! "safeReturn") O (text! "reply") O, r) := by
  have h : rStore ((cpp! "*safeReturn =") ++ (O ++ (cpp! "(reply->read<") ++ (O ++ (cpp! ">());") ++ r))) =
      some (.store (text! "safeReturn") O (text! "reply") O, r) := by
    show ((readAs (O ++ (cpp! "(reply->read<") ++ (O ++ (cpp! ">());") ++ r))).bind fun p => some (Stmt.store (text! "safeReturn") p.1.1 p.1.2.1 p.1.2.2, p.2)) = _
    rw [readAs_run hO]
    rfl
  show (rStore _ <|> _) = _
  rw [h]
  rfl

theorem stmt_guard (b : Reader (List Stmt)) (r : List Lexeme) :
    stmt b ((cpp! "QPointer<") ++ (O ++ (cpp! "> safeReturn(ret);") ++ r)) = some (.guard O (text! "safeReturn") (text! "ret"), r) := by
  have h2 : type (O ++ (cpp! "> safeReturn(ret);") ++ r) = (O, (cpp! "> safeReturn(ret);") ++ r) := by
    have := type_run hO (c := '>') (by decide) ((cpp! "safeReturn(ret);") ++ r)
    simpa using this
  have h : rGuard ((cpp! "QPointer<") ++ (O ++ (cpp! "> safeReturn(ret);") ++ r)) = some (.guard O (text! "safeReturn") (text! "ret"), r) := by
    show (do
      let (T, r) := type (O ++ (cpp! "> safeReturn(ret);") ++ r)
      let (_, r) ← lit (cpp! ">") r
      let (x, r) ← name r
      let (_, r) ← lit (cpp! "(") r
      let (y, r) ← name r
      let (_, r) ← lit (cpp! ");") r
      some (Stmt.guard T x y, r)) = _
    rw [h2]
    rfl
  show (rGuard _ <|> _) = _
  rw [h]
  rfl

theorem stmt_guarded (b : Reader (List Stmt)) :
    stmt b ((cpp! "return stream(\"$M$\", *arg, QPointer<") ++ (O ++ (cpp! ">(ret));"))) =
      some (.give (text! "stream") M [.deref (text! "arg"), .guarded O (text! "ret")], []) := by
  have h2 : type (O ++ (cpp! ">(ret));")) = (O, (cpp! ">(ret));")) := type_run hO (c := '>') (by decide) (cpp! "(ret));")
  have e : (do
        let (_, r) ← lit (cpp! ", QPointer<") ((cpp! ", QPointer<") ++ (O ++ (cpp! ">(ret));")))
        let (T, r) := type r
        let (_, r) ← lit (cpp! ">(") r
        let (x, r) ← name r
        let (_, r) ← lit (cpp! ")") r
        some (Arg.guarded T x, r)) = some (Arg.guarded O (text! "ret"), cpp! ");") := by
    show (do
        let (T, r) := type (O ++ (cpp! ">(ret));"))
        let (_, r) ← lit (cpp! ">(") r
        let (x, r) ← name r
        let (_, r) ← lit (cpp! ")") r
        some (Arg.guarded T x, r)) = _
    rw [h2]
    rfl
  have ha : args 3 ((cpp! ", QPointer<") ++ (O ++ (cpp! ">(ret));"))) = some ([.guarded O (text! "ret")], cpp! ";") := by
    rw [args]
    show (match (none <|> ((do
        let (_, r) ← lit (cpp! ", QPointer<") ((cpp! ", QPointer<") ++ (O ++ (cpp! ">(ret));")))
        let (T, r) := type r
        let (_, r) ← lit (cpp! ">(") r
        let (x, r) ← name r
        let (_, r) ← lit (cpp! ")") r
        some (Arg.guarded T x, r)) <|> _)) with
      | some (a, r) => (args 2 r).map fun (p : List Arg × List Lexeme) => (a :: p.1, p.2)
      | none => none) = _
    rw [e]
    rfl
  have hg : rGive ((cpp! "return stream(\"$M$\", *arg, QPointer<") ++ (O ++ (cpp! ">(ret));"))) =
      some (.give (text! "stream") M [.deref (text! "arg"), .guarded O (text! "ret")], []) := by
    show (do
      let (c, r) ← (do
        let (as, r) ← (args 3 ((cpp! ", QPointer<") ++ (O ++ (cpp! ">(ret));")))).map fun (p : List Arg × List Lexeme) => (Arg.deref (text! "arg") :: p.1, p.2)
        let (_, r) ← lit (cpp! ";") r
        some ((text! "stream", M, as), r))
      some (Stmt.give c.1 c.2.1 c.2.2, r)) = _
    rw [ha]
    rfl
  show (rGive _ <|> _) = _
  rw [hg]
  rfl

omit hO in
theorem stmts_step {n : Nat} {ts : List Lexeme} {s : Stmt} {r : List Lexeme} {l : List Stmt} {r' : List Lexeme}
    (h : stmt (stmts n) ts = some (s, r)) (h' : stmts n r = some (l, r')) : stmts (n + 1) ts = some (s :: l, r') := by
  match ts with
  | [] => exact absurd h (by intro h; cases h)
  | .punct c :: x =>
    by_cases hc : c = '}'
    · subst hc; exact absurd h (by intro h; cases h)
    · simp [stmts, h, h', hc]
  | .word w :: x => simp [stmts, h, h']
  | .str w :: x => simp [stmts, h, h']

omit hO in
theorem body_of {ls : List Lexeme} {n : Nat} {l : List Stmt} (hn : ls.length = n) (h : stmts (n + 1) ls = some (l, [])) : body ls = some l := by
  rw [body, hn, h]

theorem body_qmlStream : body (Src.qmlStreamBody O M) = some [.give (text! "stream") M [.deref (text! "arg"), .guarded O (text! "ret")]] := by
  have e : Src.qmlStreamBody O M = (cpp! "return stream(\"$M$\", *arg, QPointer<") ++ (O ++ (cpp! ">(ret));")) := rfl
  have hl : (Src.qmlStreamBody O M).length = (Src.qmlStreamBody O M).length - 2 + 1 + 1 := by
    simp [e]
  rw [body, hl, stmts_step (by rw [e]; exact stmt_guarded M hO _) rfl]

/-- What is done with the answer by the function with two JavaScript functions. -/
def answerStmts (O : List Lexeme) : List Stmt :=
  [.create (text! "result") O (text! "reply") O, .own (text! "result"), .script (text! "callback") (text! "jsEngine") (text! "result")]

/-- What is done with the answer by the function with an object for it. -/
def storeStmts (O : List Lexeme) : List Stmt :=
  [.when (.gone (text! "safeReturn")) [.warn, .leave], .store (text! "safeReturn") O (text! "reply") O]

/-- What is done with a failure. -/
def failStmts : List Stmt := [.script (text! "errorCallback") (text! "jsEngine") (text! "status")]

omit hO in
theorem block_fail (n : Nat) (r : List Lexeme) :
    stmts (n + 5) ((cpp! "QJSValue(errorCallback).call(QJSValueList{jsEngine->toScriptValue(status)}); }") ++ r) = some (failStmts, .punct '}' :: r) := rfl

theorem block_answer (n : Nat) (r : List Lexeme) :
    stmts (n + 5) ((cpp! "auto result = new") ++ (O ++ (cpp! "(reply->read<") ++ (O ++ (cpp! ">());") ++
      ((cpp! "qmlEngine(this)->setObjectOwnership(result, QQmlEngine::JavaScriptOwnership); QJSValue(callback).call(QJSValueList{jsEngine->toScriptValue(result)}); }") ++ r)))) =
      some (answerStmts O, .punct '}' :: r) :=
  stmts_step (stmt_create hO _ _) rfl

theorem block_store (n : Nat) (r : List Lexeme) :
    stmts (n + 5) ((cpp! "if (safeReturn.isNull()) { qProtoWarning() << \"Return value is destroyed. Ignore call result\"; return; }") ++
      ((cpp! "*safeReturn =") ++ (O ++ (cpp! "(reply->read<") ++ (O ++ (cpp! ">());") ++ ((cpp! "}") ++ r))))) =
      some (storeStmts O, .punct '}' :: r) :=
  stmts_step rfl (stmts_step (stmt_store hO _ _) rfl)

omit hO in
theorem stmt_subscribe {block : Reader (List Stmt)} {cs : List Text} {C ts ts' r : List Lexeme} {b b' : List Stmt}
    (hc : captures 5 (C ++ ((cpp! "() {") ++ ts)) = some (cs, (cpp! "() {") ++ ts))
    (h : block ts = some (b, (cpp! "}, [errorCallback, jsEngine](const QGrpcStatus &status) {") ++ ts'))
    (h' : block ts' = some (b', (cpp! "});") ++ r)) :
    stmt block ((cpp! "reply->subscribe(jsEngine, [") ++ (C ++ ((cpp! "() {") ++ ts))) =
      some (.subscribe (text! "reply") (text! "jsEngine") cs b [text! "errorCallback", text! "jsEngine"] (text! "status") b', r) := by
  have e : rSubscribe block ((cpp! "reply->subscribe(jsEngine, [") ++ (C ++ ((cpp! "() {") ++ ts))) =
      some (.subscribe (text! "reply") (text! "jsEngine") cs b [text! "errorCallback", text! "jsEngine"] (text! "status") b', r) := by
    show (do
      let (cs, r) ← captures 5 (C ++ ((cpp! "() {") ++ ts))
      let (_, r) ← lit (cpp! "() {") r
      let (b, r) ← block r
      let (_, r) ← lit (cpp! "}, [") r
      let (cs', r) ← captures 5 r
      let (_, r) ← lit (cpp! "(const QGrpcStatus &") r
      let (s, r) ← name r
      let (_, r) ← lit (cpp! ") {") r
      let (b', r) ← block r
      let (_, r) ← lit (cpp! "});") r
      some (Stmt.subscribe (text! "reply") (text! "jsEngine") cs b cs' s b', r)) = _
    rw [hc]
    show (do
      let (b, r) ← block ts
      let (_, r) ← lit (cpp! "}, [") r
      let (cs', r) ← captures 5 r
      let (_, r) ← lit (cpp! "(const QGrpcStatus &") r
      let (s, r) ← name r
      let (_, r) ← lit (cpp! ") {") r
      let (b', r) ← block r
      let (_, r) ← lit (cpp! "});") r
      some (Stmt.subscribe (text! "reply") (text! "jsEngine") cs b cs' s b', r)) = _
    rw [h]
    show (do
      let (b', r) ← block ts'
      let (_, r) ← lit (cpp! "});") r
      some (Stmt.subscribe (text! "reply") (text! "jsEngine") cs b [text! "errorCallback", text! "jsEngine"] (text! "status") b', r)) = _
    rw [h']
    rfl
  show (rSubscribe _ _ <|> _) = _
  rw [e]
  rfl

theorem body_qml : body (Src.qmlBody O K M input) = some
    [.when (.notCallable (text! "callback")) [.warn, .leave], .when (.null (text! "arg")) [.warn, .leave], .engine (text! "jsEngine"),
     .when (.null (text! "jsEngine")) [.warn, .leave], .request (text! "reply") (text! "call") M [.deref (text! "arg")],
     .subscribe (text! "reply") (text! "jsEngine") [text! "this", text! "reply", text! "callback", text! "jsEngine"] (answerStmts O)
       [text! "errorCallback", text! "jsEngine"] (text! "status") failStmts] := by
  have e : Src.qmlBody O K M input =
    (cpp! "if (!callback.isCallable()) { qProtoWarning() << \"Unable to call $K$::$M$, callback is not callable\"; return; }") ++
    ((cpp! "if (arg == nullptr) { qProtoWarning() << \"Invalid argument provided for method $K$::$M$, argument of type '$input$ *' expected\"; return; }") ++
    ((cpp! "QJSEngine *jsEngine = qjsEngine(this);") ++
    ((cpp! "if (jsEngine == nullptr) { qProtoWarning() << \"Unable to call $K$::$M$, it's only callable from JS engine context\"; return; }") ++
    ((cpp! "QtProtobuf::QGrpcCallReplyShared reply = call(\"$M$\", *arg);") ++
    ((cpp! "reply->subscribe(jsEngine, [") ++ ((cpp! "this, reply, callback, jsEngine]") ++ ((cpp! "() {") ++
      ((cpp! "auto result = new") ++ (O ++ (cpp! "(reply->read<") ++ (O ++ (cpp! ">());") ++
      ((cpp! "qmlEngine(this)->setObjectOwnership(result, QQmlEngine::JavaScriptOwnership); QJSValue(callback).call(QJSValueList{jsEngine->toScriptValue(result)}); }") ++
      ((cpp! ", [errorCallback, jsEngine](const QGrpcStatus &status) {") ++
      ((cpp! "QJSValue(errorCallback).call(QJSValueList{jsEngine->toScriptValue(status)}); }") ++ (cpp! ");")))))))))))))) := by
    simp only [Src.qmlBody, List.append_assoc, List.cons_append, List.nil_append]
  have hl : ∃ n, (Src.qmlBody O K M input).length = n + 16 := by
    refine ⟨(Src.qmlBody O K M input).length - 16, (Nat.sub_add_cancel ?_).symm⟩
    rw [e, List.length_append]
    exact Nat.le_trans (Nat.le_of_ble_eq_true rfl) (Nat.le_add_right _ _)
  obtain ⟨n, hl⟩ := hl
  refine body_of hl ?_
  rw [e]
  refine stmts_step rfl (stmts_step rfl (stmts_step rfl (stmts_step rfl (stmts_step rfl (stmts_step (stmt_subscribe (C := cpp! "this, reply, callback, jsEngine]") (r := []) (ts' := (cpp! "QJSValue(errorCallback).call(QJSValueList{jsEngine->toScriptValue(status)}); }") ++ (cpp! ");")) rfl (block_answer hO _ _) (block_fail _ _)) rfl)))))

theorem body_qml2 : body (Src.qml2Body O K M input output) = some
    [.when (.null (text! "ret")) [.warn, .leave], .guard O (text! "safeReturn") (text! "ret"), .when (.null (text! "arg")) [.warn, .leave],
     .engine (text! "jsEngine"), .when (.null (text! "jsEngine")) [.warn, .leave], .request (text! "reply") (text! "call") M [.deref (text! "arg")],
     .subscribe (text! "reply") (text! "jsEngine") [text! "this", text! "reply", text! "jsEngine", text! "safeReturn"] (storeStmts O)
       [text! "errorCallback", text! "jsEngine"] (text! "status") failStmts] := by
  have e : Src.qml2Body O K M input output =
    (cpp! "if (ret == nullptr) { qProtoWarning() << \"Invalid argument provided for method $K$::$M$, argument of type '$output$ *' expected\"; return; }") ++
    ((cpp! "QPointer<") ++ (O ++ (cpp! "> safeReturn(ret);") ++
    ((cpp! "if (arg == nullptr) { qProtoWarning() << \"Invalid argument provided for method $K$::$M$, argument of type '$input$ *' expected\"; return; }") ++
    ((cpp! "QJSEngine *jsEngine = qjsEngine(this);") ++
    ((cpp! "if (jsEngine == nullptr) { qProtoWarning() << \"Unable to call $K$::$M$, it's only callable from JS engine context\"; return; }") ++
    ((cpp! "QtProtobuf::QGrpcCallReplyShared reply = call(\"$M$\", *arg);") ++
    ((cpp! "reply->subscribe(jsEngine, [") ++ ((cpp! "this, reply, jsEngine, safeReturn]") ++ ((cpp! "() {") ++
      ((cpp! "if (safeReturn.isNull()) { qProtoWarning() << \"Return value is destroyed. Ignore call result\"; return; }") ++
      ((cpp! "*safeReturn =") ++ (O ++ (cpp! "(reply->read<") ++ (O ++ (cpp! ">());") ++ ((cpp! "}") ++
      ((cpp! ", [errorCallback, jsEngine](const QGrpcStatus &status) {") ++
      ((cpp! "QJSValue(errorCallback).call(QJSValueList{jsEngine->toScriptValue(status)}); }") ++ (cpp! ");"))))))))))))))))) := by
    simp only [Src.qml2Body, List.append_assoc, List.cons_append, List.nil_append]
  have hl : ∃ n, (Src.qml2Body O K M input output).length = n + 16 := by
    refine ⟨(Src.qml2Body O K M input output).length - 16, (Nat.sub_add_cancel ?_).symm⟩
    rw [e, List.length_append]
    exact Nat.le_trans (Nat.le_of_ble_eq_true rfl) (Nat.le_add_right _ _)
  obtain ⟨n, hl⟩ := hl
  refine body_of hl ?_
  rw [e]
  refine stmts_step rfl (stmts_step (stmt_guard hO _ _) (stmts_step rfl (stmts_step rfl (stmts_step rfl (stmts_step rfl (stmts_step (stmt_subscribe (C := cpp! "this, reply, jsEngine, safeReturn]") (r := []) (ts' := (cpp! "QJSValue(errorCallback).call(QJSValueList{jsEngine->toScriptValue(status)}); }") ++ (cpp! ");")) rfl (block_store hO _ _) (block_fail _ _)) rfl))))))

end

/-! ### The values of parameters -/

section
variable {p : Path} (g : Given) (n : Text)

theorem typeName_qualified : ∀ p : Path, TypeName (qualified p)
  | [] => by simp [qualified, TypeName]
  | [n] => by intro x hx; simp [qualified] at hx; exact .inl ⟨n, hx⟩
  | n :: m :: ns => by
    intro x hx
    simp only [qualified, List.mem_cons] at hx
    rcases hx with rfl | rfl | rfl | hx
    · exact .inl ⟨_, rfl⟩
    · exact .inr rfl
    · exact .inr rfl
    · exact typeName_qualified (m :: ns) x hx

theorem qualified_shape (p : Path) : p = [] ∨ (∃ n, qualified p = [.word n] ∧ p = [n]) ∨ ∃ n r, qualified p = .word n :: .punct ':' :: r := by
  match p with
  | [] => exact .inl rfl
  | [n] => exact .inr (.inl ⟨n, rfl, rfl⟩)
  | n :: m :: ns => exact .inr (.inr ⟨n, _, rfl⟩)

theorem lit_mem : ∀ {l ts : List Lexeme} {q : Unit × List Lexeme}, lit l ts = some q → ∀ x ∈ l, x ∈ ts
  | [], _, _, _, x, hx => by cases hx
  | a :: l, [], _, h, _, _ => by cases h
  | a :: l, t :: ts, q, h, x, hx => by
    rw [lit] at h
    split at h
    · rename_i e
      rcases List.mem_cons.1 hx with rfl | hx
      · rw [e]; simp
      · exact List.mem_cons_of_mem _ (lit_mem h x hx)
    · cases h

theorem value_ref (hn : p ≠ []) (h : p ≠ [text! "QJSValue"]) {I : List Lexeme} (hI : I = methodType p) :
    g.value (cpp! "const @I@ &", n) = .ref (g.ref n) := by
  subst hI
  unfold methodType
  rcases qualified_shape p with e | ⟨m, e, e'⟩ | ⟨m, r, e⟩
  · exact absurd e hn
  · rw [e]
    have : m ≠ text! "QJSValue" := fun hm => h (by rw [e', hm])
    simp [Given.value, lit]
    exact this
  · have hl : (lit [Lexeme.punct ':', Lexeme.word (text! "function"), Lexeme.punct '<'] (r ++ [Lexeme.punct '&'])).isSome = false := by
      cases hx : lit [Lexeme.punct ':', Lexeme.word (text! "function"), Lexeme.punct '<'] (r ++ [Lexeme.punct '&']) with
      | none => rfl
      | some q =>
        have := lit_mem hx (.punct '<') (by simp)
        simp at this
        have := typeName_qualified p (.punct '<') (by rw [e]; simp [this])
        simp at this
    rw [e]
    have g1 : (Lexeme.punct ':' :: (r ++ [Lexeme.punct '&'])).getLast? = some (.punct '&') := by
      rw [← List.cons_append, List.getLast?_concat]
    simp [Given.value, lit, g1]
    intro hs
    exact Option.not_isSome_iff_eq_none.1 (by rw [hl]; simp)

theorem value_ptr (hn : p ≠ []) {I : List Lexeme} (hI : I = methodType p) : g.value (cpp! "@I@ *", n) = .ptr (g.ptr n) := by
  subst hI
  unfold methodType
  rcases qualified_shape p with e | ⟨m, e, e'⟩ | ⟨m, r, e⟩
  · exact absurd e hn
  · rw [e]
    simp [Given.value, lit]
  · rw [e]
    have g1 : (Lexeme.punct ':' :: (r ++ [Lexeme.punct '*'])).getLast? = some (.punct '*') := by
      rw [← List.cons_append, List.getLast?_concat]
    simp [Given.value, lit, g1]

theorem value_guard {O : List Lexeme} (hO : TypeName O) : g.value (cpp! "const QPointer<@O@> &", n) = .guard O (g.ptr n) := by
  have h : type (O ++ (cpp! "> &")) = (O, cpp! "> &") := type_run hO (c := '>') (by decide) (cpp! "&")
  have e : g.value (cpp! "const QPointer<@O@> &", n) = .guard (type (O ++ (cpp! "> &"))).1 (g.ptr n) := by
    simp [Given.value, lit]
  rw [e, h]

theorem value_js : g.value (cpp! "const QJSValue &", n) = .js (g.js n).1 (g.js n).2 := rfl
theorem value_context : g.value (cpp! "const QObject *", n) = .context := rfl
theorem value_fn : g.value (cpp! "const std::function<void(QGrpcCallReplyShared)> &", n) = .fn (g.fn n) := rfl

end

/-! ### What the functions do -/

section
variable {α : Type} (M K input output : Text) (g : Given) (w : World α) (later : Later α) {O : List Lexeme} (hO : TypeName O)

theorem does_plain {b : List Lexeme} (f : Text) (hb : body b = some [.give f M [.var (text! "arg")]]) :
    Client.run b [(text! "this", .this), (text! "arg", .ref (g.ref (text! "arg")))] w later = plainRequest f M (fun _ => none) g w later := by
  cases hv : w.objects (g.ref (text! "arg")) <;>
    cases later <;>
    simp [Client.run, hb, start, execAll, exec, ask, message, Client.Vars.get, hv, plainRequest, meanwhile, runHandlers, Res.bind, World.ask]

theorem does_target {b : List Lexeme} (f : Text) (hb : body b = some [.give f M [.var (text! "arg"), .var (text! "ret")]]) :
    Client.run b [(text! "this", .this), (text! "arg", .ref (g.ref (text! "arg"))), (text! "ret", .guard O (g.ptr (text! "ret")))] w later =
      plainRequest f M (fun g => some (g.ptr (text! "ret"))) g w later := by
  cases hv : w.objects (g.ref (text! "arg")) <;>
    cases later <;>
    simp [Client.run, hb, start, execAll, exec, ask, message, Client.target, Client.Vars.get, hv, plainRequest, meanwhile, runHandlers, Res.bind, World.ask]

theorem does_async2 : Client.run (Src.async2Body M) [(text! "this", .this), (text! "arg", .ref (g.ref (text! "arg"))), (text! "context", .context),
      (text! "callback", .fn (g.fn (text! "callback")))] w later = callbackRequest M g w later := by
  cases hv : w.objects (g.ref (text! "arg")) <;>
    cases later <;> cases ha : w.accepts <;>
    simp [Client.run, body_async2, start, execAll, exec, ask, message, Client.target, Client.Vars.get, hv, ha, callbackRequest, meanwhile, runHandlers, Res.bind, World.ask, capture]

include hO

theorem does_qmlStream : Client.run (Src.qmlStreamBody O M) [(text! "this", .this), (text! "arg", .ptr (g.ptr (text! "arg"))),
      (text! "ret", .ptr (g.ptr (text! "ret")))] w later = streamRequest M g w later := by
  cases hp : g.ptr (text! "arg") with
  | none => simp [Client.run, body_qmlStream M hO, start, execAll, exec, ask, message, Client.Vars.get, streamRequest, hp]
  | some a =>
    cases hv : w.objects a <;>
    cases later <;>
    simp [Client.run, body_qmlStream M hO, start, execAll, exec, ask, message, Client.target, Client.Vars.get, hv, hp, streamRequest, meanwhile, runHandlers, Res.bind, World.ask]

theorem does_qml : Client.run (Src.qmlBody O K M input) [(text! "this", .this), (text! "arg", .ptr (g.ptr (text! "arg"))),
      (text! "callback", .js (g.js (text! "callback")).1 (g.js (text! "callback")).2),
      (text! "errorCallback", .js (g.js (text! "errorCallback")).1 (g.js (text! "errorCallback")).2)] w later = scriptRequest M O g w later := by
  cases hc : (g.js (text! "callback")).2
  · cases later <;> simp [Client.run, body_qml K M input hO, start, execAll, exec, holds, Client.Vars.get, hc, scriptRequest, meanwhile, runHandlers, Res.bind]
  cases hp : g.ptr (text! "arg") with
  | none => cases later <;> simp [Client.run, body_qml K M input hO, start, execAll, exec, holds, Client.Vars.get, hc, hp, scriptRequest, meanwhile, runHandlers, Res.bind]
  | some a =>
    cases he : w.hasEngine
    · cases later <;>
        simp [Client.run, body_qml K M input hO, start, execAll, exec, holds, Client.Vars.get, hc, hp, he, scriptRequest, meanwhile, runHandlers, Res.bind, World.tell]
    cases hv : w.objects a <;> cases ha : w.accepts <;> cases later <;> cases hj : (g.js (text! "errorCallback")).2 <;>
      simp [Client.run, body_qml K M input hO, start, execAll, exec, holds, Client.Vars.get, hc, hp, he, hv, ha, hj, scriptRequest, meanwhile, runHandlers, Res.bind,
        World.tell, ask, message, capture, answerStmts, failStmts, World.ask]

theorem does_qml2 : Client.run (Src.qml2Body O K M input output) [(text! "this", .this), (text! "arg", .ptr (g.ptr (text! "arg"))),
      (text! "ret", .ptr (g.ptr (text! "ret"))),
      (text! "errorCallback", .js (g.js (text! "errorCallback")).1 (g.js (text! "errorCallback")).2)] w later = objectRequest M O g w later := by
  cases hr : g.ptr (text! "ret") with
  | none =>
    cases later <;> simp [Client.run, body_qml2 K M input output hO, start, execAll, exec, holds, Client.Vars.get, hr, objectRequest, meanwhile, runHandlers, Res.bind]
  | some r =>
  cases hp : g.ptr (text! "arg") with
  | none =>
    cases later <;> simp [Client.run, body_qml2 K M input output hO, start, execAll, exec, holds, Client.Vars.get, hr, hp, objectRequest, meanwhile, runHandlers, Res.bind]
  | some a =>
    cases he : w.hasEngine
    · cases later <;>
        simp [Client.run, body_qml2 K M input output hO, start, execAll, exec, holds, Client.Vars.get, hr, hp, he, objectRequest, meanwhile, runHandlers, Res.bind, World.tell]
    cases hv : w.objects a <;> cases ha : w.accepts <;> rcases later with _ | ⟨f, d⟩ | ⟨f, k⟩ <;> cases hj : (g.js (text! "errorCallback")).2 <;>
      simp [Client.run, body_qml2 K M input output hO, start, execAll, exec, holds, Client.Vars.get, hr, hp, he, hv, ha, hj, objectRequest, meanwhile, runHandlers, Res.bind,
        World.tell, ask, message, capture, storeStmts, failStmts, World.ask]
    all_goals
      generalize f _ = w2
      cases h2 : w2.objects r <;> simp [h2]

end

/-! ### The functions of a method and of a client -/

theorem does_eta {α : Type} (f : Fn) : does (α := α) f =
    fun g w later => Client.run f.body ((text! "this", .this) :: f.params.map fun p => (p.2, g.value p)) w later := rfl

section
variable {α : Type} {o : Options} {c : Ctx} {s : ServiceText} (hs : ∀ d ∈ s.methods, PlainMethod d) (hj : ∀ d ∈ s.methods, d.input ≠ [text! "QJSValue"])
include hs hj

theorem does_method {d : MethodD} (hd : d ∈ s.methods) (sc : List Text) :
    (fnsIn (methodItems o s sc d)).map (fun f => does (α := α) f) = methodDoes o d := by
  obtain ⟨i1, i2⟩ := method_type (hs d hd).input.2
  obtain ⟨o1, o2⟩ := method_type (hs d hd).output.2
  have tO : TypeName (methodType d.output) := typeName_qualified d.output
  have vr := fun g n => value_ref g n (hs d hd).input.1 (hj d hd) (I := methodType d.input) rfl
  have vp := fun g n => value_ptr g n (hs d hd).input.1 (I := methodType d.input) rfl
  have vo := fun g n => value_ptr g n (hs d hd).output.1 (I := methodType d.output) rfl
  have vg := fun g n => value_guard g n tO
  unfold methodItems methodDoes inTy outTy
  simp only [i1, o1]
  split
  · rw [fnsIn_append, fnsIn_block (fn_stream i2 _ _ _ _), fnsIn_block (fn_stream2 i2 o2 _ _ _ _)]
    split
    · rw [fnsIn_block (fn_qmlStream i2 o2 _ _ _ _)]
      simp only [fnsIn_nil, List.cons_append, List.nil_append, List.map_cons, List.map_nil, does_eta, vr, vp, vo, vg, does_plain _ _ _ _ _ (body_stream _),
        does_target _ _ _ _ _ (body_stream2 _), does_qmlStream _ _ _ _ tO]
    · simp only [fnsIn_nil, List.cons_append, List.nil_append, List.map_cons, List.map_nil, does_eta, vr, vg, does_plain _ _ _ _ _ (body_stream _),
        does_target _ _ _ _ _ (body_stream2 _)]
  · rw [fnsIn_append, fnsIn_block (fn_sync i2 o2 _ _ _ _), fnsIn_block (fn_async i2 _ _ _ _), fnsIn_block (fn_async2 i2 _ _ _ _)]
    split
    · rw [fnsIn_block (fn_qml i2 _ _ _ _), fnsIn_block (fn_qml2 i2 o2 _ _ _ _)]
      simp only [fnsIn_nil, List.cons_append, List.nil_append, List.map_cons, List.map_nil, does_eta, vr, vp, vo, vg, value_js, value_context, value_fn,
        does_plain _ _ _ _ _ (body_async _), does_target _ _ _ _ _ (body_sync _), does_async2, does_qml _ _ _ _ _ _ tO, does_qml2 _ _ _ _ _ _ _ tO]
    · simp only [fnsIn_nil, List.cons_append, List.nil_append, List.map_cons, List.map_nil, does_eta, vr, vg, value_context, value_fn,
        does_plain _ _ _ _ _ (body_async _), does_target _ _ _ _ _ (body_sync _), does_async2]

theorem does_client (sc : List Text) (hsc : sc = around o c) :
    (fnsIn (clientItems o c sc s)).map (fun f => does (α := α) f) = clientDoes o s := by
  subst hsc
  unfold clientItems clientDoes
  rw [fnsIn_block (fn_client _ _ _ _), fnsIn_flatMap, List.map_cons, List.map_flatMap]
  refine congrArg₂' List.cons ?_ (flatMap_congr' fun d hd => does_method hs hj hd _)
  funext g w later
  cases later <;> rfl

end

end QtPb.TextProof
