import Verif.TextSym
/-
The blocks and statements in the source of a message. (Helpers for the theorems about generated sources.)
-/
set_option maxRecDepth 100000
namespace QtPb.TextProof
open QtPb.Gen QtPb.Gen.Text QtPb.Gen.Text.Spec QtPb.SpecCpp

/-! ### What is printed, as lexemes: `K` is the class, `N` the property, `U` the property with a capital -/

namespace Src

def registrar (K : Text) : List Lexeme := cpp! "static QtProtobuf::ProtoTypeRegistrar<$K$> ProtoTypeRegistrar$K$(qRegisterProtobufType<$K$>)"
def dtorHead (K : Text) : List Lexeme := cpp! "$K$::~$K$()"
def metaObject (K : Text) : List Lexeme :=
  cpp! "const QtProtobuf::QProtobufMetaObject $K$::protobufMetaObject = QtProtobuf::QProtobufMetaObject($K$::staticMetaObject, $K$::propertyOrdering)"
def tableHead (K : Text) : List Lexeme := cpp! "const QtProtobuf::QProtobufPropertyOrdering $K$::propertyOrdering ="
def entry (a b j : Text) : List Lexeme := cpp! "{$a$, {$b$, \"$j$\"}}"
def tableBody (i : Nat) : List FieldD → List Lexeme
  | [] => []
  | f :: fs => (if i = 0 then [] else [.punct ',']) ++ entry (toString f.number).toList (toString (i + 1)).toList f.json ++ tableBody (i + 1) fs
def registerHead (K : Text) : List Lexeme := cpp! "void $K$::registerTypes()"
def registerOwn (K full fullList : Text) : List Lexeme :=
  cpp! "qRegisterMetaType<$K$>(\"$full$\"); qRegisterMetaType<$K$*>(\"$full$*\"); qRegisterMetaType<$K$Repeated>(\"$fullList$\");"
def registerQml (T S : List Lexeme) (full package K : Text) : List Lexeme :=
  cpp! "qRegisterMetaType<QQmlListProperty<@T@>>(\"QQmlListProperty<$full$>\"); qmlRegisterType<@S@>(\"$package$\", 1, 0, \"$K$\");"
def registerEnum (S L : List Lexeme) (type full fullList : Text) : List Lexeme :=
  cpp! "qRegisterProtobufEnumType<@S@>(); qRegisterMetaType<@S@>(\"$type$\"); qRegisterMetaType<@S@>(\"$full$\"); qRegisterMetaType<@L@>(\"$fullList$\");"
def registerMap (S k v : List Lexeme) (full fullList : Text) : List Lexeme :=
  cpp! "qRegisterMetaType<@S@>(\"$full$\"); qRegisterMetaType<@S@>(\"$fullList$\"); qRegisterProtobufMapType<@k@, @v@>();"

def ctorBegin (K : Text) : List Lexeme := cpp! "$K$::$K$("
def ctorEnd : List Lexeme := cpp! "QObject *parent) : QObject(parent)"
def paramRef (T : List Lexeme) (N : Text) : List Lexeme := cpp! "const @T@ &$N$,"
def paramVal (T : List Lexeme) (N : Text) : List Lexeme := cpp! "@T@ $N$,"
def initNew (T : List Lexeme) (N : Text) : List Lexeme := cpp! ", m_$N$(new @T@($N$))"
def initNull (N : Text) : List Lexeme := cpp! ", m_$N$(nullptr)"
def initGiven (N : Text) : List Lexeme := cpp! ", m_$N$($N$)"
def initDefault (I : List Lexeme) (N : Text) : List Lexeme := cpp! ", m_$N$(@I@)"

def dateCtorHead : List Lexeme :=
  cpp! "Timestamp::Timestamp(const QDateTime &datetime, QObject *parent) : QObject(parent), m_seconds(datetime.toMSecsSinceEpoch() / 1000), m_nanos((datetime.toMSecsSinceEpoch() % 1000) * 1000)"
def dateHead : List Lexeme := cpp! "Timestamp::operator QDateTime() const"
def dateBody : List Lexeme := cpp! "return QDateTime::fromMSecsSinceEpoch(m_seconds * 1000 + m_nanos / 1000);"

def copyHead (K : Text) (P : List Lexeme) : List Lexeme := cpp! "$K$::$K$(const $K$ &@P@) : QObject()"
def moveHead (K : Text) (P : List Lexeme) : List Lexeme := cpp! "$K$::$K$($K$ &&@P@) : QObject()"
def assignHead (K : Text) (P : List Lexeme) : List Lexeme := cpp! "$K$ &$K$::operator =(const $K$ &@P@)"
def moveAssignHead (K : Text) (P : List Lexeme) : List Lexeme := cpp! "$K$ &$K$::operator =($K$ &&@P@)"
def returnThis : List Lexeme := cpp! "return *this;"
def copyField (N U : Text) : List Lexeme := cpp! "set$U$(other.m_$N$);"
def copyMessage (N : Text) : List Lexeme := cpp! "if (m_$N$ != other.m_$N$) { *m_$N$ = *other.m_$N$; }"
def assignMessage (N : Text) : List Lexeme := cpp! "if (m_$N$ != other.m_$N$) { *m_$N$ = *other.m_$N$; $N$Changed(); }"
def moveMessage (N : Text) : List Lexeme := cpp! "if (m_$N$ != other.m_$N$) { *m_$N$ = std::move(*other.m_$N$); }"
def moveAssignMessage (N : Text) : List Lexeme :=
  cpp! "if (m_$N$ != other.m_$N$) { *m_$N$ = std::move(*other.m_$N$); $N$Changed(); other.$N$Changed(); }"
def moveComplex (N : Text) : List Lexeme :=
  cpp! "if (m_$N$ != other.m_$N$) { m_$N$ = std::move(other.m_$N$); $N$Changed(); other.$N$Changed(); }"
def moveInit (N : Text) : List Lexeme := cpp! "m_$N$ = std::move(other.m_$N$); other.$N$Changed();"
def moveField (N U : Text) : List Lexeme := cpp! "set$U$(std::exchange(other.m_$N$, 0)); other.$N$Changed();"
def moveEnum (N : Text) : List Lexeme := cpp! "m_$N$ = other.m_$N$;"

def equalHead (K : Text) (P : List Lexeme) : List Lexeme := cpp! "bool $K$::operator ==(const $K$ &@P@) const"
def equalField (N : Text) : List Lexeme := cpp! "m_$N$ == other.m_$N$"
def equalMessage (N : Text) : List Lexeme := cpp! "(m_$N$ == other.m_$N$ || *m_$N$ == *other.m_$N$)"
def equalRepeated (N : Text) : List Lexeme := cpp! "QtProtobuf::repeatedValueCompare(m_$N$, other.m_$N$)"
def notEqualHead (K : Text) : List Lexeme := cpp! "bool $K$::operator !=(const $K$ &other) const"
def notEqualBody : List Lexeme := cpp! "return !this->operator ==(other);"

def pGetterHead (T : List Lexeme) (K N : Text) : List Lexeme := cpp! "@T@ *$K$::$N$_p() const"
def pGetterBody (N : Text) : List Lexeme := cpp! "return m_$N$.get();"
def getterHead (T : List Lexeme) (K N : Text) : List Lexeme := cpp! "@T@ &$K$::$N$() const"
def getterBody (N : Text) : List Lexeme := cpp! "return *m_$N$;"
def listHead (T : List Lexeme) (K N : Text) : List Lexeme := cpp! "QQmlListProperty<@T@> $K$::$N$_l()"
def listBody (S : List Lexeme) (N : Text) : List Lexeme := cpp! "return QtProtobuf::constructQmlListProperty<@S@>(this, &m_$N$);"
def pSetterHead (T : List Lexeme) (K N U : Text) : List Lexeme := cpp! "void $K$::set$U$_p(@T@ *$N$)"
def pSetterBody (N : Text) : List Lexeme := cpp! "if (m_$N$.get() != $N$) { m_$N$.reset($N$); $N$Changed(); }"
def setterHead (T : List Lexeme) (K N U : Text) : List Lexeme := cpp! "void $K$::set$U$(const @T@ &$N$)"
def messageSetterBody (N : Text) : List Lexeme := cpp! "if (*m_$N$ != $N$) { *m_$N$ = $N$; $N$Changed(); }"
def complexSetterBody (N : Text) : List Lexeme := cpp! "if (m_$N$ != $N$) { m_$N$ = $N$; $N$Changed(); }"

end Src

/-- The name of the parameter of functions that copy; there is none without fields. -/
def otherName (m : Cur) : List Lexeme := if m.fields.isEmpty then [] else [.word (text! "other")]

/-- The lexemes of a type of a field. -/
def ty (o : Options) (c : Ctx) (m : Cur) (f : FieldD) (x : Str) : List Lexeme := lexemes ((pv o c m f).val x)

/-- The lexemes of a type of a message. -/
def ownTy (o : Options) (c : Ctx) (m : Cur) (x : Str) : List Lexeme := lexemes ((own o c m).val x)

section
variable (o : Options) (c : Ctx) (m : Cur)

def cap (f : FieldD) : Text := upperCaseName f.prop

/-- The lexemes of the body of `registerTypes`. -/
def registerBody : List Lexeme :=
  Src.registerOwn (className m) ((own o c m).val (text! "full_type")) ((own o c m).val (text! "full_list_type")) ++
  (if o.qml then Src.registerQml (ownTy o c m (text! "full_type")) (ownTy o c m (text! "scope_type")) ((own o c m).val (text! "full_type"))
    ((own o c m).val (text! "qml_package")) (className m) else []) ++
  m.fields.flatMap fun f =>
    if f.type == .enum && c.visibility m.path (f.enumType.getD []) == .local then
      Src.registerEnum (ty o c m f (text! "scope_type")) (ty o c m f (text! "scope_list_type")) ((pv o c m f).val (text! "type"))
        ((pv o c m f).val (text! "full_type")) ((pv o c m f).val (text! "full_list_type"))
    else if f.isMap then
      Src.registerMap (ty o c m f (text! "scope_type")) (ty o c m f (text! "key_type")) (ty o c m f (text! "value_type"))
        ((pv o c m f).val (text! "full_type")) ((pv o c m f).val (text! "full_list_type"))
    else []

def param (f : FieldD) : List Lexeme :=
  if f.repeated && !f.isMap then Src.paramRef (ty o c m f (text! "scope_list_type")) f.prop
  else if f.type == .bytes || f.type == .string || f.type == .message || f.isMap then Src.paramRef (ty o c m f (text! "scope_type")) f.prop
  else Src.paramVal (ty o c m f (text! "scope_type")) f.prop

def init (given : Bool) (f : FieldD) : List Lexeme :=
  if isPureMessage c.package f then
    (if given then Src.initNew (ty o c m f (text! "scope_type")) f.prop else Src.initNull f.prop)
  else if given then Src.initGiven f.prop
  else if initializer o c m f = [] then []
  else Src.initDefault (lexemes (initializer o c m f)) f.prop

def ctorHead (n : Nat) : List Lexeme :=
  Src.ctorBegin (className m) ++ (m.fields.take n).flatMap (param o c m) ++ Src.ctorEnd ++
    ((m.fields.take n).flatMap (init o c m true) ++ (m.fields.drop n).flatMap (init o c m false))

def nulls : List Lexeme := m.fields.flatMap fun f => if isPureMessage c.package f then Src.initNull f.prop else []

def copyBody : List Lexeme :=
  m.fields.flatMap fun f => if isPureMessage c.package f then Src.copyMessage f.prop else Src.copyField f.prop (cap f)

def assignBody : List Lexeme :=
  (m.fields.flatMap fun f => if isPureMessage c.package f then Src.assignMessage f.prop else Src.copyField f.prop (cap f)) ++ Src.returnThis

def moveOf (pure other : Text → List Lexeme) (f : FieldD) : List Lexeme :=
  if f.type == .message || f.type == .string || f.type == .bytes || f.repeated then
    (if isPureMessage c.package f then pure f.prop else other f.prop)
  else if f.type != .enum then Src.moveField f.prop (cap f) else Src.moveEnum f.prop

def moveBody : List Lexeme := m.fields.flatMap (moveOf c Src.moveMessage Src.moveInit)

def moveAssignBody : List Lexeme := m.fields.flatMap (moveOf c Src.moveAssignMessage Src.moveComplex) ++ Src.returnThis

def equalOf (f : FieldD) : List Lexeme :=
  if isPureMessage c.package f then Src.equalMessage f.prop
  else if f.type == .message && f.repeated then Src.equalRepeated f.prop
  else Src.equalField f.prop

def equalBody : List Lexeme :=
  match m.fields with
  | [] => cpp! "return true;"
  | f :: fs => [.word (text! "return")] ++ (equalOf c f ++ fs.flatMap fun g => [.punct '&', .punct '&'] ++ equalOf c g) ++ [.punct ';']

def getterItems (s : List Text) (f : FieldD) : List Item :=
  (if isPureMessage c.package f then
    [.block s (Src.pGetterHead (ty o c m f (text! "getter_type")) (className m) f.prop) (Src.pGetterBody f.prop),
     .block s (Src.getterHead (ty o c m f (text! "getter_type")) (className m) f.prop) (Src.getterBody f.prop)] else []) ++
  (if f.repeated && (f.type == .message && !f.isMap && !isQtType c.package f && o.qml) then
    [.block s (Src.listHead (ty o c m f (text! "full_type")) (className m) f.prop) (Src.listBody (ty o c m f (text! "scope_type")) f.prop)]
   else [])

def setterItems (s : List Text) (f : FieldD) : List Item :=
  match f.type with
  | .message =>
    if !f.isMap && !f.repeated && !isQtType c.package f then
      [.block s (Src.pSetterHead (ty o c m f (text! "setter_type")) (className m) f.prop (cap f)) (Src.pSetterBody f.prop),
       .block s (Src.setterHead (ty o c m f (text! "setter_type")) (className m) f.prop (cap f)) (Src.messageSetterBody f.prop)]
    else [.block s (Src.setterHead (ty o c m f (text! "setter_type")) (className m) f.prop (cap f)) (Src.complexSetterBody f.prop)]
  | .string => [.block s (Src.setterHead (ty o c m f (text! "setter_type")) (className m) f.prop (cap f)) (Src.complexSetterBody f.prop)]
  | .bytes => [.block s (Src.setterHead (ty o c m f (text! "setter_type")) (className m) f.prop (cap f)) (Src.complexSetterBody f.prop)]
  | _ => []

def dateItems (s : List Text) : List Item :=
  if isTimestamp m then [.block s Src.dateCtorHead [], .block s Src.dateHead Src.dateBody] else []

/-- What stands in the source for a message. -/
def classItems (s : List Text) : List Item :=
  [.statement s (Src.registrar (className m)), .block s (Src.dtorHead (className m)) [], .statement s (Src.metaObject (className m)),
   .block s (Src.tableHead (className m)) (Src.tableBody 0 m.fields), .block s (Src.registerHead (className m)) (registerBody o c m)] ++
  (List.range (m.fields.length + 1)).map (fun n => Item.block s (ctorHead o c m n) []) ++ dateItems m s ++
  [.block s (Src.copyHead (className m) (otherName m) ++ nulls c m) (copyBody c m),
   .block s (Src.assignHead (className m) (otherName m)) (assignBody c m),
   .block s (Src.moveHead (className m) (otherName m) ++ nulls c m) (moveBody c m),
   .block s (Src.moveAssignHead (className m) (otherName m)) (moveAssignBody c m),
   .block s (Src.equalHead (className m) (otherName m)) (equalBody c m),
   .block s (Src.notEqualHead (className m)) Src.notEqualBody] ++
  m.fields.flatMap (getterItems o c m s) ++ m.fields.flatMap (setterItems o c m s)

end

/-! ### Proofs -/

section
variable {o : Options} {c : Ctx} {m : Cur} (ok : MsgOk o c m)
include ok

theorem inlines_ty {f : FieldD} (hf : f ∈ m.fields) (x : Str) : Inlines (ty o c m f x) := inlines_value ((pv_good ok hf).val x)

theorem inlines_ownTy (x : Str) : Inlines (ownTy o c m x) := inlines_value ((own_good ok).val x)

omit ok in
/-- The closing brace. -/
theorem lx_close : Lx false false [.print [] tSimpleBlockEnclosureTemplate] [.punct '}'] := lx_nil (by rfl)

omit ok in
theorem lx_newline : Lx false false [.print [] (text! "\n")] [] := lx_nil (by rfl)

omit ok in
theorem lx_block {ops : List Op} {ls : List Lexeme} (h : Lx false false ops ls) : Lx false false (block ops) (ls ++ [.punct '}']) :=
  h.indented.append lx_close

theorem gives_destructor : Gives (defDestructor o c m)
    (fun s => [.statement s (Src.registrar (className m)), .block s (Src.dtorHead (className m)) []]) := by
  unfold defDestructor
  refine Gives.cons (gives_statement (lx_own ok (by rfl)) ?_ (by simp [Src.registrar])) (gives_block (c := '(') (lx_own ok (by rfl)) ?_ (by simp [Src.dtorHead]) .nil)
  · simp [Src.registrar, inlines_word, inlines_punct, inlines_nil]
  · simp [Src.dtorHead, inlines_word, inlines_punct, inlines_nil]


/-! #### The table -/

omit ok in
theorem id_nat (n : Nat) : IsId (toString n).toList := by
  have h : ∀ c ∈ (toString n).toList, c.isDigit = true := by
    intro c hc
    have : (toString n).toList = Nat.toDigits 10 n := by
      show (Nat.repr n).toList = _
      simp [Nat.repr]
    rw [this] at hc
    exact Nat.isDigit_of_mem_toDigits (by decide) (by decide) hc
  refine ⟨?_, fun c hc => ?_⟩
  · intro e
    have : (Nat.toDigits 10 n) = [] := by
      have : (toString n).toList = Nat.toDigits 10 n := by
        show (Nat.repr n).toList = _
        simp [Nat.repr]
      rw [← this]; exact e
    exact absurd this (by simp [Nat.toDigits_ne_nil])
  · exact (digit_cases (h c hc)).1

omit ok in
theorem lx_order {f : FieldD} (hf : PlainField f) (i : Nat) :
    Lx false false [.print [(text! "field_number", (toString f.number).toList), (text! "property_number", (toString (i + 1)).toList),
      (text! "json_name", f.json)] tFieldOrderTemplate] (Src.entry (toString f.number).toList (toString (i + 1)).toList f.json) := by
  have key := lx_values (inCode := fun x => x != text! "json_name") (keys := [text! "field_number", text! "property_number", text! "json_name"])
    (single := [text! "field_number", text! "property_number"])
    (vars := [(text! "field_number", (toString f.number).toList), (text! "property_number", (toString (i + 1)).toList),
      (text! "json_name", f.json)])
    (σ := fun x => if x = text! "field_number" then (toString f.number).toList else if x = text! "property_number" then (toString (i + 1)).toList
      else f.json)
    (t := tFieldOrderTemplate)
    (sl := [.punct '{', .word [.var (text! "field_number")], .punct ',', .punct '{', .word [.var (text! "property_number")], .punct ',',
      .str [.var (text! "json_name")], .punct '}', .punct '}']) (b := false) ?_ ?_ (by decide +kernel)
  · exact key
  · intro x v hx
    have hm := get_mem hx
    simp only [List.mem_cons, Prod.mk.injEq, List.not_mem_nil, or_false] at hm
    rcases hm with ⟨rfl, rfl⟩ | ⟨rfl, rfl⟩ | ⟨rfl, rfl⟩
    · exact ⟨ok_quoted (value_nat _).1, fun _ => (value_nat _).1⟩
    · exact ⟨ok_quoted (value_nat _).1, fun _ => (value_nat _).1⟩
    · exact ⟨hf.json, fun h => by simp at h⟩
  · refine ⟨fun x hx => ?_, fun x _ hs => ?_⟩
    · simp only [List.mem_cons, List.not_mem_nil, or_false] at hx
      rcases hx with rfl | rfl | rfl <;> rfl
    · simp only [List.mem_cons, List.not_mem_nil, or_false] at hs
      rcases hs with rfl | rfl
      · exact id_nat _
      · exact id_nat _

omit ok in
theorem lx_ordering : ∀ (l : List FieldD) (i : Nat), (∀ f ∈ l, PlainField f) → Lx false false (orderingOps i l) (Src.tableBody i l)
  | [], i, _ => by rw [orderingOps, Src.tableBody]; exact Lx.nil _
  | f :: fs, i, h => by
    rw [orderingOps, Src.tableBody]
    refine Lx.append (Lx.append ?_ (lx_order (h f (by simp)) i)) (lx_ordering fs (i + 1) fun g hg => h g (by simp [hg]))
    exact Lx.ite (fun _ => Lx.nil _) (fun _ => lx_nil (by rfl))

omit ok in
theorem balanced_table : ∀ (l : List FieldD) (i : Nat), Balanced (Src.tableBody i l)
  | [], i => by rw [Src.tableBody]; exact Balanced.nil
  | f :: fs, i => by
    rw [Src.tableBody]
    refine Balanced.append (Balanced.append ?_ (balanced_of (by simp [Src.entry, bal]))) (balanced_table fs (i + 1))
    exact Balanced.ite (fun _ => .nil) (fun _ => balanced_of (by simp [bal]))

theorem gives_ordering : Gives (printFieldsOrdering o c m)
    (fun s => [.statement s (Src.metaObject (className m)), .block s (Src.tableHead (className m)) (Src.tableBody 0 m.fields)]) := by
  have h1 : Lx false false [.print [(text! "type", (own o c m).val (text! "classname"))] tFieldsOrderingContainerTemplate]
      (Src.metaObject (className m) ++ [.punct ';'] ++ Src.tableHead (className m) ++ [.punct '{']) := by
    refine lx_put (keys := [text! "type"]) (single := [text! "type"]) (σ := fun _ => className m)
      (.cons ((own_good ok).val _) (Or.inl (by decide)) .nil) ⟨fun x hx => ?_, fun x _ _ => class_id ok⟩ (by rfl)
    simp only [List.mem_cons, List.not_mem_nil, or_false] at hx
    subst hx
    rfl
  have h2 : Lx false false [.print [] tSemicolonBlockEnclosureTemplate, .print [] (text! "\n")] [.punct '}', .punct ';'] :=
    (Lx.cons (lx_nil (ls := [.punct '}', .punct ';']) (by rfl)) lx_newline).congr (by simp)
  have h3 := (h1.append (lx_ordering m.fields 0 ok.fields).indented).append h2
  have hm : Inlines (Src.metaObject (className m)) := by simp [Src.metaObject, inlines_word, inlines_punct, inlines_nil]
  have ht : Inlines (Src.tableHead (className m)) := by simp [Src.tableHead, inlines_word, inlines_punct, inlines_nil]
  have y := ((yields_statement hm (by simp [Src.metaObject])).append (yields_block ht
    (fun k n e => by simp [Src.tableHead] at e) (balanced_table m.fields 0))).append yields_semicolon
  refine ⟨_, ?_, y.congr (fun s => by simp)⟩
  unfold printFieldsOrdering
  exact h3.congr (by simp [List.append_assoc])

/-! #### The registration -/

theorem gives_register : Gives (printRegisterBody o c m) (fun s => [.block s (Src.registerHead (className m)) (registerBody o c m)]) := by
  have h1 : Lx false false [.print (own o c m) tManualRegistrationComplexTypeDefinition] (Src.registerHead (className m) ++ [.punct '{'] ++
      Src.registerOwn (className m) ((own o c m).val (text! "full_type")) ((own o c m).val (text! "full_list_type"))) := lx_own ok (by rfl)
  have h2 : Lx false false (if o.qml then [.print (own o c m) tRegisterQmlListPropertyMetaTypeTemplate, .print (own o c m) tQmlRegisterTypeTemplate] else [])
      (if o.qml then Src.registerQml (ownTy o c m (text! "full_type")) (ownTy o c m (text! "scope_type")) ((own o c m).val (text! "full_type"))
        ((own o c m).val (text! "qml_package")) (className m) else []) := by
    refine Lx.ite (fun _ => ?_) (fun _ => Lx.nil _)
    have a : Lx false false [.print (own o c m) tRegisterQmlListPropertyMetaTypeTemplate]
        (let T := ownTy o c m (text! "full_type"); let full := (own o c m).val (text! "full_type");
         cpp! "qRegisterMetaType<QQmlListProperty<@T@>>(\"QQmlListProperty<$full$>\");") := lx_own ok (by rfl)
    have b : Lx false false [.print (own o c m) tQmlRegisterTypeTemplate]
        (let S := ownTy o c m (text! "scope_type"); let package := (own o c m).val (text! "qml_package"); let K := className m;
         cpp! "qmlRegisterType<@S@>(\"$package$\", 1, 0, \"$K$\");") := lx_own ok (by rfl)
    exact (Lx.cons a b).congr (by simp [Src.registerQml])
  have h3 : Lx false false (m.fields.flatMap (registerOps o c m)) _ := Lx.flatMap (k := fun f =>
    if f.type == .enum && c.visibility m.path (f.enumType.getD []) == .local then
      Src.registerEnum (ty o c m f (text! "scope_type")) (ty o c m f (text! "scope_list_type")) ((pv o c m f).val (text! "type"))
        ((pv o c m f).val (text! "full_type")) ((pv o c m f).val (text! "full_list_type"))
    else if f.isMap then
      Src.registerMap (ty o c m f (text! "scope_type")) (ty o c m f (text! "key_type")) (ty o c m f (text! "value_type"))
        ((pv o c m f).val (text! "full_type")) ((pv o c m f).val (text! "full_list_type"))
    else []) fun f hf => by
      unfold registerOps
      exact Lx.ite (fun _ => lx_pv ok hf (by rfl)) (fun _ => Lx.ite (fun _ => lx_pv ok hf (by rfl)) (fun _ => Lx.nil _))
  have h4 := (h1.append (h2.append h3).indented).append lx_close
  refine gives_block (c := '(') (body := registerBody o c m) (h4.congr ?_) ?_ (by simp [Src.registerHead]) ?_
  · simp [registerBody, List.append_assoc]
  · simp [Src.registerHead, inlines_word, inlines_punct, inlines_nil]
  · refine Balanced.append (Balanced.append (balanced_of (by simp [Src.registerOwn, bal])) ?_) (Balanced.flatMap fun f hf => ?_)
    · refine Balanced.ite (fun _ => balanced_of ?_) (fun _ => .nil)
      simp [Src.registerQml, bal, bal_inlines, inlines_ownTy ok]
    · refine Balanced.ite (fun _ => balanced_of ?_) (fun _ => Balanced.ite (fun _ => balanced_of ?_) (fun _ => .nil))
      · simp [Src.registerEnum, bal, bal_inlines, inlines_ty ok hf]
      · simp [Src.registerMap, bal, bal_inlines, inlines_ty ok hf]

/-! #### Constructors -/

theorem lx_param {f : FieldD} (hf : f ∈ m.fields) : Lx false false [.print (pv o c m f) (parameterTemplate f)] (param o c m f) := by
  unfold parameterTemplate param
  split
  · exact lx_pv ok hf (by rfl)
  · split
    · exact lx_pv ok hf (by rfl)
    · exact lx_pv ok hf (by rfl)

theorem inlines_param {f : FieldD} (hf : f ∈ m.fields) : Inlines (param o c m f) := by
  unfold param
  split
  · simp [Src.paramRef, inlines_word, inlines_punct, inlines_append, inlines_nil, inlines_ty ok hf]
  · split
    · simp [Src.paramRef, inlines_word, inlines_punct, inlines_append, inlines_nil, inlines_ty ok hf]
    · simp [Src.paramVal, inlines_word, inlines_punct, inlines_append, inlines_nil, inlines_ty ok hf]

def initSub (o : Options) (c : Ctx) (m : Cur) (f : FieldD) (x : Str) : Text :=
  if x = text! "initializer" then initializer o c m f else fieldSub o c m f x

theorem lx_init_put {f : FieldD} (hf : f ∈ m.fields) {t : Str} {ls : List Lexeme} {b : Bool}
    (h : putAll (text! "initializer" :: propKeys) fieldSingle (initSub o c m f) t = some (ls, b)) :
    Lx false b [.print ((text! "initializer", initializer o c m f) :: pv o c m f) t] ls := by
  have hv := pv_values ok hf
  refine lx_put (.cons (initializer_value ok hf) (Or.inl (by decide)) (pv_good ok hf)) ⟨fun x hx => ?_, fun x hx hs => ?_⟩ h
  · unfold initSub Vars.get
    rw [List.find?_cons]
    by_cases e : x = text! "initializer"
    · subst e; rfl
    · have : ((text! "initializer", initializer o c m f).1 == x) = false := by simpa using fun h => e h.symm
      rw [this, if_neg e]
      have hx : x ∈ propKeys := by
        rcases List.mem_cons.1 hx with h | h
        · exact absurd h e
        · exact h
      exact hv.get x hx
  · have e : x ≠ text! "initializer" := by intro e; subst e; exact absurd hs (by decide)
    have hx : x ∈ propKeys := by
      rcases List.mem_cons.1 hx with h | h
      · exact absurd h e
      · exact h
    unfold initSub
    rw [if_neg e]
    exact hv.single x hx hs

theorem lx_init {f : FieldD} (hf : f ∈ m.fields) (given : Bool) : Lx false false (initOps o c m given f) (init o c m given f) := by
  unfold initOps init
  refine Lx.ite (fun _ => Lx.ite (fun _ => lx_init_put ok hf (by rfl)) (fun _ => lx_init_put ok hf (by rfl))) (fun _ => ?_)
  refine Lx.ite (fun _ => lx_init_put ok hf (by rfl)) (fun _ => Lx.ite (fun _ => Lx.nil _) (fun _ => lx_init_put ok hf (by rfl)))

theorem inlines_init {f : FieldD} (hf : f ∈ m.fields) (given : Bool) : Inlines (init o c m given f) := by
  have hi := inlines_value (initializer_value ok hf)
  unfold init
  (repeat' split) <;>
    simp [Src.initNew, Src.initNull, Src.initGiven, Src.initDefault, inlines_word, inlines_punct, inlines_append, inlines_nil, inlines_ty ok hf, hi]

theorem gives_constructor (n : Nat) : Gives (defConstructor o c m n) (fun s => [.block s (ctorHead o c m n) []]) := by
  have h1 : Lx false false [.print (own o c m) tProtoConstructorDefinitionBeginTemplate] (Src.ctorBegin (className m)) := lx_own ok (by rfl)
  have h2 : Lx false false ((m.fields.take n).map fun f => .print (pv o c m f) (parameterTemplate f)) _ :=
    Lx.map (k := param o c m) fun f hf => lx_param ok (List.mem_of_mem_take hf)
  have h3 : Lx false false [.print (own o c m) tProtoConstructorDefinitionEndTemplate] Src.ctorEnd := lx_own ok (by rfl)
  have h4 : Lx false false (initList o c m n) _ :=
    (Lx.flatMap (k := init o c m true) fun f hf => lx_init ok (List.mem_of_mem_take hf) true).append
    (Lx.flatMap (k := init o c m false) fun f hf => lx_init ok (List.mem_of_mem_drop hf) false)
  have h5 : Lx false false [.print [] tConstructorContentTemplate] [.punct '{', .punct '}'] := lx_nil (by rfl)
  refine gives_block (c := '(') (((((h1.append h2).append h3).append h4).append h5).congr ?_) ?_ ?_ .nil
  · simp [ctorHead, List.append_assoc]
  · simp only [ctorHead, inlines_append]
    refine ⟨⟨⟨?_, inlines_flatMap fun f hf => inlines_param ok (List.mem_of_mem_take hf)⟩, ?_⟩,
      inlines_flatMap fun f hf => inlines_init ok (List.mem_of_mem_take hf) _, inlines_flatMap fun f hf => inlines_init ok (List.mem_of_mem_drop hf) _⟩
    · simp [Src.ctorBegin, inlines_word, inlines_punct, inlines_nil]
    · simp [Src.ctorEnd, inlines_word, inlines_punct, inlines_nil]
  · simp [ctorHead, Src.ctorBegin]

omit ok in
theorem gives_date : Gives [.print [] kTimestampDef] (fun s => [.block s Src.dateCtorHead [], .block s Src.dateHead Src.dateBody]) := by
  have h : Lx false false [.print [] kTimestampDef]
      ((Src.dateCtorHead ++ .punct '{' :: [] ++ [.punct '}']) ++ (Src.dateHead ++ .punct '{' :: Src.dateBody ++ [.punct '}'])) :=
    lx_nil (by rfl)
  refine ⟨_, h, Yields.append (yields_block ?_ ?_ .nil) (yields_block ?_ ?_ (balanced_of (by rfl)))⟩
  · simp [Inlines, Inline, Src.dateCtorHead]
  · intro k n e; simp [Src.dateCtorHead] at e
  · simp [Inlines, Inline, Src.dateHead]
  · intro k n e; simp [Src.dateHead] at e

theorem gives_constructors : Gives (defConstructors o c m) (fun s =>
    (List.range (m.fields.length + 1)).map (fun n => Item.block s (ctorHead o c m n) []) ++ dateItems m s) := by
  unfold defConstructors dateItems
  refine Gives.append ((Gives.flatMap fun n _ => gives_constructor ok n).congr (fun s => by rw [List.map_eq_flatMap])) ?_
  exact Gives.ite (fun _ => gives_date) (fun _ => .nil)


/-! #### Copies and moves -/

omit ok in
theorem lx_open : Lx false false [.print [] (text! "\n{\n")] [.punct '{'] := lx_nil (by rfl)

theorem lx_nulls : Lx false false (m.fields.flatMap (nullOps o c m)) (nulls c m) := by
  unfold nulls
  exact Lx.flatMap fun f hf => by
    unfold nullOps
    exact Lx.ite (fun _ => lx_pv ok hf (by rfl)) (fun _ => Lx.nil _)

omit ok in
theorem inlines_nulls : Inlines (nulls c m) := by
  unfold nulls
  refine inlines_flatMap fun f _ => ?_
  split
  · simp [Src.initNull, inlines_word, inlines_punct, inlines_nil]
  · simp [inlines_nil]

omit ok in
theorem inlines_other : Inlines (otherName m) := by
  unfold otherName
  split
  · simp [inlines_nil]
  · simp [inlines_word, inlines_nil]

theorem lx_copyHead : Lx false false [.print (own o c m)
    (if m.fields.isEmpty then tEmptyCopyConstructorDefinitionTemplate else tCopyConstructorDefinitionTemplate)]
    (Src.copyHead (className m) (otherName m)) := by
  unfold otherName
  split
  · exact lx_own ok (by rfl)
  · exact lx_own ok (by rfl)

theorem lx_assignHead : Lx false false [.print (own o c m)
    (if m.fields.isEmpty then tEmptyAssignmentOperatorDefinitionTemplate else tAssignmentOperatorDefinitionTemplate)]
    (Src.assignHead (className m) (otherName m) ++ [.punct '{']) := by
  unfold otherName
  split
  · exact lx_own ok (by rfl)
  · exact lx_own ok (by rfl)

theorem lx_moveHead : Lx false false [.print (own o c m)
    (if m.fields.isEmpty then tEmptyMoveConstructorDefinitionTemplate else tMoveConstructorDefinitionTemplate)]
    (Src.moveHead (className m) (otherName m)) := by
  unfold otherName
  split
  · exact lx_own ok (by rfl)
  · exact lx_own ok (by rfl)

theorem lx_moveAssignHead : Lx false false [.print (own o c m)
    (if m.fields.isEmpty then tEmptyMoveAssignmentOperatorDefinitionTemplate else tMoveAssignmentOperatorDefinitionTemplate)]
    (Src.moveAssignHead (className m) (otherName m) ++ [.punct '{']) := by
  unfold otherName
  split
  · exact lx_own ok (by rfl)
  · exact lx_own ok (by rfl)

omit ok in
theorem lx_return : Lx false false [.print [] tAssignmentOperatorReturnTemplate] Src.returnThis := lx_nil (by rfl)

theorem lx_copyBody : Lx false false (m.fields.map fun f =>
    .print (pv o c m f) (if isPureMessage c.package f then tCopyComplexFieldTemplate else tCopyFieldTemplate)) (copyBody c m) := by
  unfold copyBody
  refine Lx.map fun f hf => ?_
  split
  · exact lx_pv ok hf (by rfl)
  · exact lx_pv ok hf (by rfl)

theorem lx_assignBody : Lx false false ((m.fields.map fun f =>
    .print (pv o c m f) (if isPureMessage c.package f then tAssignComplexFieldTemplate else tCopyFieldTemplate)) ++
    [.print [] tAssignmentOperatorReturnTemplate]) (assignBody c m) := by
  unfold assignBody
  refine Lx.append (Lx.map fun f hf => ?_) lx_return
  split
  · exact lx_pv ok hf (by rfl)
  · exact lx_pv ok hf (by rfl)

theorem lx_moveOf {f : FieldD} (hf : f ∈ m.fields) {p q : Str} {P Q : Text → List Lexeme}
    (hp : Lx false false [.print (pv o c m f) p] (P f.prop)) (hq : Lx false false [.print (pv o c m f) q] (Q f.prop)) :
    Lx false false [.print (pv o c m f) (moveTemplate c p q f)] (moveOf c P Q f) := by
  unfold moveTemplate moveOf
  split
  · split
    · exact hp
    · exact hq
  · split
    · exact lx_pv ok hf (by rfl)
    · exact lx_pv ok hf (by rfl)

theorem lx_moveBody : Lx false false (m.fields.map fun f =>
    .print (pv o c m f) (moveTemplate c tMoveMessageFieldTemplate tMoveComplexFieldConstructorTemplate f)) (moveBody c m) := by
  unfold moveBody
  exact Lx.map fun f hf => lx_moveOf ok hf (lx_pv ok hf (by rfl)) (lx_pv ok hf (by rfl))

theorem lx_moveAssignBody : Lx false false ((m.fields.map fun f =>
    .print (pv o c m f) (moveTemplate c tMoveAssignMessageFieldTemplate tMoveComplexFieldTemplate f)) ++
    [.print [] tAssignmentOperatorReturnTemplate]) (moveAssignBody c m) := by
  unfold moveAssignBody
  exact Lx.append (Lx.map fun f hf => lx_moveOf ok hf (lx_pv ok hf (by rfl)) (lx_pv ok hf (by rfl))) lx_return

omit ok in
theorem balanced_copyBody : Balanced (copyBody c m) := by
  unfold copyBody
  refine Balanced.flatMap fun f _ => Balanced.ite (fun _ => balanced_of ?_) (fun _ => balanced_of ?_)
  · simp [Src.copyMessage, bal]
  · simp [Src.copyField, bal]

omit ok in
theorem balanced_assignBody : Balanced (assignBody c m) := by
  unfold assignBody
  refine Balanced.append (Balanced.flatMap fun f _ => Balanced.ite (fun _ => balanced_of ?_) (fun _ => balanced_of ?_)) (balanced_of (by rfl))
  · simp [Src.assignMessage, bal]
  · simp [Src.copyField, bal]

omit ok in
theorem balanced_moveOf {P Q : Text → List Lexeme} {f : FieldD} (hp : Balanced (P f.prop)) (hq : Balanced (Q f.prop)) : Balanced (moveOf c P Q f) := by
  unfold moveOf
  refine Balanced.ite (fun _ => Balanced.ite (fun _ => hp) (fun _ => hq)) (fun _ => Balanced.ite (fun _ => balanced_of ?_) (fun _ => balanced_of ?_))
  · simp [Src.moveField, bal]
  · simp [Src.moveEnum, bal]

omit ok in
theorem balanced_moveBody : Balanced (moveBody c m) := by
  unfold moveBody
  refine Balanced.flatMap fun f _ => balanced_moveOf (balanced_of ?_) (balanced_of ?_)
  · simp [Src.moveMessage, bal]
  · simp [Src.moveInit, bal]

omit ok in
theorem balanced_moveAssignBody : Balanced (moveAssignBody c m) := by
  unfold moveAssignBody
  refine Balanced.append (Balanced.flatMap fun f _ => balanced_moveOf (balanced_of ?_) (balanced_of ?_)) (balanced_of (by rfl))
  · simp [Src.moveAssignMessage, bal]
  · simp [Src.moveComplex, bal]

theorem gives_copy : Gives (defCopy o c m) (fun s =>
    [.block s (Src.copyHead (className m) (otherName m) ++ nulls c m) (copyBody c m),
     .block s (Src.assignHead (className m) (otherName m)) (assignBody c m)]) := by
  have h1 := ((lx_copyHead ok).append (lx_nulls ok)).append lx_open |>.append (lx_block (lx_copyBody ok))
  have h2 := (lx_assignHead ok).append (lx_block (lx_assignBody ok))
  have g1 : Gives _ (fun s => [.block s (Src.copyHead (className m) (otherName m) ++ nulls c m) (copyBody c m)]) :=
    gives_block (c := '(') (h1.congr (by simp [List.append_assoc])) (by
      simp [Src.copyHead, inlines_append, inlines_word, inlines_punct, inlines_nil, inlines_nulls, inlines_other]) (by simp [Src.copyHead]) balanced_copyBody
  have g2 : Gives _ (fun s => [.block s (Src.assignHead (className m) (otherName m)) (assignBody c m)]) :=
    gives_block (c := '(') (h2.congr (by simp [List.append_assoc])) (by
      simp [Src.assignHead, inlines_append, inlines_word, inlines_punct, inlines_nil, inlines_other]) (by simp [Src.assignHead]) balanced_assignBody
  have g := g1.append g2
  unfold defCopy
  simpa only [List.append_assoc, List.cons_append, List.nil_append] using g

theorem gives_move : Gives (defMove o c m) (fun s =>
    [.block s (Src.moveHead (className m) (otherName m) ++ nulls c m) (moveBody c m),
     .block s (Src.moveAssignHead (className m) (otherName m)) (moveAssignBody c m)]) := by
  have h1 := ((lx_moveHead ok).append (lx_nulls ok)).append lx_open |>.append (lx_block (lx_moveBody ok))
  have h2 := (lx_moveAssignHead ok).append (lx_block (lx_moveAssignBody ok))
  have g1 : Gives _ (fun s => [.block s (Src.moveHead (className m) (otherName m) ++ nulls c m) (moveBody c m)]) :=
    gives_block (c := '(') (h1.congr (by simp [List.append_assoc])) (by
      simp [Src.moveHead, inlines_append, inlines_word, inlines_punct, inlines_nil, inlines_nulls, inlines_other]) (by simp [Src.moveHead]) balanced_moveBody
  have g2 : Gives _ (fun s => [.block s (Src.moveAssignHead (className m) (otherName m)) (moveAssignBody c m)]) :=
    gives_block (c := '(') (h2.congr (by simp [List.append_assoc])) (by
      simp [Src.moveAssignHead, inlines_append, inlines_word, inlines_punct, inlines_nil, inlines_other]) (by simp [Src.moveAssignHead]) balanced_moveAssignBody
  have g := g1.append g2
  unfold defMove
  simpa only [List.append_assoc, List.cons_append, List.nil_append] using g

/-! #### Comparison -/

theorem lx_equal {f : FieldD} (hf : f ∈ m.fields) : Lx false true [.print (pv o c m f) (equalTemplate c f)] (equalOf c f) := by
  unfold equalTemplate equalOf
  split
  · exact Lx.weaken (lx_pv ok hf (by rfl))
  · split
    · exact Lx.weaken (lx_pv ok hf (by rfl))
    · exact lx_pv ok hf (by rfl)


theorem lx_rest : ∀ (l : List FieldD), (∀ f ∈ l, f ∈ m.fields) →
    Lx true true (l.flatMap fun g => [.print [] (text! "\n&& "), .print (pv o c m g) (equalTemplate c g)])
      (l.flatMap fun g => [.punct '&', .punct '&'] ++ equalOf c g)
  | [], _ => Lx.nil _
  | g :: l, h => by
    have a : Lx true false [.print [] (text! "\n&& ")] [.punct '&', .punct '&'] :=
      Lx.after_word (lx_nil (by rfl)) (c := '\n') rfl (by decide)
    exact (Lx.cons a (lx_equal ok (h g (by simp)))).append (lx_rest l fun f hf => h f (by simp [hf]))

omit ok in
theorem Lx.indented2 {a b : Bool} {x : List Op} {ls : List Lexeme} (h : Lx a b x ls) :
    Lx a b ([.indent, .indent, .indent, .indent] ++ x ++ [.outdent, .outdent, .outdent, .outdent]) ls := by
  have e : [.indent, .indent, .indent, .indent] ++ x ++ [.outdent, .outdent, .outdent, .outdent] =
      QtPb.Gen.Text.indented (QtPb.Gen.Text.indented x) := by
    simp [QtPb.Gen.Text.indented]
  rw [e]; exact h.indented.indented

theorem gives_notEqual : Gives [.print (own o c m) tNotEqualOperatorDefinitionTemplate]
    (fun s => [.block s (Src.notEqualHead (className m)) Src.notEqualBody]) :=
  gives_block (c := '(') (lx_own ok (by rfl)) (by simp [Src.notEqualHead, inlines_word, inlines_punct, inlines_nil]) (by simp [Src.notEqualHead])
    (balanced_of (by rfl))

omit ok in
theorem inlines_equalHead : Inlines (Src.equalHead (className m) (otherName m)) := by
  simp [Src.equalHead, inlines_append, inlines_word, inlines_punct, inlines_nil, inlines_other]

omit ok in
theorem inlines_equalOf (f : FieldD) : Inlines (equalOf c f) := by
  unfold equalOf
  (repeat' split) <;>
    simp [Src.equalMessage, Src.equalRepeated, Src.equalField, inlines_word, inlines_punct, inlines_nil]

omit ok in
theorem balanced_inlines {ls : List Lexeme} (h : Inlines ls) : Balanced ls := by
  refine balanced_of ?_
  have := bal_inlines ls [] 0 h
  simpa [bal] using this

theorem gives_compare : Gives (defCompare o c m) (fun s =>
    [.block s (Src.equalHead (className m) (otherName m)) (equalBody c m), .block s (Src.notEqualHead (className m)) Src.notEqualBody]) := by
  cases hm : m.fields with
  | nil =>
    have e : defCompare o c m = [.print (own o c m) tEmptyEqualOperatorDefinitionTemplate] ++ [.print (own o c m) tNotEqualOperatorDefinitionTemplate] := by
      simp only [defCompare, hm]; rfl
    have e2 : equalBody c m = cpp! "return true;" := by simp only [equalBody, hm]
    have e3 : otherName m = [] := by simp [otherName, hm]
    rw [e, e2]
    refine (Gives.append (gives_block (c := '(') ?_ inlines_equalHead (by simp [Src.equalHead]) (balanced_of (by rfl))) (gives_notEqual ok)).congr fun s => rfl
    rw [e3]
    exact lx_own ok (by rfl)
  | cons f fs =>
    have e : defCompare o c m = ([.print (own o c m) tEqualOperatorDefinitionTemplate] ++
        ([.indent, .indent, .indent, .indent] ++ ([.print (pv o c m f) (equalTemplate c f)] ++
          fs.flatMap fun g => [.print [] (text! "\n&& "), .print (pv o c m g) (equalTemplate c g)]) ++
        [.outdent, .outdent, .outdent, .outdent]) ++
        [.print [] (text! ";\n"), .print [] tSimpleBlockEnclosureTemplate]) ++ [.print (own o c m) tNotEqualOperatorDefinitionTemplate] := by
      simp only [defCompare, hm, List.append_assoc, List.cons_append, List.nil_append]
    have e2 : equalBody c m = [.word (text! "return")] ++ (equalOf c f ++ fs.flatMap fun g => [.punct '&', .punct '&'] ++ equalOf c g) ++ [.punct ';'] := by
      simp only [equalBody, hm]
    have e3 : otherName m = [.word (text! "other")] := by simp [otherName, hm]
    have h1 : Lx false false [.print (own o c m) tEqualOperatorDefinitionTemplate]
        (Src.equalHead (className m) [.word (text! "other")] ++ [.punct '{', .word (text! "return")]) := lx_own ok (by rfl)
    have h2 := Lx.indented2 ((lx_equal ok (f := f) (by simp [hm])).append (lx_rest ok fs fun g hg => by simp [hm, hg]))
    have h3 : Lx true false [.print [] (text! ";\n")] [.punct ';'] := Lx.after_word (lx_nil (by rfl)) (c := ';') rfl (by decide)
    have h4 := (h1.append h2).append (Lx.cons h3 lx_close)
    rw [e]
    refine (Gives.append (gives_block (c := '(') (h4.congr ?_) inlines_equalHead (by simp [Src.equalHead]) ?_) (gives_notEqual ok)).congr fun s => rfl
    · rw [e2, e3]; simp [List.append_assoc]
    · rw [e2]
      have hr : Inlines (fs.flatMap fun g => [.punct '&', .punct '&'] ++ equalOf c g) :=
        inlines_flatMap fun g _ => by simp [inlines_punct, inlines_equalOf]
      refine Balanced.append (balanced_inlines ?_) (balanced_of (by rfl))
      simp only [inlines_append, inlines_word, inlines_nil, inlines_equalOf, true_and]
      exact hr

/-! #### Getters and setters -/

/-- A block printed for a field, given the lexemes of its head and body in one piece. -/
theorem gives_pv {f : FieldD} (hf : f ∈ m.fields) {t : Str} {ls head body : List Lexeme} (h : putAll propKeys fieldSingle (fieldSub o c m f) t = some (ls, false))
    (e : ls = head ++ .punct '{' :: body ++ [.punct '}']) (hh : Inlines head) (hc : Lexeme.punct '(' ∈ head) (hb : Balanced body) :
    Gives [.print (pv o c m f) t] (fun s => [.block s head body]) :=
  gives_block (c := '(') ((lx_pv ok hf h).congr e) hh hc hb

theorem gives_pGetter {f : FieldD} (hf : f ∈ m.fields) : Gives [.print (pv o c m f) tGetterPrivateMessageDefinitionTemplate]
    (fun s => [.block s (Src.pGetterHead (ty o c m f (text! "getter_type")) (className m) f.prop) (Src.pGetterBody f.prop)]) := by
  refine gives_pv ok hf (ls := let T := ty o c m f (text! "getter_type"); let K := className m; let N := f.prop;  cpp! "@T@ *$K$::$N$_p() const { return m_$N$.get(); }") (by rfl) ?_ ?_ ?_ ?_
  · simp [Src.pGetterHead, Src.pGetterBody, List.append_assoc]
  · simp [Src.pGetterHead, inlines_append, inlines_word, inlines_punct, inlines_nil, inlines_ty ok hf]
  · simp [Src.pGetterHead]
  · exact balanced_of (by simp [Src.pGetterBody, bal, bal_inlines, inlines_ty ok hf])

theorem gives_getter {f : FieldD} (hf : f ∈ m.fields) : Gives [.print (pv o c m f) tGetterMessageDefinitionTemplate]
    (fun s => [.block s (Src.getterHead (ty o c m f (text! "getter_type")) (className m) f.prop) (Src.getterBody f.prop)]) := by
  refine gives_pv ok hf (ls := let T := ty o c m f (text! "getter_type"); let K := className m; let N := f.prop;  cpp! "@T@ &$K$::$N$() const { return *m_$N$; }") (by rfl) ?_ ?_ ?_ ?_
  · simp [Src.getterHead, Src.getterBody, List.append_assoc]
  · simp [Src.getterHead, inlines_append, inlines_word, inlines_punct, inlines_nil, inlines_ty ok hf]
  · simp [Src.getterHead]
  · exact balanced_of (by simp [Src.getterBody, bal, bal_inlines, inlines_ty ok hf])

theorem gives_list {f : FieldD} (hf : f ∈ m.fields) : Gives [.print (pv o c m f) tGetterQmlListDefinitionTemplate]
    (fun s => [.block s (Src.listHead (ty o c m f (text! "full_type")) (className m) f.prop) (Src.listBody (ty o c m f (text! "scope_type")) f.prop)]) := by
  refine gives_pv ok hf (ls := let T := ty o c m f (text! "full_type"); let K := className m; let N := f.prop; let S := ty o c m f (text! "scope_type"); cpp! "QQmlListProperty<@T@> $K$::$N$_l() { return QtProtobuf::constructQmlListProperty<@S@>(this, &m_$N$); }") (by rfl) ?_ ?_ ?_ ?_
  · simp [Src.listHead, Src.listBody, List.append_assoc]
  · simp [Src.listHead, inlines_append, inlines_word, inlines_punct, inlines_nil, inlines_ty ok hf]
  · simp [Src.listHead]
  · exact balanced_of (by simp [Src.listBody, bal, bal_inlines, inlines_ty ok hf])

theorem gives_pSetter {f : FieldD} (hf : f ∈ m.fields) : Gives [.print (pv o c m f) tSetterPrivateTemplateDefinitionMessageType]
    (fun s => [.block s (Src.pSetterHead (ty o c m f (text! "setter_type")) (className m) f.prop (cap f)) (Src.pSetterBody f.prop)]) := by
  refine gives_pv ok hf (ls := let T := ty o c m f (text! "setter_type"); let K := className m; let N := f.prop; let U := cap f; cpp! "void $K$::set$U$_p(@T@ *$N$) { if (m_$N$.get() != $N$) { m_$N$.reset($N$); $N$Changed(); } }") (by rfl) ?_ ?_ ?_ ?_
  · simp [Src.pSetterHead, Src.pSetterBody, List.append_assoc]
  · simp [Src.pSetterHead, inlines_append, inlines_word, inlines_punct, inlines_nil, inlines_ty ok hf]
  · simp [Src.pSetterHead]
  · exact balanced_of (by simp [Src.pSetterBody, bal, bal_inlines, inlines_ty ok hf])

theorem gives_messageSetter {f : FieldD} (hf : f ∈ m.fields) : Gives [.print (pv o c m f) tSetterTemplateDefinitionMessageType]
    (fun s => [.block s (Src.setterHead (ty o c m f (text! "setter_type")) (className m) f.prop (cap f)) (Src.messageSetterBody f.prop)]) := by
  refine gives_pv ok hf (ls := let T := ty o c m f (text! "setter_type"); let K := className m; let N := f.prop; let U := cap f; cpp! "void $K$::set$U$(const @T@ &$N$) { if (*m_$N$ != $N$) { *m_$N$ = $N$; $N$Changed(); } }") (by rfl) ?_ ?_ ?_ ?_
  · simp [Src.setterHead, Src.messageSetterBody, List.append_assoc]
  · simp [Src.setterHead, inlines_append, inlines_word, inlines_punct, inlines_nil, inlines_ty ok hf]
  · simp [Src.setterHead]
  · exact balanced_of (by simp [Src.messageSetterBody, bal, bal_inlines, inlines_ty ok hf])

theorem gives_complexSetter {f : FieldD} (hf : f ∈ m.fields) : Gives [.print (pv o c m f) tSetterTemplateDefinitionComplexType]
    (fun s => [.block s (Src.setterHead (ty o c m f (text! "setter_type")) (className m) f.prop (cap f)) (Src.complexSetterBody f.prop)]) := by
  refine gives_pv ok hf (ls := let T := ty o c m f (text! "setter_type"); let K := className m; let N := f.prop; let U := cap f; cpp! "void $K$::set$U$(const @T@ &$N$) { if (m_$N$ != $N$) { m_$N$ = $N$; $N$Changed(); } }") (by rfl) ?_ ?_ ?_ ?_
  · simp [Src.setterHead, Src.complexSetterBody, List.append_assoc]
  · simp [Src.setterHead, inlines_append, inlines_word, inlines_punct, inlines_nil, inlines_ty ok hf]
  · simp [Src.setterHead]
  · exact balanced_of (by simp [Src.complexSetterBody, bal, bal_inlines, inlines_ty ok hf])

theorem gives_getters {f : FieldD} (hf : f ∈ m.fields) : Gives (defGetterOps o c m f) (fun s => getterItems o c m s f) := by
  unfold defGetterOps getterItems
  refine Gives.append (Gives.ite (fun _ => ?_) (fun _ => .nil)) (Gives.ite (fun _ => gives_list ok hf) (fun _ => .nil))
  exact (Gives.cons (gives_pGetter ok hf) (gives_getter ok hf)).congr fun s => rfl

theorem gives_setters {f : FieldD} (hf : f ∈ m.fields) : Gives (defSetterOps o c m f) (fun s => setterItems o c m s f) := by
  unfold defSetterOps setterItems
  cases f.type
  case message =>
    refine Gives.ite (fun _ => ?_) (fun _ => gives_complexSetter ok hf)
    exact (Gives.cons (gives_pSetter ok hf) (gives_messageSetter ok hf)).congr fun s => rfl
  case string => exact gives_complexSetter ok hf
  case bytes => exact gives_complexSetter ok hf
  all_goals exact .nil

/-- What the source has for a message. -/
theorem gives_class : Gives (defClass o c m) (classItems o c m) := by
  have h := ((((((((gives_destructor ok).append (gives_ordering ok)).append (gives_register ok)).append (gives_constructors ok)).append
    (gives_copy ok)).append (gives_move ok)).append (gives_compare ok)).append (Gives.flatMap fun f hf => gives_getters ok hf)).append
    (Gives.flatMap fun f hf => gives_setters ok hf)
  unfold defClass
  exact h.congr fun s => by simp [classItems, List.append_assoc]

end

end QtPb.TextProof
