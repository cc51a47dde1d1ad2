import Verif.SpecDefs
import Verif.TextSrcFile
import Verif.TextFound
/-
What the readers of definitions find in sources. (Helpers for the theorems about generated sources.)
-/
set_option maxRecDepth 100000

namespace QtPb.TextProof
open QtPb.Gen QtPb.Gen.Text QtPb.Gen.Text.Spec QtPb.SpecCpp

theorem lexemesOf_eq (t : Text) : lexemesOf t = lexemes t := by
  unfold lexemesOf lex lexemes
  cases h : lexFrom (.code []) t with
  | none => rfl
  | some p =>
    obtain ⟨a, l⟩ := p
    cases l <;> rfl

/-! ### Lexemes without brackets and commas -/

def Flat (ls : List Lexeme) : Prop := ∀ x ∈ ls, x ≠ .punct '(' ∧ x ≠ .punct ')' ∧ x ≠ .punct ','

theorem flat_value {v : Text} (h : Value v) : Flat (lexemes v) := by
  obtain ⟨ls, w, hl, hp, hs⟩ := lexFrom_ok v h.1 []
  rw [lexFrom_lexemes hl]
  intro x hx
  rcases List.mem_append.1 hx with hx | hx
  · cases x with
    | word w => simp
    | str s => exact absurd hx (hs s)
    | punct c =>
      have := h.1 c (hp c hx)
      refine ⟨?_, ?_, ?_⟩ <;> (intro e; cases e; revert this; decide)
  · simp only [endWord] at hx
    split at hx
    · simp at hx
    · simp at hx; subst hx; simp

theorem flat_append {a b : List Lexeme} (ha : Flat a) (hb : Flat b) : Flat (a ++ b) := fun x hx =>
  (List.mem_append.1 hx).elim (ha x) (hb x)

theorem closing_flat : ∀ {a : List Lexeme} (_ : Flat a) (r : List Lexeme) (n : Nat),
    closing n (a ++ r) = (closing n r).map fun p => (a ++ p.1, p.2)
  | [], _, r, n => by simp
  | x :: a, h, r, n => by
    have hx := h x (by simp)
    have ih := closing_flat (a := a) (fun y hy => h y (by simp [hy])) r n
    have e : closing n (x :: (a ++ r)) = (closing n (a ++ r)).map fun p => (x :: p.1, p.2) := by
      cases n <;> simp [closing, hx.1, hx.2.1]
    rw [List.cons_append, e, ih]
    simp [Function.comp_def]

theorem partsFrom_flat : ∀ {a : List Lexeme} (_ : Flat a) (r acc : List Lexeme) (n : Nat),
    partsFrom n acc (a ++ r) = partsFrom n (acc ++ a) r
  | [], _, r, acc, n => by simp
  | x :: a, h, r, acc, n => by
    have hx := h x (by simp)
    have ih := partsFrom_flat (a := a) (fun y hy => h y (by simp [hy])) r (acc ++ [x]) n
    rw [List.cons_append, partsFrom, if_neg hx.1, if_neg hx.2.1, if_neg (fun e => hx.2.2 e.1), ih]
    simp

theorem paramOf_snoc (ls : List Lexeme) (n : Text) : paramOf (ls ++ [.word n]) = (ls, n) := by simp [paramOf]

theorem takeWhile_app {p : Lexeme → Bool} : ∀ {a : List Lexeme}, (∀ x ∈ a, p x = true) → ∀ {y : Lexeme}, p y = false → ∀ r,
    (a ++ y :: r).takeWhile p = a ∧ (a ++ y :: r).dropWhile p = y :: r
  | [], _, y, hy, r => by simp [hy]
  | x :: a, h, y, hy, r => by
    have ih := takeWhile_app (a := a) (fun z hz => h z (by simp [hz])) hy r
    have hx := h x (by simp)
    simp [hx, ih.1, ih.2]

theorem takeWhile_all {p : Lexeme → Bool} : ∀ {a : List Lexeme}, (∀ x ∈ a, p x = true) → a.takeWhile p = a ∧ a.dropWhile p = []
  | [], _ => by simp
  | x :: a, h => by
    have ih := takeWhile_all (a := a) (fun z hz => h z (by simp [hz]))
    have hx := h x (by simp)
    simp [hx, ih.1, ih.2]

/-- The head of a function of a class. -/
theorem splitHead_eq {pre nm rest : List Lexeme} {K : Text} (hp : ∀ x ∈ pre, x ≠ .punct '(') (hn : ∀ x ∈ nm, x ≠ .punct '(' ∧ x ≠ .punct ':') :
    splitHead (pre ++ .word K :: .punct ':' :: .punct ':' :: (nm ++ .punct '(' :: rest)) = some (pre, K, nm) ∧
    (pre ++ .word K :: .punct ':' :: .punct ':' :: (nm ++ .punct '(' :: rest)).dropWhile (· ≠ .punct '(') = .punct '(' :: rest := by
  have h := takeWhile_app (p := fun x => decide (x ≠ .punct '(')) (a := pre ++ .word K :: .punct ':' :: .punct ':' :: nm) (y := .punct '(')
    (by
      intro x hx
      simp only [List.mem_append, List.mem_cons] at hx
      rcases hx with hx | rfl | rfl | rfl | hx
      · simp [hp x hx]
      · simp
      · simp
      · simp
      · simp [(hn x hx).1]) (by simp) rest
  have e : pre ++ .word K :: .punct ':' :: .punct ':' :: (nm ++ .punct '(' :: rest) =
      (pre ++ .word K :: .punct ':' :: .punct ':' :: nm) ++ .punct '(' :: rest := by simp
  rw [e]
  refine ⟨?_, h.2⟩
  unfold splitHead
  rw [h.1]
  have e2 : (pre ++ .word K :: .punct ':' :: .punct ':' :: nm).reverse = nm.reverse ++ .punct ':' :: .punct ':' :: .word K :: pre.reverse := by simp
  have h2 := takeWhile_app (p := fun x => decide (x ≠ .punct ':')) (a := nm.reverse) (y := .punct ':')
    (fun x hx => by simp [(hn x (by simpa using hx)).2]) (by simp) (.punct ':' :: .word K :: pre.reverse)
  simp only [e2, h2.1, h2.2, List.reverse_reverse]

theorem fnOf_eq {pre nm ps behind head : List Lexeme} {K : Text}
    (e : head = pre ++ .word K :: .punct ':' :: .punct ':' :: (nm ++ .punct '(' :: (ps ++ .punct ')' :: behind)))
    (hp : ∀ x ∈ pre, x ≠ .punct '(') (hn : ∀ x ∈ nm, x ≠ .punct '(' ∧ x ≠ .punct ':')
    (hc : closing 0 (ps ++ .punct ')' :: behind) = some (ps, behind)) (s : List Text) (body : List Lexeme) :
    fnOf s head body = some ⟨pre, s ++ [K], nm, (parts ps).map paramOf, behind, body⟩ := by
  subst e
  obtain ⟨h1, h2⟩ := splitHead_eq (rest := ps ++ .punct ')' :: behind) (K := K) hp hn
  unfold fnOf
  rw [h1, h2, List.drop_one, List.tail_cons, hc]

theorem closing_end {ps : List Lexeme} (h : Flat ps) (behind : List Lexeme) : closing 0 (ps ++ .punct ')' :: behind) = some (ps, behind) := by
  rw [closing_flat h]
  simp [closing]

/-! ### Types -/

section
variable {o : Options} {c : Ctx} {m : Cur}

theorem scope_scalar : ∀ t : FType, t ≠ .message → t ≠ .enum → t ≠ .group →
    lexemes ((simpleVars t).val (text! "scope_type")) = qualified (scalarName t) ∧
    lexemes ((simpleVars t).val (text! "scope_list_type")) = qualified (scalarListName t) ∧
    (simpleVars t).val (text! "setter_type") = (simpleVars t).val (text! "scope_type") := by
  intro t h1 h2 h3
  cases t <;> first | contradiction | decide +kernel

theorem pv_scope (f : FieldD) : (pv o c m f).val (text! "scope_type") = (typeVars o c m.path f).val (text! "scope_type") ∧
    (pv o c m f).val (text! "scope_list_type") = (typeVars o c m.path f).val (text! "scope_list_type") ∧
    (pv o c m f).val (text! "setter_type") =
      (typeVars o c m.path f).val (if isList f then text! "scope_list_type" else text! "setter_type") ∧
    (pv o c m f).val (text! "getter_type") =
      (typeVars o c m.path f).val (if isList f then text! "scope_list_type" else text! "getter_type") := by
  unfold pv propertyVars isList
  cases f.isMap <;> cases f.repeated <;> exact ⟨rfl, rfl, rfl, rfl⟩

variable (ok : MsgOk o c m)
include ok

omit ok in
theorem scope_value {scope : Path} {f : FieldD} (hp : PlainField f) :
    lexemes ((typeVars o c scope f).val (text! "scope_type")) = valueType o c scope f false ∧
    lexemes ((typeVars o c scope f).val (text! "scope_list_type")) = valueType o c scope f true := by
  unfold valueType
  cases ht : f.type with
  | message =>
    have hq : Good' (f.msgType.getD []) := hp.message ht
    simp only [typeVars, ht]
    split
    · exact ⟨by
        have : (qtVars c (f.msgType.getD [])).val (text! "scope_type") = (f.msgType.getD []).getLastD [] := rfl
        rw [this, (name_id (good_last hq).1).lexemes]
        rfl, rfl⟩
    · simp only [lexemesOf_eq]; exact ⟨rfl, rfl⟩
  | enum => simp only [typeVars, ht, lexemesOf_eq]; exact ⟨rfl, rfl⟩
  | group => exact absurd ht hp.noGroup
  | _ =>
    rw [typeVars_scalar (by rw [ht]; decide) (by rw [ht]; decide), ht]
    have h := scope_scalar f.type (by rw [ht]; decide) (by rw [ht]; decide) (by rw [ht]; decide)
    rw [ht] at h
    exact ⟨h.1, h.2.1⟩

theorem ty_scope {f : FieldD} (hf : f ∈ m.fields) : ty o c m f (text! "scope_type") = valueType o c m.path f false ∧
    ty o c m f (text! "scope_list_type") = valueType o c m.path f true := by
  unfold ty
  rw [(pv_scope f).1, (pv_scope f).2.1]
  exact scope_value (ok.fields f hf)

theorem ty_setter {f : FieldD} (hf : f ∈ m.fields) : ty o c m f (text! "setter_type") = valueType o c m.path f (isList f) := by
  have h := ty_scope ok hf
  unfold ty at h ⊢
  rw [(pv_scope f).1, (pv_scope f).2.1] at h
  rw [(pv_scope f).2.2.1]
  cases isList f with
  | true => exact h.2
  | false =>
    rw [← h.1]
    congr 1
    cases ht : f.type with
    | message => simp only [typeVars, ht, Bool.false_eq_true, if_false]; split <;> rfl
    | enum => simp only [typeVars, ht]; rfl
    | group => exact absurd ht (ok.fields f hf).noGroup
    | _ =>
      rw [typeVars_scalar (by rw [ht]; decide) (by rw [ht]; decide), ht]
      rfl

theorem ty_getter {f : FieldD} (hf : f ∈ m.fields) (hp : isPureMessage c.package f = true) :
    ty o c m f (text! "getter_type") = valueType o c m.path f false := by
  have h := ty_scope ok hf
  have hl : isList f = false := by
    simp only [isPureMessage, Bool.and_eq_true, Bool.not_eq_true'] at hp
    simp [isList, hp]
  have ht : f.type = .message := by
    simp only [isPureMessage, Bool.and_eq_true, beq_iff_eq] at hp
    simp [hp]
  unfold ty at h ⊢
  rw [(pv_scope f).2.2.2, hl]
  rw [← h.1, (pv_scope f).1]
  congr 1
  simp only [typeVars, ht, Bool.false_eq_true, if_false]
  split <;> rfl

theorem ty_full {f : FieldD} (hf : f ∈ m.fields) (ht : f.type = .message) : ty o c m f (text! "full_type") = messageType o c f := by
  unfold ty
  rw [← message_type ok hf ht, pv_full f _ (by simp), pv_val f _ (by simp)]
  unfold typeVars
  simp only [ht]
  split <;> rfl

theorem flat_ty {f : FieldD} (hf : f ∈ m.fields) (x : Str) : Flat (ty o c m f x) := flat_value ((pv_good ok hf).val x)

/-! ### Functions of classes -/

omit ok in
/-- The functions in items are found one by one. -/
theorem fnsIn_append (a b : List Item) : fnsIn (a ++ b) = fnsIn a ++ fnsIn b := by simp [fnsIn]

omit ok in
theorem fnsIn_flatMap {α : Type} (l : List α) (f : α → List Item) : fnsIn (l.flatMap f) = l.flatMap fun x => fnsIn (f x) := by
  induction l with
  | nil => rfl
  | cons x l ih => simp [fnsIn_append, ih]

omit ok in
theorem fnsIn_block {s : List Text} {head body : List Lexeme} {f : Fn} (h : fnOf s head body = some f) (is : List Item) :
    fnsIn (.block s head body :: is) = f :: fnsIn is := by simp [fnsIn, h]

omit ok in
theorem fnsIn_statement {s : List Text} {ls : List Lexeme} (is : List Item) : fnsIn (.statement s ls :: is) = fnsIn is := by simp [fnsIn]

omit ok in
theorem fnsIn_noCall {s : List Text} {head body : List Lexeme} (h : fnOf s head body = none) (is : List Item) :
    fnsIn (.block s head body :: is) = fnsIn is := by simp [fnsIn, h]

/-- A parameter of a constructor, without the comma. -/
def param1 (o : Options) (c : Ctx) (m : Cur) (f : FieldD) : List Lexeme := paramType o c m.path f ++ [.word f.prop]

theorem param_eq {f : FieldD} (hf : f ∈ m.fields) : param o c m f = param1 o c m f ++ [.punct ','] := by
  obtain ⟨h1, h2⟩ := ty_scope ok hf
  have hmap := (ok.fields f hf).map
  unfold param param1 paramType isList
  rw [h1, h2]
  by_cases hl : (f.repeated && !f.isMap) = true
  · simp [hl, Src.paramRef]
  · have hl' : (f.repeated && !f.isMap) = false := by simpa using hl
    by_cases hm : f.isMap = true
    · simp [hl', hm, hmap hm, Src.paramRef]
    · have hm' : f.isMap = false := by simpa using hm
      have hr : f.repeated = false := by simpa [hm'] using hl'
      simp only [hm', hr, Bool.false_and, Bool.false_eq_true, if_false, Bool.or_false, Bool.false_or]
      split <;> simp [Src.paramRef, Src.paramVal]

theorem flat_valueType {f : FieldD} (hf : f ∈ m.fields) (l : Bool) : Flat (valueType o c m.path f l) := by
  cases l with
  | false => rw [← (ty_scope ok hf).1]; exact flat_ty ok hf _
  | true => rw [← (ty_scope ok hf).2]; exact flat_ty ok hf _

theorem flat_paramType {f : FieldD} (hf : f ∈ m.fields) : Flat (paramType o c m.path f) := by
  have := flat_valueType ok hf (isList f)
  unfold paramType
  simp only
  split
  · intro x hx
    simp only [List.mem_cons, List.mem_append, List.not_mem_nil, or_false] at hx
    rcases hx with rfl | hx | rfl
    · simp
    · exact this x hx
    · simp
  · exact this

theorem flat_param1 {f : FieldD} (hf : f ∈ m.fields) : Flat (param1 o c m f) :=
  flat_append (flat_paramType ok hf) (by intro x hx; simp at hx; subst hx; simp)

theorem parts_params : ∀ (l : List FieldD), (∀ f ∈ l, f ∈ m.fields) → ∀ (last : List Lexeme), Flat last → last ≠ [] →
    parts (l.flatMap (param o c m) ++ last) = l.map (param1 o c m) ++ [last]
  | [], _, last, hl, hne => by
    have := partsFrom_flat hl [] [] 0
    simp only [List.append_nil, List.nil_append] at this
    simp [parts, this, partsFrom, hne]
  | f :: l, h, last, hl, hne => by
    have hf := h f (by simp)
    have ih := parts_params l (fun g hg => h g (by simp [hg])) last hl hne
    unfold parts at ih ⊢
    rw [List.flatMap_cons, param_eq ok hf, List.append_assoc, List.append_assoc, partsFrom_flat (flat_param1 ok hf)]
    simp only [List.nil_append, List.cons_append, partsFrom]
    simp [ih]

/-- One initialiser, without the comma. -/
def init1 (N : Text) (v : List Lexeme) : List Lexeme := .word (text! "m_" ++ N) :: .punct '(' :: (v ++ [.punct ')'])

theorem init_eq {f : FieldD} (hf : f ∈ m.fields) (given : Bool) : init o c m given f =
    match initial o c m.path given f with
    | some v => .punct ',' :: init1 f.prop v
    | none => [] := by
  obtain ⟨h1, h2⟩ := ty_scope ok hf
  unfold init initial
  simp only [h1]
  by_cases hp : isPureMessage c.package f = true
  · simp only [hp, if_true]
    cases given <;> simp [init1, Src.initNew, Src.initNull]
  · simp only [hp, if_false, Bool.false_eq_true]
    cases given with
    | true => simp [init1, Src.initGiven]
    | false =>
      simp only [Bool.false_eq_true, if_false]
      by_cases hr : (f.repeated || f.isMap) = true
      · have : initializer o c m f = [] := by
          unfold initializer
          rw [if_neg]
          intro h
          simp only [Bool.and_eq_true, Bool.not_eq_true', Bool.or_eq_true] at h hr
          rcases hr with hr | hr <;> simp [hr] at h
        simp [this, hr]
      · have hr' : (!f.repeated && !f.isMap) = true := by
          simp only [Bool.or_eq_true, not_or, Bool.not_eq_true] at hr
          simp [hr]
        simp only [hr, if_false, Bool.false_eq_true]
        unfold initializer
        rw [if_pos hr']
        cases ht : f.type with
        | enum =>
          have hv : Value ((pv o c m f).val (text! "scope_type")) := (pv_good ok hf).val _
          have e : lexemes ((pv o c m f).val (text! "scope_type") ++ kScope ++ c.firstValue (f.enumType.getD [])) =
              valueType o c m.path f false ++ .punct ':' :: .punct ':' :: [.word (c.firstValue (f.enumType.getD []))] := by
            have hn := name_id (ok.file.first (f.enumType.getD []))
            have hn' : ∀ d ∈ c.firstValue (f.enumType.getD []), okChar d = true := fun d hd => isWord_ok (hn.2 d hd)
            have : (pv o c m f).val (text! "scope_type") ++ kScope ++ c.firstValue (f.enumType.getD []) =
              (pv o c m f).val (text! "scope_type") ++ ':' :: ([] ++ ':' :: c.firstValue (f.enumType.getD [])) := by simp [kScope]
            rw [this, lexemes_mark hv.1 (by
              intro d hd
              simp only [List.nil_append, List.mem_cons] at hd
              rcases hd with rfl | hd
              · rfl
              · exact hn' d hd) (by rfl) (by rfl), lexemes_mark (by simp) hn' (by rfl) (by rfl), hn.lexemes]
            have := h1
            unfold ty at this
            rw [this]
            have e0 : lexemes [] = [] := rfl
            rw [e0]
            simp
            rfl
          rw [if_neg (by simp [kScope])]
          simp only [e, Src.initDefault, init1]
        | group => exact absurd ht (ok.fields f hf).noGroup
        | _ => rfl

/-! ### Heads -/

omit ok in
theorem flat_nil : Flat [] := by simp [Flat]

omit ok in
theorem fn_dtor (s : List Text) (K : Text) (body : List Lexeme) :
    fnOf s (Src.dtorHead K) body = some ⟨[], s ++ [K], cpp! "~$K$", [], [], body⟩ :=
  fnOf_eq (pre := []) (nm := cpp! "~$K$") (ps := []) (behind := []) (K := K) rfl (by simp) (by simp) (closing_end flat_nil _) s body

omit ok in
theorem fn_register (s : List Text) (K : Text) (body : List Lexeme) :
    fnOf s (Src.registerHead K) body = some ⟨cpp! "void", s ++ [K], cpp! "registerTypes", [], [], body⟩ :=
  fnOf_eq (pre := cpp! "void") (nm := cpp! "registerTypes") (ps := []) (behind := []) (K := K) rfl (by simp) (by simp) (closing_end flat_nil _) s body

omit ok in
theorem fn_table (s : List Text) (K : Text) (body : List Lexeme) : fnOf s (Src.tableHead K) body = none := by
  unfold fnOf
  have : (Src.tableHead K).dropWhile (· ≠ .punct '(') = [] := (takeWhile_all (by simp [Src.tableHead])).2
  rw [this]
  split
  · rename_i h; simp [closing] at h
  · rfl

/-- What stands behind the parameters of a constructor. -/
def ctorBehind (o : Options) (c : Ctx) (m : Cur) (n : Nat) : List Lexeme :=
  cpp! ": QObject(parent)" ++ ((m.fields.take n).flatMap (init o c m true) ++ (m.fields.drop n).flatMap (init o c m false))

theorem fn_ctor (s : List Text) (n : Nat) (body : List Lexeme) : fnOf s (ctorHead o c m n) body =
    some ⟨[], s ++ [className m], [.word (className m)], (m.fields.take n).map (fun f => (paramType o c m.path f, f.prop)) ++ [objectParam],
      ctorBehind o c m n, body⟩ := by
  have hm : ∀ f ∈ m.fields.take n, f ∈ m.fields := fun f hf => List.mem_of_mem_take hf
  have hl : Flat (cpp! "QObject *parent") := by
    intro x hx
    simp only [List.mem_cons, List.not_mem_nil, or_false] at hx
    rcases hx with rfl | rfl | rfl <;> simp
  have hps : ∀ r, closing 0 ((m.fields.take n).flatMap (param o c m) ++ cpp! "QObject *parent" ++ .punct ')' :: r) =
      some ((m.fields.take n).flatMap (param o c m) ++ cpp! "QObject *parent", r) := by
    intro r
    rw [List.append_assoc]
    generalize hL : m.fields.take n = L at hm ⊢
    clear hL
    induction L with
    | nil => exact closing_end hl r
    | cons f L ih =>
      have ih := ih (fun g hg => hm g (by simp [hg]))
      have e : closing 0 (.punct ',' :: (L.flatMap (param o c m) ++ (cpp! "QObject *parent" ++ .punct ')' :: r))) =
          (closing 0 (L.flatMap (param o c m) ++ (cpp! "QObject *parent" ++ .punct ')' :: r))).map fun p => (.punct ',' :: p.1, p.2) := by
        simp [closing]
      rw [List.flatMap_cons, param_eq ok (hm f (by simp)), List.append_assoc, List.append_assoc, closing_flat (flat_param1 ok (hm f (by simp))),
        List.cons_append, List.nil_append, e, ih]
      simp
  have h := fnOf_eq (head := ctorHead o c m n) (pre := []) (nm := [.word (className m)])
    (ps := (m.fields.take n).flatMap (param o c m) ++ cpp! "QObject *parent") (behind := ctorBehind o c m n) (K := className m)
    (by simp [ctorHead, Src.ctorBegin, Src.ctorEnd, ctorBehind]) (by simp) (by simp) (hps _) s body
  rw [h, parts_params ok _ hm _ hl (by simp)]
  have : ∀ f : FieldD, paramOf (param1 o c m f) = (paramType o c m.path f, f.prop) := fun f => paramOf_snoc _ _
  have e3 : paramOf (cpp! "QObject *parent") = objectParam := rfl
  simp only [List.map_append, List.map_map, Function.comp_def, this, List.map_cons, List.map_nil, e3, List.nil_append]

omit ok in
theorem other_params (pre : List Lexeme) (hp : Flat pre) (hne : pre ≠ []) (hl : ∀ n, pre.getLast? ≠ some (.word n)) :
    Flat (pre ++ otherName m) ∧ (parts (pre ++ otherName m)).map paramOf = [(pre, sourceName m.fields)] := by
  have hf : Flat (pre ++ otherName m) := by
    refine flat_append hp ?_
    unfold otherName
    split
    · exact flat_nil
    · intro x hx; simp at hx; subst hx; simp
  have := partsFrom_flat hf [] [] 0
  simp only [List.append_nil, List.nil_append] at this
  refine ⟨hf, ?_⟩
  rw [parts, this, partsFrom, if_neg (by simp [hne])]
  unfold otherName sourceName
  cases h : m.fields with
  | nil =>
    simp only [List.isEmpty_nil, if_true, List.append_nil, List.map_cons, List.map_nil]
    congr 1
    unfold paramOf
    split
    · rename_i n hn; exact absurd hn (hl n)
    · rfl
  | cons f fs => simp [paramOf]

omit ok in
theorem fn_copies (s : List Text) (K : Text) (body : List Lexeme) :
    fnOf s (Src.copyHead K (otherName m) ++ nulls c m) body =
      some ⟨[], s ++ [K], cpp! "$K$", [(cpp! "const $K$ &", sourceName m.fields)], cpp! ": QObject()" ++ nulls c m, body⟩ ∧
    fnOf s (Src.assignHead K (otherName m)) body =
      some ⟨cpp! "$K$ &", s ++ [K], cpp! "operator =", [(cpp! "const $K$ &", sourceName m.fields)], [], body⟩ ∧
    fnOf s (Src.moveHead K (otherName m) ++ nulls c m) body =
      some ⟨[], s ++ [K], cpp! "$K$", [(cpp! "$K$ &&", sourceName m.fields)], cpp! ": QObject()" ++ nulls c m, body⟩ ∧
    fnOf s (Src.moveAssignHead K (otherName m)) body =
      some ⟨cpp! "$K$ &", s ++ [K], cpp! "operator =", [(cpp! "$K$ &&", sourceName m.fields)], [], body⟩ ∧
    fnOf s (Src.equalHead K (otherName m)) body =
      some ⟨cpp! "bool", s ++ [K], cpp! "operator ==", [(cpp! "const $K$ &", sourceName m.fields)], cpp! "const", body⟩ ∧
    fnOf s (Src.notEqualHead K) body =
      some ⟨cpp! "bool", s ++ [K], cpp! "operator !=", [(cpp! "const $K$ &", text! "other")], cpp! "const", body⟩ := by
  have f1 : Flat (cpp! "const $K$ &") := by simp [Flat]
  have f2 : Flat (cpp! "$K$ &&") := by simp [Flat]
  have f3 : Flat (cpp! "const $K$ &other") := by simp [Flat]
  obtain ⟨c1, p1⟩ := other_params (m := m) (cpp! "const $K$ &") f1 (by simp) (by simp)
  obtain ⟨c2, p2⟩ := other_params (m := m) (cpp! "$K$ &&") f2 (by simp) (by simp)
  refine ⟨?_, ?_, ?_, ?_, ?_, ?_⟩
  · rw [← p1]
    exact fnOf_eq (pre := []) (nm := cpp! "$K$") (ps := cpp! "const $K$ &" ++ otherName m) (by simp [Src.copyHead]) (by simp) (by simp) (closing_end c1 _) s body
  · rw [← p1]
    exact fnOf_eq (pre := cpp! "$K$ &") (nm := cpp! "operator =") (ps := cpp! "const $K$ &" ++ otherName m) (by simp [Src.assignHead]) (by simp) (by simp) (closing_end c1 _) s body
  · rw [← p2]
    exact fnOf_eq (pre := []) (nm := cpp! "$K$") (ps := cpp! "$K$ &&" ++ otherName m) (by simp [Src.moveHead]) (by simp) (by simp) (closing_end c2 _) s body
  · rw [← p2]
    exact fnOf_eq (pre := cpp! "$K$ &") (nm := cpp! "operator =") (ps := cpp! "$K$ &&" ++ otherName m) (by simp [Src.moveAssignHead]) (by simp) (by simp) (closing_end c2 _) s body
  · rw [← p1]
    exact fnOf_eq (pre := cpp! "bool") (nm := cpp! "operator ==") (ps := cpp! "const $K$ &" ++ otherName m) (by simp [Src.equalHead]) (by simp) (by simp) (closing_end c1 _) s body
  · exact fnOf_eq (pre := cpp! "bool") (nm := cpp! "operator !=") (ps := cpp! "const $K$ &other") (by simp [Src.notEqualHead]) (by simp) (by simp) (closing_end f3 _) s body

omit ok in
theorem fn_dates (s : List Text) (b1 b2 : List Lexeme) :
    fnOf s Src.dateCtorHead b1 = some ⟨[], s ++ [text! "Timestamp"], cpp! "Timestamp", [(cpp! "const QDateTime &", text! "datetime"), objectParam],
      cpp! ": QObject(parent), m_seconds(datetime.toMSecsSinceEpoch() / 1000), m_nanos((datetime.toMSecsSinceEpoch() % 1000) * 1000)", b1⟩ ∧
    fnOf s Src.dateHead b2 = some ⟨[], s ++ [text! "Timestamp"], cpp! "operator QDateTime", [], cpp! "const", b2⟩ := ⟨by rfl, by rfl⟩

theorem fn_getters {f : FieldD} (hf : f ∈ m.fields) (s : List Text) (x : Str) (K N : Text) (body : List Lexeme) :
    let T := ty o c m f x
    fnOf s (Src.pGetterHead T K N) body = some ⟨cpp! "@T@ *", s ++ [K], cpp! "$N$_p", [], cpp! "const", body⟩ ∧
    fnOf s (Src.getterHead T K N) body = some ⟨cpp! "@T@ &", s ++ [K], cpp! "$N$", [], cpp! "const", body⟩ ∧
    fnOf s (Src.listHead T K N) body = some ⟨cpp! "QQmlListProperty<@T@>", s ++ [K], cpp! "$N$_l", [], [], body⟩ := by
  have hT := flat_ty ok hf x
  intro T
  have hp : ∀ x ∈ T, x ≠ .punct '(' := fun x hx => (hT x hx).1
  refine ⟨?_, ?_, ?_⟩
  · refine fnOf_eq (pre := cpp! "@T@ *") (nm := cpp! "$N$_p") (ps := []) (by simp [Src.pGetterHead]) ?_ (by simp) (closing_end flat_nil _) s body
    intro x hx
    rcases List.mem_append.1 hx with hx | hx
    · exact hp x hx
    · simp at hx; subst hx; simp
  · refine fnOf_eq (pre := cpp! "@T@ &") (nm := cpp! "$N$") (ps := []) (by simp [Src.getterHead]) ?_ (by simp) (closing_end flat_nil _) s body
    intro x hx
    rcases List.mem_append.1 hx with hx | hx
    · exact hp x hx
    · simp at hx; subst hx; simp
  · refine fnOf_eq (pre := cpp! "QQmlListProperty<@T@>") (nm := cpp! "$N$_l") (ps := []) (by simp [Src.listHead]) ?_ (by simp) (closing_end flat_nil _) s body
    intro x hx
    simp only [List.mem_cons, List.mem_append, List.not_mem_nil, or_false] at hx
    rcases hx with rfl | rfl | hx | rfl
    · simp
    · simp
    · exact hp x hx
    · simp

theorem fn_setters {f : FieldD} (hf : f ∈ m.fields) (s : List Text) (x : Str) (K N U : Text) (body : List Lexeme) :
    let T := ty o c m f x
    fnOf s (Src.pSetterHead T K N U) body = some ⟨cpp! "void", s ++ [K], cpp! "set$U$_p", [(cpp! "@T@ *", N)], [], body⟩ ∧
    fnOf s (Src.setterHead T K N U) body = some ⟨cpp! "void", s ++ [K], cpp! "set$U$", [(cpp! "const @T@ &", N)], [], body⟩ := by
  have hT := flat_ty ok hf x
  intro T
  have f1 : Flat (cpp! "@T@ *$N$") := by
    refine flat_append hT ?_
    intro x hx
    simp only [List.mem_cons, List.not_mem_nil, or_false] at hx
    rcases hx with rfl | rfl <;> simp
  have f2 : Flat (cpp! "const @T@ &$N$") := by
    have : cpp! "const @T@ &$N$" = [.word (text! "const")] ++ (T ++ cpp! "&$N$") := rfl
    rw [this]
    refine flat_append (by simp [Flat]) (flat_append hT ?_)
    intro x hx
    simp only [List.mem_cons, List.not_mem_nil, or_false] at hx
    rcases hx with rfl | rfl <;> simp
  have one : ∀ pre : List Lexeme, Flat (pre ++ [.word N]) → (parts (pre ++ [.word N])).map paramOf = [(pre, N)] := by
    intro pre hp
    have := partsFrom_flat hp [] [] 0
    simp only [List.append_nil, List.nil_append] at this
    rw [parts, this, partsFrom, if_neg (by simp)]
    simp [paramOf_snoc]
  have e1 : cpp! "@T@ *$N$" = cpp! "@T@ *" ++ [.word N] := by simp
  have e2 : cpp! "const @T@ &$N$" = cpp! "const @T@ &" ++ [.word N] := by simp
  refine ⟨?_, ?_⟩
  · rw [← one _ (by rw [← e1]; exact f1), ← e1]
    exact fnOf_eq (pre := cpp! "void") (nm := cpp! "set$U$_p") (ps := cpp! "@T@ *$N$") (by simp [Src.pSetterHead]) (by simp) (by simp) (closing_end f1 _) s body
  · rw [← one _ (by rw [← e2]; exact f2), ← e2]
    exact fnOf_eq (pre := cpp! "void") (nm := cpp! "set$U$") (ps := cpp! "const @T@ &$N$") (by simp [Src.setterHead]) (by simp) (by simp) (closing_end f2 _) s body

/-! ### The functions of a class -/

def getterFns (o : Options) (c : Ctx) (m : Cur) (cls : List Text) (f : FieldD) : List Fn :=
  let T := valueType o c m.path f false
  let F := messageType o c f
  let N := f.prop
  (if isPureMessage c.package f then
    [⟨cpp! "@T@ *", cls, cpp! "$N$_p", [], cpp! "const", Src.pGetterBody N⟩, ⟨cpp! "@T@ &", cls, cpp! "$N$", [], cpp! "const", Src.getterBody N⟩]
   else []) ++
  (if isList f && f.type == .message && !isQtType c.package f && o.qml then
    [⟨cpp! "QQmlListProperty<@F@>", cls, cpp! "$N$_l", [], [], Src.listBody T N⟩] else [])

def setterFns (o : Options) (c : Ctx) (m : Cur) (cls : List Text) (f : FieldD) : List Fn :=
  let T := valueType o c m.path f (isList f)
  let N := f.prop
  let S := f.setter
  if f.type == .message || f.type == .string || f.type == .bytes then
    (if isPureMessage c.package f then
      [⟨cpp! "void", cls, cpp! "$S$_p", [(cpp! "@T@ *", N)], [], Src.pSetterBody N⟩,
       ⟨cpp! "void", cls, cpp! "$S$", [(cpp! "const @T@ &", N)], [], Src.messageSetterBody N⟩]
     else [⟨cpp! "void", cls, cpp! "$S$", [(cpp! "const @T@ &", N)], [], Src.complexSetterBody N⟩])
  else []

def dateFns (m : Cur) (cls : List Text) : List Fn :=
  if isTimestamp m then
    [⟨[], cls, cpp! "Timestamp", [(cpp! "const QDateTime &", text! "datetime"), objectParam],
      cpp! ": QObject(parent), m_seconds(datetime.toMSecsSinceEpoch() / 1000), m_nanos((datetime.toMSecsSinceEpoch() % 1000) * 1000)", []⟩,
     ⟨[], cls, cpp! "operator QDateTime", [], cpp! "const", Src.dateBody⟩]
  else []

def commonFns (c : Ctx) (m : Cur) (cls : List Text) : List Fn :=
  let K := className m
  let copied : List Lexeme × Text := (cpp! "const $K$ &", sourceName m.fields)
  let moved : List Lexeme × Text := (cpp! "$K$ &&", sourceName m.fields)
  [⟨[], cls, cpp! "$K$", [copied], cpp! ": QObject()" ++ nulls c m, copyBody c m⟩,
   ⟨cpp! "$K$ &", cls, cpp! "operator =", [copied], [], assignBody c m⟩,
   ⟨[], cls, cpp! "$K$", [moved], cpp! ": QObject()" ++ nulls c m, moveBody c m⟩,
   ⟨cpp! "$K$ &", cls, cpp! "operator =", [moved], [], moveAssignBody c m⟩,
   ⟨cpp! "bool", cls, cpp! "operator ==", [copied], cpp! "const", equalBody c m⟩,
   ⟨cpp! "bool", cls, cpp! "operator !=", [(cpp! "const $K$ &", text! "other")], cpp! "const", Src.notEqualBody⟩]

def ctorFn (o : Options) (c : Ctx) (m : Cur) (cls : List Text) (n : Nat) : Fn :=
  ⟨[], cls, [.word (className m)], (m.fields.take n).map (fun f => (paramType o c m.path f, f.prop)) ++ [objectParam], ctorBehind o c m n, []⟩

def classFns (o : Options) (c : Ctx) (m : Cur) (cls : List Text) : List Fn :=
  let K := className m
  [⟨[], cls, cpp! "~$K$", [], [], []⟩, ⟨cpp! "void", cls, cpp! "registerTypes", [], [], registerBody o c m⟩] ++
  (List.range (m.fields.length + 1)).map (ctorFn o c m cls) ++ dateFns m cls ++ commonFns c m cls ++
  m.fields.flatMap (getterFns o c m cls) ++ m.fields.flatMap (setterFns o c m cls)

omit ok in
theorem setter_name (f : FieldD) : f.setter = text! "set" ++ cap f := rfl

omit ok in
theorem fnsIn_nil : fnsIn [] = [] := rfl

theorem fns_getter {f : FieldD} (hf : f ∈ m.fields) (s : List Text) :
    fnsIn (getterItems o c m s f) = getterFns o c m (s ++ [className m]) f := by
  unfold getterItems getterFns
  rw [fnsIn_append]
  refine congrArg₂' (· ++ ·) ?_ ?_
  · split
    · rename_i hp
      rw [fnsIn_block (fn_getters ok hf s _ _ _ _).1, fnsIn_block (fn_getters ok hf s _ _ _ _).2.1, fnsIn_nil]
      simp only [ty_getter ok hf hp]
    · rfl
  · by_cases ht : f.type = .message
    · simp only [ht, isList]
      have e : (f.repeated && (FType.message == FType.message && !f.isMap && !isQtType c.package f && o.qml)) =
          (f.repeated && !f.isMap && (FType.message == FType.message) && !isQtType c.package f && o.qml) := by
        cases f.repeated <;> cases f.isMap <;> rfl
      rw [e]
      split
      · rw [fnsIn_block (fn_getters ok hf s _ _ _ _).2.2, fnsIn_nil, ty_full ok hf ht, (ty_scope ok hf).1]
      · rfl
    · simp [ht, fnsIn]

theorem fns_setter {f : FieldD} (hf : f ∈ m.fields) (s : List Text) :
    fnsIn (setterItems o c m s f) = setterFns o c m (s ++ [className m]) f := by
  have h := fun x K N U body => fn_setters ok hf s x K N U body
  unfold setterItems setterFns isPureMessage
  rw [setter_name]
  cases ht : f.type with
  | message =>
    simp only [beq_self_eq_true, Bool.true_or, if_true, Bool.true_and]
    split
    · rw [fnsIn_block (h _ _ _ _ _).1, fnsIn_block (h _ _ _ _ _).2, fnsIn_nil, ty_setter ok hf]
      simp
    · rw [fnsIn_block (h _ _ _ _ _).2, fnsIn_nil, ty_setter ok hf]
  | string =>
    rw [fnsIn_block (h _ _ _ _ _).2, fnsIn_nil, ty_setter ok hf]
    rfl
  | bytes =>
    rw [fnsIn_block (h _ _ _ _ _).2, fnsIn_nil, ty_setter ok hf]
    rfl
  | _ => rfl

theorem fns_class (s : List Text) : fnsIn (classItems o c m s) = classFns o c m (s ++ [className m]) := by
  unfold classItems classFns
  rw [fnsIn_append, fnsIn_append, fnsIn_append, fnsIn_append, fnsIn_append]
  refine congrArg₂' (· ++ ·) (congrArg₂' (· ++ ·) (congrArg₂' (· ++ ·) (congrArg₂' (· ++ ·) (congrArg₂' (· ++ ·) ?_ ?_) ?_) ?_) ?_) ?_
  · rw [fnsIn_statement, fnsIn_block (fn_dtor _ _ _), fnsIn_statement, fnsIn_noCall (fn_table _ _ _), fnsIn_block (fn_register _ _ _), fnsIn_nil]
  · generalize List.range (m.fields.length + 1) = L
    induction L with
    | nil => rfl
    | cons n L ih => rw [List.map_cons, fnsIn_block (fn_ctor ok s n []), ih]; rfl
  · unfold dateItems dateFns
    split
    · rename_i h
      have hK : className m = text! "Timestamp" := by
        simp only [isTimestamp, beq_iff_eq] at h
        simp only [className, h]
        rfl
      rw [fnsIn_block (fn_dates s _ Src.dateBody).1, fnsIn_block (fn_dates s [] _).2, fnsIn_nil, hK]
    · rfl
  · obtain ⟨h1, -⟩ := fn_copies (m := m) (c := c) s (className m) (copyBody c m)
    obtain ⟨-, h2, -⟩ := fn_copies (m := m) (c := c) s (className m) (assignBody c m)
    obtain ⟨-, -, h3, -⟩ := fn_copies (m := m) (c := c) s (className m) (moveBody c m)
    obtain ⟨-, -, -, h4, -⟩ := fn_copies (m := m) (c := c) s (className m) (moveAssignBody c m)
    obtain ⟨-, -, -, -, h5, -⟩ := fn_copies (m := m) (c := c) s (className m) (equalBody c m)
    obtain ⟨-, -, -, -, -, h6⟩ := fn_copies (m := m) (c := c) s (className m) Src.notEqualBody
    rw [fnsIn_block h1, fnsIn_block h2, fnsIn_block h3, fnsIn_block h4, fnsIn_block h5, fnsIn_block h6, fnsIn_nil]
    rfl
  · rw [fnsIn_flatMap]
    exact flatMap_congr' fun f hf => fns_getter ok hf s
  · rw [fnsIn_flatMap]
    exact flatMap_congr' fun f hf => fns_setter ok hf s

/-! ### What the functions of a class look like -/

theorem sigs_class {b : Printed × List FieldD} (hb : m = ⟨b.1.msg, b.2⟩) (hc : b.1.cpp.getLastD [] = className m) :
    (classFns o c m b.1.cpp).map Fn.sig = sigsOf o c b := by
  subst hb
  have nc : ∀ (r : List Lexeme) cls n ps (bh bd : List Lexeme), Fn.sig ⟨r, cls, n, ps, bh, bd⟩ = ⟨r, cls, n, ps, bh == [.word (text! "const")]⟩ :=
    fun _ _ _ _ _ _ => rfl
  unfold classFns sigsOf
  rw [hc]
  simp only [List.map_append, List.map_flatMap, List.map_map]
  refine congrArg₂' (· ++ ·) (congrArg₂' (· ++ ·) (congrArg₂' (· ++ ·) (congrArg₂' (· ++ ·) (congrArg₂' (· ++ ·) ?_ ?_) ?_) ?_) ?_) ?_
  · rfl
  · refine List.map_congr_left fun n _ => ?_
    simp only [Function.comp, ctorFn, nc, ctorSig, hc, ctorBehind]
    rfl
  · unfold dateFns dateSigs isTimestamp
    by_cases h : b.1.msg = [text! "google", text! "protobuf", text! "Timestamp"]
    · simp [h, nc]
    · simp [h]
  · simp only [commonFns, commonSigs, hc, List.map_cons, List.map_nil, nc]
    rfl
  · refine flatMap_congr' fun f _ => ?_
    unfold getterFns getterSigs
    simp only [List.map_append]
    refine congrArg₂' (· ++ ·) ?_ ?_ <;> (split <;> rfl)
  · refine flatMap_congr' fun f _ => ?_
    unfold setterFns setterSigs
    simp only
    split
    · split <;> rfl
    · rfl

/-! ### Initialisers -/

/-- Lexemes that can stand in brackets. -/
def Inner (v : List Lexeme) : Prop := ∀ acc r n, partsFrom (n + 1) acc (v ++ r) = partsFrom (n + 1) (acc ++ v) r

omit ok in
theorem inner_flat {v : List Lexeme} (h : Flat v) : Inner v := fun acc r n => partsFrom_flat h r acc (n + 1)

def shown (p : Text × List Lexeme) : List Lexeme := .word p.1 :: .punct '(' :: (p.2 ++ [.punct ')'])

omit ok in
theorem initOf_shown (p : Text × List Lexeme) : initOf (shown p) = some p := by simp [initOf, shown]

omit ok in
theorem funext_shown : initOf ∘ shown = some := funext initOf_shown

omit ok in
theorem partsFrom_word (n : Nat) (acc : List Lexeme) (w : Text) (r : List Lexeme) :
    partsFrom n acc (.word w :: r) = partsFrom n (acc ++ [.word w]) r := by simp [partsFrom]

omit ok in
theorem partsFrom_open (n : Nat) (acc r : List Lexeme) : partsFrom n acc (.punct '(' :: r) = partsFrom (n + 1) (acc ++ [.punct '(']) r := by
  simp [partsFrom]

omit ok in
theorem partsFrom_close (n : Nat) (acc r : List Lexeme) : partsFrom n acc (.punct ')' :: r) = partsFrom (n - 1) (acc ++ [.punct ')']) r := by
  simp [partsFrom]

omit ok in
theorem partsFrom_comma (acc r : List Lexeme) : partsFrom 0 acc (.punct ',' :: r) = acc :: partsFrom 0 [] r := by
  simp [partsFrom]

omit ok in
theorem parts_shown : ∀ (ps : List (Text × List Lexeme)), (∀ p ∈ ps, Inner p.2) → ∀ acc, acc ≠ [] →
    partsFrom 0 acc (ps.flatMap fun p => .punct ',' :: shown p) = acc :: ps.map shown
  | [], _, acc, h => by simp [partsFrom, h]
  | p :: ps, hi, acc, h => by
    have ih := parts_shown ps (fun q hq => hi q (by simp [hq])) (shown p) (by simp [shown])
    have h1 := hi p (by simp)
    rw [List.flatMap_cons, List.cons_append, partsFrom_comma]
    have e : shown p ++ ps.flatMap (fun p => .punct ',' :: shown p) =
        .word p.1 :: .punct '(' :: (p.2 ++ .punct ')' :: ps.flatMap fun p => .punct ',' :: shown p) := by simp [shown]
    rw [e, partsFrom_word, partsFrom_open, h1, partsFrom_close]
    have e2 : [] ++ [Lexeme.word p.1] ++ [.punct '('] ++ p.2 ++ [.punct ')'] = shown p := by simp [shown]
    rw [e2, Nat.zero_add, Nat.sub_self, ih]
    rfl

theorem inner_initial {f : FieldD} (hf : f ∈ m.fields) (given : Bool) {v : List Lexeme} (h : initial o c m.path given f = some v) : Inner v := by
  have hT := flat_valueType ok hf false
  have fw : ∀ w : Text, Flat [.word w] := fun w => by simp [Flat]
  unfold initial at h
  simp only at h
  split at h
  · cases given with
    | true =>
      simp only [if_true, Option.some.injEq] at h
      subst h
      intro acc r n
      simp only [List.cons_append, List.append_assoc, partsFrom]
      simp only [reduceCtorEq, if_false, false_and]
      rw [partsFrom_flat hT]
      simp [partsFrom]
    | false =>
      simp only [Bool.false_eq_true, if_false, Option.some.injEq] at h
      subst h
      exact inner_flat (fw _)
  · split at h
    · cases h; exact inner_flat (fw _)
    · split at h
      · cases h
      · split at h <;> first
          | (cases h; done)
          | (cases h
             refine inner_flat (flat_append hT ?_)
             simp [Flat])
          | (cases h; exact inner_flat (by simp [Flat]))

theorem flatMap_init (given : Bool) : ∀ (l : List FieldD), (∀ f ∈ l, f ∈ m.fields) →
    l.flatMap (init o c m given) = (initials o c m.path given l).flatMap fun p => .punct ',' :: shown p
  | [], _ => rfl
  | f :: l, h => by
    have ih := flatMap_init given l (fun g hg => h g (by simp [hg]))
    rw [List.flatMap_cons, ih, init_eq ok (h f (by simp))]
    unfold initials
    rw [List.filterMap_cons]
    cases initial o c m.path given f with
    | none => simp
    | some v => simp [init1, shown, FieldD.member, kM]

theorem inner_initials (given : Bool) {l : List FieldD} (hl : ∀ f ∈ l, f ∈ m.fields) : ∀ p ∈ initials o c m.path given l, Inner p.2 := by
  intro p hp
  simp only [initials, List.mem_filterMap, Option.map_eq_some_iff] at hp
  obtain ⟨f, hf, v, hv, rfl⟩ := hp
  exact inner_initial ok (hl f hf) given hv

theorem inits_ctor (cls : List Text) (n : Nat) : (ctorFn o c m cls n).inits =
    ((text! "QObject", cpp! "parent") :: (initials o c m.path true (m.fields.take n) ++ initials o c m.path false (m.fields.drop n))).map some := by
  have h1 : ∀ f ∈ m.fields.take n, f ∈ m.fields := fun f hf => List.mem_of_mem_take hf
  have h2 : ∀ f ∈ m.fields.drop n, f ∈ m.fields := fun f hf => List.mem_of_mem_drop hf
  have e : ctorBehind o c m n = .punct ':' :: (cpp! "QObject(parent)" ++
      (initials o c m.path true (m.fields.take n) ++ initials o c m.path false (m.fields.drop n)).flatMap fun p => .punct ',' :: shown p) := by
    simp only [ctorBehind, flatMap_init ok true _ h1, flatMap_init ok false _ h2, List.flatMap_append]
    rfl
  have hp := parts_shown (initials o c m.path true (m.fields.take n) ++ initials o c m.path false (m.fields.drop n))
    (fun p hp => (List.mem_append.1 hp).elim (inner_initials ok true h1 p) (inner_initials ok false h2 p)) (cpp! "QObject(parent)") (by simp)
  have hq : ∀ r, parts (cpp! "QObject(parent)" ++ r) = partsFrom 0 (cpp! "QObject(parent)") r := by
    intro r
    simp [parts, partsFrom]
  unfold Fn.inits ctorFn
  simp only [e]
  rw [hq, hp]
  have e0 : initOf (cpp! "QObject(parent)") = some (text! "QObject", cpp! "parent") := rfl
  simp only [List.map_cons, List.map_map, e0, funext_shown]

omit ok in
theorem inits_nulls (r : List Lexeme) (cls : List Text) (nm : List Lexeme) (ps : List (List Lexeme × Text)) (body : List Lexeme) :
    Fn.inits ⟨r, cls, nm, ps, cpp! ": QObject()" ++ nulls c m, body⟩ =
      ((text! "QObject", []) :: (m.fields.filter (isPureMessage c.package)).map fun f => (f.member, cpp! "nullptr")).map some := by
  have e : nulls c m = ((m.fields.filter (isPureMessage c.package)).map fun f => (f.member, cpp! "nullptr")).flatMap fun p => .punct ',' :: shown p := by
    unfold nulls
    induction m.fields with
    | nil => rfl
    | cons f l ih =>
      rw [List.flatMap_cons, ih, List.filter_cons]
      by_cases h : isPureMessage c.package f = true
      · simp [h, Src.initNull, shown, FieldD.member, kM]
      · simp [h]
  have hp := parts_shown ((m.fields.filter (isPureMessage c.package)).map fun f => (f.member, cpp! "nullptr"))
    (fun p hp => by
      obtain ⟨f, -, rfl⟩ := List.mem_map.1 hp
      exact inner_flat (by simp [Flat])) (cpp! "QObject()") (by simp)
  have hq : ∀ r, parts (cpp! "QObject()" ++ r) = partsFrom 0 (cpp! "QObject()") r := by
    intro r
    simp [parts, partsFrom]
  have e1 : cpp! ": QObject()" ++ nulls c m = .punct ':' :: (cpp! "QObject()" ++ nulls c m) := rfl
  unfold Fn.inits
  simp only [e1]
  rw [hq, e, hp]
  have e0 : initOf (cpp! "QObject()") = some (text! "QObject", []) := rfl
  simp only [List.map_cons, e0]
  rw [List.map_map (f := shown), funext_shown]

theorem ctors_class {b : Printed × List FieldD} (hb : m = ⟨b.1.msg, b.2⟩) (hc : b.1.cpp.getLastD [] = className m) :
    ((classFns o c m b.1.cpp).filter Fn.isCtor).map (fun f => (f.cls, f.inits)) = ctorsOf o c b := by
  have hin := fun n => inits_ctor ok b.1.cpp n
  subst hb
  have ht : b.1.msg = [text! "google", text! "protobuf", text! "Timestamp"] → b.1.cpp.getLastD [] = text! "Timestamp" := by
    intro h; rw [hc]; simp only [className, h]; rfl
  have yes : ∀ ps bh bd, Fn.isCtor ⟨[], b.1.cpp, [.word (className ⟨b.1.msg, b.2⟩)], ps, bh, bd⟩ = true := by
    intro ps bh bd; simp only [Fn.isCtor, hc]; simp
  have no : ∀ r n ps bh bd, (r ≠ [] ∨ (∀ w, n ≠ [.word w])) → Fn.isCtor ⟨r, b.1.cpp, n, ps, bh, bd⟩ = false := by
    intro r n ps bh bd h
    simp only [Fn.isCtor, Bool.and_eq_false_iff, beq_eq_false_iff_ne]
    rcases h with h | h
    · exact Or.inl h
    · exact Or.inr (h _)
  unfold classFns ctorsOf
  simp only [List.filter_append, List.map_append]
  have g1 : ∀ f, (getterFns o c ⟨b.1.msg, b.2⟩ b.1.cpp f).filter Fn.isCtor = [] := by
    intro f
    unfold getterFns
    simp only [List.filter_append]
    have n1 := fun n ps bh bd => no (valueType o c b.1.msg f false ++ [.punct '*']) n ps bh bd (Or.inl (by simp))
    have n2 := fun n ps bh bd => no (valueType o c b.1.msg f false ++ [.punct '&']) n ps bh bd (Or.inl (by simp))
    have n3 := fun n ps bh bd => no (.word (text! "QQmlListProperty") :: .punct '<' :: (messageType o c f ++ [.punct '>'])) n ps bh bd (Or.inl (by simp))
    split <;> split <;> simp [n1, n2, n3]
  have g2 : ∀ f, (setterFns o c ⟨b.1.msg, b.2⟩ b.1.cpp f).filter Fn.isCtor = [] := by
    intro f
    unfold setterFns
    have n1 := fun n ps bh bd => no [.word (text! "void")] n ps bh bd (Or.inl (by simp))
    simp only
    split
    · split <;> simp [n1]
    · rfl
  have fm : ∀ (F : FieldD → List Fn), (∀ f, (F f).filter Fn.isCtor = []) → ∀ l : List FieldD, (l.flatMap F).filter Fn.isCtor = [] := by
    intro F h l
    induction l with
    | nil => rfl
    | cons f l ih => rw [List.flatMap_cons, List.filter_append, h, ih]; rfl
  rw [fm _ g1, fm _ g2]
  have r1 : ((List.range (b.2.length + 1)).map (ctorFn o c ⟨b.1.msg, b.2⟩ b.1.cpp)).filter Fn.isCtor =
      (List.range (b.2.length + 1)).map (ctorFn o c ⟨b.1.msg, b.2⟩ b.1.cpp) := by
    rw [List.filter_eq_self]
    intro f hf
    obtain ⟨n, -, rfl⟩ := List.mem_map.1 hf
    exact yes _ _ _
  rw [r1]
  have a0 := fun n => no [] (.punct '~' :: n)
  simp only [List.map_nil, List.append_nil, List.map_map]
  refine congrArg₂' (· ++ ·) (congrArg₂' (· ++ ·) ?_ ?_) ?_
  · have n1 := fun bd => no [] [.punct '~', .word (className ⟨b.1.msg, b.2⟩)] [] [] bd (Or.inr (by simp))
    have n2 := fun n bd => no [.word (text! "void")] n [] [] bd (Or.inl (by simp))
    simp only [List.filter_cons, n1, n2, Bool.false_eq_true, if_false, List.filter_nil, List.map_nil, List.nil_append]
    refine List.map_congr_left fun n _ => ?_
    simp only [Function.comp, hin]
    rfl
  · unfold dateFns isTimestamp
    by_cases h : b.1.msg = [text! "google", text! "protobuf", text! "Timestamp"]
    · have hK : className ⟨b.1.msg, b.2⟩ = text! "Timestamp" := by rw [← hc]; exact ht h
      have y1 := fun ps bh bd => yes ps bh bd
      rw [hK] at y1
      have n1 := fun bh bd => no [] [.word (text! "operator"), .word (text! "QDateTime")] [] bh bd (Or.inr (by simp))
      simp only [h, beq_self_eq_true, if_true, List.filter_cons, y1, n1, Bool.false_eq_true, if_false, List.filter_nil, List.map_cons, List.map_nil]
      rfl
    · simp [h]
  · unfold commonFns
    have n1 := fun r n ps bh bd => no (.word (className ⟨b.1.msg, b.2⟩) :: r) n ps bh bd (Or.inl (by simp))
    have n2 := fun r n ps bh bd => no (.word (text! "bool") :: r) n ps bh bd (Or.inl (by simp))
    simp only [List.filter_cons, yes, n1, n2, Bool.false_eq_true, if_false, if_true, List.filter_nil, List.map_cons, List.map_nil, inits_nulls]

/-! ### Tables and statements -/

omit ok in
theorem isCall_fn {s : List Text} {head body : List Lexeme} {f : Fn} (h : fnOf s head body = some f) : isCall head = true := by
  unfold fnOf at h
  by_cases hc : isCall head = true
  · exact hc
  · have : head.dropWhile (· ≠ .punct '(') = [] := (takeWhile_all (by
      intro x hx
      have : x ≠ .punct '(' := by
        rintro rfl
        exact hc (by simpa [isCall] using hx)
      simpa using this)).2
    rw [this] at h
    split at h
    · rename_i h2; simp [closing] at h2
    · cases h

def kOrdering : Text := text! "propertyOrdering"

omit ok in
theorem tables_append (n : Text) (a b : List Item) : tablesIn n (a ++ b) = tablesIn n a ++ tablesIn n b := by simp [tablesIn]

omit ok in
theorem tables_fn {n s : _} {head body : List Lexeme} {f : Fn} (h : fnOf s head body = some f) (is : List Item) :
    tablesIn n (.block s head body :: is) = tablesIn n is := by simp [tablesIn, isCall_fn h]

omit ok in
theorem tables_statement (n : Text) (s : List Text) (ls : List Lexeme) (is : List Item) : tablesIn n (.statement s ls :: is) = tablesIn n is := by
  simp [tablesIn]

omit ok in
theorem tables_nil (n : Text) : tablesIn n [] = [] := rfl

omit ok in
theorem tables_flatMap {α : Type} (n : Text) (l : List α) (f : α → List Item) (h : ∀ x ∈ l, tablesIn n (f x) = []) : tablesIn n (l.flatMap f) = [] := by
  induction l with
  | nil => rfl
  | cons x l ih => rw [List.flatMap_cons, tables_append, h x (by simp), ih (fun y hy => h y (by simp [hy]))]; rfl

omit ok in
theorem statements_append (a b : List Item) : statementsIn (a ++ b) = statementsIn a ++ statementsIn b := by simp [statementsIn]

omit ok in
theorem statements_flatMap {α : Type} (l : List α) (f : α → List Item) : statementsIn (l.flatMap f) = l.flatMap fun x => statementsIn (f x) := by
  induction l with
  | nil => rfl
  | cons x l ih => simp [statements_append, ih]

omit ok in
theorem entries_table : ∀ (l : List FieldD) (i : Nat),
    (entries (l.zipIdx i |>.flatMap fun p => (if p.2 = i then [] else [.punct ',']) ++
      Src.entry (toString p.1.number).toList (toString (p.2 + 1)).toList p.1.json) =
    some (l.zipIdx i |>.map fun p => ((toString p.1.number).toList, (toString (p.2 + 1)).toList, p.1.json)))
  | [], i => by simp [entries]
  | [f], i => by simp [Src.entry, entries]
  | f :: g :: l, i => by
    have ih := entries_table (g :: l) (i + 1)
    have e : ∀ (L : List FieldD), ((L.zipIdx (i + 1 + 1)).flatMap fun p => (if p.2 = i then ([] : List Lexeme) else [.punct ',']) ++
        Src.entry (toString p.1.number).toList (toString (p.2 + 1)).toList p.1.json) =
        (L.zipIdx (i + 1 + 1)).flatMap fun p => (if p.2 = i + 1 then [] else [.punct ',']) ++
        Src.entry (toString p.1.number).toList (toString (p.2 + 1)).toList p.1.json := by
      intro L
      refine flatMap_congr' fun p hp => ?_
      have := (List.mem_zipIdx hp).1
      rw [if_neg (by omega), if_neg (by omega)]
    simp only [List.zipIdx_cons, List.flatMap_cons, if_true, List.nil_append] at ih ⊢
    rw [e l]
    generalize ((l.zipIdx (i + 1 + 1)).flatMap fun p => (if p.2 = i + 1 then ([] : List Lexeme) else [.punct ',']) ++
        Src.entry (toString p.1.number).toList (toString (p.2 + 1)).toList p.1.json) = R at ih ⊢
    rw [if_neg (by omega)]
    simp only [Src.entry, List.cons_append, List.nil_append, List.map_cons] at ih ⊢
    rw [entries, ih]
    rfl

omit ok in
theorem tableBody_eq : ∀ (l : List FieldD) (i : Nat), Src.tableBody i l = (l.zipIdx i).flatMap fun p =>
    (if p.2 = 0 then [] else [.punct ',']) ++ Src.entry (toString p.1.number).toList (toString (p.2 + 1)).toList p.1.json
  | [], i => rfl
  | f :: l, i => by rw [Src.tableBody, tableBody_eq l (i + 1), List.zipIdx_cons, List.flatMap_cons]

theorem tables_class (s : List Text) : tablesIn kOrdering (classItems o c m s) = [(s ++ [className m], some (orderingOf m.fields))] := by
  have hg : ∀ f ∈ m.fields, tablesIn kOrdering (getterItems o c m s f) = [] := by
    intro f hf
    have h := fun x K N body => fn_getters ok hf s x K N body
    unfold getterItems
    rw [tables_append]
    split <;> split <;> simp only [tables_fn (h _ _ _ _).1, tables_fn (h _ _ _ _).2.1, tables_fn (h _ _ _ _).2.2, tables_nil, List.append_nil]
  have hs : ∀ f ∈ m.fields, tablesIn kOrdering (setterItems o c m s f) = [] := by
    intro f hf
    have h := fun x K N U body => fn_setters ok hf s x K N U body
    unfold setterItems
    split
    · split <;> simp only [tables_fn (h _ _ _ _ _).1, tables_fn (h _ _ _ _ _).2, tables_nil]
    · simp only [tables_fn (h _ _ _ _ _).2, tables_nil]
    · simp only [tables_fn (h _ _ _ _ _).2, tables_nil]
    · rfl
  have hd : tablesIn kOrdering (dateItems m s) = [] := by
    unfold dateItems
    split
    · rw [tables_fn (fn_dates s [] Src.dateBody).1, tables_fn (fn_dates s [] Src.dateBody).2, tables_nil]
    · rfl
  have hc : tablesIn kOrdering ((List.range (m.fields.length + 1)).map (fun n => Item.block s (ctorHead o c m n) [])) = [] := by
    generalize List.range (m.fields.length + 1) = L
    induction L with
    | nil => rfl
    | cons n L ih => rw [List.map_cons, tables_fn (fn_ctor ok s n []), ih]
  unfold classItems
  rw [tables_append, tables_append, tables_append, tables_append, tables_append, tables_flatMap _ _ _ hg, tables_flatMap _ _ _ hs, hd, hc]
  have h := fun body => fn_copies (m := m) (c := c) s (className m) body
  have hh : tablesIn kOrdering [.block s (Src.tableHead (className m)) (Src.tableBody 0 m.fields)] = [(s ++ [className m], some (orderingOf m.fields))] := by
    have e1 : isCall (Src.tableHead (className m)) = false := by simp [isCall, Src.tableHead]
    have e2 : SpecCpp.qualifiedName (Src.tableHead (className m)) = some (className m, [.word kOrdering, .punct '=']) := by
      simp [SpecCpp.qualifiedName, Src.tableHead, kOrdering]
    have e3 : entries (Src.tableBody 0 m.fields) = some (orderingOf m.fields) := by
      rw [tableBody_eq]; exact entries_table m.fields 0
    simp [tablesIn, e1, e2, e3]
  rw [tables_fn (h _).1, tables_fn (h _).2.1, tables_fn (h _).2.2.1, tables_fn (h _).2.2.2.1, tables_fn (h _).2.2.2.2.1, tables_fn (h _).2.2.2.2.2,
    tables_statement, tables_fn (fn_dtor _ _ _), tables_statement]
  have e : ∀ (x : Item) (l : List Item), x :: l = [x] ++ l := fun _ _ => rfl
  rw [e (.block s (Src.tableHead (className m)) _), tables_append, hh, tables_fn (fn_register _ _ _), tables_nil]
  rfl

omit ok in
theorem statements_class (s : List Text) : statementsIn (classItems o c m s) =
    [(s, Src.registrar (className m)), (s, Src.metaObject (className m))] := by
  have hg : ∀ f, statementsIn (getterItems o c m s f) = [] := by
    intro f; unfold getterItems; split <;> split <;> rfl
  have hs : ∀ f, statementsIn (setterItems o c m s f) = [] := by
    intro f; unfold setterItems; (repeat' split) <;> rfl
  have hd : statementsIn (dateItems m s) = [] := by unfold dateItems; split <;> rfl
  have hc : statementsIn ((List.range (m.fields.length + 1)).map (fun n => Item.block s (ctorHead o c m n) [])) = [] := by
    generalize List.range (m.fields.length + 1) = L
    induction L with
    | nil => rfl
    | cons n L ih => simpa [statementsIn] using ih
  unfold classItems
  rw [statements_append, statements_append, statements_append, statements_append, statements_append, hd, hc, statements_flatMap, statements_flatMap]
  rw [flatMap_nil' (fun f _ => hg f), flatMap_nil' (fun f _ => hs f)]
  rfl

/-! ### Registration -/

omit ok in
theorem cutFrom_inlines : ∀ {a : List Lexeme}, Inlines a → ∀ (r acc : List Lexeme), cutFrom acc (a ++ r) = cutFrom (acc ++ a) r
  | [], _, r, acc => by simp
  | x :: a, h, r, acc => by
    have hx : x ≠ .punct ';' := by
      have := h x (by simp)
      cases x <;> simp_all [Inline]
    have ih := cutFrom_inlines (a := a) (fun y hy => h y (by simp [hy])) r (acc ++ [x])
    rw [List.cons_append, cutFrom, if_neg hx, ih]
    simp

/-- Statements with semicolons. -/
def ended (l : List (List Lexeme)) : List Lexeme := l.flatMap (· ++ [.punct ';'])

omit ok in
theorem cut_ended : ∀ (l : List (List Lexeme)), (∀ x ∈ l, Inlines x) → SpecCpp.cut (ended l) = l
  | [], _ => rfl
  | x :: l, h => by
    have ih := cut_ended l (fun y hy => h y (by simp [hy]))
    unfold SpecCpp.cut ended at ih ⊢
    rw [List.flatMap_cons, List.append_assoc, cutFrom_inlines (h x (by simp)), List.cons_append, cutFrom, if_pos rfl]
    simp only [List.nil_append]
    rw [ih]

/-- A call with types. -/
def typed (f : Text) (types args : List Lexeme) : List Lexeme := .word f :: .punct '<' :: (types ++ .punct '>' :: .punct '(' :: (args ++ [.punct ')']))

omit ok in
theorem typedCall_eq {f : Text} {types args : List Lexeme} (h : ∀ x ∈ types, x ≠ .punct '(') :
    typedCall (typed f types args) = some (f, types, args.filterMap fun | .str s => some s | _ => none) := by
  have e : types ++ .punct '>' :: .punct '(' :: (args ++ [.punct ')']) = (types ++ [.punct '>']) ++ .punct '(' :: (args ++ [.punct ')']) := by simp
  have hw := takeWhile_app (p := fun x => decide (x ≠ .punct '(')) (a := types ++ [.punct '>']) (y := .punct '(') (by
    intro x hx
    rcases List.mem_append.1 hx with hx | hx
    · simpa using h x hx
    · simp at hx; subst hx; simp) (by simp) (args ++ [.punct ')'])
  unfold typed typedCall
  simp only
  rw [e, hw.1, hw.2]
  simp
  rfl

omit ok in
theorem joined_intercalate (sep : Str) : ∀ l : List Str, Spec.joined sep l = sep.intercalate l
  | [] => rfl
  | [a] => by simp [Spec.joined, List.intercalate]
  | a :: b :: l => by
    rw [joined_cons (by simp), joined_intercalate sep (b :: l)]
    simp [List.intercalate]

omit ok in
theorem written_qualify {ns : List Str} {n : Str} (h : ∀ s ∈ ns, Name s) : qualify (getNamespacesString kScope ns) n = written (ns ++ [n]) := by
  rw [getNamespacesString_eq, qualify_eq (fun s hs => id_ident (name_id (h s hs))), joined_intercalate]
  rfl

omit ok in
theorem message_text {p : Path} (hx : ExtraOk o) (hp : Good' p) (scope : Option Path) :
    (messageVars o c p scope).val (text! "full_type") = written (typeName o p []) ∧
    (messageVars o c p scope).val (text! "full_list_type") = written (typeName o p kRepeated) := by
  have e1 : (messageVars o c p scope).val (text! "full_type") =
      qualify (getNamespacesString kScope ((if o.extra = [] then [] else [o.extra]) ++ getNamespaces (some (typeD c p))))
        (upperCaseName (p.getLastD [])) := rfl
  have e2 : (messageVars o c p scope).val (text! "full_list_type") =
      qualify (getNamespacesString kScope ((if o.extra = [] then [] else [o.extra]) ++ getNamespaces (some (typeD c p))))
        (upperCaseName (p.getLastD []) ++ kRepeated) := rfl
  rw [e1, e2, good_namespaces c hp.2]
  show qualify (getNamespacesString kScope (extraNs o ++ _)) _ = _ ∧ qualify (getNamespacesString kScope (extraNs o ++ _)) _ = _
  exact ⟨by rw [written_qualify (outer_name hx hp)]; simp [typeName, extraNs], by rw [written_qualify (outer_name hx hp)]; simp [typeName, extraNs]⟩

theorem local_text {f : FieldD} (hf : f ∈ m.fields) (ht : f.type = .enum) (hv : c.visibility m.path (f.enumType.getD []) = .local) :
    (pv o c m f).val (text! "full_type") = written (typeName o (f.enumType.getD []) []) ∧
    (pv o c m f).val (text! "full_list_type") = written (typeName o (f.enumType.getD []) kRepeated) ∧
    (pv o c m f).val (text! "type") = upperCaseName ((f.enumType.getD []).getLastD []) := by
  have hq : Good' (f.enumType.getD []) := (ok.fields f hf).enum ht
  have et : (pv o c m f).val (text! "type") = (typeVars o c m.path f).val (text! "type") := by
    unfold pv propertyVars
    (repeat' split) <;> rfl
  rw [pv_full f _ (by simp), pv_full f _ (by simp), et]
  unfold typeVars
  simp only [ht, hv]
  have e1 : (enumVars o c (f.enumType.getD []) (some m.path) .local).val (text! "full_type") =
      qualify (getNamespacesString kScope ((if o.extra = [] then [] else [o.extra]) ++ getNamespaces (some (typeD c (f.enumType.getD []))) ++ []))
        (upperCaseName ((f.enumType.getD []).getLastD [])) := rfl
  have e2 : (enumVars o c (f.enumType.getD []) (some m.path) .local).val (text! "full_list_type") =
      qualify (getNamespacesString kScope ((if o.extra = [] then [] else [o.extra]) ++ getNamespaces (some (typeD c (f.enumType.getD []))) ++ []))
        (upperCaseName ((f.enumType.getD []).getLastD []) ++ kRepeated) := rfl
  rw [e1, e2, good_namespaces c hq.2, List.append_nil]
  have hn := outer_name (extraOk ok.file) hq
  show qualify (getNamespacesString kScope (extraNs o ++ _)) _ = _ ∧ qualify (getNamespacesString kScope (extraNs o ++ _)) _ = _ ∧ _
  exact ⟨by rw [written_qualify hn]; simp [typeName, extraNs], by rw [written_qualify hn]; simp [typeName, extraNs], rfl⟩

theorem map_text {f : FieldD} (hf : f ∈ m.fields) (hmap : f.isMap = true) :
    ((pv o c m f).val (text! "full_type"), (pv o c m f).val (text! "full_list_type")) =
      (if isQtType c.package f then ((f.msgType.getD []).getLastD [], text! "QList<Repeated>")
       else (written (typeName o (f.msgType.getD []) []), written (typeName o (f.msgType.getD []) kRepeated))) := by
  have ht := (ok.fields f hf).map hmap
  have hq : Good' (f.msgType.getD []) := (ok.fields f hf).message ht
  rw [pv_full f _ (by simp), pv_full f _ (by simp)]
  unfold typeVars
  simp only [ht]
  split
  · rfl
  · obtain ⟨h1, h2⟩ := message_text (c := c) (extraOk ok.file) hq (some m.path)
    rw [h1, h2]

theorem map_types {f : FieldD} (hmap : f.isMap = true) :
    ty o c m f (text! "key_type") = valueType o c m.path (c.entry (f.msgType.getD [])).1 false ∧
    ty o c m f (text! "value_type") = valueType o c m.path (c.entry (f.msgType.getD [])).2 false := by
  have e1 : (pv o c m f).val (text! "key_type") = (typeVars o c m.path (c.entry (f.msgType.getD [])).1).val (text! "scope_type") := by
    unfold pv propertyVars; rw [if_pos hmap]; rfl
  have e2 : (pv o c m f).val (text! "value_type") = (typeVars o c m.path (c.entry (f.msgType.getD [])).2).val (text! "scope_type") := by
    unfold pv propertyVars; rw [if_pos hmap]; rfl
  unfold ty
  rw [e1, e2]
  refine ⟨?_, (scope_value (ok.file.values _)).1⟩
  have hk := ok.file.keys (f.msgType.getD [])
  have h1 : (c.entry (f.msgType.getD [])).1.type ≠ .message := by intro e; rw [e] at hk; revert hk; decide
  have h2 : (c.entry (f.msgType.getD [])).1.type ≠ .enum := by intro e; rw [e] at hk; revert hk; decide
  have h3 : (c.entry (f.msgType.getD [])).1.type ≠ .group := by intro e; rw [e] at hk; revert hk; decide
  rw [typeVars_scalar h1 h2, (scope_scalar _ h1 h2 h3).1]
  unfold valueType
  cases ht : (c.entry (f.msgType.getD [])).1.type <;> first | rfl | exact absurd ht h1 | exact absurd ht h2 | exact absurd ht h3

/-- The statements that register what a field needs. -/
def fieldCalls (o : Options) (c : Ctx) (m : Cur) (f : FieldD) : List (List Lexeme) :=
  if f.type == .enum && c.visibility m.path (f.enumType.getD []) == .local then
    [typed (text! "qRegisterProtobufEnumType") (ty o c m f (text! "scope_type")) [],
     typed (text! "qRegisterMetaType") (ty o c m f (text! "scope_type")) [.str ((pv o c m f).val (text! "type"))],
     typed (text! "qRegisterMetaType") (ty o c m f (text! "scope_type")) [.str ((pv o c m f).val (text! "full_type"))],
     typed (text! "qRegisterMetaType") (ty o c m f (text! "scope_list_type")) [.str ((pv o c m f).val (text! "full_list_type"))]]
  else if f.isMap then
    [typed (text! "qRegisterMetaType") (ty o c m f (text! "scope_type")) [.str ((pv o c m f).val (text! "full_type"))],
     typed (text! "qRegisterMetaType") (ty o c m f (text! "scope_type")) [.str ((pv o c m f).val (text! "full_list_type"))],
     typed (text! "qRegisterProtobufMapType") (ty o c m f (text! "key_type") ++ [.punct ','] ++ ty o c m f (text! "value_type")) []]
  else []

def ownCalls (o : Options) (c : Ctx) (m : Cur) : List (List Lexeme) :=
  let K := className m
  let full := (own o c m).val (text! "full_type")
  let F := ownTy o c m (text! "full_type")
  [typed (text! "qRegisterMetaType") (cpp! "$K$") [.str full], typed (text! "qRegisterMetaType") (cpp! "$K$*") [.str (full ++ text! "*")],
   typed (text! "qRegisterMetaType") (cpp! "$K$Repeated") [.str ((own o c m).val (text! "full_list_type"))]] ++
  (if o.qml then
    [typed (text! "qRegisterMetaType") (cpp! "QQmlListProperty<@F@>") [.str (text! "QQmlListProperty<" ++ full ++ text! ">")],
     typed (text! "qmlRegisterType") (ownTy o c m (text! "scope_type"))
      (let package := (own o c m).val (text! "qml_package"); cpp! "\"$package$\", 1, 0, \"$K$\"")] else [])

omit ok in
theorem ended_append (a b : List (List Lexeme)) : ended (a ++ b) = ended a ++ ended b := by simp [ended]

omit ok in
theorem ended_flatMap {α : Type} (l : List α) (f : α → List (List Lexeme)) : ended (l.flatMap f) = l.flatMap fun x => ended (f x) := by
  induction l with
  | nil => rfl
  | cons x l ih => simp [ended_append, ih]

omit ok in
theorem register_ended : registerBody o c m = ended (ownCalls o c m ++ m.fields.flatMap (fieldCalls o c m)) := by
  unfold registerBody ownCalls
  rw [ended_append, ended_append, ended_flatMap]
  refine congrArg₂' (· ++ ·) (congrArg₂' (· ++ ·) ?_ ?_) (flatMap_congr' fun f _ => ?_)
  · simp [Src.registerOwn, ended, typed]
  · split
    · simp [Src.registerQml, ended, typed]
    · rfl
  · unfold fieldCalls
    split
    · simp [Src.registerEnum, ended, typed]
    · split
      · simp [Src.registerMap, ended, typed]
      · rfl

omit ok in
theorem inlines_typed {f : Text} {types args : List Lexeme} (h1 : Inlines types) (h2 : Inlines args) : Inlines (typed f types args) := by
  simp [typed, inlines_word, inlines_punct, inlines_append, inlines_nil, h1, h2]

theorem calls_field {f : FieldD} (hf : f ∈ m.fields) : (∀ x ∈ fieldCalls o c m f, Inlines x) ∧
    (fieldCalls o c m f).map typedCall = (fieldRegistrations o c m.path f).map some := by
  have hi := inlines_ty ok hf
  have hp : ∀ x, ∀ y ∈ ty o c m f x, y ≠ .punct '(' := fun x y hy => (flat_ty ok hf x y hy).1
  have hcall := fun (w : Text) (x : Str) (args : List Lexeme) => typedCall_eq (f := w) (args := args) (hp x)
  obtain ⟨s1, s2⟩ := ty_scope ok hf
  unfold fieldCalls fieldRegistrations
  split
  · rename_i h
    simp only [Bool.and_eq_true, beq_iff_eq] at h
    obtain ⟨t1, t2, t3⟩ := local_text ok hf h.1 h.2
    refine ⟨?_, ?_⟩
    · intro x hx
      simp only [List.mem_cons, List.not_mem_nil, or_false] at hx
      rcases hx with rfl | rfl | rfl | rfl <;>
        exact inlines_typed (hi _) (by simp [inlines_str, inlines_nil])
    · simp only [List.map_cons, List.map_nil, hcall]
      rw [t1, t2, t3, s1, s2]
      rfl
  · split
    · rename_i hm
      obtain ⟨k1, k2⟩ := map_types ok hm
      have ht := map_text ok hf hm
      have t1 := congrArg Prod.fst ht
      have t2 := congrArg Prod.snd ht
      simp only at t1 t2
      have hkv : ∀ y ∈ ty o c m f (text! "key_type") ++ [.punct ','] ++ ty o c m f (text! "value_type"), y ≠ .punct '(' := by
        intro y hy
        simp only [List.mem_append, List.mem_cons, List.not_mem_nil, or_false] at hy
        rcases hy with (hy | rfl) | hy
        · exact hp _ y hy
        · simp
        · exact hp _ y hy
      refine ⟨?_, ?_⟩
      · intro x hx
        simp only [List.mem_cons, List.not_mem_nil, or_false] at hx
        rcases hx with rfl | rfl | rfl
        · exact inlines_typed (hi _) (by simp [inlines_str, inlines_nil])
        · exact inlines_typed (hi _) (by simp [inlines_str, inlines_nil])
        · exact inlines_typed (by simp [inlines_append, hi, inlines_punct, inlines_nil]) inlines_nil
      · simp only [List.map_cons, List.map_nil, hcall, typedCall_eq hkv]
        rw [t1, t2, s1, k1, k2]
        split <;> rfl
    · exact ⟨by simp, rfl⟩

theorem own_text : (own o c m).val (text! "full_type") = written (typeName o m.path []) ∧
    (own o c m).val (text! "full_list_type") = written (typeName o m.path kRepeated) ∧
    (own o c m).val (text! "qml_package") = qmlName o m.path ∧
    ownTy o c m (text! "scope_type") = lexemesOf (messageTypeMap o.extra (typeD c m.path) (c.nestedType m.path) none).scope_type ∧
    ownTy o c m (text! "full_type") = qualified (typeName o m.path []) := by
  obtain ⟨h1, h2⟩ := message_text (c := c) (extraOk ok.file) ok.path none
  refine ⟨h1, h2, ?_, ?_, (message_full (c := c) (extraOk ok.file) ok.path none).1⟩
  · have : (own o c m).val (text! "qml_package") = qmlPackage o.extra (typeD c m.path) := rfl
    rw [this, qmlPackage, gnsDot, good_namespaces c ok.path.2, joined_intercalate]
    rfl
  · rw [lexemesOf_eq]; rfl

theorem calls_class {b : Printed × List FieldD} (hb : m = ⟨b.1.msg, b.2⟩) (hc : b.1.cpp.getLastD [] = className m) :
    (SpecCpp.cut (registerBody o c m)).map typedCall = (registrations o c b).map some := by
  have hf := fun (f : FieldD) (h : f ∈ m.fields) => calls_field ok h
  obtain ⟨t1, t2, t3, t4, t5⟩ := own_text ok
  have ho : ∀ x, ∀ y ∈ ownTy o c m x, y ≠ .punct '(' := fun x y hy => (flat_value ((own_good ok).val x) y hy).1
  have hi := inlines_ownTy ok
  have hown : ∀ x ∈ ownCalls o c m, Inlines x := by
    intro x hx
    unfold ownCalls at hx
    rcases List.mem_append.1 hx with hx | hx
    · simp only [List.mem_cons, List.not_mem_nil, or_false] at hx
      rcases hx with rfl | rfl | rfl <;>
        exact inlines_typed (by simp [inlines_word, inlines_punct, inlines_nil]) (by simp [inlines_str, inlines_nil])
    · split at hx
      · simp only [List.mem_cons, List.not_mem_nil, or_false] at hx
        rcases hx with rfl | rfl
        · exact inlines_typed (by simp [inlines_word, inlines_punct, inlines_append, inlines_nil, hi]) (by simp [inlines_str, inlines_nil])
        · exact inlines_typed (hi _) (by simp [inlines_str, inlines_word, inlines_punct, inlines_nil])
      · simp at hx
  rw [register_ended, cut_ended _ (by
    intro x hx
    rcases List.mem_append.1 hx with hx | hx
    · exact hown x hx
    · obtain ⟨f, hm, hx⟩ := List.mem_flatMap.1 hx
      exact (hf f hm).1 x hx), List.map_append, List.map_flatMap, flatMap_congr' (fun f h => (hf f h).2)]
  unfold registrations ownCalls
  subst hb
  simp only [hc, List.map_append, List.map_flatMap]
  refine congrArg₂' (· ++ ·) (congrArg₂' (· ++ ·) ?_ ?_) rfl
  · have e := fun (w : Text) (types args : List Lexeme) h => typedCall_eq (f := w) (types := types) (args := args) h
    simp only [List.map_cons, List.map_nil]
    rw [e _ _ _ (by simp), e _ _ _ (by simp), e _ _ _ (by simp), t1, t2]
    rfl
  · split
    · have e := fun (w : Text) (types args : List Lexeme) h => typedCall_eq (f := w) (types := types) (args := args) h
      simp only [List.map_cons, List.map_nil]
      rw [e _ _ _ (by
        intro y hy
        simp only [List.mem_cons, List.mem_append, List.not_mem_nil, or_false] at hy
        rcases hy with rfl | rfl | hy | rfl
        · simp
        · simp
        · exact ho _ y hy
        · simp), e _ _ _ (ho _), t1, t3, t4, t5]
      rfl
    · rfl

end

end QtPb.TextProof
