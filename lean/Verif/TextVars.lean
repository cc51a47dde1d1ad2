import Verif.TextRead
import Verif.SpecText
import Verif.PropsGenNames
import Verif.PropsQml
/-
The variables that the generator passes to the Printer: for schemas as `SpecText` has them, all values are names, types and numbers.
(Helpers for the theorems about generated text.)
-/
namespace QtPb.TextProof
open QtPb.Gen QtPb.Gen.Text QtPb.Gen.Text.Spec QtPb.SpecCpp
open QtPb.Gen.Spec (joined Ident)

/-! ### Values -/

def harmlessB : Lexeme → Bool
  | .word w => !reserved.contains w
  | _ => true

def valueB (v : Text) : Bool := v.all okChar && (lexemes v).all harmlessB

theorem value_of_B {v : Text} (h : valueB v = true) : Value v := by
  simp only [valueB, Bool.and_eq_true, List.all_eq_true] at h
  refine ⟨h.1, fun w hw => ?_⟩
  have := h.2 _ hw
  simpa [harmlessB] using this

theorem value_nil : Value [] := value_of_B (by decide)

theorem Value.lex {v : Text} (h : Value v) (w : Text) : ∃ ls w', lexFrom (.code w) v = some (ls, .code w') := by
  obtain ⟨ls, w', e, -⟩ := lexFrom_ok v h.1 w
  exact ⟨ls, w', e⟩

/-- The lexemes on both sides of a mark. -/
theorem lexemes_mark {a b : Text} {c : Char} (ha : ∀ d ∈ a, okChar d = true) (hb : ∀ d ∈ b, okChar d = true)
    (hc : okChar c = true) (hw : isWord c = false) :
    lexemes (a ++ c :: b) = lexemes a ++ (if isBlank c then [] else [.punct c]) ++ lexemes b := by
  obtain ⟨la, wa, e1, -⟩ := lexFrom_ok a ha []
  obtain ⟨lb, wb, e2, -⟩ := lexFrom_ok b hb []
  have hm : mark c = some (if isBlank c then [] else [.punct c], .code []) := by
    obtain ⟨h1, h2, h3, h4, -⟩ := okChar_ne hc
    unfold mark
    simp only [h1, h2, h3, h4, if_false]
    split <;> rfl
  have : lexFrom (.code []) (a ++ c :: b) = some (la ++ (endWord wa ++ (if isBlank c then [] else [.punct c]) ++ lb), .code wb) := by
    rw [lexFrom_append_some e1]
    simp only [lexFrom, step, codeStep, hw, hm, Bool.false_eq_true, if_false, Option.map_some, e2]
  rw [lexFrom_lexemes this, lexFrom_lexemes e1, lexFrom_lexemes e2]
  simp [List.append_assoc]

theorem value_mark {a b : Text} {c : Char} (hc : okChar c = true) (hw : isWord c = false) : Value (a ++ c :: b) ↔ Value a ∧ Value b := by
  constructor
  · intro h
    have ha : ∀ d ∈ a, okChar d = true := fun d hd => h.1 d (by simp [hd])
    have hb : ∀ d ∈ b, okChar d = true := fun d hd => h.1 d (by simp [hd])
    have e := lexemes_mark ha hb hc hw
    exact ⟨⟨ha, fun w hw' => h.2 w (by rw [e]; simp [hw'])⟩, ⟨hb, fun w hw' => h.2 w (by rw [e]; simp [hw'])⟩⟩
  · rintro ⟨ha, hb⟩
    refine ⟨?_, fun w hw' => ?_⟩
    · intro d hd
      rcases List.mem_append.1 hd with hd | hd
      · exact ha.1 d hd
      · rcases List.mem_cons.1 hd with rfl | hd
        · exact hc
        · exact hb.1 d hd
    · rw [lexemes_mark ha.1 hb.1 hc hw] at hw'
      rcases List.mem_append.1 hw' with hw' | hw'
      · rcases List.mem_append.1 hw' with hw' | hw'
        · exact ha.2 w hw'
        · split at hw' <;> simp at hw'
      · exact hb.2 w hw'

theorem value_scope {a b : Text} : Value (a ++ kScope ++ b) ↔ Value a ∧ Value b := by
  have e : a ++ kScope ++ b = a ++ ':' :: (([] : Text) ++ ':' :: b) := by simp [kScope]
  rw [e, value_mark (by decide) (by decide), value_mark (by decide) (by decide)]
  simp [value_nil]

theorem value_joined {l : List Str} (h : ∀ s ∈ l, Value s) : Value (joined kScope l) := by
  induction l with
  | nil => exact value_nil
  | cons a l ih =>
    by_cases hl : l = []
    · subst hl; exact h a (by simp)
    · rw [joined_cons hl]
      exact value_scope.2 ⟨h a (by simp), ih (fun s hs => h s (by simp [hs]))⟩

theorem value_joined_dot {l : List Str} (h : ∀ s ∈ l, Value s) : Value (joined ['.'] l) := by
  induction l with
  | nil => exact value_nil
  | cons a l ih =>
    by_cases hl : l = []
    · subst hl; exact h a (by simp)
    · rw [joined_cons hl]
      have e : a ++ ['.'] ++ joined ['.'] l = a ++ '.' :: joined ['.'] l := by simp
      rw [e, value_mark (by decide) (by decide)]
      exact ⟨h a (by simp), ih (fun s hs => h s (by simp [hs]))⟩

/-- A word of the lexemes is made of characters of the text. -/
theorem word_chars (v : Text) (hv : ∀ c ∈ v, okChar c = true) : ∀ (w0 : Text) (ls : List Lexeme) (w1 : Text),
    lexFrom (.code w0) v = some (ls, .code w1) → ∀ w, Lexeme.word w ∈ ls ++ endWord w1 → ∀ c ∈ w, c ∈ w0 ∨ c ∈ v := by
  induction v with
  | nil =>
    intro w0 ls w1 h w hw c hc
    simp [lexFrom] at h
    obtain ⟨rfl, rfl⟩ := h
    have := endWord_mem hw
    cases this
    exact Or.inl hc
  | cons d v ih =>
    intro w0 ls w1 h w hw c hc
    have hd := hv d (by simp)
    have ht : ∀ c ∈ v, okChar c = true := fun x hx => hv x (by simp [hx])
    by_cases hdw : isWord d = true
    · simp only [lexFrom, step, codeStep, hdw, if_true] at h
      cases h' : lexFrom (.code (w0 ++ [d])) v with
      | none => simp [h'] at h
      | some r =>
        obtain ⟨ls', l'⟩ := r
        simp only [h', Option.some.injEq, Prod.mk.injEq, List.nil_append] at h
        obtain ⟨rfl, rfl⟩ := h
        rcases ih ht _ _ _ h' w hw c hc with h | h
        · rcases List.mem_append.1 h with h | h
          · exact Or.inl h
          · simp at h; exact Or.inr (by simp [h])
        · exact Or.inr (by simp [h])
    · obtain ⟨h1, h2, h3, h4, -⟩ := okChar_ne hd
      have hm : mark d = some (if isBlank d then [] else [.punct d], .code []) := by
        unfold mark
        simp only [h1, h2, h3, h4, if_false]
        split <;> rfl
      have hf : isWord d = false := by simpa using hdw
      simp only [lexFrom, step, codeStep, hf, hm, Bool.false_eq_true, if_false, Option.map_some] at h
      cases h' : lexFrom (.code []) v with
      | none => simp [h'] at h
      | some r =>
        obtain ⟨ls', l'⟩ := r
        simp only [h', Option.some.injEq, Prod.mk.injEq] at h
        obtain ⟨rfl, rfl⟩ := h
        rw [List.append_assoc] at hw
        rcases List.mem_append.1 hw with hw | hw
        · rcases List.mem_append.1 hw with hw | hw
          · have := endWord_mem hw; cases this; exact Or.inl hc
          · split at hw <;> simp at hw
        · rcases ih ht _ _ _ h' w hw c hc with h | h
          · simp at h
          · exact Or.inr (by simp [h])

theorem digit_cases {c : Char} (h : c.isDigit = true) : isWord c = true ∧ c ≠ 'n' ∧ c ≠ 'c' ∧ c ≠ 'Q' ∧ c ≠ 'R' ∧ c ≠ 'p' ∧ c ≠ 's' := by
  simp only [Char.isDigit, Bool.and_eq_true, decide_eq_true_eq] at h
  refine ⟨?_, ?_, ?_, ?_, ?_, ?_, ?_⟩
  · have h1 : ('0' ≤ c) := h.1
    have h2 : (c ≤ '9') := h.2
    simp [isWord, h1, h2]
  all_goals (rintro rfl; revert h; decide)

/-- Numbers. -/
theorem value_number {v : Text} (h : ∀ c ∈ v, c.isDigit = true ∨ c = '-') : Value v := by
  have hok : ∀ c ∈ v, okChar c = true := fun c hc => by
    rcases h c hc with h | h
    · exact isWord_ok (digit_cases h).1
    · subst h; decide
  refine ⟨hok, fun w hw hr => ?_⟩
  obtain ⟨ls, w', e, -⟩ := lexFrom_ok v hok []
  rw [lexFrom_lexemes e] at hw
  have key : ∀ c ∈ w, c ≠ 'n' ∧ c ≠ 'c' ∧ c ≠ 'Q' ∧ c ≠ 'R' ∧ c ≠ 'p' ∧ c ≠ 's' := fun c hc => by
    rcases word_chars v hok _ _ _ e w hw c hc with h' | h'
    · simp at h'
    · rcases h c h' with h | h
      · exact (digit_cases h).2
      · subst h; decide
  simp only [reserved, keywords, labels, sections, List.cons_append, List.nil_append, List.mem_cons, List.not_mem_nil, or_false] at hr
  rcases hr with rfl | rfl | rfl | rfl | rfl | rfl | rfl | rfl | rfl | rfl | rfl
  all_goals first
    | exact (key 'n' (by decide)).1 rfl
    | exact (key 'c' (by decide)).2.1 rfl
    | exact (key 'Q' (by decide)).2.2.1 rfl
    | exact (key 'R' (by decide)).2.2.2.1 rfl
    | exact (key 'p' (by decide)).2.2.2.2.1 rfl
    | exact (key 's' (by decide)).2.2.2.2.2 rfl

theorem value_nat (n : Nat) : Value (toString n).toList := by
  apply value_number
  intro c hc
  have e : (toString n).toList = Nat.toDigits 10 n := by simp [toString, Nat.repr]
  rw [e] at hc
  exact Or.inl (Nat.isDigit_of_mem_toDigits (by decide) (by decide) hc)

theorem value_int (n : Int) : Value (toString n).toList := by
  cases n with
  | ofNat n =>
    have e : (toString (Int.ofNat n)).toList = (toString n).toList := by simp [toString, Int.repr, Nat.repr]
    rw [e]; exact value_nat n
  | negSucc n =>
    have e : (toString (Int.negSucc n)).toList = '-' :: Nat.toDigits 10 (n + 1) := by simp [toString, Int.repr, Nat.repr]
    rw [e]
    apply value_number
    intro c hc
    rcases List.mem_cons.1 hc with rfl | hc
    · exact Or.inr rfl
    · exact Or.inl (Nat.isDigit_of_mem_toDigits (by decide) (by decide) hc)

/-! ### Names -/

theorem name_id {s : Str} (h : Name s) : IsId s := ⟨h.1, h.2.1⟩
theorem name_value {s : Str} (h : Name s) : Value s := (name_id h).value h.2.2

theorem named_id {s : Str} (h : Named s) : IsId (upperCaseName s) := name_id h.2

theorem id_append {s t : Str} (hs : IsId s) (ht : IsId t) : IsId (s ++ t) :=
  ⟨by simp [hs.1], fun c hc => (List.mem_append.1 hc).elim (hs.2 c) (ht.2 c)⟩

/-- Words that end otherwise than those the reader looks for. -/
def otherEnd (t : Str) : Bool := reserved.all fun kw => !t.isSuffixOf kw

theorem not_reserved_end {s t : Str} (h : otherEnd t = true) : s ++ t ∉ reserved := by
  intro hr
  have := List.all_eq_true.1 h _ hr
  have hs : t.isSuffixOf (s ++ t) = true := List.isSuffixOf_iff_suffix.2 (List.suffix_append _ _)
  rw [hs] at this
  cases this

theorem name_suffix {s t : Str} (hs : IsId s) (ht : IsId t) (h : otherEnd t = true) : Name (s ++ t) :=
  ⟨(id_append hs ht).1, (id_append hs ht).2, not_reserved_end h⟩

theorem id_of_B {t : Str} (h : (!t.isEmpty && t.all isWord) = true) : IsId t := by
  simp only [Bool.and_eq_true, Bool.not_eq_true', List.isEmpty_eq_false_iff, List.all_eq_true] at h
  exact h

theorem name_repeated {s : Str} (hs : IsId s) : Name (s ++ kRepeated) := name_suffix hs (id_of_B (by decide)) (by decide)
theorem name_gadget {s : Str} (hs : IsId s) : Name (s ++ kGadget) := name_suffix hs (id_of_B (by decide)) (by decide)
theorem name_nested {s : Str} (hs : IsId s) : Name (s ++ kNested) := name_suffix hs (id_of_B (by decide)) (by decide)
theorem name_client {s : Str} (hs : IsId s) : Name (s ++ text! "Client") := name_suffix hs (id_of_B (by decide)) (by decide)

theorem id_ident {s : Str} (h : IsId s) : Ident s :=
  ⟨h.1, fun hd => by have := h.2 _ hd; revert this; decide, fun hd => by have := h.2 _ hd; revert this; decide⟩

/-! ### Types -/

theorem value_qualify {ns n : Str} (h : Value ns) (hn : Value n) : Value (qualify ns n) := by
  unfold qualify
  split
  · exact hn
  · exact value_scope.2 ⟨h, hn⟩

theorem value_scopeNs {a s : Str} (h : Value a) : Value (getScopeNamespacesString a s) := by
  unfold getScopeNamespacesString
  split
  · exact h
  · split
    · exact value_nil
    · split
      · rename_i hp
        rw [List.isPrefixOf_iff_prefix] at hp
        obtain ⟨r, hr⟩ := hp
        have : a.drop (s.length + 2) = r := by
          rw [← hr]
          have : (s ++ kScope).length = s.length + 2 := by simp [kScope]
          rw [← this, List.drop_left']
          rfl
        rw [this]
        rw [← hr] at h
        exact (value_scope.1 h).2
      · exact h

/-- The full name of a type, as hypothesis. -/
def Good' (p : Path) : Prop := p ≠ [] ∧ ∀ s ∈ p, Named s

theorem good_last {p : Path} (h : Good' p) : Named (p.getLastD []) := by
  rw [List.getLastD_eq_getLast?, List.getLast?_eq_some_getLast h.1]
  exact h.2 _ (List.getLast_mem h.1)

theorem good_namespaces {p : Path} (c : Ctx) (h : ∀ s ∈ p, Named s) : getNamespaces (some (typeD c p)) = p.dropLast := by
  have := C42_split_join (l := p) (fun s hs => id_ident (name_id (h s hs).1))
  simp only [getNamespaces, typeD, dots, gnsDot, this.1]

theorem value_ns {l : List Str} (h : ∀ s ∈ l, Name s) : Value (getNamespacesString kScope l) := by
  rw [getNamespacesString_eq]; exact value_joined (fun s hs => name_value (h s hs))

theorem value_ns_dot {l : List Str} (h : ∀ s ∈ l, Name s) : Value (getNamespacesString ['.'] l) := by
  rw [gnsDot]; exact value_joined_dot (fun s hs => name_value (h s hs))

theorem mem_dropLast_named {p : Path} (h : ∀ s ∈ p, Named s) : ∀ s ∈ p.dropLast, Name s := fun s hs => (h s (List.dropLast_subset p hs)).1

def ExtraOk (o : Options) : Prop := o.extra = [] ∨ Name o.extra

theorem extra_list {o : Options} (h : ExtraOk o) : ∀ s ∈ (if o.extra = [] then [] else [o.extra]), Name s := by
  intro s hs
  split at hs
  · simp at hs
  · rename_i hne
    simp at hs
    rcases h with h | h
    · exact absurd h hne
    · rw [hs]; exact h

theorem nested_names {p : Path} (c : Ctx) (h : ∀ s ∈ p, Named s) : ∀ s ∈ getNestedNamespaces (typeD c p), Name s := by
  intro s hs
  simp only [getNestedNamespaces, good_namespaces c h] at hs
  rcases List.mem_append.1 hs with hs | hs
  · exact mem_dropLast_named h s (List.mem_of_mem_take hs)
  · obtain ⟨x, hx, rfl⟩ := List.mem_map.1 hs
    exact name_nested (name_id (mem_dropLast_named h x (List.mem_of_mem_drop hx)))

theorem value_qml {o : Options} {p : Path} (c : Ctx) (hx : ExtraOk o) (h : ∀ s ∈ p, Named s) : Value (qmlPackage o.extra (typeD c p)) := by
  unfold qmlPackage
  apply value_ns_dot
  intro s hs
  rw [good_namespaces c h] at hs
  rcases List.mem_append.1 hs with hs | hs
  · exact extra_list hx s hs
  · exact mem_dropLast_named h s hs

/-! ### Maps of variables -/

/-- All values are names, types or numbers. -/
def GoodL (vars : Vars) : Prop := ∀ kv ∈ vars, Value kv.2 ∧ (kv.1 ∈ glued → IsId kv.2)

theorem get_mem {vars : Vars} {x v : Str} (h : vars.get x = some v) : (x, v) ∈ vars := by
  unfold Vars.get at h
  cases hf : vars.find? (·.1 == x) with
  | none => simp [hf] at h
  | some kv =>
    simp [hf] at h
    have h1 := List.mem_of_find?_eq_some hf
    have h2 := List.find?_some hf
    simp at h2
    obtain ⟨k, v'⟩ := kv
    simp at h h2
    subst h; subst h2
    exact h1

theorem GoodL.good {vars : Vars} (h : GoodL vars) : Good vars (fun _ => true) := fun x v hx =>
  ⟨ok_quoted (h _ (get_mem hx)).1.1, fun _ => (h _ (get_mem hx)).1, (h _ (get_mem hx)).2⟩

theorem GoodL.val {vars : Vars} (h : GoodL vars) (x : Str) : Value (vars.val x) := by
  unfold Vars.val
  cases hx : vars.get x with
  | none => exact value_nil
  | some v => exact (h _ (get_mem hx)).1

theorem GoodL.append {a b : Vars} (ha : GoodL a) (hb : GoodL b) : GoodL (a ++ b) := fun kv h => by
  rcases List.mem_append.1 h with h | h
  · exact ha kv h
  · exact hb kv h

theorem GoodL.nil : GoodL [] := fun _ h => by simp at h

theorem GoodL.cons {k v : Str} {b : Vars} (hv : Value v) (hk : k ∉ glued ∨ IsId v) (hb : GoodL b) : GoodL ((k, v) :: b) := fun kv h => by
  rcases List.mem_cons.1 h with rfl | h
  · refine ⟨hv, fun hg => ?_⟩
    rcases hk with hk | hk
    · exact absurd hg hk
    · exact hk
  · exact hb kv h

theorem get_isSome {vars : Vars} {x : Str} (h : x ∈ vars.map (·.1)) : (vars.get x).isSome = true := by
  obtain ⟨kv, hkv, rfl⟩ := List.mem_map.1 h
  unfold Vars.get
  cases hf : vars.find? (·.1 == kv.1) with
  | none =>
    rw [List.find?_eq_none] at hf
    exact absurd (by simp) (hf kv hkv)
  | some _ => rfl

/-- Names every map of a type has. -/
def typeKeys : List Str :=
  [text! "type", text! "full_type", text! "scope_type", text! "list_type", text! "full_list_type", text! "scope_list_type",
   text! "namespaces", text! "scope_namespaces", text! "qml_package", text! "property_type", text! "property_list_type",
   text! "getter_type", text! "setter_type"]

theorem goodL_message {o : Options} (c : Ctx) {p : Path} (hx : ExtraOk o) (h : Good' p) (scope : Option Path) :
    GoodL (messageVars o c p scope) := by
  have hn := good_last h
  have hns : ∀ s ∈ (if o.extra = [] then [] else [o.extra]) ++ getNamespaces (some (typeD c p)), Name s := by
    intro s hs
    rw [good_namespaces c h.2] at hs
    rcases List.mem_append.1 hs with hs | hs
    · exact extra_list hx s hs
    · exact mem_dropLast_named h.2 s hs
  have v1 : Value (upperCaseName (typeD c p).name) := name_value hn.2
  have v2 : Value (upperCaseName (typeD c p).name ++ kRepeated) := name_value (name_repeated (name_id hn.2))
  have vns := value_ns hns
  have vsc : ∀ s, Value (getScopeNamespacesString (getNamespacesString kScope
      (if c.nestedType p then getNestedNamespaces (typeD c p) else (if o.extra = [] then [] else [o.extra]) ++ getNamespaces (some (typeD c p)))) s) := by
    intro s
    apply value_scopeNs
    split
    · exact value_ns (nested_names c h.2)
    · exact vns
  have id1 : IsId (upperCaseName (typeD c p).name) := name_id hn.2
  unfold messageVars messageTypeMap
  exact .cons v1 (Or.inr id1) <| .cons v1 (Or.inl (by decide)) <| .cons (value_qualify vns v1) (Or.inl (by decide)) <|
    .cons (value_qualify (vsc _) v1) (Or.inl (by decide)) <| .cons v2 (Or.inl (by decide)) <|
    .cons (value_qualify vns v2) (Or.inl (by decide)) <| .cons (value_qualify (vsc _) v2) (Or.inl (by decide)) <|
    .cons vns (Or.inl (by decide)) <| .cons (vsc _) (Or.inl (by decide)) <| .cons (value_qml c hx h.2) (Or.inl (by decide)) <|
    .cons (value_qualify vns v1) (Or.inl (by decide)) <| .cons (value_qualify vns v2) (Or.inl (by decide)) <|
    .cons (value_qualify (vsc _) v1) (Or.inl (by decide)) <| .cons (value_qualify (vsc _) v1) (Or.inl (by decide)) .nil

theorem goodL_enum {o : Options} (c : Ctx) {p : Path} (hx : ExtraOk o) (h : Good' p) (scope : Option Path) (vis : EnumVisibility)
    (hs : vis ≠ .global → ∃ q, scope = some q ∧ Good' q) : GoodL (enumVars o c p scope vis) := by
  have hn := good_last h
  have v1 : Value (upperCaseName (typeD c p).name) := name_value hn.2
  have v2 : Value (upperCaseName (typeD c p).name ++ kRepeated) := name_value (name_repeated (name_id hn.2))
  have hns : ∀ s ∈ (if o.extra = [] then [] else [o.extra]) ++ getNamespaces (some (typeD c p)) ++
      (if vis = .global then [upperCaseName (typeD c p).name ++ kGadget] else []), Name s := by
    intro s hs
    rw [good_namespaces c h.2] at hs
    rcases List.mem_append.1 hs with hs | hs
    · rcases List.mem_append.1 hs with hs | hs
      · exact extra_list hx s hs
      · exact mem_dropLast_named h.2 s hs
    · split at hs
      · simp at hs; rw [hs]; exact name_gadget (name_id hn.2)
      · simp at hs
  have vns := value_ns hns
  have vsc := fun s => value_scopeNs (s := s) vns
  have hg : Name (gadgetName (upperCaseName (typeD c p).name) vis scope) := by
    unfold gadgetName
    split
    · exact name_gadget (name_id hn.2)
    · rename_i hv
      obtain ⟨q, rfl, hq⟩ := hs hv
      exact (good_last hq).2
  have vp : Value (if vis = .local then upperCaseName (typeD c p).name else
      qualify (getNamespacesString kScope ((if o.extra = [] then [] else [o.extra]) ++ getNamespaces (some (typeD c p)) ++
      (if vis = .global then [upperCaseName (typeD c p).name ++ kGadget] else []))) (upperCaseName (typeD c p).name)) := by
    split
    · exact v1
    · exact value_qualify vns v1
  unfold enumVars enumTypeMap
  exact .cons (name_value hg) (Or.inr (name_id hg)) <| .cons v1 (Or.inl (by decide)) <| .cons (value_qualify vns v1) (Or.inl (by decide)) <|
    .cons (value_qualify (vsc _) v1) (Or.inl (by decide)) <| .cons v2 (Or.inl (by decide)) <|
    .cons (value_qualify vns v2) (Or.inl (by decide)) <| .cons (value_qualify (vsc _) v2) (Or.inl (by decide)) <|
    .cons vns (Or.inl (by decide)) <| .cons (vsc _) (Or.inl (by decide)) <| .cons (value_qml c hx h.2) (Or.inl (by decide)) <|
    .cons vp (Or.inl (by decide)) <| .cons (value_qualify vns v2) (Or.inl (by decide)) <|
    .cons (value_qualify (vsc _) v1) (Or.inl (by decide)) <| .cons (value_qualify (vsc _) v1) (Or.inl (by decide)) <|
    .cons (name_value hg) (Or.inr (name_id hg)) .nil

theorem goodL_qt (c : Ctx) {p : Path} (h : Good' p) : GoodL (qtVars c p) := by
  have hn := (good_last h).1
  have v1 : Value (typeD c p).name := name_value hn
  have hl : Value (text! "QList<" ++ kRepeated ++ text! ">") := value_of_B (by decide)
  have vns : Value (getNamespacesString kScope (getNamespaces (some (typeD c p)))) := by
    rw [good_namespaces c h.2]; exact value_ns (mem_dropLast_named h.2)
  have vq : Value (qmlPackage [] (typeD c p)) := value_qml (o := {}) c (Or.inl rfl) h.2
  unfold qtVars
  exact .cons v1 (Or.inl (by decide)) <| .cons v1 (Or.inl (by decide)) <| .cons v1 (Or.inl (by decide)) <|
    .cons hl (Or.inl (by decide)) <| .cons hl (Or.inl (by decide)) <| .cons hl (Or.inl (by decide)) <|
    .cons vns (Or.inl (by decide)) <| .cons vns (Or.inl (by decide)) <| .cons vq (Or.inl (by decide)) <|
    .cons v1 (Or.inl (by decide)) <| .cons hl (Or.inl (by decide)) <| .cons v1 (Or.inl (by decide)) <|
    .cons v1 (Or.inl (by decide)) .nil

def goodB (vars : Vars) : Bool := vars.all fun kv => valueB kv.2 && !glued.contains kv.1

theorem goodL_of_B {vars : Vars} (h : goodB vars = true) : GoodL vars := fun kv hkv => by
  simp only [goodB, List.all_eq_true, Bool.and_eq_true, Bool.not_eq_true', List.contains_eq_mem, decide_eq_false_iff_not] at h
  exact ⟨value_of_B (h kv hkv).1, fun hg => absurd hg (h kv hkv).2⟩

theorem goodL_simple (t : FType) : GoodL (simpleVars t) := goodL_of_B (by cases t <;> decide +kernel)

/-- The types of a field. -/
structure TypesOk (f : FieldD) : Prop where
  message : f.type = .message → Good' (f.msgType.getD [])
  enum : f.type = .enum → Good' (f.enumType.getD [])

theorem goodL_type {o : Options} (c : Ctx) (hx : ExtraOk o) {scope : Path} (hs : Good' scope) {f : FieldD} (hf : TypesOk f) :
    GoodL (typeVars o c scope f) := by
  unfold typeVars
  split
  · rename_i ht
    split
    · exact goodL_qt c (hf.message ht)
    · exact goodL_message c hx (hf.message ht) _
  · rename_i ht
    exact goodL_enum c hx (hf.enum ht) _ _ (fun _ => ⟨scope, rfl, hs⟩)
  · exact goodL_simple _

theorem typeVars_keys (o : Options) (c : Ctx) (scope : Path) (f : FieldD) : ∀ x ∈ typeKeys, x ∈ (typeVars o c scope f).map (·.1) := by
  unfold typeVars
  split
  · split
    · have : (qtVars c (f.msgType.getD [])).map (·.1) = typeKeys := rfl
      rw [this]; exact fun x h => h
    · have : (messageVars o c (f.msgType.getD []) (some scope)).map (·.1) = text! "classname" :: typeKeys := rfl
      rw [this]; exact fun x h => by simp [h]
  · have : (enumVars o c (f.enumType.getD []) (some scope) (c.visibility scope (f.enumType.getD []))).map (·.1) =
      text! "classname" :: typeKeys ++ [text! "enum_gadget"] := rfl
    rw [this]; exact fun x h => by simp [h]
  · have : ∀ t, (simpleVars t).map (·.1) = [text! "type", text! "full_type", text! "scope_type", text! "list_type", text! "full_list_type",
      text! "scope_list_type", text! "namespaces", text! "scope_namespaces", text! "qml_package", text! "property_type",
      text! "qml_alias_type", text! "property_list_type", text! "getter_type", text! "setter_type"] := fun t => rfl
    rw [this]; decide

/-- The names every map of a property has. -/
def propKeys : List Str :=
  [text! "property_name", text! "property_name_cap", text! "scriptable", text! "classname", text! "number", text! "key_type",
   text! "value_type"] ++ typeKeys

theorem goodL_property {o : Options} {c : Ctx} (hx : ExtraOk o) {scope : Path} (hs : Good' scope) {f : FieldD} (hf : TypesOk f)
    (hp : Named f.prop) (he : ∀ q, TypesOk (c.entry q).1 ∧ TypesOk (c.entry q).2) : GoodL (propertyVars o c scope f) := by
  have ht := goodL_type c hx hs hf
  have hcn : ∃ v, (messageVars o c scope none).val (text! "classname") = v ∧ Name v :=
    ⟨upperCaseName (scope.getLastD []), rfl, (good_last hs).2⟩
  obtain ⟨v, hv, hvn⟩ := hcn
  have hsc : ∀ b : Bool, Value (if b then text! "false" else text! "true") := fun b => by cases b <;> exact value_of_B (by decide)
  have hbase : ∀ b : Bool, GoodL [(text! "property_name", f.prop), (text! "property_name_cap", upperCaseName f.prop),
      (text! "scriptable", if b then text! "false" else text! "true"),
      (text! "classname", (messageVars o c scope none).val (text! "classname")), (text! "number", (toString f.number).toList)] := fun b =>
    .cons (name_value hp.1) (Or.inr (name_id hp.1)) <| .cons (name_value hp.2) (Or.inr (name_id hp.2)) <|
      .cons (hsc b) (Or.inl (by decide)) <| .cons (by rw [hv]; exact name_value hvn) (Or.inr (by rw [hv]; exact name_id hvn)) <|
      .cons (value_nat _) (Or.inl (by decide)) .nil
  unfold propertyVars
  simp only
  split
  · refine GoodL.append (GoodL.append ?_ (hbase _)) ht
    have hk := goodL_type c hx hs (he (f.msgType.getD [])).1
    have hval := goodL_type c hx hs (he (f.msgType.getD [])).2
    exact .cons (hk.val _) (Or.inl (by decide)) <| .cons (hval.val _) (Or.inl (by decide)) <| .cons (hval.val _) (Or.inl (by decide)) .nil
  · split
    · refine GoodL.append (GoodL.append ?_ (hbase _)) ht
      exact .cons (ht.val _) (Or.inl (by decide)) <| .cons (ht.val _) (Or.inl (by decide)) <| .cons value_nil (Or.inl (by decide)) <|
        .cons value_nil (Or.inl (by decide)) .nil
    · refine GoodL.append (GoodL.append ?_ (hbase _)) ht
      exact .cons value_nil (Or.inl (by decide)) <| .cons value_nil (Or.inl (by decide)) .nil

theorem propertyVars_keys (o : Options) (c : Ctx) (scope : Path) (f : FieldD) : ∀ x ∈ propKeys, ((propertyVars o c scope f).get x).isSome = true := by
  intro x hx
  apply get_isSome
  unfold propertyVars
  simp only
  rcases List.mem_append.1 hx with h | h
  · split
    · simp only [List.map_append, List.mem_append]
      left
      simp only [List.mem_cons, List.not_mem_nil, or_false] at h
      rcases h with rfl | rfl | rfl | rfl | rfl | rfl | rfl <;> simp
    · split
      · simp only [List.map_append, List.mem_append]
        left
        simp only [List.mem_cons, List.not_mem_nil, or_false] at h
        rcases h with rfl | rfl | rfl | rfl | rfl | rfl | rfl <;> simp
      · simp only [List.map_append, List.mem_append]
        left
        simp only [List.mem_cons, List.not_mem_nil, or_false] at h
        rcases h with rfl | rfl | rfl | rfl | rfl | rfl | rfl <;> simp
  · have := typeVars_keys o c scope f x h
    split
    · simp only [List.map_append, List.mem_append]; exact Or.inr this
    · split <;> (simp only [List.map_append, List.mem_append]; exact Or.inr this)

end QtPb.TextProof
