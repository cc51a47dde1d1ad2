import Verif.SpecMeta
import Verif.PropsGenPrint
/-
C97: types that are declared to the meta-type system in generated headers.
-/
set_option maxRecDepth 100000

namespace QtPb.Gen.Text
open QtPb.SpecCpp QtPb.Gen.Text.Spec

theorem qualified_word (n : Text) (ns : List Text) : ∃ r, qualified (n :: ns) = .word n :: r ∧ (r = [] ↔ ns = []) ∧ (r = [] ∨ r.head? = some (.punct ':')) := by
  cases ns with
  | nil => exact ⟨[], rfl, by simp, Or.inl rfl⟩
  | cons a l => exact ⟨.punct ':' :: .punct ':' :: qualified (a :: l), rfl, by simp, Or.inr rfl⟩

theorem qualified_injective : ∀ {a b : List Text}, qualified a = qualified b → a = b
  | [], [], _ => rfl
  | [], n :: ns, h => by obtain ⟨r, e, -⟩ := qualified_word n ns; rw [e] at h; simp [qualified] at h
  | n :: ns, [], h => by obtain ⟨r, e, -⟩ := qualified_word n ns; rw [e] at h; simp [qualified] at h
  | [a], [b], h => by simpa [qualified] using h
  | [a], b :: b' :: l, h => by simp [qualified] at h
  | a :: a' :: l, [b], h => by simp [qualified] at h
  | a :: a' :: l, b :: b' :: l', h => by
    simp only [qualified, List.cons.injEq, Lexeme.word.injEq, true_and] at h
    rw [h.1, qualified_injective h.2]

theorem nodup_flatMap {α β : Type} {f : α → List β} : ∀ {l : List α}, (∀ a ∈ l, (f a).Nodup) → (l.Pairwise fun a b => ∀ x ∈ f a, x ∉ f b) → (l.flatMap f).Nodup
  | [], _, _ => by simp
  | a :: l, h1, h2 => by
    rw [List.flatMap_cons]
    rw [List.pairwise_cons] at h2
    refine List.nodup_append.2 ⟨h1 a (by simp), nodup_flatMap (fun b hb => h1 b (by simp [hb])) h2.2, fun x hx y hy e => ?_⟩
    subst e
    obtain ⟨b, hb, hxb⟩ := List.mem_flatMap.1 hy
    exact h2.1 b hb x hx hxb

/-- The types that are declared without a guard. -/
def unguarded (o : Options) (c : Ctx) (b : Path × List FieldD) : List (List Lexeme) :=
  [qualified (typeName o b.1 []), qualified (typeName o b.1 kRepeated)] ++
  (if o.qml then [[.word (text! "QQmlListProperty"), .punct '<'] ++ qualified (typeName o b.1 []) ++ [.punct '>']] else []) ++
  (usedEnums c b).flatMap fun q => [qualified (typeName o q []), qualified (typeName o q kRepeated)]

theorem declared_split (o : Options) (c : Ctx) (b : Path × List FieldD) : (declared o c b).Perm (unguarded o c b ++ 
    (b.2.filter fun f => !(f.type == .enum && c.visibility b.1 (f.enumType.getD []) == .local) && f.isMap).map (messageType o c)) := by
  unfold declared unguarded
  rw [List.append_assoc _ (List.flatMap _ _)]
  refine List.Perm.append_left _ ?_
  unfold usedEnums
  induction b.2 with
  | nil => exact .nil
  | cons f l ih =>
    rw [List.flatMap_cons]
    dsimp only
    by_cases h : (f.type == .enum && c.visibility b.1 (f.enumType.getD []) == .local) = true
    · rw [if_pos h, List.filter_cons_of_pos (by simpa using h), List.filter_cons_of_neg (by simp [h]), List.map_cons, List.flatMap_cons, List.append_assoc]
      exact ih.append_left _
    · have h' : (f.type == .enum && c.visibility b.1 (f.enumType.getD []) == .local) = false := by simpa using h
      rw [if_neg h, List.filter_cons_of_neg (by simp [h'])]
      by_cases hm : f.isMap = true
      · rw [if_pos hm, List.filter_cons_of_pos (by simp [h', hm]), List.map_cons]
        exact (ih.cons _).trans List.perm_middle.symm
      · rw [if_neg hm, List.filter_cons_of_neg (by simp [hm])]
        exact ih

section
variable {o : Options} {c : Ctx}

theorem typeName_inj {p q : Path} {s t : Str} (h : typeName o p s = typeName o q t) :
    p.dropLast = q.dropLast ∧ upperCaseName (p.getLastD []) ++ s = upperCaseName (q.getLastD []) ++ t := by
  unfold typeName at h
  have := List.append_inj' h (by simp)
  exact ⟨List.append_cancel_left this.1, by simpa using this.2⟩

/-- The types named after a thing. -/
def typesOf (o : Options) (q : Path) : List (List Lexeme) := [qualified (typeName o q []), qualified (typeName o q kRepeated)]

theorem types_apart {p q : Path} (hp : ¬ kRepeated <:+ upperCaseName (p.getLastD [])) (hq : ¬ kRepeated <:+ upperCaseName (q.getLastD []))
    (h : upTo p ≠ upTo q) : ∀ x ∈ typesOf o p, x ∉ typesOf o q := by
  intro x hx hx'
  simp only [typesOf, List.mem_cons, List.not_mem_nil, or_false] at hx hx'
  rcases hx with rfl | rfl <;> rcases hx' with e | e <;> obtain ⟨e1, e2⟩ := typeName_inj (qualified_injective e)
  · exact h (Prod.ext e1 (by rw [List.append_nil, List.append_nil] at e2; exact e2))
  · exact hp ⟨_, by simpa using e2.symm⟩
  · exact hq ⟨_, by simpa using e2⟩
  · exact h (Prod.ext e1 (List.append_cancel_right e2))

theorem types_nodup {p : Path} : (typesOf o p).Nodup := by
  simp only [typesOf, List.nodup_cons, List.mem_singleton, List.not_mem_nil, not_false_eq_true, List.nodup_nil, and_true]
  intro e
  have := (typeName_inj (qualified_injective e)).2
  have := congrArg List.length this
  simp [kRepeated] at this

theorem qml_ne (x : List Lexeme) (a : List Text) : [.word (text! "QQmlListProperty"), .punct '<'] ++ x ≠ qualified a := by
  intro h
  cases a with
  | nil => simp [qualified] at h
  | cons n ns =>
    obtain ⟨r, e, -, h1⟩ := qualified_word n ns
    rw [e] at h
    simp only [List.cons_append, List.nil_append, List.cons.injEq] at h
    rcases h1 with h1 | h1
    · rw [h1] at h; simp at h
    · rw [← h.2] at h1; simp at h1

def qmlTypes (o : Options) (ms : List (Path × List FieldD)) : List (List Lexeme) :=
  if o.qml then ms.map fun b => [.word (text! "QQmlListProperty"), .punct '<'] ++ qualified (typeName o b.1 []) ++ [.punct '>'] else []

theorem unguarded_split (o : Options) (c : Ctx) : ∀ ms : List (Path × List FieldD),
    (ms.flatMap (unguarded o c)).Perm ((ms.flatMap fun b => b.1 :: usedEnums c b).flatMap (typesOf o) ++ qmlTypes o ms)
  | [] => by simp [qmlTypes]
  | b :: l => by
    have ih := unguarded_split o c l
    have e : unguarded o c b = typesOf o b.1 ++ (qmlTypes o [b] ++ (usedEnums c b).flatMap (typesOf o)) := by
      unfold unguarded typesOf qmlTypes
      rw [List.append_assoc]
      rfl
    have e2 : qmlTypes o (b :: l) = qmlTypes o [b] ++ qmlTypes o l := by unfold qmlTypes; split <;> rfl
    rw [List.flatMap_cons, List.flatMap_cons, List.flatMap_append, List.flatMap_cons, e, e2]
    simp only [List.append_assoc]
    refine List.Perm.append_left _ ?_
    refine ((ih.append_left _).append_left _).trans ?_
    rw [← List.append_assoc, ← List.append_assoc]
    refine ((List.perm_append_comm.append_right _).append_right _).trans ?_
    simp only [List.append_assoc]
    refine List.Perm.append_left _ ?_
    rw [← List.append_assoc, ← List.append_assoc]
    exact List.perm_append_comm.append_right _

theorem all_split (o : Options) (c : Ctx) (ms : List (Path × List FieldD)) :
    (ms.flatMap (declared o c)).Perm ((ms.flatMap fun b => b.1 :: usedEnums c b).flatMap (typesOf o) ++ qmlTypes o ms ++ ms.flatMap fun b =>
      (b.2.filter fun f => !(f.type == .enum && c.visibility b.1 (f.enumType.getD []) == .local) && f.isMap).map (messageType o c)) := by
  refine List.Perm.trans ?_ ((unguarded_split o c ms).append_right _)
  induction ms with
  | nil => exact .nil
  | cons b l ih =>
    simp only [List.flatMap_cons]
    refine ((declared_split o c b).append ih).trans ?_
    simp only [List.append_assoc]
    refine List.Perm.append_left _ ?_
    rw [← List.append_assoc, ← List.append_assoc]
    exact List.Perm.append_right _ List.perm_append_comm

theorem unguarded_nodup {enums : List EnumD} {ms : List (Path × List FieldD)} (ha : Apart c enums ms) :
    ((ms.flatMap fun b => b.1 :: usedEnums c b).flatMap (typesOf o) ++ qmlTypes o ms).Nodup := by
  have hn := List.pairwise_map.1 ha.names
  refine List.nodup_append.2 ⟨nodup_flatMap (fun _ _ => types_nodup) ?_, ?_, ?_⟩
  · exact (List.Pairwise.and_mem.1 hn).imp fun ⟨h1, h2, h3⟩ => types_apart (ha.suffix _ h1) (ha.suffix _ h2) h3
  · unfold qmlTypes
    split
    · have h : ((ms.map (·.1)).map upTo).Nodup := by
        refine ha.names.sublist (List.Sublist.map _ ?_)
        clear ha hn
        induction ms with
        | nil => simp
        | cons b l ih =>
          rw [List.flatMap_cons, List.map_cons, List.cons_append]
          exact (ih.trans (List.sublist_append_right _ _)).cons_cons _
      rw [List.map_map, List.Nodup, List.pairwise_map] at h
      rw [List.Nodup, List.pairwise_map]
      refine h.imp fun h e => h ?_
      have e := qualified_injective (List.append_cancel_left (List.append_cancel_right e))
      obtain ⟨e1, e2⟩ := typeName_inj e
      exact Prod.ext e1 (by rw [List.append_nil, List.append_nil] at e2; exact e2)
    · simp
  · intro x hx y hy e
    subst e
    obtain ⟨q, -, h⟩ := List.mem_flatMap.1 hx
    unfold qmlTypes at hy
    split at hy
    · obtain ⟨b, -, rfl⟩ := List.mem_map.1 hy
      simp only [typesOf, List.mem_cons, List.not_mem_nil, or_false] at h
      rcases h with h | h <;> exact qml_ne _ _ ((List.append_assoc _ _ _).symm.trans h)
    · simp at hy

/-- C97: in a generated header no type is declared twice to the meta-type system, those of maps aside, which have guards of the preprocessor (leaving out
lines cannot make two of one). Missing: enumerations of a message that two of its fields have, see `C97_twice_violated`; names that differ in the case of
the first letter or by "Repeated". -/
theorem C97_once_partial {external internal : List Str} {enums : List EnumD} {msgs : List Msg} (hf : PlainFile o c) (hx : ∀ i ∈ external, Name i)
    (hi : ∀ i ∈ internal, Includable i) (he : ∀ e ∈ enums, PlainEnum e) (hm : PlainMsgs msgs)
    (ha : Apart c enums (msgs.flatMap (messagesOf c.package))) :
    ∃ (text : Text) (evs : List Event) (types : List (List Lexeme)), printed (messageHeader o c external internal enums msgs) = some text ∧ read text = some evs ∧
      callsIn kwMetaType evs = types.map (fun t => ([], t)) ∧
      (types.filter fun t => !((msgs.flatMap (messagesOf c.package)).flatMap (mapTypes o c)).contains t).Nodup := by
  obtain ⟨text, evs, h1, h2, h3⟩ := C94_header_metatypes_partial hf hx hi he hm
  refine ⟨text, evs, _, h1, h2, h3, ?_⟩
  generalize msgs.flatMap (messagesOf c.package) = ms at ha ⊢
  rw [List.filter_append]
  have hp := all_split o c ms
  have hmaps : ∀ x ∈ (ms.flatMap fun b => (b.2.filter fun f => !(f.type == .enum && c.visibility b.1 (f.enumType.getD []) == .local) && f.isMap).map
      (messageType o c)), (ms.flatMap (mapTypes o c)).contains x = true := by
    intro x hx
    obtain ⟨b, hb, hx⟩ := List.mem_flatMap.1 hx
    obtain ⟨f, hf, rfl⟩ := List.mem_map.1 hx
    rw [List.mem_filter, Bool.and_eq_true] at hf
    simp only [List.contains_eq_mem, decide_eq_true_eq]
    exact List.mem_flatMap.2 ⟨b, hb, List.mem_map.2 ⟨f, List.mem_filter.2 ⟨hf.1, hf.2.2⟩, rfl⟩⟩
  refine List.nodup_append.2 ⟨(?_ : List.Nodup _).sublist List.filter_sublist, ?_, ?_⟩
  · have := ha.top
    rw [List.Nodup, List.pairwise_map] at this ⊢
    refine this.imp fun h e => h ?_
    have := qualified_injective e
    have := List.append_cancel_left ((List.append_assoc _ _ _).symm.trans (this.trans (List.append_assoc _ _ _)))
    simpa using this
  · refine (hp.filter _).nodup_iff.2 ?_
    have hnil := List.filter_eq_nil_iff (p := fun t => !(ms.flatMap (mapTypes o c)).contains t).2 fun x hx => by rw [hmaps x hx]; simp
    rw [List.filter_append, hnil, List.append_nil]
    exact (unguarded_nodup ha).sublist List.filter_sublist
  · intro x hx y hy e
    subst e
    obtain ⟨e, he', rfl⟩ := List.mem_map.1 (List.mem_filter.1 hx).1
    have hy' := ((hp.mem_iff).1 (List.mem_filter.1 hy).1)
    rcases List.mem_append.1 hy' with h | h
    · rcases List.mem_append.1 h with h | h
      · obtain ⟨q, hq, h⟩ := List.mem_flatMap.1 h
        refine ha.gadget q hq e he' ?_
        have : ∃ s, enumListName o (c.package ++ [e.name]) .global = typeName o q s := by
          simp only [typesOf, List.mem_cons, List.not_mem_nil, or_false] at h
          rcases h with h | h <;> exact ⟨_, qualified_injective h⟩
        obtain ⟨s, h⟩ := this
        have := congrArg List.dropLast (List.append_cancel_left ((List.append_assoc _ _ _).symm.trans (h.trans (List.append_assoc _ _ _))))
        simp [List.dropLast_append] at this
        exact this.symm
      · unfold qmlTypes at h
        split at h
        · obtain ⟨b, -, h⟩ := List.mem_map.1 h
          exact qml_ne _ _ ((List.append_assoc _ _ _).symm.trans h)
        · simp at h
    · have := (List.mem_filter.1 hy).2
      rw [hmaps _ h] at this
      simp at this

/-- C97 is violated whenever two fields of a message have the type of one of its own enumerations: the header declares this type twice. -/
theorem C97_twice_violated {external internal : List Str} {enums : List EnumD} {msgs : List Msg} (hf : PlainFile o c) (hx : ∀ i ∈ external, Name i)
    (hi : ∀ i ∈ internal, Includable i) (he : ∀ e ∈ enums, PlainEnum e) (hm : PlainMsgs msgs)
    {b : Path × List FieldD} (hb : b ∈ msgs.flatMap (messagesOf c.package)) {i j : Nat} {f g : FieldD} (hij : i < j) (h1 : b.2[i]? = some f) (h2 : b.2[j]? = some g)
    (hf1 : f.type = .enum) (hg1 : g.type = .enum) {q : Path} (hq1 : f.enumType = some q) (hq2 : g.enumType = some q) (hv : c.visibility b.1 q = .local) :
    ∃ (text : Text) (evs : List Event), printed (messageHeader o c external internal enums msgs) = some text ∧ read text = some evs ∧
      2 ≤ (callsIn kwMetaType evs).count ([], qualified (typeName o q [])) := by
  obtain ⟨text, evs, h3, h4, h5⟩ := C94_header_metatypes_partial hf hx hi he hm
  refine ⟨text, evs, h3, h4, ?_⟩
  rw [h5]
  have key : ∀ {l : List FieldD} {i j : Nat}, i < j → l[i]? = some f → l[j]? = some g → ∃ l1 l2 l3, l = l1 ++ f :: l2 ++ g :: l3 := by
    intro l
    induction l with
    | nil => intro i j _ h; simp at h
    | cons a l ih =>
      intro i j hij h1 h2
      cases j with
      | zero => omega
      | succ j =>
        cases i with
        | zero =>
          simp only [List.getElem?_cons_zero, Option.some.injEq] at h1
          obtain ⟨hj, h2⟩ := List.getElem?_eq_some_iff.1 (by simpa using h2)
          refine ⟨[], l.take j, l.drop (j + 1), ?_⟩
          rw [h1, ← h2, List.nil_append, List.cons_append, List.getElem_cons_drop, List.take_append_drop]
        | succ i =>
          obtain ⟨l1, l2, l3, e⟩ := ih (i := i) (j := j) (by omega) (by simpa using h1) (by simpa using h2)
          exact ⟨a :: l1, l2, l3, by rw [e]; rfl⟩
  obtain ⟨l1, l2, l3, e⟩ := key hij h1 h2
  obtain ⟨m1, m2, em⟩ := List.append_of_mem hb
  rw [em]
  unfold declared
  simp only [e, List.flatMap_append, List.flatMap_cons, hf1, hg1, hq1, hq2, Option.getD_some, hv, beq_self_eq_true, Bool.and_self, if_true, List.map_append,
    List.count_append, List.map_cons, List.count_cons_self, List.cons_append, List.count_cons]
  omega

end

/-! ### Concrete cases -/

namespace Sample

/-- `message Two { enum E { A = 0; } E first = 1; E second = 2; }` in a file of its own. -/
def twoCtx : Ctx := { ctx with
  enums := fun q => if q = sub ++ [text! "Two"] then [⟨text! "E", [(text! "A", 0)]⟩] else []
  visibility := fun scope q => if scope = sub ++ [text! "Two"] ∧ q = scope ++ [text! "E"] then .local else .global }

def two : Msg := .mk (text! "Two")
  [{ camel := text! "first", json := text! "first", number := 1, type := .enum, enumType := some (sub ++ [text! "Two", text! "E"]) },
   { camel := text! "second", json := text! "second", number := 2, type := .enum, enumType := some (sub ++ [text! "Two", text! "E"]) }] [] false

end Sample

theorem Sample.twoFile : PlainFile {} Sample.twoCtx where
  extra := Or.inl rfl
  package := named_all (by decide)
  first := fun _ => name_of (by simp only [Sample.twoCtx, Sample.ctx]; decide)
  keys := fun _ => by simp only [Sample.twoCtx, Sample.ctx]; decide
  values := fun _ => field_of (by simp only [Sample.twoCtx, Sample.ctx]; decide)
  enums := fun q e he => by
    simp only [Sample.twoCtx] at he
    split at he
    · rw [List.mem_singleton.1 he]
      refine ⟨named_of (by decide), fun v hv => ?_⟩
      simp only [List.mem_cons, List.not_mem_nil, or_false] at hv
      rw [hv]
      exact name_of (by decide)
    · simp at he
  comments := fun h => by simp at h

/-- The hypotheses of `C97_twice_violated`. -/
example : PlainMsgs [Sample.two] ∧ ∃ b ∈ [Sample.two].flatMap (messagesOf Sample.twoCtx.package), ∃ f g : FieldD, b.2[0]? = some f ∧ b.2[1]? = some g ∧
    f.type = .enum ∧ g.type = .enum ∧ f.enumType = g.enumType ∧ Sample.twoCtx.visibility b.1 (f.enumType.getD []) = .local := by
  refine ⟨?_, (Sample.sub ++ [text! "Two"], _), List.mem_singleton.2 rfl, _, _, rfl, rfl, rfl, rfl, rfl, by decide⟩
  rw [PlainMsgs, PlainMsgs, Sample.two, PlainMsg, PlainMsgs]
  exact ⟨⟨Sample.named_of (by decide), Sample.fields_of (by decide), trivial⟩, trivial⟩

/-- The hypotheses of `C97_once_partial`: a file with a top-level enumeration, a message with its own enumeration, a nested message and a map. -/
example : PlainFile Sample.opts Sample.ctx ∧ (∀ e ∈ [Sample.global], PlainEnum e) ∧ PlainMsgs [Sample.outer] ∧
    Apart Sample.ctx [Sample.global] ([Sample.outer].flatMap (messagesOf Sample.ctx.package)) ∧
    usedEnums Sample.ctx ([Sample.outer].flatMap (messagesOf Sample.ctx.package))[0] ≠ [] :=
  ⟨Sample.plainFile, Sample.plainEnums, Sample.plainMsgs,
    ⟨by decide +kernel, by decide +kernel, by decide +kernel, by decide +kernel⟩, by decide +kernel⟩

/-- C97 is violated: two fields of an enumeration of their message; the preprocessor leaves both declarations of `pkg::sub::Two::E`. -/
theorem C97_enum_violated : ∃ text evs, printed (messageHeader {} Sample.twoCtx [] [] [] [Sample.two]) = some text ∧ read (active text) = some evs ∧
    (callsIn kwMetaType evs).count ([], qualified [text! "pkg", text! "sub", text! "Two", text! "E"]) = 2 := by
  have h : ((printed (messageHeader {} Sample.twoCtx [] [] [] [Sample.two])).bind fun t => (read (active t)).map fun evs =>
      (callsIn kwMetaType evs).count ([], qualified [text! "pkg", text! "sub", text! "Two", text! "E"])) = some 2 := by decide +kernel
  obtain ⟨text, h1, h⟩ := Option.bind_eq_some_iff.1 h
  obtain ⟨evs, h2, h⟩ := Option.map_eq_some_iff.1 h
  exact ⟨text, evs, h1, h2, h⟩

end QtPb.Gen.Text
