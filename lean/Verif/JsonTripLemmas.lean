import Verif.JsonReadLemmas
import Verif.JsonLemmas
import Verif.PropsMessage
/-
Lemmas for C64 and C65: what documents stand for has its type; what is written for a message stands for it.
-/
namespace QtPb.Json
open Spec

variable {env : REnv}

/-! ### Types -/

theorem meansScalar_holds {esc : UInt8 → Option UInt8} {k : Kind} {j : JVal} {s : Scalar} (h : MeansScalar env esc k j s) : k.holds s = true := by
  cases k <;> cases s <;> first | rfl | exact h.elim

theorem meansKey_holds {esc : UInt8 → Option UInt8} {k : Kind} {name : Bytes} {s : Scalar} (h : MeansKey env esc k name s) : k.holds s = true := by
  cases k <;> cases s <;> first | rfl | exact h.elim

theorem elementwise_right {α β : Type} {R : α → β → Prop} {P : β → Prop} (hp : ∀ a b, R a b → P b) : ∀ {as : List α} {bs : List β},
    Elementwise R as bs → ∀ b ∈ bs, P b
  | _, _, .nil, b, h => by cases h
  | _, _, .cons h t, b, hb => by
    rcases List.mem_cons.mp hb with rfl | hb
    · exact hp _ _ h
    · exact elementwise_right hp t b hb

theorem means_not_unset {esc : UInt8 → Option UInt8} {m i : Nat} {ty : FieldTy} {j : JVal} {v : Val} (h : Means env esc m i ty j v) :
    v ≠ .msgNull ∧ j ≠ .null := by
  cases h with
  | @sc _ _ k j s h =>
    refine ⟨by simp, ?_⟩
    rintro rfl
    cases k <;> cases s <;> simp [MeansScalar, isNumberText] at h
  | _ => exact ⟨by simp, by simp⟩

theorem defaultVal_safe (ty : FieldTy) : Safe env.toEnv ty (defaultVal ty) := by
  cases ty with
  | scalar k => exact .sc (default_holds k)
  | list k => exact .scList (by simp)
  | enum => exact .enum 0
  | enumList => exact .enumList []
  | msg m => exact .null m
  | msgList m => exact .msgList (by simp) (by simp)
  | map kk vt => exact .map (by simp) (by simp) (by simp) List.Pairwise.nil

theorem means_safe {esc : UInt8 → Option UInt8} {m i : Nat} {ty : FieldTy} {j : JVal} {v : Val} (h : Means env esc m i ty j v) :
    Safe env.toEnv ty v := by
  induction h with
  | sc h => exact .sc (meansScalar_holds h)
  | scList h => exact .scList (elementwise_right (fun _ _ h => meansScalar_holds h) h)
  | enum _ _ => exact .enum _
  | enumList _ => exact .enumList _
  | @msg m i m' ms o vs h1 h2 h3 h4 h5 h6 h7 ih =>
    refine .msg h3 fun i' f v hf hv => ?_
    by_cases hx : ∀ q ∈ ms, env.fromUtf8 q.1 ≠ env.jsonName m' i'
    · rw [h4 i' f hf hx] at hv
      cases hv
      exact defaultVal_safe _
    · have : ∃ q ∈ ms, env.fromUtf8 q.1 = env.jsonName m' i' := by
        apply Classical.byContradiction
        intro hn
        exact hx fun q hq he => hn ⟨q, hq, he⟩
      obtain ⟨⟨name, j⟩, hq, hname⟩ := this
      by_cases hj : j = .null
      · subst hj
        rw [h5 i' f name hf hq hname] at hv
        cases hv
        exact defaultVal_safe _
      · rw [h7 i' f name j hf hq hname hj] at hv
        cases hv
        rw [store_eq]
        exact (writeVal_mirrors (defaultVal_safe _) (ih i' f name j hf hq hname hj)).2
  | @msgList m i m' js l h1 h2 ih =>
    refine .msgList (fun v hv => ?_) (fun v hv => ?_)
    all_goals
      obtain ⟨p, hp⟩ := List.mem_iff_getElem?.mp hv
      have hlt := get_lt hp
      have hj : js[p]? = some (js[p]'(by omega)) := List.getElem?_eq_getElem _
    · exact (means_not_unset (h2 p _ v hj hp)).1
    · exact ih p _ v hj hp
  | @map m i kk vt ms es r h1 h2 h3 h4 h5 h6 ih =>
    have key : ∀ e ∈ r, ∃ (p : Nat) (q : Bytes × JVal), ms[p]? = some q ∧ es[p]? = some e := by
      intro e he
      obtain ⟨p, hp⟩ := List.mem_iff_getElem?.mp (h5.mem_iff.mp he)
      have hlt := get_lt hp
      exact ⟨p, ms[p]'(by omega), List.getElem?_eq_getElem _, hp⟩
    refine .map (fun e he => ?_) (fun e he => ?_) (fun e he => ?_) h6
    all_goals obtain ⟨p, q, hq, hp⟩ := key e he
    · exact meansKey_holds (h2 p q e hq hp)
    · exact (means_not_unset (h3 p q e hq hp)).1
    · exact ih p q e hq hp

/-- The target of `deserialize` when it is a new message. -/
theorem target_fresh_json {n m : Nat} {data : Bytes} {o : Obj} (h : deserializeMessage env n m data = (.ok (), o))
    (hs : Safe env.toEnv (.msg m) (.msg o)) : ∃ K, ∀ k, K ≤ k → ∃ r, deserialize env n k m data (defaultObj env.toEnv m) = ⟨.ok (), .ok r⟩ ∧
      Mirrors env.toEnv (.msg m) (.msg r) (.msg o) ∧ Safe env.toEnv (.msg m) (.msg r) := by
  obtain ⟨K, hK⟩ := assign_to_default hs
  refine ⟨K, fun k hk => ?_⟩
  obtain ⟨r, hr⟩ := hK k hk
  have := assign_sound (default_safe m) hs hr
  refine ⟨r, ?_, this⟩
  simp only at hr
  simp [deserialize, h, hr]

/-! ### What is written stands for the message -/

theorem exact_plain {k : Kind} {s : Scalar} (h : ExactScalar env k s) : PlainScalar env.toJEnv k s := by
  cases k <;> cases s <;> first | trivial | exact h.1

theorem exactElement_plain {k : Kind} {s : Scalar} (h : ExactElement env k s) : PlainScalar env.toJEnv k s := by
  cases k <;> cases s <;> first | trivial | exact h.1

theorem exact_printable (hn : ExactNames env) {m i : Nat} {ty : FieldTy} {v : Val} (h : Exact env m i ty v) : Printable env.toJEnv m i ty v := by
  induction h with
  | sc h1 h2 => exact .sc h1 (exact_plain h2)
  | scList h1 h2 => exact .scList h1 fun s hs => ⟨(h2 s hs).1, exactElement_plain (h2 s hs).2⟩
  | enum h1 h2 => exact .enum h1 h2
  | enumList h => exact .enumList h
  | null _ ih => exact .null ih
  | msg h1 h2 _ ih => exact .msg h1 h2 (fun i hi => hn.plain _ i hi) ih
  | msgList h1 _ ih => exact .msgList (fun v hv => Or.inr (h1 v hv)) fun o ho => ih _ ho
  | map h1 _ h2 _ _ _ ih => exact .map h1 (fun e he => ⟨(h2 e he).1, exact_plain (h2 e he).2⟩) fun e he _ => ih e he

theorem finite_notNaN32 {b : BitVec 32} (h : finite32 b) : isNaN32 b = false := by
  unfold finite32 at h
  simp only [isNaN32, decide_eq_false_iff_not]
  omega

theorem finite_notNaN64 {b : BitVec 64} (h : finite64 b) : isNaN64 b = false := by
  unfold finite64 at h
  simp only [isNaN64, decide_eq_false_iff_not]
  omega

theorem exact_notNaN {k : Kind} {s : Scalar} (h : ExactScalar env k s) : notNaN k s := by
  cases k <;> cases s <;> first | trivial | exact finite_notNaN32 h.1 | exact finite_notNaN64 h.1

theorem exactElement_notNaN {k : Kind} {s : Scalar} (h : ExactElement env k s) : notNaN k s := by
  cases k <;> cases s <;> first | trivial | exact finite_notNaN32 h.1 | exact finite_notNaN64 h.1

theorem exact_isPlain {m i : Nat} {ty : FieldTy} {v : Val} (h : Exact env m i ty v) : Plain env.toEnv ty v := by
  induction h with
  | sc h1 h2 => exact .sc ⟨h1, exact_notNaN h2⟩
  | scList h1 h2 => exact .scList fun s hs => ⟨(h2 s hs).1, exactElement_notNaN (h2 s hs).2⟩
  | enum h1 h2 => exact .enum _
  | enumList h => exact .enumList _
  | null _ ih => exact .null _
  | msg h1 h2 _ ih => exact .msg h2 ih
  | msgList h1 _ ih => exact .msgList (fun v hv => by obtain ⟨o, rfl⟩ := h1 v hv; simp) ih
  | map _ _ h2 h3 _ h4 ih => exact .map (fun e he => ⟨(h2 e he).1, exact_notNaN (h2 e he).2⟩) h3 ih h4

theorem unescape_plain {esc : UInt8 → Option UInt8} : ∀ {raw : Bytes}, NoEscapes raw → Unescape esc raw raw
  | [], _ => .nil
  | b :: _, h => .plain (h b List.mem_cons_self).1 (h b List.mem_cons_self).2.1 (h b List.mem_cons_self).2.2
      (unescape_plain fun x hx => h x (List.mem_cons_of_mem _ hx))

theorem scalarEq_self {k : Kind} {s : Scalar} (hk : k ≠ .float) (hd : k ≠ .double) : scalarEq k s s = true := by
  cases k <;> cases s <;> first | exact absurd rfl hk | exact absurd rfl hd | simp [scalarEq]

/-- Scalars: what is shown is read as an equal value. -/
theorem scalar_means (hq : QtNumbers env.toJEnv) {k : Kind} {s : Scalar} {j : JVal} (hk : k.holds s = true) (he : ExactScalar env k s)
    (h : ShowsScalar env.toJEnv k s j) : ∃ s', MeansScalar env quoteEscape k j s' ∧ scalarEq k s s' = true := by
  cases k <;> cases s <;> simp only [Kind.holds, Bool.false_eq_true] at hk
  case float.w32 b =>
    obtain ⟨h1, c, h2, h3⟩ := he
    cases j <;> simp only [ShowsScalar] at h
    subst h
    exact ⟨.w32 c, ⟨_, Or.inl rfl, hq.float32g b h1, h2⟩, h3⟩
  case double.w64 b =>
    obtain ⟨h1, c, h2, h3⟩ := he
    cases j <;> simp only [ShowsScalar] at h
    subst h
    exact ⟨.w64 c, ⟨_, Or.inl rfl, hq.float64s b h1, h2⟩, h3⟩
  case bool.bool b =>
    cases j <;> simp only [ShowsScalar] at h
    subst h
    exact ⟨.bool b, rfl, by simp [scalarEq]⟩
  case string.str s =>
    cases j <;> simp only [ShowsScalar] at h
    subst h
    exact ⟨.str (some (s.getD [])), ⟨_, _, rfl, rfl, _, unescape_plain he.1, he.2.symm⟩, by simp [scalarEq]⟩
  case bytes.bytes b =>
    cases j <;> simp only [ShowsScalar] at h
    exact ⟨.bytes (some (b.getD [])), ⟨_, _, rfl, rfl, h⟩, by simp [scalarEq]⟩
  case int32.w32 b | sint32.w32 b | sfixed32.w32 b | uint32.w32 b | fixed32.w32 b =>
    cases j <;> simp only [ShowsScalar] at h
    exact ⟨.w32 b, ⟨_, Or.inl rfl, h⟩, by simp [scalarEq]⟩
  all_goals
    rename_i b
    cases j <;> simp only [ShowsScalar] at h
    exact ⟨.w64 b, ⟨_, Or.inl rfl, h⟩, by simp [scalarEq]⟩

theorem element_means (hq : QtNumbers env.toJEnv) {k : Kind} {s : Scalar} {j : JVal} (hk : k.holds s = true) (he : ExactElement env k s)
    (h : ShowsElement env.toJEnv k s j) : ∃ s', MeansScalar env quoteEscape k j s' ∧ scalarEq k s s' = true := by
  by_cases hd : k = .double
  · subst hd
    cases s <;> simp only [Kind.holds, Bool.false_eq_true] at hk
    case w64 b =>
      obtain ⟨h1, c, h2, h3⟩ := he
      cases j <;> simp only [ShowsElement] at h
      subst h
      exact ⟨.w64 c, ⟨_, Or.inl rfl, hq.float64g b h1, h2⟩, h3⟩
  · refine scalar_means hq hk ?_ ?_
    · cases k <;> first | exact absurd rfl hd | exact he
    · cases k <;> first | exact absurd rfl hd | exact h

/-- A key with null text becomes one with empty text. -/
def normKey : Scalar → Scalar
  | .str s => .str (some (s.getD []))
  | s => s

theorem keyLt_norm (kk : Kind) (a b : Scalar) : keyLt kk (normKey a) (normKey b) = keyLt kk a b := by
  cases kk <;> cases a <;> cases b <;> simp [normKey, keyLt]

theorem keyLt_norm_self {kk : Kind} {a : Scalar} : keyLt kk a (normKey a) = false ∧ keyLt kk (normKey a) a = false := by
  have h : keyLt kk a a = false := by
    cases hx : keyLt kk a a with
    | false => rfl
    | true => have := keyLt_asymm hx; rw [hx] at this; cases this
  have e : ∀ x, normKey (normKey x) = normKey x := by intro x; cases x <;> rfl
  constructor
  · rw [← keyLt_norm, e, keyLt_norm, h]
  · rw [← keyLt_norm, e, keyLt_norm, h]

theorem key_means {kk : Kind} {s : Scalar} {name : Bytes} (hkk : isKeyKind kk = true) (hb : kk ≠ .bool) (hk : kk.holds s = true)
    (he : ExactScalar env kk s) (h : ShowsKey env.toJEnv kk s name) : MeansKey env quoteEscape kk name (normKey s) := by
  cases kk <;> cases s <;> simp only [Kind.holds, Bool.false_eq_true] at hk <;> simp only [isKeyKind, Bool.false_eq_true] at hkk
  case bool.bool => exact absurd rfl hb
  case string.str s =>
    simp only [ShowsKey] at h
    subst h
    exact ⟨_, _, rfl, rfl, _, unescape_plain he.1, he.2.symm⟩
  all_goals exact ⟨_, Or.inr rfl, h⟩

theorem list_means {α β : Type} {P : α → Prop} {R : α → JVal → Prop} {M : JVal → β → Prop} {E : α → β → Prop}
    (hp : ∀ a j, P a → R a j → ∃ b, M j b ∧ E a b) : ∀ {l : List α} {js : List JVal}, (∀ a ∈ l, P a) → Elementwise R l js →
    ∃ bs, Elementwise M js bs ∧ Elementwise E l bs
  | _, _, _, .nil => ⟨[], .nil, .nil⟩
  | a :: _, _ :: _, h, .cons h1 t => by
    obtain ⟨b, g1, g2⟩ := hp _ _ (h a List.mem_cons_self) h1
    obtain ⟨bs, g3, g4⟩ := list_means hp (fun a ha => h a (List.mem_cons_of_mem _ ha)) t
    exact ⟨b :: bs, .cons g1 g3, .cons g2 g4⟩

/-- What the induction over `Exact` gives for each value. -/
def Back (env : REnv) (m i : Nat) (ty : FieldTy) (v : Val) : Prop :=
  ∀ j, Shows env.toJEnv m i ty v j → ∃ v', Means env quoteEscape m i ty j v' ∧ Same env.toEnv ty v v'

theorem showsList_elementwise {m : Nat} : ∀ {l : List Val} {js : List JVal}, (∀ v ∈ l, ∃ o, v = .msg o) → ShowsList env.toJEnv m l js →
    Elementwise (fun v j => Shows env.toJEnv m 0 (.msg m) v j) l js
  | _, _, _, .nil _ => .nil
  | _, _, h, .null _ => by obtain ⟨o, ho⟩ := h _ List.mem_cons_self; cases ho
  | _, _, h, .cons h1 t => .cons h1 (showsList_elementwise (fun v hv => h v (List.mem_cons_of_mem _ hv)) t)

theorem showsEntries_elementwise {m i : Nat} {kk : Kind} {vt : MapVal} : ∀ {es : List (Scalar × Val)} {ms : List (Bytes × JVal)},
    (∀ e ∈ es, e.2 ≠ .msgNull) → ShowsEntries env.toJEnv m i kk vt es ms →
    Elementwise (fun e q => ShowsKey env.toJEnv kk e.1 q.1 ∧ Shows env.toJEnv m i (MapVal.toTy vt) e.2 q.2) es ms
  | _, _, _, .nil => .nil
  | _, _, h, .null _ => absurd rfl (h _ List.mem_cons_self)
  | _, _, h, .cons _ h1 h2 t => .cons ⟨h1, h2⟩ (showsEntries_elementwise (fun v hv => h v (List.mem_cons_of_mem _ hv)) t)

theorem elementwise_index {α β : Type} {R : α → β → Prop} : ∀ {as : List α} {bs : List β}, Elementwise R as bs →
    ∀ (p : Nat) (a : α) (b : β), as[p]? = some a → bs[p]? = some b → R a b
  | _, _, .nil, p, a, b, h, _ => by simp at h
  | _, _, .cons h t, 0, a, b, ha, hb => by
    rw [List.getElem?_cons_zero, Option.some.injEq] at ha hb
    subst ha hb
    exact h
  | _, _, .cons _ t, p + 1, a, b, ha, hb => by
    rw [List.getElem?_cons_succ] at ha hb
    exact elementwise_index t p a b ha hb

theorem entries_means {m i : Nat} {kk : Kind} {vt : MapVal} (hkk : isKeyKind kk = true) (hb : kk ≠ .bool) :
    ∀ {es : List (Scalar × Val)} {ms : List (Bytes × JVal)}, (∀ e ∈ es, kk.holds e.1 ∧ ExactScalar env kk e.1) →
    (∀ e ∈ es, Back env m i (MapVal.toTy vt) e.2) →
    Elementwise (fun e q => ShowsKey env.toJEnv kk e.1 q.1 ∧ Shows env.toJEnv m i (MapVal.toTy vt) e.2 q.2) es ms →
    ∃ es' : List (Scalar × Val), Elementwise (fun q e => MeansKey env quoteEscape kk q.1 e.1 ∧ Means env quoteEscape m i (MapVal.toTy vt) q.2 e.2) ms es' ∧
      Elementwise (fun e e' => e'.1 = normKey e.1 ∧ Same env.toEnv (MapVal.toTy vt) e.2 e'.2) es es'
  | _, _, _, _, .nil => ⟨[], .nil, .nil⟩
  | e :: _, _ :: _, h1, h2, .cons ⟨h3, h4⟩ t => by
    obtain ⟨v', g1, g2⟩ := h2 e List.mem_cons_self _ h4
    obtain ⟨es', g3, g4⟩ := entries_means hkk hb (fun e he => h1 e (List.mem_cons_of_mem _ he))
      (fun e he => h2 e (List.mem_cons_of_mem _ he)) t
    have := h1 e List.mem_cons_self
    exact ⟨(normKey e.1, v') :: es', .cons ⟨key_means hkk hb this.1 this.2 h3, g1⟩ g3, .cons ⟨rfl, g2⟩ g4⟩

theorem pairwise_norm {kk : Kind} {vt : MapVal} : ∀ {es es' : List (Scalar × Val)},
    Elementwise (fun e e' => e'.1 = normKey e.1 ∧ Same env.toEnv (MapVal.toTy vt) e.2 e'.2) es es' →
    es.Pairwise (fun a b => keyLt kk a.1 b.1 = true) → es'.Pairwise (fun a b => keyLt kk a.1 b.1 = true) := by
  intro es es' h hp
  have e : es'.map (·.1) = (es.map (·.1)).map normKey := by
    clear hp
    induction h with
    | nil => rfl
    | cons h _ ih => rw [List.map_cons, List.map_cons, List.map_cons, ih, h.1]
  have h1 : (es.map (·.1)).Pairwise (fun a b => keyLt kk (normKey a) (normKey b) = true) :=
    List.pairwise_map.mpr (hp.imp fun {a b} h => by rw [keyLt_norm]; exact h)
  have h2 : ((es.map (·.1)).map normKey).Pairwise (fun a b => keyLt kk a b = true) := List.pairwise_map.mpr h1
  rw [← e] at h2
  exact List.pairwise_map.mp h2

theorem msg_means (ho : ValidOrder env.toEnv) (hd : DistinctNames env.toJEnv) (hn : ExactNames env) {m i m' : Nat} {o : Obj}
    (hlen : o.length = (env.sch m').length) (hp : Plain env.toEnv (.msg m') (.msg o))
    (ih : ∀ (i' : Nat) (f : Field) (v : Val), (env.sch m')[i']? = some f → o[i']? = some v → Back env m' i' f.ty v)
    {ms : List (Bytes × JVal)} (h1 : ms.map (·.1) = (env.ord m').map (fun i' => env.toUtf8 (env.jsonName m' i')))
    (h2 : ∀ (p i' : Nat) (f : Field) (v : Val) (name : Bytes) (j : JVal), (env.ord m')[p]? = some i' →
        (env.sch m')[i']? = some f → o[i']? = some v → ms[p]? = some (name, j) → Shows env.toJEnv m' i' f.ty v j) :
    ∃ o', Means env quoteEscape m i (.msg m') (.obj ms) (.msg o') ∧ Same env.toEnv (.msg m') (.msg o) (.msg o') := by
  have hnames : ∀ (p : Nat) (q : Bytes × JVal), ms[p]? = some q → ∃ i', (env.ord m')[p]? = some i' ∧ i' < (env.sch m').length ∧
      q.1 = env.toUtf8 (env.jsonName m' i') := by
    intro p q hq
    have : (ms.map (·.1))[p]? = some q.1 := by rw [List.getElem?_map, hq]; rfl
    rw [h1, List.getElem?_map] at this
    cases hi : (env.ord m')[p]? with
    | none => rw [hi] at this; cases this
    | some i' =>
      rw [hi] at this
      exact ⟨i', rfl, List.mem_range.mp ((ho m').mem_iff.mp (List.mem_of_getElem? hi)), (Option.some.inj this).symm⟩
  -- the member of each field
  have hmem : ∀ (i' : Nat), i' < (env.sch m').length → ∃ (p : Nat) (q : Bytes × JVal), (env.ord m')[p]? = some i' ∧ ms[p]? = some q ∧
      q.1 = env.toUtf8 (env.jsonName m' i') := by
    intro i' hi'
    obtain ⟨p, hp⟩ := List.mem_iff_getElem?.mp ((ho m').mem_iff.mpr (List.mem_range.mpr hi'))
    have hl : ms.length = (env.ord m').length := by simpa using congrArg List.length h1
    have hq : ms[p]? = some (ms[p]'(by have := get_lt hp; omega)) := List.getElem?_eq_getElem _
    obtain ⟨i'', g1, _, g2⟩ := hnames p _ hq
    rw [hp, Option.some.injEq] at g1
    subst g1
    exact ⟨p, _, hp, hq, g2⟩
  have hone : ∀ (name : Bytes) (j : JVal) (i' : Nat), (name, j) ∈ ms → i' < (env.sch m').length → env.fromUtf8 name = env.jsonName m' i' →
      ∃ (p : Nat), (env.ord m')[p]? = some i' ∧ ms[p]? = some (name, j) := by
    intro name j i' hm hi' hname
    obtain ⟨p, hp⟩ := List.mem_iff_getElem?.mp hm
    obtain ⟨i'', g1, g2, g3⟩ := hnames p _ hp
    simp only at g3
    rw [g3, hn.exact m' i'' g2] at hname
    have := hd m' i'' i' g2 hi' hname
    subst this
    exact ⟨p, g1, hp⟩
  have hnd : (env.ord m').Nodup := (ho m').nodup_iff.mpr List.nodup_range
  have huniq : ∀ (p p' i' : Nat), (env.ord m')[p]? = some i' → (env.ord m')[p']? = some i' → p = p' := by
    intro p p' i' ha hb
    exact (List.getElem?_inj (get_lt ha) hnd).mp (ha.trans hb.symm)
  have hval : ∀ (i' : Nat), ∃ v', ∀ (f : Field) (v : Val) (p : Nat) (name : Bytes) (j : JVal), (env.sch m')[i']? = some f → o[i']? = some v →
      (env.ord m')[p]? = some i' → ms[p]? = some (name, j) → Means env quoteEscape m' i' f.ty j v' ∧ Same env.toEnv f.ty v v' := by
    intro i'
    by_cases hi' : i' < (env.sch m').length
    · have hf : (env.sch m')[i']? = some ((env.sch m')[i']) := List.getElem?_eq_getElem hi'
      have hv : o[i']? = some (o[i']'(by omega)) := List.getElem?_eq_getElem (by omega)
      obtain ⟨p, q, g1, g2, g3⟩ := hmem i' hi'
      obtain ⟨v', k1, k2⟩ := ih i' _ _ hf hv q.2 (h2 p i' _ _ q.1 q.2 g1 hf hv g2)
      refine ⟨v', fun f v p' name j e1 e2 e3 e4 => ?_⟩
      have := huniq p p' i' g1 e3
      subst this
      rw [hf] at e1
      rw [hv] at e2
      rw [g2] at e4
      cases e1; cases e2; cases e4
      exact ⟨k1, k2⟩
    · refine ⟨.msgNull, fun f v p name j e1 => ?_⟩
      exact absurd (get_lt e1) hi'
  have hvs : ∃ vs : Nat → Val, ∀ (i' : Nat) (f : Field) (v : Val) (p : Nat) (name : Bytes) (j : JVal), (env.sch m')[i']? = some f →
      o[i']? = some v → (env.ord m')[p]? = some i' → ms[p]? = some (name, j) →
      Means env quoteEscape m' i' f.ty j (vs i') ∧ Same env.toEnv f.ty v (vs i') :=
    ⟨fun i' => Classical.choose (hval i'), fun i' => Classical.choose_spec (hval i')⟩
  obtain ⟨vs, hvs⟩ := hvs
  let o' : Obj := (List.range (env.sch m').length).map fun i' =>
    match (env.sch m')[i']? with
    | some f => store f.ty (defaultVal f.ty) (vs i')
    | none => .msgNull
  have ho' : ∀ (i' : Nat) (f : Field), (env.sch m')[i']? = some f → o'[i']? = some (store f.ty (defaultVal f.ty) (vs i')) := by
    intro i' f hf
    simp only [o', List.getElem?_map, List.getElem?_range (get_lt hf), Option.map_some, hf]
  have hmeans : Means env quoteEscape m i (.msg m') (.obj ms) (.msg o') := by
    refine .msg vs ?_ ?_ (by simp [o']) ?_ ?_ ?_ ?_
    · have e : (ms.map fun q => env.fromUtf8 q.1) = (env.ord m').map (fun i' => env.jsonName m' i') := by
        have : (ms.map fun q => env.fromUtf8 q.1) = (ms.map (·.1)).map env.fromUtf8 := by rw [List.map_map]; rfl
        rw [this, h1, List.map_map]
        apply List.map_congr_left
        intro i' hi'
        exact hn.exact m' i' (List.mem_range.mp ((ho m').mem_iff.mp hi'))
      have h : ((env.ord m').map (fun i' => env.jsonName m' i')).Pairwise (· ≠ ·) := by
        rw [List.pairwise_map]
        refine List.Pairwise.imp_of_mem ?_ hnd
        intro a b ha hb hab hname
        exact hab (hd m' a b (List.mem_range.mp ((ho m').mem_iff.mp ha)) (List.mem_range.mp ((ho m').mem_iff.mp hb)) hname)
      rw [← e, List.pairwise_map] at h
      exact h
    · intro q hq
      obtain ⟨p, hp⟩ := List.mem_iff_getElem?.mp hq
      obtain ⟨i', _, g2, g3⟩ := hnames p q hp
      rw [g3]
      exact hn.plain m' i' g2
    · intro i' f hf hx
      obtain ⟨p, q, g1, g2, g3⟩ := hmem i' (get_lt hf)
      exact absurd (by rw [g3]; exact hn.exact m' i' (get_lt hf)) (hx q (List.mem_of_getElem? g2))
    · intro i' f name hf hm hname
      obtain ⟨p, g1, g2⟩ := hone name .null i' hm (get_lt hf) hname
      have hv : o[i']? = some (o[i']'(by have := get_lt hf; omega)) := List.getElem?_eq_getElem _
      exact absurd rfl (means_not_unset (hvs i' f _ p name .null hf hv g1 g2).1).2
    · intro i' f name j hf hm hname _
      obtain ⟨p, g1, g2⟩ := hone name j i' hm (get_lt hf) hname
      have hv : o[i']? = some (o[i']'(by have := get_lt hf; omega)) := List.getElem?_eq_getElem _
      exact (hvs i' f _ p name j hf hv g1 g2).1
    · intro i' f _ _ hf _ _ _
      exact ho' i' f hf
  refine ⟨o', hmeans, .msg ?_⟩
  intro i' f x y hf hx hy
  simp only [contents] at hx hy
  rw [ho' i' f hf] at hy
  cases hy
  obtain ⟨p, q, g1, g2, g3⟩ := hmem i' (get_lt hf)
  obtain ⟨k1, k2⟩ := hvs i' f x p q.1 q.2 hf hx g1 g2
  have hpx : Plain env.toEnv f.ty x := by
    cases hp with
    | msg _ h => exact h i' f x hf hx
  have hsafe := means_safe k1
  rw [store_eq]
  have hw := writeVal_mirrors (defaultVal_safe (env := env) f.ty) hsafe
  have := hw.1.toSame (k2.plain_right hpx hsafe)
  exact k2.trans this.symm hpx.safe hsafe hw.2

theorem exact_back (ho : ValidOrder env.toEnv) (hq : QtNumbers env.toJEnv) (hd : DistinctNames env.toJEnv) (hn : ExactNames env)
    {m i : Nat} {ty : FieldTy} {v : Val} (h : Exact env m i ty v) : Back env m i ty v := by
  induction h with
  | sc h1 h2 =>
    intro j hj
    cases hj with
    | sc hj =>
      obtain ⟨s', g1, g2⟩ := scalar_means hq h1 h2 hj
      exact ⟨_, .sc g1, .sc g2⟩
  | @scList m i k l h1 h2 =>
    intro j hj
    cases hj with
    | scList hj =>
      obtain ⟨l', g1, g2⟩ := list_means (E := fun s s' => scalarEq k s s' = true) (M := MeansScalar env quoteEscape k)
        (P := fun s => k.holds s = true ∧ ExactElement env k s) (fun a j ha hr => element_means hq ha.1 ha.2 hr) h2 hj
      exact ⟨_, .scList g1, .scList (elementwise_length g2) fun p x y hx hy => elementwise_index g2 p x y hx hy⟩
  | enum h1 h2 =>
    intro j hj
    cases hj with
    | enum hj =>
      rw [h1] at hj
      cases hj
      have := hn.enums _ _ _ _ h1
      exact ⟨_, .enum this.1 this.2, .enum _⟩
  | @enumList m i l h =>
    intro j hj
    cases hj with
    | @enumList _ _ _ js hj =>
      refine ⟨.enumList l, .enumList ?_, .enumList l⟩
      clear h
      induction hj with
      | nil => exact .nil
      | cons h _ ih =>
        obtain ⟨name, g1, g2⟩ := h
        exact .cons ⟨name, g2, (hn.enums _ _ _ _ g1).2⟩ ih
  | @null m i m' _ ih =>
    intro j hj
    cases hj with
    | unset hj =>
      obtain ⟨v', g1, g2⟩ := ih j hj
      refine ⟨v', g1, ?_⟩
      cases g2 with
      | msg g2 => exact .msg g2
  | @msg m i m' o h1 h2 h3 ih =>
    intro j hj
    cases hj with
    | msg k1 k2 =>
      obtain ⟨o', g1, g2⟩ := msg_means ho hd hn h2 (exact_isPlain (.msg (m := m) (i := i) h1 h2 h3)) ih k1 k2
      exact ⟨_, g1, g2⟩
  | @msgList m i m' l h1 h2 ih =>
    intro j hj
    cases hj with
    | msgList hj =>
      obtain ⟨l', g1, g2⟩ := list_means (E := fun v v' => Same env.toEnv (.msg m') v v') (M := Means env quoteEscape m' 0 (.msg m'))
        (P := fun v => Back env m' 0 (.msg m') v) (fun a j ha hr => ha j hr) ih (showsList_elementwise h1 hj)
      exact ⟨_, .msgList (elementwise_length g1) fun p j v hj hv => elementwise_index g1 p j v hj hv,
        .msgList (elementwise_length g2) fun p x y hx hy => elementwise_index g2 p x y hx hy⟩
  | @map m i kk vt es h1 h2 h3 h4 h5 h6 ih =>
    intro j hj
    cases hj with
    | map hj =>
      obtain ⟨es', g1, g2⟩ := entries_means h1 h2 h3 ih (showsEntries_elementwise h4 hj)
      have hs := pairwise_norm (kk := kk) g2 h6
      refine ⟨.map es', .map (elementwise_length g1) (fun p q e hq he => (elementwise_index g1 p q e hq he).1)
        (fun p q e hq he => (elementwise_index g1 p q e hq he).2) (hs.imp fun h => Or.inl h) (List.Perm.refl _) hs,
        .map (elementwise_length g2) (fun p x y hx hy => ?_) fun p x y hx hy => (elementwise_index g2 p x y hx hy).2⟩
      rw [(elementwise_index g2 p x y hx hy).1]
      exact keyLt_norm_self

end QtPb.Json
