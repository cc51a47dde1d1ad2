import Verif.SpecFields
import Verif.ArriveLemmas
import Verif.RecordLemmas
namespace QtPb
open Spec

/-! ### Key equivalence is equality of keys -/

theorem lexLt_antisymm {a b : List Nat} (h1 : lexLt a b = false) (h2 : lexLt b a = false) : a = b := by
  induction a generalizing b with
  | nil => cases b <;> simp_all [lexLt]
  | cons x a ih =>
    cases b with
    | nil => simp [lexLt] at h2
    | cons y b =>
      simp only [lexLt, Bool.or_eq_false_iff, decide_eq_false_iff_not, Bool.and_eq_false_imp,
        beq_iff_eq] at h1 h2
      have : x = y := by omega
      subst this
      rw [ih (h1.2 rfl) (h2.2 rfl)]

theorem char_range (c : Char) : c.toNat < 0xd800 ∨ (0xdfff < c.toNat ∧ c.toNat < 0x110000) := by
  have h : c.val.toNat < 0xd800 ∨ (0xdfff < c.val.toNat ∧ c.val.toNat < 0x110000) := c.valid
  exact h

theorem utf16_inj {a b : List Char} (h : a.flatMap utf16 = b.flatMap utf16) : a = b := by
  induction a generalizing b with
  | nil =>
    cases b with
    | nil => rfl
    | cons y b =>
      simp only [List.flatMap_nil, List.flatMap_cons, utf16] at h
      split at h <;> simp at h
  | cons x a ih =>
    cases b with
    | nil =>
      simp only [List.flatMap_nil, List.flatMap_cons, utf16] at h
      split at h <;> simp at h
    | cons y b =>
      have hx := char_range x
      have hy := char_range y
      simp only [List.flatMap_cons, utf16] at h
      have key : ∀ {n : Nat}, x.toNat = n → y.toNat = n → x = y := by
        intro n h1 h2
        exact Char.ext (UInt32.toNat_inj.mp (by
          have e1 : x.val.toNat = n := h1
          have e2 : y.val.toNat = n := h2
          omega))
      split at h <;> split at h
      · simp only [List.cons_append, List.nil_append, List.cons.injEq] at h
        rw [key rfl h.1.symm, ih h.2]
      · simp only [List.cons_append, List.nil_append, List.cons.injEq] at h
        omega
      · simp only [List.cons_append, List.nil_append, List.cons.injEq] at h
        omega
      · simp only [List.cons_append, List.nil_append, List.cons.injEq] at h
        have : y.toNat = x.toNat := by omega
        rw [key rfl this, ih h.2.2]

theorem keyEqv_iff {k : Kind} (hk : mapKey k) {a b : Scalar} (ha : k.holds a) (hb : k.holds b) :
    keyEqv k a b ↔ sameKey a b = true := by
  cases k <;> first | exact absurd hk id | skip
  all_goals
    cases a <;> simp only [Kind.holds, Bool.false_eq_true] at ha
    cases b <;> simp only [Kind.holds, Bool.false_eq_true] at hb
    simp only [keyEqv, keyLt, sameKey, beq_iff_eq, decide_eq_false_iff_not, Scalar.w32.injEq,
      Scalar.w64.injEq, Scalar.bool.injEq]
    rename_i x y
  case string =>
    constructor
    · rintro ⟨h1, h2⟩; exact utf16_inj (lexLt_antisymm h1 h2)
    · intro h; rw [h]; exact ⟨lexLt_irrefl _, lexLt_irrefl _⟩
  case bool => cases x <;> cases y <;> simp
  all_goals
    constructor
    · rintro ⟨h1, h2⟩
      first
        | exact BitVec.eq_of_toNat_eq (by omega)
        | exact BitVec.eq_of_toInt_eq (by omega)
    · intro h; rw [h]; simp

theorem sameKey_refl (a : Scalar) : sameKey a a = true := by
  cases a <;> simp [sameKey]

theorem sameKey_comm (a b : Scalar) : sameKey a b = sameKey b a := by
  cases a <;> cases b <;> simp only [sameKey] <;> first | exact BEq.comm | rfl

theorem sameKey_trans {a b c : Scalar} (h1 : sameKey a b = true) : sameKey a c = sameKey b c := by
  cases a <;> cases b <;> simp [sameKey] at h1 <;> cases c <;>
    first | rfl | simp [sameKey, h1]

/-! ### Maps as functions -/

theorem valueOf_cons (key k' : Scalar) (v : Val) (es : List (Scalar × Val)) :
    valueOf key ((k', v) :: es) = if sameKey k' key = true then some v else valueOf key es := by
  simp only [valueOf, List.find?_cons]
  cases h : sameKey k' key <;> simp

theorem valueOf_none {key : Scalar} {es : List (Scalar × Val)}
    (h : ∀ e ∈ es, sameKey e.1 key = false) : valueOf key es = none := by
  have : es.find? (fun e => sameKey e.1 key) = none := by
    rw [List.find?_eq_none]; intro e he; simp [h e he]
  simp [valueOf, this]

/-- Looking up after an insertion. -/
theorem valueOf_mapInsert {kk : Kind} (hk : mapKey kk) {key k' : Scalar} {v : Val}
    {es : List (Scalar × Val)} (hs : SortedKeys kk es) (h1 : kk.holds k') :
    valueOf key (mapInsert kk k' v es) = if sameKey k' key = true then some v else valueOf key es := by
  induction es with
  | nil => simp [mapInsert, valueOf_cons]
  | cons e es ih =>
    obtain ⟨ke, ve⟩ := e
    have hke : kk.holds ke := hs.1 (ke, ve) (by simp)
    have hrest := (List.pairwise_cons.mp hs.2).1
    have hne : ∀ {a b : Scalar}, kk.holds a → kk.holds b → keyLt kk a b = true → sameKey a b = false := by
      intro a b ha hb hlt
      cases hsk : sameKey a b with
      | false => rfl
      | true => have := ((keyEqv_iff hk ha hb).mpr hsk).1; rw [this] at hlt; simp at hlt
    unfold mapInsert
    split
    · rename_i hlt
      rw [valueOf_cons, valueOf_cons, ih hs.tail]
      by_cases hc : sameKey ke key = true
      · have : sameKey k' key = false := by
          cases hsk : sameKey k' key with
          | false => rfl
          | true =>
            have h3 := hne hke h1 hlt
            rw [sameKey_trans hc, sameKey_comm, hsk] at h3; simp at h3
        simp [hc, this]
      · simp [hc]
    · split
      · rename_i hlt
        rw [valueOf_cons]
      · rename_i ha hb
        have heq : sameKey ke k' = true :=
          (keyEqv_iff hk hke h1).mp ⟨by simpa using ha, by simpa using hb⟩
        rw [valueOf_cons, valueOf_cons, sameKey_trans (c := key) heq]
        split <;> rfl

/-- Entry lists with pairwise equivalent keys and related values are related as functions. -/
theorem valueOf_related {kk : Kind} (hk : mapKey kk) {R : Val → Val → Prop}
    {a b : List (Scalar × Val)} (hl : a.length = b.length) (ha : ∀ e ∈ a, kk.holds e.1)
    (hb : ∀ e ∈ b, kk.holds e.1)
    (hkey : ∀ (i : Nat) (x y : Scalar × Val), a[i]? = some x → b[i]? = some y → keyEqv kk x.1 y.1)
    (hval : ∀ (i : Nat) (x y : Scalar × Val), a[i]? = some x → b[i]? = some y → R x.2 y.2)
    (key : Scalar) : optRel R (valueOf key a) (valueOf key b) := by
  induction a generalizing b with
  | nil => cases b with
    | nil => simp [valueOf, optRel]
    | cons => simp at hl
  | cons x a ih =>
    cases b with
    | nil => simp at hl
    | cons y b =>
      obtain ⟨kx, vx⟩ := x
      obtain ⟨ky, vy⟩ := y
      have h0 := hkey 0 (kx, vx) (ky, vy) rfl rfl
      have h1 := (keyEqv_iff hk (ha _ (by simp)) (hb _ (by simp))).mp h0
      rw [valueOf_cons, valueOf_cons, sameKey_trans (c := key) h1]
      split
      · exact hval 0 (kx, vx) (ky, vy) rfl rfl
      · exact ih (by simpa using hl) (fun e he => ha e (by simp [he])) (fun e he => hb e (by simp [he]))
          (fun i x y hx hy => hkey (i + 1) x y hx hy) (fun i x y hx hy => hval (i + 1) x y hx hy)

/-! ### Records of one field -/

section
variable {env : Env} {Sub : Nat → Bytes → Obj → Prop} {m : Nat}

/-- Records of one field, behind each other, change only that field. -/
theorem stream_of_fieldRecs {i : Nat} {f : Field} (hf : (env.sch m)[i]? = some f) {bss : List Bytes}
    {v v' : Val} (h : FieldRecs env Sub f bss v v') {o : Obj} (ho : o[i]? = some v) :
    Stream env Sub m bss.flatten o (o.set i v') := by
  induction h generalizing o with
  | nil v =>
    have : o.set i v = o := by
      apply List.ext_getElem?
      intro j
      rw [List.getElem?_set]
      split
      · rename_i hij; subst hij
        have := List.getElem?_eq_some_iff.mp ho
        simp [this.1, this.2]
      · rfl
    rw [this]; exact .nil o
  | @cons bs rs v v1 v2 hr _ ih =>
    obtain ⟨hdr, payload, wt, w, rfl, ht, he, rfl⟩ := hr
    have hlt := (List.getElem?_eq_some_iff.mp ho).1
    have := ih (o := o.set i (store f.ty v w)) (by simp [hlt])
    rw [List.set_set] at this
    exact .known hf ht ho he this

theorem stream_append {bs1 bs2 : Bytes} {o o1 o2 : Obj} (h1 : Stream env Sub m bs1 o o1)
    (h2 : Stream env Sub m bs2 o1 o2) : Stream env Sub m (bs1 ++ bs2) o o2 := by
  induction h1 with
  | nil o => exact h2
  | known hf ht ho he _ ih => rw [List.append_assoc]; exact .known hf ht ho he (ih h2)
  | unknown hn ht hs _ ih => rw [List.append_assoc]; exact .unknown hn ht hs (ih h2)

theorem fieldRecs_enums {f : Field} (hty : f.ty = .enumList) {bss : List Bytes}
    {ess : List (List (BitVec 32))} (h : Each (EnumsRecord f.num) bss ess)
    (old : List (BitVec 32)) : FieldRecs env Sub f bss (.enumList old) (.enumList (old ++ ess.flatten)) := by
  induction h generalizing old with
  | nil => simpa using FieldRecs.nil _
  | @cons bs es bss ess hr _ ih =>
    obtain ⟨hdr, l, body, rfl, ht, hl, he⟩ := hr
    refine .cons ⟨hdr, l ++ body, 2, .enumList (old ++ es), rfl, ht, ?_, rfl⟩ ?_
    · rw [hty]; exact .enums old hl he
    · rw [hty]
      have := ih (old ++ es)
      simpa [store] using this

theorem fieldRecs_elements {f : Field} {k : Kind} (hk : k = .string ∨ k = .bytes) (hty : f.ty = .list k)
    {bss : List Bytes} {vs : List Scalar} (h : Each (ElementRecord env f.num k) bss vs)
    (old : List Scalar) : FieldRecs env Sub f bss (.scList old) (.scList (old ++ vs)) := by
  induction h generalizing old with
  | nil => simpa using FieldRecs.nil _
  | @cons bs s bss vs hr _ ih =>
    obtain ⟨hdr, payload, rfl, ht, he⟩ := hr
    refine .cons ⟨hdr, payload, 2, .scList (old ++ [s]), rfl, ht, ?_, rfl⟩ ?_
    · rw [hty]; exact .append old hk he
    · rw [hty, store_list_ne (by simp)]
      have := ih (old ++ [s])
      simpa using this

theorem fieldRecs_messages {f : Field} {m' : Nat} (hty : f.ty = .msgList m')
    {bss : List Bytes} {os : List Obj} (h : Each (MessageRecord Sub f.num m') bss os)
    (old : List Val) : FieldRecs env Sub f bss (.msgList old) (.msgList (old ++ os.map .msg)) := by
  induction h generalizing old with
  | nil => simpa using FieldRecs.nil _
  | @cons bs o bss os hr _ ih =>
    obtain ⟨hdr, l, body, rfl, ht, hl, he⟩ := hr
    refine .cons ⟨hdr, l ++ body, 2, .msgList (old ++ [.msg o]), rfl, ht, ?_, rfl⟩ ?_
    · rw [hty]; exact .msgList old hl he
    · rw [hty]
      have := ih (old ++ [.msg o])
      simpa [store] using this

/-- Several packed records: the list compares equal to the elements of the last one. -/
theorem fieldRecs_packed {f : Field} {k : Kind} (hk : packable k) (hty : f.ty = .list k)
    {bss : List Bytes} {vss : List (List Scalar)} (h : Each (PackedRecord env f.num k) bss vss)
    {bs : Bytes} {vs : List Scalar} (hlast : PackedRecord env f.num k bs vs) (old : List Scalar) :
    ∃ l, FieldRecs env Sub f (bss ++ [bs]) (.scList old) (.scList l) ∧
      (l = vs ∨ scalarListEq k l vs = true) := by
  induction h generalizing old with
  | nil =>
    obtain ⟨hdr, l, body, rfl, ht, hl, he⟩ := hlast
    refine ⟨if scalarListEq k old vs = true then old else vs, ?_, ?_⟩
    · refine .cons ⟨hdr, l ++ body, 2, .scList vs, rfl, ht, ?_, rfl⟩ ?_
      · rw [hty]; exact .packed _ hk hl he
      · rw [hty]; simp only [store]
        split <;> exact .nil _
    · split
      · rename_i h; exact Or.inr h
      · exact Or.inl rfl
  | @cons bs' vs' bss vss hr _ ih =>
    obtain ⟨hdr, l, body, rfl, ht, hl, he⟩ := hr
    obtain ⟨r, h1, h2⟩ := ih (if scalarListEq k old vs' = true then old else vs')
    refine ⟨r, .cons ⟨hdr, l ++ body, 2, .scList vs', rfl, ht, ?_, rfl⟩ ?_, h2⟩
    · rw [hty]; exact .packed _ hk hl he
    · rw [hty]; simp only [store]
      split <;> simp_all

theorem reads_holds {k : Kind} {bs : Bytes} {s : Scalar} (h : Reads env k bs s) : k.holds s := by
  cases h with
  | fixed32 hk => rcases hk with rfl | rfl | rfl <;> rfl
  | fixed64 hk => rcases hk with rfl | rfl | rfl <;> rfl
  | _ => rfl

theorem entry_holds {kk : Kind} {vt : MapVal} {body : Bytes} {kv kv' : Scalar × Val}
    (h : Entry env Sub kk vt body kv kv') (hk : kk.holds kv.1) : kk.holds kv'.1 := by
  induction h with
  | nil => exact hk
  | key _ hr _ ih => exact ih (reads_holds hr)
  | val _ _ _ ih => exact ih hk

theorem entry_scalar {kk vk : Kind} {body : Bytes} {kv kv' : Scalar × Val}
    (h : Entry env Sub kk (.scalar vk) body kv kv') (hk : ∃ s, kv.2 = .sc s) : ∃ s, kv'.2 = .sc s := by
  induction h with
  | nil => exact hk
  | key _ _ _ ih => exact ih hk
  | val _ hr _ ih => cases hr; exact ih ⟨_, rfl⟩

theorem mapInsert_scalars {kk : Kind} {key : Scalar} {s : Scalar} {es : List (Scalar × Val)}
    (h : ∀ e ∈ es, ∃ s, e.2 = .sc s) : ∀ e ∈ mapInsert kk key (.sc s) es, ∃ s, e.2 = .sc s := by
  induction es with
  | nil => simp [mapInsert]
  | cons e es ih =>
    obtain ⟨ke, ve⟩ := e
    have h0 := h (ke, ve) (by simp)
    have hr := ih fun e he => h e (by simp [he])
    unfold mapInsert
    split
    · intro e he
      rcases List.mem_cons.mp he with rfl | he
      · exact h0
      · exact hr e he
    · split
      · intro e he
        rcases List.mem_cons.mp he with rfl | he
        · exact ⟨s, rfl⟩
        · exact h e he
      · intro e he
        rcases List.mem_cons.mp he with rfl | he
        · exact ⟨s, rfl⟩
        · exact h e (by simp [he])

theorem mapEnumEq_enums {kk : Kind} {a b : List (Scalar × Val)} (h : mapEnumEq kk a b = true) :
    (∀ e ∈ a, ∃ s, e.2 = .enum s) ∧ ∀ e ∈ b, ∃ s, e.2 = .enum s := by
  induction a generalizing b with
  | nil => cases b <;> simp_all [mapEnumEq]
  | cons x a ih =>
    obtain ⟨kx, vx⟩ := x
    cases b with
    | nil => cases vx <;> simp [mapEnumEq] at h
    | cons y b =>
      obtain ⟨ky, vy⟩ := y
      cases vx <;> cases vy <;> simp [mapEnumEq] at h
      obtain ⟨h1, h2⟩ := ih h.2
      exact ⟨by simpa using h1, by simpa using h2⟩

theorem lastValueOf_snoc (key k' : Scalar) (v : Val) (es : List (Scalar × Val)) :
    lastValueOf key (es ++ [(k', v)]) = if sameKey k' key = true then some v else lastValueOf key es := by
  simp [lastValueOf, valueOf_cons]

/-- Several map records: every key has the value of its last entry. -/
theorem fieldRecs_entries {f : Field} {kk : Kind} {vt : MapVal} (hkk : mapKey kk)
    (hty : f.ty = .map kk vt) {bss : List Bytes} {kvs : List (Scalar × Val)}
    (h : Each (EntryRecord env Sub f.num kk vt) bss kvs) :
    ∀ (old hist : List (Scalar × Val)), SortedKeys kk old →
      (∀ vk, vt = .scalar vk → ∀ e ∈ old, ∃ s, e.2 = .sc s) →
      (∀ key, kk.holds key → optRel (sameValue env (MapVal.toTy vt)) (valueOf key old) (lastValueOf key hist)) →
    ∃ es, FieldRecs env Sub f bss (.map old) (.map es) ∧ SortedKeys kk es ∧
      (∀ key, kk.holds key →
        optRel (sameValue env (MapVal.toTy vt)) (valueOf key es) (lastValueOf key (hist ++ kvs))) := by
  induction h with
  | nil => intro old hist hs _ hv; exact ⟨old, .nil _, hs, by simpa using hv⟩
  | @cons bs kv bss kvs hr _ ih =>
    intro old hist hs hsc hv
    obtain ⟨hdr, l, body, rfl, ht, hl, he⟩ := hr
    have hd : kk.holds (emptyEntry kk vt).1 := by
      cases vt <;> exact default_holds kk
    have hkey : kk.holds kv.1 := entry_holds he hd
    have hs' := (mapInsert_sorted (v := kv.2) hkey hs).1
    have hv' : ∀ key, kk.holds key → optRel (sameValue env (MapVal.toTy vt))
        (valueOf key (mapInsert kk kv.1 kv.2 old)) (lastValueOf key (hist ++ [kv])) := by
      intro key hk
      rw [valueOf_mapInsert hkk hs hkey, show kv = (kv.1, kv.2) from rfl, lastValueOf_snoc]
      split
      · exact Or.inl rfl
      · exact hv key hk
    have hrec : FieldRecord env Sub f (hdr ++ (l ++ body)) (.map old)
        (store f.ty (.map old) (.map (mapInsert kk kv.1 kv.2 old))) :=
      ⟨hdr, l ++ body, 2, _, rfl, ht, hty ▸ .map old hl he, rfl⟩
    have hcont : ∀ mid : List (Scalar × Val),
        store f.ty (.map old) (.map (mapInsert kk kv.1 kv.2 old)) = .map mid → SortedKeys kk mid →
        (∀ vk, vt = .scalar vk → ∀ e ∈ mid, ∃ s, e.2 = .sc s) →
        (∀ key, kk.holds key → optRel (sameValue env (MapVal.toTy vt)) (valueOf key mid)
          (lastValueOf key (hist ++ [kv]))) →
        ∃ es, FieldRecs env Sub f ((hdr ++ (l ++ body)) :: bss) (.map old) (.map es) ∧ SortedKeys kk es ∧
          (∀ key, kk.holds key → optRel (sameValue env (MapVal.toTy vt)) (valueOf key es)
            (lastValueOf key (hist ++ kv :: kvs))) := by
      intro mid h1 h2 h3 h4
      obtain ⟨es, e1, e2, e3⟩ := ih mid (hist ++ [kv]) h2 h3 h4
      exact ⟨es, .cons (h1 ▸ hrec) e1, e2, by simpa using e3⟩
    rw [hty] at hcont
    cases vt with
    | enum =>
      by_cases hc : mapEnumEq kk old (mapInsert kk kv.1 kv.2 old) = true
      · refine hcont old (by simp [store, hc]) hs (by simp) ?_
        intro key hk
        obtain ⟨hold, hnew⟩ := mapEnumEq_enums hc
        obtain ⟨hl1, hl2⟩ := (mapEnumEq_iff hold hnew).mp hc
        have hrel : optRel (fun a b => a = b) (valueOf key old) (valueOf key (mapInsert kk kv.1 kv.2 old)) :=
          valueOf_related hkk hl1 hs.1 hs'.1 (fun i x y hx hy => (hl2 i x y hx hy).1)
            (fun i x y hx hy => (hl2 i x y hx hy).2) key
        have hv1 := hv' key hk
        revert hrel hv1
        cases valueOf key old <;> cases valueOf key (mapInsert kk kv.1 kv.2 old) <;>
          cases lastValueOf key (hist ++ [kv]) <;> simp only [optRel, imp_self, implies_true, false_implies,
            imp_false]
        · rintro rfl h2
          exact h2
      · exact hcont _ (by simp [store, hc]) hs' (by simp) hv'
    | msg m' => exact hcont _ rfl hs' (by simp) hv'
    | scalar vk =>
      have hold := hsc vk rfl
      obtain ⟨s, hsv⟩ := entry_scalar he ⟨defaultScalar vk, rfl⟩
      have hnew : ∀ e ∈ mapInsert kk kv.1 kv.2 old, ∃ s, e.2 = .sc s := by
        rw [hsv]; exact mapInsert_scalars hold
      by_cases hc : mapScalarEq kk vk old (mapInsert kk kv.1 kv.2 old) = true
      · refine hcont old (by simp [store, hc]) hs hsc ?_
        intro key hk
        obtain ⟨hl1, hl2⟩ := (mapScalarEq_iff hold hnew).mp hc
        have hrel : optRel (sameValue env (.scalar vk)) (valueOf key old)
            (valueOf key (mapInsert kk kv.1 kv.2 old)) :=
          valueOf_related hkk hl1 hs.1 hs'.1 (fun i x y hx hy => (hl2 i x y hx hy).1)
            (fun i x y hx hy => by
              obtain ⟨-, s, t, e1, e2, e3⟩ := hl2 i x y hx hy
              rw [e1, e2]; exact Or.inr (.sc e3)) key
        have hv1 := hv' key hk
        revert hrel hv1
        cases valueOf key old <;> cases valueOf key (mapInsert kk kv.1 kv.2 old) <;>
          cases lastValueOf key (hist ++ [kv]) <;> simp only [optRel, imp_self, implies_true, false_implies,
            imp_false]
        · intro h1 h2
          rcases h1 with rfl | h1
          · exact h2
          · rcases h2 with rfl | h2
            · exact Or.inr h1
            · right
              cases h1 with
              | sc h1 => cases h2 with | sc h2 => exact .sc (scalarEq_trans h1 h2)
      · exact hcont _ (by simp [store, hc]) hs' (fun _ _ => hnew) hv'

end

end QtPb
