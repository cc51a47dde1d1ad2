import Verif.FieldLemmas
import Verif.PropsMessage
/-
Property theorems about encodings as sequences of records: C06 to C12, C14, C15, C18, C19.

`deserializeMessage env n m data` is the object a default constructed target is filled with, and the
outcome; `deserialize env n k m data old` is the public call on a target that held `old`.
-/
namespace QtPb
open Spec

variable {env : Env}

/-! ### C08 -/

/-- C08: decoding a concatenation of well formed records (of any number and depth) succeeds and gives
the default message with the per-record rule `FieldEffect` applied from left to right. -/
theorem C08_left_to_right (hv : ValidSchema env) {d m n : Nat} {bs : Bytes} {o : Obj}
    (h : Stream env (Message env d) m bs (defaultObj env m) o) (hlen : bs.length < 2 ^ 31)
    (hn : bs.length < n) : deserializeMessage env n m bs = (.ok (), o) :=
  deserializeMessage_of_message (d := d + 1) hv h hlen hn

/-- C08 for an arbitrary target of the public `deserialize`: it is left as a copy of that object. -/
theorem C08_target (hv : ValidSchema env) (hm : NoMessageMaps env) {d m n : Nat} {bs : Bytes} {o old : Obj}
    (h : Stream env (Message env d) m bs (defaultObj env m) o) (hlen : bs.length < 2 ^ 31)
    (hn : bs.length < n) (hold : Safe env (.msg m) (.msg old)) :
    ∃ K, ∀ k, K ≤ k → ∃ r, deserialize env n k m bs old = ⟨.ok (), .ok r⟩ ∧
      Mirrors env (.msg m) (.msg r) (.msg o) := by
  have h1 := C08_left_to_right hv h hlen hn
  have hs : Safe env (.msg m) (.msg o) := by
    have := deserializeMessage_safe hm n m bs
    rwa [h1] at this
  obtain ⟨K, hK⟩ := target_any hm h1 hs hold
  exact ⟨K, fun k hk => by obtain ⟨r, h2, h3, _⟩ := hK k hk; exact ⟨r, h2, h3⟩⟩

/-- Records 1: 5, 1: 7 (the last one wins) and an unknown field 12. -/
example : Stream demoEnv (Message demoEnv 0) 0
    ([0x08] ++ [0x05] ++ ([0x08] ++ [0x07] ++ ([0x65] ++ [1, 2, 3, 4] ++ [])))
    (defaultObj demoEnv 0) ((defaultObj demoEnv 0).set 0 (.sc (.w32 7#32))) :=
  Stream.known (wt := 0) (i := 0) (f := ⟨1, .scalar .int32⟩) rfl
    (tag1 8 1 0 (by decide) (by decide) (by decide)) rfl
    (.scalar _ (.int32 (varint1 5 5 (by decide) (by decide))))
  (Stream.known (wt := 0) (i := 0) (f := ⟨1, .scalar .int32⟩) rfl
    (tag1 8 1 0 (by decide) (by decide) (by decide)) rfl
    (.scalar _ (.int32 (varint1 7 7 (by decide) (by decide))))
  (Stream.unknown (num := 12) (wt := 5) (by decide)
    (tag1 0x65 12 5 (by decide) (by decide) (by decide)) (.fixed32 rfl) (.nil _)))

/-! ### C06 -/

theorem recs_field (hv : ValidSchema env) {d m i : Nat} {f : Field} {rs : List (Nat × Bytes)} {o : Obj}
    (hf : (env.sch m)[i]? = some f) (h : Recs env (Message env d) m rs (defaultObj env m) o) :
    ∃ v, o[i]? = some v ∧ FieldRecs env (Message env d) f (ofField f.num rs) (defaultVal f.ty) v := by
  have hlen : (defaultObj env m).length = (env.sch m).length := by simp [defaultObj]
  obtain ⟨h1, -, h3⟩ := (recs_iff (hv m).1 hlen).mp h
  have hi : i < o.length := by
    rw [h1, hlen]; exact (List.getElem?_eq_some_iff.mp hf).1
  have h0 : (defaultObj env m)[i]? = some (defaultVal f.ty) := by simp [defaultObj, hf]
  exact ⟨o[i], by simp [hi], h3 i f _ _ hf h0 (by simp [hi])⟩

theorem default_proto3 (ty : FieldTy) : proto3Default ty (defaultVal ty) := by
  cases ty with
  | scalar k => cases k <;> simp [defaultVal, proto3Default, defaultScalar, scalarDefault]
  | _ => simp [defaultVal, proto3Default]

/-- C06, decoding: whatever well formed records an encoding consists of, a field of which it has no
record has its proto3 default afterwards. -/
theorem C06_absent_field (hv : ValidSchema env) {d m n i : Nat} {f : Field} {rs : List (Nat × Bytes)}
    {o : Obj} (hf : (env.sch m)[i]? = some f) (h : Recs env (Message env d) m rs (defaultObj env m) o)
    (habs : ∀ bs, (f.num, bs) ∉ rs) (hlen : (bytesOf rs).length < 2 ^ 31) (hn : (bytesOf rs).length < n) :
    ∃ v, deserializeMessage env n m (bytesOf rs) = (.ok (), o) ∧ o[i]? = some v ∧
      proto3Default f.ty v := by
  obtain ⟨v, h1, h2⟩ := recs_field hv hf h
  refine ⟨v, C08_left_to_right hv (stream_of_recs h) hlen hn, h1, ?_⟩
  have : ofField f.num rs = [] := by
    rw [List.eq_nil_iff_forall_not_mem]
    intro bs hbs
    exact habs bs (ofField_mem.mp hbs)
  rw [this] at h2
  cases h2
  exact default_proto3 f.ty

theorem encodeHeader_ne_nil (num wt : Nat) : encodeHeader num wt ≠ [] := by
  have := (serializeVarintCommon_varint (w := 32) (by omega) (by omega)
    (v := ((num <<< 3) ||| wt) % 2 ^ 32) (Nat.mod_lt _ (by omega))).1.ne_nil
  exact this

theorem withHeader_nil {num wt : Nat} {r : Bytes × Int} :
    withHeader num wt r = [] ↔ r = ([], notUsed) := by
  obtain ⟨b, i⟩ := r
  simp only [withHeader]
  split
  · rename_i h; simp_all
  · rename_i h
    have := encodeHeader_ne_nil num wt
    simp_all

theorem unsigned_nil {w : Nat} (hw : 0 < w) (hw' : w ≤ 64) {v : Nat} (hv : v < 2 ^ w) (num : Nat) :
    serializeUnsigned w v (num : Int) = ([], notUsed) ↔ v = 0 := by
  rcases unsigned_cases w hw hw' v hv num with ⟨h1, h2⟩ | ⟨h1, h2, h3⟩
  · exact ⟨fun _ => h1, fun _ => h2⟩
  · constructor
    · intro h; rw [h] at h2; exact absurd h2.symm (natCast_ne_notUsed num)
    · intro h; exact absurd h h1

theorem scalarField_nil (env : Env) {k : Kind} {s : Scalar} (hs : k.holds s) (num : Nat) :
    serializeScalarField env num k s = [] ↔ scalarOmitted k s := by
  have hb : ∀ {w : Nat} (b : BitVec w), b.toNat = 0 ↔ b = 0#w := fun b => by
    constructor
    · intro h; exact BitVec.eq_of_toNat_eq (by simp [h])
    · intro h; simp [h]
  have hz : ∀ {w : Nat} (_ : 0 < w) (b : BitVec w), (zigzag b).toNat = 0 ↔ b = 0#w := fun hw b => by
    constructor
    · exact zigzag_eq_zero hw
    · intro h; subst h; simp [zigzag]
  rw [serializeScalarField, withHeader_nil, serializeWrapper]
  have hnn := natCast_ne_notUsed num
  cases k <;> cases s <;> simp only [Kind.holds, Bool.false_eq_true] at hs <;>
    first
    | (simp only [Scalar.isNull, Bool.false_eq_true, if_false, serializeBasic, scalarOmitted,
        Prod.mk.injEq, hnn, and_false]; done)
    | (simp only [Scalar.isNull, Bool.false_eq_true, if_false, serializeBasic, scalarOmitted]
       rename_i b
       first
       | rw [unsigned_nil (by omega) (by omega) b.isLt, hb]
       | rw [unsigned_nil (by omega) (by omega) (zigzag b).isLt, hz (by omega)])
    | skip
  · rename_i b
    simp only [Scalar.isNull, Bool.false_eq_true, if_false, serializeBasic, scalarOmitted]
    rw [unsigned_nil (by omega) (by omega) (by cases b <;> decide)]
    cases b <;> simp
  · rename_i b
    cases b <;> simp [Scalar.isNull, serializeBasic, scalarOmitted, hnn]
  · rename_i b
    cases b <;> simp [Scalar.isNull, serializeBasic, scalarOmitted, hnn]

theorem frameObject_ne_nil (num : Nat) (b r : Bytes) : frameObject num b ++ r ≠ [] := by
  have := encodeHeader_ne_nil num wtLengthDelimited
  simp [frameObject, this]

theorem listType_nil (env : Env) (k : Kind) (l : List Scalar) (num wt : Nat) :
    withHeader num wt (serializeListType env k l num) = [] ↔ l = [] := by
  rw [withHeader_nil]
  cases l with
  | nil => simp [serializeListType]
  | cons a l =>
    have h1 := encodeHeader_ne_nil num wtLengthDelimited
    have h2 := natCast_ne_notUsed num
    simp only [serializeListType, List.isEmpty_cons, Bool.false_eq_true, if_false, reduceCtorEq, iff_false]
    split
    · simp [serializeDelimitedElems, h1]
    · simp [serializeDelimitedElems, h1]
    · simp [h2]

/-- C06, encoding: a property is not written at all exactly when its value is one of those listed in
`Spec.omitted`: zero integers, `false`, zero enumerations, null text and bytes, empty lists and maps
(or lists and maps of null pointers only). Floating point and fixed width numbers, non-null text and
bytes and sub-messages are always written. (`rec` serializes nested messages.) -/
theorem C06_omission {rec : Nat → Obj → Res Bytes} {num : Nat} {ty : FieldTy} {v : Val}
    (hty : HasTy env ty v) (hb : ty ≠ .list .bool) :
    serializeProperty env rec num ty v = .ok [] ↔ omitted ty v := by
  cases hty with
  | @sc k s hs =>
    simp only [serializeProperty, Res.ok.injEq, omitted]
    exact scalarField_nil env hs num
  | @scList k l _ =>
    have hh : k.hasListHandler = true := by cases k <;> simp_all [Kind.hasListHandler]
    simp only [serializeProperty, hh, if_true, Res.ok.injEq, omitted]
    exact listType_nil env k l num _
  | enum e =>
    simp only [serializeProperty, Res.ok.injEq, omitted, serializeEnumField, withHeader_nil]
    rw [unsigned_nil (by omega) (by omega) (enumToInt64 e).isLt]
    constructor
    · exact enumToInt64_eq_zero
    · intro h; subst h; rfl
  | enumList l =>
    simp only [serializeProperty, Res.ok.injEq, omitted, serializeEnumListField]
    rw [listType_nil]; simp
  | null m =>
    simp only [serializeProperty, serializeMsgField, omitted, iff_false, Res.bind_eq, Res.bind_eq_ok,
      not_exists, not_and, Res.ok.injEq]
    intro a _ h; exact frameObject_ne_nil num a [] (by simpa using h)
  | msg =>
    simp only [serializeProperty, serializeMsgField, omitted, iff_false, Res.bind_eq, Res.bind_eq_ok,
      not_exists, not_and, Res.ok.injEq]
    intro a _ h; exact frameObject_ne_nil num a [] (by simpa using h)
  | @msgList m l hl =>
    simp only [serializeProperty, omitted]
    induction l with
    | nil => simp [serializeMsgList]
    | cons v l ih =>
      have ih := ih fun v hv => hl v (by simp [hv])
      have hvt := hl v (by simp)
      cases hvt with
      | null => simpa [serializeMsgList] using ih
      | msg =>
        simp only [serializeMsgList, Res.bind_eq, Res.bind_eq_ok, List.mem_cons, forall_eq_or_imp,
          reduceCtorEq, false_and, iff_false, not_exists, not_and, Res.ok.injEq]
        intro a _ b _ h; exact frameObject_ne_nil num a b h
  | @map kk vt es hk hl _ =>
    simp only [serializeProperty, omitted]
    induction es with
    | nil => simp [serializeMap]
    | cons e es ih =>
      have ih := ih (fun v hv => hk v (by simp [hv])) (fun v hv => hl v (by simp [hv]))
        (by rename_i h; exact (List.pairwise_cons.mp h).2)
      obtain ⟨key, v⟩ := e
      have hvt := hl (key, v) (by simp)
      have hne : v ≠ .msgNull → ¬ serializeMap env rec num kk vt ((key, v) :: es) = .ok [] := by
        intro hv
        rw [serializeMap.eq_def]
        split
        · rename_i h; simp at h
        · rename_i h; simp at h; exact absurd h.1.2 hv
        · simp only [Res.bind_eq, Res.bind_eq_ok, not_exists, not_and, Res.ok.injEq]
          intro a _ b _ h; exact frameObject_ne_nil _ _ b h
      by_cases hv : v = .msgNull
      · subst hv; simpa [serializeMap] using ih
      · simp [hne hv, hv]

theorem concatRes_parts {l : List (Res Bytes)} {bs : Bytes} (h : concatRes l = .ok bs) :
    ∃ parts : List Bytes, l = parts.map .ok ∧ bs = parts.flatten := by
  induction l generalizing bs with
  | nil => simp only [concatRes, Res.ok.injEq] at h; exact ⟨[], rfl, by simp [← h]⟩
  | cons x l ih =>
    simp only [concatRes, Res.bind_eq, Res.bind_eq_ok, Res.ok.injEq] at h
    obtain ⟨a, rfl, b, hb, rfl⟩ := h
    obtain ⟨parts, rfl, rfl⟩ := ih hb
    exact ⟨a :: parts, rfl, rfl⟩

/-- C06, encoding of a whole message: the output is the concatenation of one part per field, in the
iteration order of the field table, and the part of a field is empty exactly when its value is one of
those in `Spec.omitted`. -/
theorem C06_message_parts (ho : ValidOrder env) (hb : NoRepeatedBool env) {n m : Nat} {obj : Obj}
    {bs : Bytes} (hobj : WellTyped env m obj) (hs : serializeMessage env n m obj = .ok bs) :
    ∃ part : Nat → Bytes, bs = ((env.ord m).map part).flatten ∧
      ∀ (i : Nat) (f : Field) (v : Val), (env.sch m)[i]? = some f → obj[i]? = some v →
        (part i = [] ↔ omitted f.ty v) := by
  cases n with
  | zero => simp [serializeMessage] at hs
  | succ n =>
    simp only [serializeMessage] at hs
    obtain ⟨parts, h1, h2⟩ := concatRes_parts hs
    let g : Nat → Res Bytes := fun i => match (env.sch m)[i]?, obj[i]? with
      | some f, some v => serializeProperty env (serializeMessage env n) f.num f.ty v
      | _, _ => .ok []
    let part : Nat → Bytes := fun i => match g i with | .ok b => b | _ => []
    have hg : ∀ i ∈ env.ord m, g i = .ok (part i) := by
      intro i hi
      have : g i ∈ (env.ord m).map g := List.mem_map.mpr ⟨i, hi, rfl⟩
      have h1' : (env.ord m).map g = parts.map .ok := h1
      rw [h1'] at this
      obtain ⟨b, _, hb⟩ := List.mem_map.mp this
      simp only [part]
      rw [← hb]
    refine ⟨part, ?_, ?_⟩
    · rw [h2]
      congr 1
      have h1' : (env.ord m).map g = parts.map .ok := h1
      have h3 : (env.ord m).map g = ((env.ord m).map part).map .ok := by
        rw [List.map_map]; exact List.map_congr_left hg
      rw [h1'] at h3
      exact (List.map_inj_right fun a b h => Res.ok.inj h).mp h3
    · intro i f v hf hv
      have hi : i ∈ env.ord m := by
        rw [(ho m).mem_iff]
        exact List.mem_range.mpr (List.getElem?_eq_some_iff.mp hf).1
      have h3 : serializeProperty env (serializeMessage env n) f.num f.ty v = .ok (part i) := by
        have := hg i hi
        simp only [g, hf, hv] at this
        exact this
      have hty : HasTy env f.ty v := by
        cases hobj with | msg _ h => exact h i f v hf hv
      have := C06_omission (rec := serializeMessage env n) (num := f.num) hty
        (hb m f (List.mem_of_getElem? hf))
      rw [h3, Res.ok.injEq] at this
      exact this

example : HasTy demoEnv (.list .sint32) (.scList [.w32 0#32]) ∧ ¬ omitted (.list .sint32) (.scList [.w32 0#32]) ∧
    omitted .enum (.enum 0#32) ∧ ¬ omitted (.scalar .double) (.sc (.w64 0#64)) := by
  refine ⟨.scList (by simp [Kind.holds]), by simp [omitted], by simp [omitted], by simp [omitted, scalarOmitted]⟩

/-! ### C07 -/

/-- C07: inserting unknown records anywhere between the records of a valid encoding does not change the
result of `deserialize`, whatever the target held. -/
theorem C07_unknown_skipped (hv : ValidSchema env) {d m n k : Nat} {rs rs' : List (Nat × Bytes)} {o : Obj}
    (h : Recs env (Message env d) m rs (defaultObj env m) o) (hi : Inserted env m rs rs')
    (hlen : (bytesOf rs).length < 2 ^ 31) (hn : (bytesOf rs).length < n)
    (hlen' : (bytesOf rs').length < 2 ^ 31) (hn' : (bytesOf rs').length < n) (old : Obj) :
    deserializeMessage env n m (bytesOf rs') = (.ok (), o) ∧
    deserialize env n k m (bytesOf rs') old = deserialize env n k m (bytesOf rs) old := by
  have h1 := C08_left_to_right hv (stream_of_recs h) hlen hn
  have h2 := C08_left_to_right hv (stream_of_recs (recs_inserted hi h)) hlen' hn'
  exact ⟨h2, by simp [deserialize, h1, h2]⟩

example : UnknownRecord demoEnv 1 9 [0x4a, 2, 0xff, 0xff] :=
  ⟨by decide, [0x4a], [2, 0xff, 0xff], 2, rfl, tag1 0x4a 9 2 (by decide) (by decide) (by decide),
    .delimited (l := [2]) (body := [0xff, 0xff]) (varint1 2 2 (by decide) (by decide))⟩

/-! ### C09 -/

/-- C09: two encodings that have, for every field number, the same records in the same order decode to
the same message, whatever the order of records of different fields. -/
theorem C09_field_order (hv : ValidSchema env) {d m n k : Nat} {rs rs' : List (Nat × Bytes)} {o : Obj}
    (h : Recs env (Message env d) m rs (defaultObj env m) o)
    (hsame : ∀ num, ofField num rs' = ofField num rs)
    (hlen : (bytesOf rs).length < 2 ^ 31) (hn : (bytesOf rs).length < n)
    (hlen' : (bytesOf rs').length < 2 ^ 31) (hn' : (bytesOf rs').length < n) (old : Obj) :
    deserializeMessage env n m (bytesOf rs') = (.ok (), o) ∧
    deserialize env n k m (bytesOf rs') old = deserialize env n k m (bytesOf rs) old := by
  have h1 := C08_left_to_right hv (stream_of_recs h) hlen hn
  have hl : (defaultObj env m).length = (env.sch m).length := by simp [defaultObj]
  have h2 := C08_left_to_right hv (stream_of_recs (recs_reorder (hv m).1 hl hsame h)) hlen' hn'
  exact ⟨h2, by simp [deserialize, h1, h2]⟩

example : ∀ num, ofField num [(2, [5]), (1, [3]), (1, [4])] = ofField num [(1, [3]), (2, [5]), (1, [4])] := by
  intro num
  by_cases h1 : num = 1
  · subst h1; decide
  · by_cases h2 : num = 2
    · subst h2; decide
    · simp [ofField, Ne.symm h1, Ne.symm h2]

/-! ### C10 -/

theorem arrivesList_each {m : Nat} {l l' : List Val} (h : ArrivesList env m l l') :
    Each (Arrives env (.msg m)) (l.filter fun v => match v with | .msg _ => true | _ => false) l' := by
  induction l generalizing l' with
  | nil => cases h; exact .nil
  | cons v l ih =>
    cases h with
    | null h => simpa using ih h
    | cons h1 h2 => simpa using Each.cons h1 (ih h2)

/-- C10: after a round trip every repeated field has the same length, the same elements and the same
order (zero elements included; null message pointers are dropped). -/
theorem C10_repeated (hv : ValidSchema env) (ho : ValidOrder env) {n m : Nat} {obj : Obj}
    {bs : Bytes} (hobj : WellTyped env m obj) (hs : serializeMessage env n m obj = .ok bs)
    (hlen : bs.length < 2 ^ 31) {k : Nat} (hk : bs.length < k) :
    ∃ o', deserializeMessage env k m bs = (.ok (), o') ∧
      ∀ (i : Nat) (f : Field) (v : Val), (env.sch m)[i]? = some f → obj[i]? = some v →
        ∃ v', o'[i]? = some v' ∧ RepeatedArrives env f.ty v v' := by
  obtain ⟨o', h1, h2⟩ := C01_roundtrip_exact hv ho hobj hs hlen hk
  refine ⟨o', h1, fun i f v hf hv => ?_⟩
  cases h2 with
  | msg hl h =>
    have hi : i < o'.length := by rw [hl]; exact (List.getElem?_eq_some_iff.mp hf).1
    refine ⟨o'[i], by simp [hi], ?_⟩
    have := h i f v _ hf hv (show o'[i]? = some o'[i] by simp [hi])
    generalize o'[i] = v' at this
    generalize f.ty = ty at this
    cases this with
    | scList k l =>
      simp only [RepeatedArrives]
      clear hv
      induction l with
      | nil => exact .nil
      | cons s l ih =>
        refine .cons ?_ ih
        cases s <;> simp [elementArrives, transmitted]
    | enumList => rfl
    | msgList hl => exact arrivesList_each hl
    | map =>
      generalize insertAll _ _ _ _ = w
      cases w <;> trivial
    | _ => trivial

example : WellTyped demoEnv 3 [.sc (.w32 0#32), .msgList [.msg [.sc (.w32 1#32), .msgList []], .msgNull]] ∧
    ∃ bs, serializeMessage demoEnv 3 3 [.sc (.w32 0#32),
      .msgList [.msg [.sc (.w32 1#32), .msgList []], .msgNull]] = .ok bs := by
  refine ⟨.msg rfl fun i f v hf hv => ?_, _, rfl⟩
  match i with
  | 0 => cases hf; cases hv; exact .sc rfl
  | 1 =>
    cases hf; cases hv
    refine .msgList fun v hv => ?_
    simp only [List.mem_cons, List.not_mem_nil, or_false] at hv
    rcases hv with rfl | rfl
    · refine .msg rfl fun i f v hf hv => ?_
      match i with
      | 0 => cases hf; cases hv; exact .sc rfl
      | 1 => cases hf; cases hv; exact .msgList (by simp)
      | _ + 2 => simp [demoEnv, demoSch] at hf
    · exact .null 3
  | _ + 2 => simp [demoEnv, demoSch] at hf

/-! ### C11 -/

theorem field_records (hv : ValidSchema env) {d m n i : Nat} {f : Field} {pre : Bytes} {bss : List Bytes}
    {o : Obj} {v v' : Val} (hf : (env.sch m)[i]? = some f)
    (hpre : Stream env (Message env d) m pre (defaultObj env m) o) (ho : o[i]? = some v)
    (h : FieldRecs env (Message env d) f bss v v') (hlen : (pre ++ bss.flatten).length < 2 ^ 31)
    (hn : (pre ++ bss.flatten).length < n) :
    deserializeMessage env n m (pre ++ bss.flatten) = (.ok (), o.set i v') :=
  C08_left_to_right hv (stream_append hpre (stream_of_fieldRecs hf h ho)) hlen hn

/-- Negation of C11: the packed `sint32` list 1, 2 sent in two records `1A 01 02` and `1A 01 04` is
decoded as the list 2. -/
theorem C11_split_violated :
    PackedRecord demoEnv 3 .sint32 [0x1a, 1, 2] [.w32 1#32] ∧
    PackedRecord demoEnv 3 .sint32 [0x1a, 1, 4] [.w32 2#32] ∧
    (deserializeMessage demoEnv 10 0 ([0x1a, 1, 2] ++ [0x1a, 1, 4])).1 = .ok () ∧
    (deserializeMessage demoEnv 10 0 ([0x1a, 1, 2] ++ [0x1a, 1, 4])).2[2]? = some (.scList [.w32 2#32]) := by
  refine ⟨⟨[0x1a], [1], [2], rfl, tag1 0x1a 3 2 (by decide) (by decide) (by decide),
    varint1 1 1 (by decide) (by decide), ?_⟩, ⟨[0x1a], [1], [4], rfl,
    tag1 0x1a 3 2 (by decide) (by decide) (by decide), varint1 1 1 (by decide) (by decide), ?_⟩, rfl, rfl⟩
  · exact .cons (b := [2]) (.sint32 (n := 2) (varint1 2 2 (by decide) (by decide)) (by decide)) .nil
  · exact .cons (b := [4]) (.sint32 (n := 4) (varint1 4 4 (by decide) (by decide)) (by decide)) .nil

/-- What the code does instead of C11, for every packed list field: after any number of packed records
the list is (equal to) the elements of the last record alone. -/
theorem C11_last_record_wins (hv : ValidSchema env) {d m n i : Nat} {f : Field} {k : Kind} {pre : Bytes}
    {bss : List Bytes} {vss : List (List Scalar)} {bs : Bytes} {vs old : List Scalar} {o : Obj}
    (hf : (env.sch m)[i]? = some f) (hty : f.ty = .list k) (hk : packable k)
    (hpre : Stream env (Message env d) m pre (defaultObj env m) o) (ho : o[i]? = some (.scList old))
    (h : Each (PackedRecord env f.num k) bss vss) (hlast : PackedRecord env f.num k bs vs)
    (hlen : (pre ++ (bss ++ [bs]).flatten).length < 2 ^ 31)
    (hn : (pre ++ (bss ++ [bs]).flatten).length < n) :
    ∃ l, deserializeMessage env n m (pre ++ (bss ++ [bs]).flatten) = (.ok (), o.set i (.scList l)) ∧
      sameValue env (.list k) (.scList l) (.scList vs) := by
  obtain ⟨l, h1, h2⟩ := fieldRecs_packed (Sub := Message env d) hk hty h hlast old
  refine ⟨l, field_records hv hf hpre ho h1 hlen hn, ?_⟩
  rcases h2 with rfl | h2
  · exact Or.inl rfl
  · obtain ⟨h3, h4⟩ := scalarListEq_iff.mp h2
    exact Or.inr (.scList h3 h4)

/-- C11, the part that holds: one packed record gives exactly its elements, and repeated enumerations,
strings, byte arrays and messages are concatenated over any number of records. Missing: packed numeric
lists in several records, see `C11_split_violated`. -/
theorem C11_concatenated_partial (hv : ValidSchema env) {d m n i : Nat} {f : Field} {pre : Bytes}
    {bss : List Bytes} {o : Obj} (hf : (env.sch m)[i]? = some f)
    (hpre : Stream env (Message env d) m pre (defaultObj env m) o)
    (hlen : (pre ++ bss.flatten).length < 2 ^ 31) (hn : (pre ++ bss.flatten).length < n) :
    (∀ ess old, f.ty = .enumList → o[i]? = some (.enumList old) → Each (EnumsRecord f.num) bss ess →
      deserializeMessage env n m (pre ++ bss.flatten)
        = (.ok (), o.set i (.enumList (old ++ ess.flatten)))) ∧
    (∀ k vs old, f.ty = .list k → k = .string ∨ k = .bytes → o[i]? = some (.scList old) →
      Each (ElementRecord env f.num k) bss vs →
      deserializeMessage env n m (pre ++ bss.flatten) = (.ok (), o.set i (.scList (old ++ vs)))) ∧
    (∀ m' os old, f.ty = .msgList m' → o[i]? = some (.msgList old) →
      Each (MessageRecord (Message env d) f.num m') bss os →
      deserializeMessage env n m (pre ++ bss.flatten)
        = (.ok (), o.set i (.msgList (old ++ os.map .msg)))) ∧
    (∀ k vs, f.ty = .list k → packable k → o[i]? = some (.scList []) →
      Each (PackedRecord env f.num k) bss [vs] →
      deserializeMessage env n m (pre ++ bss.flatten) = (.ok (), o.set i (.scList vs))) := by
  refine ⟨fun ess old hty ho h => ?_, fun k vs old hty hk ho h => ?_, fun m' os old hty ho h => ?_,
    fun k vs hty hk ho h => ?_⟩
  · exact field_records hv hf hpre ho (fieldRecs_enums hty h old) hlen hn
  · exact field_records hv hf hpre ho (fieldRecs_elements hk hty h old) hlen hn
  · exact field_records hv hf hpre ho (fieldRecs_messages hty h old) hlen hn
  · refine field_records hv hf hpre ho ?_ hlen hn
    cases h with
    | cons h1 h2 =>
      cases h2
      obtain ⟨hdr, l, body, rfl, ht, hl, he⟩ := h1
      refine .cons ⟨hdr, l ++ body, 2, .scList vs, rfl, ht, ?_, rfl⟩ ?_
      · rw [hty]; exact .packed _ hk hl he
      · rw [hty]
        cases vs with
        | nil => simpa [store, scalarListEq] using FieldRecs.nil _
        | cons s vs => rw [store_list_ne (by simp)]; exact .nil _

example : Each (EnumsRecord 11) [[0x5a, 1, 3], [0x5a, 2, 4, 5]] [[3#32], [4#32, 5#32]] := by
  have ht : Tag [0x5a] 11 2 := tag1 0x5a 11 2 (by decide) (by decide) (by decide)
  have he : ∀ (b : UInt8) (n : Nat), b.toNat = n → n < 128 → ReadsEnum [b] (BitVec.ofNat 32 n) :=
    fun b n h h' => ⟨n, varint1 b n h h', rfl⟩
  refine .cons ⟨[0x5a], [1], [3], rfl, ht, varint1 1 1 (by decide) (by decide), ?_⟩
    (.cons ⟨[0x5a], [2], [4, 5], rfl, ht, varint1 2 2 (by decide) (by decide), ?_⟩ .nil)
  · exact .cons (b := [3]) (he 3 3 (by decide) (by decide)) .nil
  · exact .cons (b := [4]) (he 4 4 (by decide) (by decide))
      (.cons (b := [5]) (he 5 5 (by decide) (by decide)) .nil)

/-! ### C12 -/

/-- C12, duplicates and missing parts: after any sequence of entry records (keys may repeat; an entry
without key or value has the default there, see `Spec.emptyEntry`), every key is mapped to the value of
its last entry, and keys without entry are not in the map. -/
theorem C12_last_entry_wins (hv : ValidSchema env) {d m n i : Nat} {f : Field} {kk : Kind} {vt : MapVal}
    {bss : List Bytes} {kvs : List (Scalar × Val)} (hf : (env.sch m)[i]? = some f)
    (hty : f.ty = .map kk vt) (hkk : mapKey kk)
    (h : Each (EntryRecord env (Message env d) f.num kk vt) bss kvs)
    (hlen : bss.flatten.length < 2 ^ 31) (hn : bss.flatten.length < n) :
    ∃ es, deserializeMessage env n m bss.flatten = (.ok (), (defaultObj env m).set i (.map es)) ∧
      ∀ key, kk.holds key →
        optRel (sameValue env (MapVal.toTy vt)) (valueOf key es) (lastValueOf key kvs) := by
  obtain ⟨es, h1, h2, h3⟩ := fieldRecs_entries hkk hty h [] [] ⟨by simp, by simp⟩ (by simp)
    (by simp [valueOf, lastValueOf, optRel])
  have h0 : (defaultObj env m)[i]? = some (.map []) := by simp [defaultObj, hf, hty, defaultVal]
  exact ⟨es, field_records hv hf (.nil _) h0 h1 hlen hn, h3⟩

/-- C12, inserting into a map that already has entries. -/
theorem C12_more_entries (hv : ValidSchema env) {d m n i : Nat} {f : Field} {kk : Kind} {vt : MapVal}
    {pre : Bytes} {o : Obj} {bss : List Bytes} {kvs old : List (Scalar × Val)}
    (hf : (env.sch m)[i]? = some f) (hty : f.ty = .map kk vt) (hkk : mapKey kk)
    (hpre : Stream env (Message env d) m pre (defaultObj env m) o) (ho : o[i]? = some (.map old))
    (hold : HasTy env (.map kk vt) (.map old))
    (h : Each (EntryRecord env (Message env d) f.num kk vt) bss kvs)
    (hlen : (pre ++ bss.flatten).length < 2 ^ 31) (hn : (pre ++ bss.flatten).length < n) :
    ∃ es, deserializeMessage env n m (pre ++ bss.flatten) = (.ok (), o.set i (.map es)) ∧
      ∀ key, kk.holds key →
        optRel (sameValue env (MapVal.toTy vt)) (valueOf key es) (lastValueOf key (old ++ kvs)) := by
  cases hold with
  | map hk hval hs =>
    have hs' : SortedKeys kk old := ⟨hk, hs⟩
    have hsc : ∀ vk, vt = .scalar vk → ∀ e ∈ old, ∃ s, e.2 = .sc s := by
      intro vk hvt e he
      have h1 := hval e he
      rw [hvt] at h1
      generalize e.2 = w at h1
      cases h1 with | sc => exact ⟨_, rfl⟩
    have hdist : ∀ key, kk.holds key → valueOf key old = lastValueOf key old := by
      intro key hkey
      clear ho hn hlen hsc hval
      induction old with
      | nil => rfl
      | cons e es ih =>
        obtain ⟨ke, ve⟩ := e
        rw [valueOf_cons]
        have hp := List.pairwise_cons.mp hs
        have ih := ih (fun e he => hk e (by simp [he])) hp.2
          ⟨fun e he => hk e (by simp [he]), hp.2⟩
        have hsplit : lastValueOf key ((ke, ve) :: es)
            = match lastValueOf key es with
              | some v => some v
              | none => if sameKey ke key = true then some ve else none := by
          simp only [lastValueOf, valueOf, List.reverse_cons, List.find?_append]
          cases List.find? (fun e => sameKey e.1 key) es.reverse with
          | some x => simp
          | none =>
            simp only [Option.none_or, Option.map_none, List.find?_cons, List.find?_nil]
            cases sameKey ke key <;> simp
        rw [hsplit, ← ih]
        split
        · rename_i hsame
          have : valueOf key es = none := by
            refine valueOf_none fun e he => ?_
            cases hc : sameKey e.1 key with
            | false => rfl
            | true =>
              have h1 := hp.1 e he
              have h2 : sameKey ke e.1 = true := by rw [sameKey_trans hsame, sameKey_comm]; exact hc
              have h3 := (keyEqv_iff hkk (hk (ke, ve) (by simp)) (hk e (by simp [he]))).mpr h2
              rw [h3.1] at h1; simp at h1
          simp [this]
        · cases valueOf key es <;> rfl
    obtain ⟨es, h1, h2, h3⟩ := fieldRecs_entries hkk hty h old old hs' hsc (by
      intro key hkey
      rw [hdist key hkey]
      cases lastValueOf key old
      · trivial
      · exact Or.inl rfl)
    exact ⟨es, field_records hv hf hpre ho h1 hlen hn, h3⟩

/-- C12, round trip: every map field arrives with the same keys and the same values. -/
theorem C12_roundtrip (hv : ValidSchema env) (ho : ValidOrder env)
    (hE : env.fromUtf8 (env.toUtf8 []) = []) {n m : Nat} {obj : Obj}
    {bs : Bytes} (hobj : WellTyped env m obj) (hs : serializeMessage env n m obj = .ok bs)
    (hlen : bs.length < 2 ^ 31) {k : Nat} (hk : bs.length < k) :
    ∃ o', deserializeMessage env k m bs = (.ok (), o') ∧
      ∀ (i : Nat) (f : Field) (kk : Kind) (vt : MapVal) (es : List (Scalar × Val)),
        (env.sch m)[i]? = some f → f.ty = .map kk vt → mapKey kk → obj[i]? = some (.map es) →
        Clean env (.map kk vt) (.map es) →
        ∃ es', o'[i]? = some (.map es') ∧ es'.length = es.length ∧ ∀ key, kk.holds key →
          optRel (Same env (MapVal.toTy vt)) (valueOf key es) (valueOf key es') := by
  obtain ⟨o', h1, h2⟩ := C01_roundtrip_exact hv ho hobj hs hlen hk
  refine ⟨o', h1, fun i f kk vt es hf hty hkk hes hc => ?_⟩
  cases h2 with
  | msg hl h =>
    have hi : i < o'.length := by rw [hl]; exact (List.getElem?_eq_some_iff.mp hf).1
    have h3 := h i f _ _ hf hes (show o'[i]? = some o'[i] by simp [hi])
    rw [hty] at h3
    obtain ⟨h4, h5⟩ := arrives_same hE h3 hc
    have ho' : o'[i]? = some o'[i] := by simp [hi]
    generalize o'[i] = w at *
    cases h4 with
    | @map _ _ _ es' hl hkey hval =>
      refine ⟨es', ho', hl.symm, fun key hkey' => ?_⟩
      cases hc with
      | map hk1 _ _ _ =>
        cases h5 with
        | map hk2 _ _ _ =>
          exact valueOf_related hkk hl (fun e he => (hk1 e he).1) hk2
            (fun i x y hx hy => hkey i x y hx hy) (fun i x y hx hy => hval i x y hx hy) key

/-- Two entries for the key "a", one without value. -/
example : Each (EntryRecord demoEnv (Message demoEnv 0) 8 .string (.scalar .int64))
    [[0x42, 5, 0x0a, 1, 97, 0x10, 7], [0x42, 3, 0x0a, 1, 97]]
    [(.str (some ['a']), .sc (.w64 7#64)), (.str (some ['a']), .sc (.w64 0#64))] := by
  have ht : Tag [0x42] 8 2 := tag1 0x42 8 2 (by decide) (by decide) (by decide)
  have hk : Tag [0x0a] 1 (wireType .string) := tag1 0x0a 1 2 (by decide) (by decide) (by decide)
  have hkr : Reads demoEnv .string [1, 97] (.str (some ['a'])) :=
    .string (l := [1]) (body := [97]) (varint1 1 1 (by decide) (by decide))
  have hvt : Tag [0x10] 2 (wireType .int64) := tag1 0x10 2 0 (by decide) (by decide) (by decide)
  have hvr : Reads demoEnv .int64 [7] (.w64 7#64) := .int64 (n := 7) (varint1 7 7 (by decide) (by decide))
  refine .cons ⟨[0x42], [5], _, rfl, ht, varint1 5 5 (by decide) (by decide), ?_⟩
    (.cons ⟨[0x42], [3], _, rfl, ht, varint1 3 3 (by decide) (by decide), ?_⟩ .nil)
  · exact .key (hdr := [0x0a]) (b := [1, 97]) (bs := [0x10, 7]) hk hkr
      (.val (hdr := [0x10]) (b := [7]) (bs := []) hvt (.scalar hvr) (.nil _))
  · exact .key (hdr := [0x0a]) (b := [1, 97]) (bs := []) hk hkr (.nil _)

/-! ### C14 -/

/-- C14: when, behind any valid records, `deserialize` reaches a tag with field number 0 or with wire
type 3, 4, 6 or 7, it throws `std::invalid_argument`, whatever follows. -/
theorem C14_bad_tag (hv : ValidSchema env) {d m n k t : Nat} {pre tag rest : Bytes} {o : Obj}
    (hpre : Stream env (Message env d) m pre (defaultObj env m) o) (ht : Varint tag t)
    (hbad : t % 2 ^ 32 / 8 = 0 ∨ t % 8 = 3 ∨ t % 8 = 4 ∨ t % 8 = 6 ∨ t % 8 = 7)
    (hlen : (pre ++ (tag ++ rest)).length < 2 ^ 31) (hn : (pre ++ (tag ++ rest)).length < n) (old : Obj) :
    deserializeMessage env n m (pre ++ (tag ++ rest)) = (.throw .invalidArgument, o) ∧
    (deserialize env n k m (pre ++ (tag ++ rest)) old).status = .throw .invalidArgument := by
  have h : Fails env (d + 1) m (pre ++ (tag ++ rest)) .invalidArgument o :=
    ⟨pre, tag ++ rest, rfl, hpre, .tag ht hbad⟩
  have := deserializeMessage_of_fails hv h hlen hn
  exact ⟨this, by simp [deserialize, this]⟩

/-- C14 inside sub-messages and map entries of any depth: the exception reaches the caller. -/
theorem C14_nested (hv : ValidSchema env) {d m n k : Nat} {bs : Bytes} {o : Obj}
    (h : Fails env d m bs .invalidArgument o) (hlen : bs.length < 2 ^ 31) (hn : bs.length < n) (old : Obj) :
    deserializeMessage env n m bs = (.throw .invalidArgument, o) ∧
    (deserialize env n k m bs old).status = .throw .invalidArgument := by
  have := deserializeMessage_of_fails hv h hlen hn
  exact ⟨this, by simp [deserialize, this]⟩

/-- A group start tag behind a valid record, inside the sub-message field 6. -/
example : Fails demoEnv 2 0 ([0x08, 5] ++ [0x32, 1, 0x0b]) .invalidArgument
    ((defaultObj demoEnv 0).set 0 (.sc (.w32 5#32))) := by
  refine ⟨[0x08, 5], [0x32, 1, 0x0b], rfl, ?_, ?_⟩
  · exact Stream.known (hdr := [8]) (payload := [5]) (rest := []) (wt := 0) (i := 0)
      (f := ⟨1, .scalar .int32⟩) rfl (tag1 8 1 0 (by decide) (by decide) (by decide)) rfl
      (.scalar _ (.int32 (varint1 5 5 (by decide) (by decide)))) (.nil _)
  · refine .nested (hdr := [0x32]) (l := [1]) (body := [0x0b]) (rest := []) (f := ⟨6, .msg 1⟩) (wt := 2)
      (m' := 1) (by decide) (tag1 0x32 6 2 (by decide) (by decide) (by decide)) (by simp) rfl
      (varint1 1 1 (by decide) (by decide)) ⟨defaultObj demoEnv 1, [], [0x0b], rfl, .nil _, ?_⟩
    exact .tag (tag := [0x0b]) (rest := []) (varint1 0x0b 11 (by decide) (by decide)) (by decide)

/-! ### C15 -/

/-- C15: inputs that end inside a varint. `Fails ... .outOfRange` describes them: valid records, then a
record whose tag, value, length, list element, map key, map value or nested message is cut off (see
the constructors of `Spec.BadRecord` and `Spec.BadEntry`). `deserialize` throws `std::out_of_range`. -/
theorem C15_truncated (hv : ValidSchema env) {d m n k : Nat} {bs : Bytes} {o : Obj}
    (h : Fails env d m bs .outOfRange o) (hlen : bs.length < 2 ^ 31) (hn : bs.length < n) (old : Obj) :
    deserializeMessage env n m bs = (.throw .outOfRange, o) ∧
    (deserialize env n k m bs old).status = .throw .outOfRange := by
  have := deserializeMessage_of_fails hv h hlen hn
  exact ⟨this, by simp [deserialize, this]⟩

/-- C15, cut inside a tag. -/
theorem C15_truncated_tag (hv : ValidSchema env) {d m n k : Nat} {pre tr : Bytes} {o : Obj}
    (hpre : Stream env (Message env d) m pre (defaultObj env m) o) (ht : Truncated tr) (hne : tr ≠ [])
    (hlen : (pre ++ tr).length < 2 ^ 31) (hn : (pre ++ tr).length < n) (old : Obj) :
    deserializeMessage env n m (pre ++ tr) = (.throw .outOfRange, o) ∧
    (deserialize env n k m (pre ++ tr) old).status = .throw .outOfRange :=
  C15_truncated hv (d := d + 1) ⟨pre, tr, rfl, hpre, .truncatedTag ht hne⟩ hlen hn old

/-- C15, cut inside the value or the length of a record: for every type of field whose records start
with a varint (all but floating point, fixed width numbers and the unsupported lists of bool), and for
unknown fields of wire type 0 and 2. -/
theorem C15_truncated_value (hv : ValidSchema env) {d m n k num wt : Nat} {pre hdr tr : Bytes} {o : Obj}
    (hpre : Stream env (Message env d) m pre (defaultObj env m) o) (ht : Tag hdr num wt)
    (hwt : wt = 0 ∨ wt = 1 ∨ wt = 2 ∨ wt = 5)
    (hk : (∃ f ∈ env.sch m, f.num = num ∧ startsWithVarint f.ty = true) ∨
      ((∀ f ∈ env.sch m, f.num ≠ num) ∧ (wt = 0 ∨ wt = 2)))
    (htr : Truncated tr) (hlen : (pre ++ (hdr ++ tr)).length < 2 ^ 31)
    (hn : (pre ++ (hdr ++ tr)).length < n) (old : Obj) :
    deserializeMessage env n m (pre ++ (hdr ++ tr)) = (.throw .outOfRange, o) ∧
    (deserialize env n k m (pre ++ (hdr ++ tr)) old).status = .throw .outOfRange := by
  refine C15_truncated hv (d := d + 1) ⟨pre, hdr ++ tr, rfl, hpre, ?_⟩ hlen hn old
  rcases hk with ⟨f, hf, rfl, hs⟩ | ⟨hu, hw⟩
  · exact .truncatedValue hf ht hwt hs htr
  · rcases hw with rfl | rfl
    · exact .unknownVarint hu ht htr.1
    · exact .unknownLength hu ht htr

/-- C15, cut inside an element of a packed list. -/
theorem C15_truncated_element (hv : ValidSchema env) {d m n k len wt : Nat} {f : Field} {kd : Kind}
    {pre hdr l body tr : Bytes} {vs : List Scalar} {o : Obj}
    (hpre : Stream env (Message env d) m pre (defaultObj env m) o) (hf : f ∈ env.sch m)
    (ht : Tag hdr f.num wt) (hwt : wt = 0 ∨ wt = 1 ∨ wt = 2 ∨ wt = 5) (hty : f.ty = .list kd)
    (hp : packable kd) (hw : wireType kd = 0) (hl : Varint l len) (h1 : body.length < len)
    (h2 : len ≤ (body ++ tr).length) (hr : ReadsAll env kd body vs) (htr : Truncated tr)
    (hlen : (pre ++ (hdr ++ l ++ body ++ tr)).length < 2 ^ 31)
    (hn : (pre ++ (hdr ++ l ++ body ++ tr)).length < n) (old : Obj) :
    deserializeMessage env n m (pre ++ (hdr ++ l ++ body ++ tr)) = (.throw .outOfRange, o) ∧
    (deserialize env n k m (pre ++ (hdr ++ l ++ body ++ tr)) old).status = .throw .outOfRange :=
  C15_truncated hv (d := d + 1)
    ⟨pre, _, rfl, hpre, .packedTruncated hf ht hwt hty hp hw hl h1 h2 hr htr⟩ hlen hn old

/-- The packed list field 3, announced with two bytes, ends inside its second element. -/
example : Fails demoEnv 1 0 ([] ++ ([0x1a] ++ [2] ++ [4] ++ [0x80])) .outOfRange (defaultObj demoEnv 0) :=
  ⟨[], _, rfl, .nil _, .packedTruncated (f := ⟨3, .list .sint32⟩) (wt := 2) (len := 2) (k := .sint32)
    (by decide) (tag1 0x1a 3 2 (by decide) (by decide) (by decide)) (by simp) rfl trivial rfl
    (varint1 2 2 (by decide) (by decide)) (by decide) (by decide)
    (.cons (b := [4]) (bs := []) (.sint32 (n := 4) (varint1 4 4 (by decide) (by decide)) (by decide)) .nil)
    ⟨by decide, by decide⟩⟩

/-! ### C18 -/

/-- C18, for inputs that consist of valid records followed by a bad one (`Spec.Fails`): the exception is
thrown and the decoded object has exactly the effect of the records in front of the bad one; the target
of the public call, whatever it held, is left as a copy of that object.
Missing: inputs with negative lengths (`C18_negative_length_violated`) or other malformed records in front
of the bad one, see `C18_prefix_partial` for those; maps of messages, see `C18_message_map_violated`. -/
theorem C18_failed_partial (hv : ValidSchema env) (hm : NoMessageMaps env) {d m n : Nat} {bs : Bytes}
    {e : Exn} {o old : Obj} (h : Fails env d m bs e o) (hlen : bs.length < 2 ^ 31) (hn : bs.length < n)
    (hold : Safe env (.msg m) (.msg old)) :
    deserializeMessage env n m bs = (.throw e, o) ∧
    ∃ K, ∀ k, K ≤ k → ∃ r, deserialize env n k m bs old = ⟨.throw e, .ok r⟩ ∧
      Mirrors env (.msg m) (.msg r) (.msg o) := by
  have h1 := deserializeMessage_of_fails hv h hlen hn
  have hs : Safe env (.msg m) (.msg o) := by
    have := deserializeMessage_safe hm n m bs
    rwa [h1] at this
  obtain ⟨K, hK⟩ := target_any hm h1 hs hold
  exact ⟨h1, K, fun k hk => by obtain ⟨r, h2, h3, _⟩ := hK k hk; exact ⟨r, h2, h3⟩⟩

/-! ### C19 -/

/-- C19, the part that holds: for schemas without maps of messages, the target after `deserialize`
(success or exception) is a copy of an object that does not depend on what the target held before; if
that object has no NaN, the results for two different targets compare equal.
Missing: bitwise equality (`C19_negative_zero_violated`) and maps of messages
(`C19_message_map_violated`). -/
theorem C19_forgets_partial (hm : NoMessageMaps env) {n m : Nat} {bs : Bytes} {old1 old2 : Obj}
    (h1 : Safe env (.msg m) (.msg old1)) (h2 : Safe env (.msg m) (.msg old2)) :
    ∃ st o K, ∀ k, K ≤ k → ∃ r1 r2,
      deserialize env n k m bs old1 = ⟨st, .ok r1⟩ ∧ deserialize env n k m bs old2 = ⟨st, .ok r2⟩ ∧
      Mirrors env (.msg m) (.msg r1) (.msg o) ∧ Mirrors env (.msg m) (.msg r2) (.msg o) ∧
      (Plain env (.msg m) (.msg o) → ∃ N, ∀ j, N ≤ j → objEq env j m r1 r2 = .ok true) := by
  have hs := deserializeMessage_safe hm n m bs
  obtain ⟨K1, hK1⟩ := target_any hm (st := (deserializeMessage env n m bs).1)
    (o := (deserializeMessage env n m bs).2) rfl hs h1
  obtain ⟨K2, hK2⟩ := target_any hm (st := (deserializeMessage env n m bs).1)
    (o := (deserializeMessage env n m bs).2) rfl hs h2
  refine ⟨(deserializeMessage env n m bs).1, (deserializeMessage env n m bs).2, max K1 K2, fun k hk => ?_⟩
  obtain ⟨r1, a1, a2, a3⟩ := hK1 k (by omega)
  obtain ⟨r2, b1, b2, b3⟩ := hK2 k (by omega)
  refine ⟨r1, r2, a1, b1, a2, b2, fun hp => ?_⟩
  exact same_equal ((a2.toSame hp).trans (b2.toSame hp).symm a3 hs b3) a3 b3

/-- A target that held -0.0 still holds it after decoding the empty message, which sets the field to
0.0: the setter does not assign because the two compare equal. -/
theorem C19_negative_zero_violated :
    (deserialize demoEnv 5 5 1 [] [.sc (.w32 0x80000000#32), .sc (.bytes none)]).target
      = .ok [.sc (.w32 0x80000000#32), .sc (.bytes none)] ∧
    (deserialize demoEnv 5 5 1 [] [.sc (.w32 0x00000000#32), .sc (.bytes none)]).target
      = .ok [.sc (.w32 0x00000000#32), .sc (.bytes none)] := by
  constructor <;> rfl

/-- A schema whose message 0 has a sub-message with a map of messages. -/
def demoMapEnv : Env := { demoEnv with
  sch := fun m => match m with
    | 0 => [⟨1, .msg 1⟩]
    | 1 => [⟨1, .map .int32 (.msg 2)⟩]
    | _ => []
  ord := fun m => match m with | 0 => [0] | 1 => [0] | _ => [] }

/-- With maps of messages the old contents can even make `deserialize` dereference a null pointer: the
old map `{1: {}}` is compared with the new map `{2: {}}` of the same size. On a new target the same
input is decoded normally. -/
theorem C19_message_map_violated :
    (deserialize demoMapEnv 9 9 0 [0x0a, 6, 0x0a, 4, 0x08, 2, 0x12, 0]
      [.msg [.map [(.w32 1#32, .msg [])]]]).target = .ub ∧
    (deserialize demoMapEnv 9 9 0 [0x0a, 6, 0x0a, 4, 0x08, 2, 0x12, 0]
      (defaultObj demoMapEnv 0)).target = .ok [.msg [.map [(.w32 2#32, .msg [])]]] := by
  constructor <;> rfl

/-- C18 is violated for targets with maps of messages: the input fails behind the record of the map, and storing what was decoded in a
target that held something dereferences a null pointer. -/
theorem C18_message_map_violated :
    deserializeMessage demoMapEnv 9 0 [0x0a, 6, 0x0a, 4, 0x08, 2, 0x12, 0, 0x0b] =
      (.throw .invalidArgument, [.msg [.map [(.w32 2#32, .msg [])]]]) ∧
    (deserialize demoMapEnv 9 9 0 [0x0a, 6, 0x0a, 4, 0x08, 2, 0x12, 0, 0x0b]
      [.msg [.map [(.w32 1#32, .msg [])]]]).target = .ub := by
  constructor <;> rfl

example : NoMessageMaps { demoEnv with sch := fun m => if m = 1 then demoSch 1 else [] } ∧
    Safe demoEnv (.msg 1) (.msg [.sc (.w32 0x80000000#32), .sc (.bytes none)]) := by
  refine ⟨?_, holds_of_holdsB (n := 3) (fun k s h => h) (p := Kind.holds) (by decide)⟩
  intro m f hf
  by_cases h : m = 1
  · subst h; simp [demoSch] at hf; rcases hf with rfl | rfl <;> simp
  · simp [h] at hf

end QtPb
