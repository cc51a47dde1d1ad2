import Verif.SpecRecords
import Verif.EncodeLemmas
/-
The bytes that the serializer writes for a field, as a list of records of that field. This is `Verif/EncodeLemmas.lean` for a field that is not in the
table of a message type.
-/
namespace QtPb.FieldBytes
open QtPb QtPb.Spec

section
variable {env : Env} {Sub : Nat → Bytes → Obj → Prop} {rec : Nat → Obj → Res Bytes}

/-- `bs` is a list of records that turn the field from `old` into `new`. -/
def Turns (env : Env) (Sub : Nat → Bytes → Obj → Prop) (f : Field) (bs : Bytes) (old new : Val) : Prop :=
  ∃ bss, bs = bss.flatten ∧ FieldRecs env Sub f bss old new

theorem Turns.nil {f : Field} (v : Val) : Turns env Sub f [] v v := ⟨[], rfl, .nil v⟩

theorem FieldRecs.append {f : Field} {a b : List Bytes} {u v w : Val} (h1 : FieldRecs env Sub f a u v) (h2 : FieldRecs env Sub f b v w) :
    FieldRecs env Sub f (a ++ b) u w := by
  induction h1 with
  | nil => exact h2
  | cons h _ ih => exact .cons h (ih h2)

theorem Turns.trans {f : Field} {a b : Bytes} {u v w : Val} (h1 : Turns env Sub f a u v)
    (h2 : Turns env Sub f b v w) : Turns env Sub f (a ++ b) u w := by
  obtain ⟨x, rfl, hx⟩ := h1
  obtain ⟨y, rfl, hy⟩ := h2
  exact ⟨x ++ y, by simp, FieldRecs.append hx hy⟩

theorem Turns.record {f : Field} {hdr payload : Bytes} {wt : Nat} {old new : Val} (ht : Tag hdr f.num wt)
    (he : FieldEffect env Sub f.ty wt payload old new) : Turns env Sub f (hdr ++ payload) old (store f.ty old new) :=
  ⟨[hdr ++ payload], by simp, .cons ⟨hdr, payload, wt, new, rfl, ht, he, rfl⟩ (.nil _)⟩

theorem scalar_turns {f : Field} {k : Kind} {s : Scalar}
    (hn : 1 ≤ f.num ∧ f.num < 2 ^ 29) (hty : f.ty = .scalar k)
    (hs : k.holds s) (hlen : (serializeScalarField env f.num k s).length < 2 ^ 31) :
    Turns env Sub f (serializeScalarField env f.num k s) (defaultVal f.ty)
      (.sc (fieldScalar env k s)) := by
  rw [hty]
  rcases scalarField_cases env hs hn.1 hn.2 hlen with ⟨a, b, _⟩ | ⟨hdr, payload, a, b, c, d⟩
  · rw [a, b]; exact Turns.nil _
  · rw [a]
    have := Turns.record (Sub := Sub) (old := defaultVal f.ty) b
      (by rw [hty]; exact FieldEffect.scalar _ c)
    rw [hty] at this
    have e : store (.scalar k) (defaultVal (.scalar k)) (.sc (transmitted env s))
        = .sc (fieldScalar env k s) := by
      simp only [defaultVal, store, fieldScalar, d, Bool.false_eq_true, if_false]
      split <;> rfl
    rw [e] at this
    exact this

theorem enum_turns {f : Field} {e : BitVec 32}
    (hn : 1 ≤ f.num ∧ f.num < 2 ^ 29) (hty : f.ty = .enum) :
    Turns env Sub f (serializeEnumField f.num e) (defaultVal f.ty) (.enum e) := by
  rw [hty]
  rcases enumField_cases e hn.1 hn.2 with ⟨a, b⟩ | ⟨hdr, payload, a, b, c⟩
  · rw [a, b]; exact Turns.nil _
  · rw [a]
    have := Turns.record (env := env) (Sub := Sub) (old := defaultVal f.ty) b
      (by rw [hty]; exact FieldEffect.enum _ c)
    rw [hty] at this
    exact this

theorem enumList_turns {f : Field} {l : List (BitVec 32)}
    (hn : 1 ≤ f.num ∧ f.num < 2 ^ 29) (hty : f.ty = .enumList)
    (hlen : (serializeEnumListField env f.num l).length < 2 ^ 31) :
    Turns env Sub f (serializeEnumListField env f.num l) (defaultVal f.ty) (.enumList l) := by
  rw [hty]
  cases l with
  | nil =>
    have e : serializeEnumListField env f.num [] = [] := by
      simp [serializeEnumListField, serializeListType, withHeader]
    rw [e]; exact Turns.nil _
  | cons e0 l0 =>
    have e : serializeEnumListField env f.num (e0 :: l0) =
        encodeHeader f.num wtLengthDelimited ++ prependLengthDelimitedSize
          (serializePackedElems env .int64 ((e0 :: l0).map fun e => .w64 (enumToInt64 e))) := by
      simp [serializeEnumListField, serializeListType, withHeader, notUsed]
    rw [e] at hlen ⊢
    simp only [prependLengthDelimitedSize, List.length_append] at hlen ⊢
    have h := FieldEffect.enums (env := env) (Sub := Sub) []
      (prepend_varint (data := serializePackedElems env .int64
        ((e0 :: l0).map fun e => .w64 (enumToInt64 e))) (by omega)) (enumElems_of env (e0 :: l0))
    rw [← hty] at h
    have := Turns.record (frameObject_tag hn.1 hn.2) h
    rw [hty] at this
    exact this

theorem delimited_turns {f : Field} {k : Kind} (hk : k = .string ∨ k = .bytes)
    {l : List Scalar} (hn : 1 ≤ f.num ∧ f.num < 2 ^ 29)
    (hty : f.ty = .list k) (hs : ∀ s ∈ l, k.holds s)
    (hlen : (serializeDelimitedElems env k f.num l).length < 2 ^ 31) (acc : List Scalar) :
    Turns env Sub f (serializeDelimitedElems env k f.num l) (.scList acc)
      (.scList (acc ++ l.map (transmitted env))) := by
  induction l generalizing acc with
  | nil => simpa [serializeDelimitedElems] using Turns.nil _
  | cons s l ih =>
    simp only [serializeDelimitedElems, List.length_append] at hlen ⊢
    simp only [List.mem_cons, forall_eq_or_imp] at hs
    have e : acc ++ (s :: l).map (transmitted env)
        = (acc ++ [transmitted env s]) ++ l.map (transmitted env) := by simp
    rw [e]
    refine Turns.trans ?_ (ih hs.2 (by omega) _)
    rcases serializeBasic_cases env hs.1 f.num (by omega) with ⟨_, _, _, h1, h2, _⟩ | ⟨_, b⟩
    · rcases hk with hk | hk
      · exact absurd hk h1
      · exact absurd hk h2
    · have h := FieldEffect.append (Sub := Sub) acc hk b
      rw [← hty] at h
      have := Turns.record (frameObject_tag hn.1 hn.2) h
      rw [hty, store_list_ne (by simp)] at this
      exact this

theorem list_turns {f : Field} {k : Kind} (hk : k.hasListHandler = true)
    {l : List Scalar} (hn : 1 ≤ f.num ∧ f.num < 2 ^ 29)
    (hty : f.ty = .list k) (hs : ∀ s ∈ l, k.holds s)
    (hlen : (withHeader f.num wtLengthDelimited (serializeListType env k l f.num)).length < 2 ^ 31) :
    Turns env Sub f (withHeader f.num wtLengthDelimited (serializeListType env k l f.num))
      (defaultVal f.ty) (.scList (l.map (transmitted env))) := by
  rw [hty]
  by_cases hsb : k = .string ∨ k = .bytes
  · have e : withHeader f.num wtLengthDelimited (serializeListType env k l f.num)
        = serializeDelimitedElems env k f.num l := by
      cases l with
      | nil => simp [serializeListType, withHeader, serializeDelimitedElems]
      | cons s l => rcases hsb with h | h <;> subst h <;> simp [serializeListType, withHeader]
    rw [e] at hlen ⊢
    have := delimited_turns (Sub := Sub) hsb hn hty hs hlen []
    simpa [defaultVal] using this
  · have hsb' : k ≠ .string ∧ k ≠ .bytes := by simpa using hsb
    cases l with
    | nil => simpa [serializeListType, withHeader, defaultVal] using Turns.nil _
    | cons s l =>
      have e : withHeader f.num wtLengthDelimited (serializeListType env k (s :: l) f.num)
          = encodeHeader f.num wtLengthDelimited ++ prependLengthDelimitedSize
            (serializePackedElems env k (s :: l)) := by
        cases k <;> simp_all [serializeListType, withHeader, notUsed]
      rw [e] at hlen ⊢
      simp only [prependLengthDelimitedSize, List.length_append] at hlen ⊢
      have hp : packable k := by
        cases k <;> simp_all [packable, Kind.hasListHandler]
      have h := FieldEffect.packed (env := env) (Sub := Sub) (defaultVal (.list k)) hp
        (prepend_varint (data := serializePackedElems env k (s :: l)) (by omega))
        (packedElems_of env hs (by omega))
      rw [← hty] at h
      have := Turns.record (frameObject_tag hn.1 hn.2) h
      rw [hty] at this
      rw [show defaultVal (.list k) = .scList [] from rfl, store_list_ne (by simp)] at this
      exact this

theorem msg_turns (hrec : RecOk env Sub rec) {f : Field} {m' : Nat} {v : Val}
    (hn : 1 ≤ f.num ∧ f.num < 2 ^ 29) (hty : f.ty = .msg m')
    (hv : HasTy env f.ty v) {bs : Bytes} (hbs : serializeMsgField env rec f.num m' v = .ok bs)
    (hlen : bs.length < 2 ^ 31) :
    ∃ v', Arrives env f.ty v v' ∧ Turns env Sub f bs (defaultVal f.ty) v' := by
  simp only [serializeMsgField, Res.bind_eq, Res.bind_eq_ok, Res.ok.injEq] at hbs
  obtain ⟨body, hb, rfl⟩ := hbs
  have hl := frame_len hlen
  have key : ∀ o, HasTy env (.msg m') (.msg o) → rec m' o = .ok body →
      ∃ o', Arrives env (.msg m') (.msg o) (.msg o') ∧
        Turns env Sub f (frameObject f.num body) (defaultVal f.ty) (.msg o') := by
    intro o ho hro
    obtain ⟨o', h1, h2⟩ := hrec m' o body hro ho (by
      simp only [frameObject, prependLengthDelimitedSize, List.length_append] at hlen; omega)
    refine ⟨o', h2, ?_⟩
    have h := FieldEffect.msg (env := env) (Sub := Sub) (defaultVal f.ty) hl h1
    rw [← hty] at h
    have := Turns.record (frameObject_tag hn.1 hn.2) h
    rw [hty] at this ⊢
    exact this
  rw [hty] at hv
  cases hv with
  | null =>
    obtain ⟨o', h1, h2⟩ := key _ (default_hasTy env m') hb
    exact ⟨.msg o', by rw [hty]; exact .unset h1, h2⟩
  | msg h1 h2 =>
    obtain ⟨o', h3, h4⟩ := key _ (.msg h1 h2) hb
    exact ⟨.msg o', by rw [hty]; exact h3, h4⟩

theorem msgList_turns (hrec : RecOk env Sub rec) {f : Field} {m' : Nat} {l : List Val}
    (hn : 1 ≤ f.num ∧ f.num < 2 ^ 29) (hty : f.ty = .msgList m')
    (hv : ∀ v ∈ l, HasTy env (.msg m') v) {bs : Bytes}
    (hbs : serializeMsgList rec f.num m' l = .ok bs) (hlen : bs.length < 2 ^ 31) :
    ∃ l', ArrivesList env m' l l' ∧
      ∀ acc, Turns env Sub f bs (.msgList acc) (.msgList (acc ++ l')) := by
  induction l generalizing bs with
  | nil =>
    simp only [serializeMsgList, Res.ok.injEq] at hbs
    subst hbs
    exact ⟨[], .nil _, fun acc => by simpa using Turns.nil _⟩
  | cons v l ih =>
    simp only [List.mem_cons, forall_eq_or_imp] at hv
    obtain ⟨hv1, hv2⟩ := hv
    cases hv1 with
    | null =>
      simp only [serializeMsgList] at hbs
      obtain ⟨l', h1, h2⟩ := ih hv2 hbs hlen
      exact ⟨l', .null h1, h2⟩
    | @msg _ o ho1 ho2 =>
      simp only [serializeMsgList, Res.bind_eq, Res.bind_eq_ok, Res.ok.injEq] at hbs
      obtain ⟨body, hb, r, hr, rfl⟩ := hbs
      simp only [List.length_append] at hlen
      obtain ⟨l', h1, h2⟩ := ih hv2 hr (by omega)
      have hfl : (frameObject f.num body).length < 2 ^ 31 := by omega
      obtain ⟨o', h3, h4⟩ := hrec m' o body hb (.msg ho1 ho2) (by
        simp only [frameObject, prependLengthDelimitedSize, List.length_append] at hfl; omega)
      refine ⟨.msg o' :: l', .cons h4 h1, fun acc => ?_⟩
      have e : acc ++ Val.msg o' :: l' = (acc ++ [.msg o']) ++ l' := by simp
      rw [e]
      refine Turns.trans ?_ (h2 _)
      have h := FieldEffect.msgList (env := env) (Sub := Sub) acc (frame_len hfl) h3
      rw [← hty] at h
      have := Turns.record (frameObject_tag hn.1 hn.2) h
      rw [hty] at this
      exact this

theorem map_turns (hrec : RecOk env Sub rec) {f : Field} {kk : Kind} {vt : MapVal}
    {es : List (Scalar × Val)} (hn : 1 ≤ f.num ∧ f.num < 2 ^ 29)
    (hty : f.ty = .map kk vt) (hk : ∀ e ∈ es, kk.holds e.1)
    (hv : ∀ e ∈ es, HasTy env (MapVal.toTy vt) e.2) {bs : Bytes}
    (hbs : serializeMap env rec f.num kk vt es = .ok bs) (hlen : bs.length < 2 ^ 31) :
    ∃ es', ArrivesEntries env vt es es' ∧
      ∀ acc, Turns env Sub f bs (.map acc) (insertAll kk vt es' acc) := by
  induction es generalizing bs with
  | nil =>
    simp only [serializeMap, Res.ok.injEq] at hbs
    subst hbs
    exact ⟨[], .nil _, fun acc => by simpa [insertAll] using Turns.nil _⟩
  | cons e es ih =>
    simp only [List.mem_cons, forall_eq_or_imp] at hk hv
    obtain ⟨key, v⟩ := e
    by_cases hnn : v = .msgNull
    · subst hnn
      simp only [serializeMap] at hbs
      obtain ⟨es', h1, h2⟩ := ih hk.2 hv.2 hbs hlen
      exact ⟨es', .null h1, h2⟩
    · have hbs' : (do
          let value ← serializeMapValue env rec vt v
          let r ← serializeMap env rec f.num kk vt es
          Res.ok (frameObject f.num (serializeScalarField env 1 kk key ++ value) ++ r)) = .ok bs := by
        rw [← hbs]
        cases v <;> first | rfl | exact absurd rfl hnn
      simp only [Res.bind_eq, Res.bind_eq_ok, Res.ok.injEq] at hbs'
      obtain ⟨value, hb, r, hr, rfl⟩ := hbs'
      simp only [List.length_append] at hlen
      obtain ⟨es', h1, h2⟩ := ih hk.2 hv.2 hr (by omega)
      have hfl : (frameObject f.num (serializeScalarField env 1 kk key ++ value)).length < 2 ^ 31 := by
        omega
      obtain ⟨v', h3, h4⟩ := entry_of hrec hk.1 hv.1 hnn hb (by
        simp only [frameObject, prependLengthDelimitedSize, List.length_append] at hfl ⊢; omega)
      refine ⟨_, h3 _ _ h1, fun acc => ?_⟩
      obtain ⟨acc', e1, e2⟩ := insertAll_cons kk vt (entryScalar env key, v') es' acc
      rw [e2]
      refine Turns.trans ?_ (h2 _)
      have h := FieldEffect.map (env := env) (Sub := Sub) acc (frame_len hfl) h4
      rw [← hty] at h
      have := Turns.record (frameObject_tag hn.1 hn.2) h
      rw [hty, e1] at this
      exact this

theorem property_turns (hrec : RecOk env Sub rec) {f : Field} {v : Val}
    (hn : 1 ≤ f.num ∧ f.num < 2 ^ 29)
    (hv : HasTy env f.ty v) {bs : Bytes} (hbs : serializeProperty env rec f.num f.ty v = .ok bs)
    (hlen : bs.length < 2 ^ 31) :
    ∃ v', Arrives env f.ty v v' ∧ Turns env Sub f bs (defaultVal f.ty) v' := by
  cases hty : f.ty with
  | scalar k =>
    rw [hty] at hv hbs
    cases hv with
    | sc hs =>
      simp only [serializeProperty, Res.ok.injEq] at hbs
      subst hbs
      exact ⟨_, .sc _ _, hty ▸ scalar_turns hn hty hs hlen⟩
  | list k =>
    rw [hty] at hv hbs
    cases hv with
    | scList hs =>
      simp only [serializeProperty] at hbs
      split at hbs
      · simp only [Res.ok.injEq] at hbs
        subst hbs
        exact ⟨_, .scList _ _, hty ▸ list_turns (by assumption) hn hty hs hlen⟩
      · simp at hbs
  | enum =>
    rw [hty] at hv hbs
    cases hv
    simp only [serializeProperty, Res.ok.injEq] at hbs
    subst hbs
    exact ⟨_, .enum _, hty ▸ enum_turns hn hty⟩
  | enumList =>
    rw [hty] at hv hbs
    cases hv
    simp only [serializeProperty, Res.ok.injEq] at hbs
    subst hbs
    exact ⟨_, .enumList _, hty ▸ enumList_turns hn hty hlen⟩
  | msg m' =>
    rw [hty] at hbs
    have hbs' : serializeMsgField env rec f.num m' v = .ok bs := by
      rw [← hbs]; cases v <;> rfl
    have := msg_turns (Sub := Sub) hrec hn hty hv hbs' hlen
    rw [hty] at this
    exact this
  | msgList m' =>
    rw [hty] at hv hbs
    cases hv with
    | msgList hs =>
      simp only [serializeProperty] at hbs
      obtain ⟨l', h1, h2⟩ := msgList_turns (Sub := Sub) hrec hn hty hs hbs hlen
      exact ⟨_, .msgList h1, by simpa [defaultVal] using h2 []⟩
  | map kk vt =>
    rw [hty] at hv hbs
    cases hv with
    | map hk hv _ =>
      simp only [serializeProperty] at hbs
      obtain ⟨es', h1, h2⟩ := map_turns (Sub := Sub) hrec hn hty hk hv hbs hlen
      exact ⟨_, .map h1, h2 []⟩

end

end QtPb.FieldBytes
