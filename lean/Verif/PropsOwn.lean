import Verif.PropsEndToEnd
import Verif.SpecOwn
/-
C79: the form of what the library writes. It is a usual encoding, so whatever is proved about usual encodings holds
for messages that an application with this library receives from another one.
-/
namespace QtPb

open Spec
open Ref (Payload littleEndian)

variable {env : Env}

theorem Spec.Cut.append {a b : Bytes} {ra rb : List (Nat × Payload)} (ha : Cut a ra) (hb : Cut b rb) : Cut (a ++ b) (ra ++ rb) := by
  induction ha with
  | nil => exact hb
  | cons h1 h2 _ ih =>
    rw [List.append_assoc]
    exact .cons h1 h2 ih

/-- One record. -/
theorem cut_one {hdr b : Bytes} {num wt : Nat} {p : Payload} (ht : Tag hdr num wt) (hp : PayloadIs wt b p) : Cut (hdr ++ b) [(num, p)] := by
  simpa using Cut.cons ht hp .nil

/-- A record with a length delimited payload. -/
theorem cut_frame {num : Nat} {body : Bytes} (h : 1 ≤ num ∧ num < 2 ^ 29) (hl : body.length < 2 ^ 31) :
    Cut (frameObject num body) [(num, .delimited body)] := by
  unfold frameObject prependLengthDelimitedSize
  exact cut_one (frameObject_tag h.1 h.2) (.delimited (prepend_varint (by omega)))

theorem varint_payload {bs : Bytes} {n : Nat} (h : Varint bs n) (hn : n < 2 ^ 64) : PayloadIs 0 bs (.varint n) := .varint h hn

/-- What `serializeBasic` writes: nothing, or a payload that fits the type. -/
theorem basic_payload (env : Env) {k : Kind} {s : Scalar} (hs : k.holds s) (idx : Int)
    (hlen : (serializeBasic env k s idx).1.length < 2 ^ 31) :
    (serializeBasic env k s idx = ([], notUsed) ∧ wireType k = 0) ∨
    ((serializeBasic env k s idx).2 = idx ∧ ∃ p, PayloadIs (wireType k) (serializeBasic env k s idx).1 p ∧ Fits k p ∧ p ≠ .varint 0) := by
  have u : ∀ (w v : Nat), 0 < w → w ≤ 64 → v < 2 ^ w → (serializeUnsigned w v idx = ([], notUsed)) ∨
      ((serializeUnsigned w v idx).2 = idx ∧ PayloadIs 0 (serializeUnsigned w v idx).1 (.varint v) ∧ Payload.varint v ≠ .varint 0) := by
    intro w v h1 h2 h3
    have : 2 ^ w ≤ 2 ^ 64 := Nat.pow_le_pow_right (by omega) h2
    rcases unsigned_cases w h1 h2 v h3 idx with ⟨_, h⟩ | ⟨h0, h, h'⟩
    · exact .inl h
    · exact .inr ⟨h, .varint h' (by omega), by simpa using h0⟩
  cases k <;> cases s <;> simp only [Kind.holds, Bool.false_eq_true] at hs
  case float.w32 b => exact .inr ⟨rfl, _, .fixed32 rfl, trivial, by simp⟩
  case fixed32.w32 b => exact .inr ⟨rfl, _, .fixed32 rfl, trivial, by simp⟩
  case sfixed32.w32 b => exact .inr ⟨rfl, _, .fixed32 rfl, trivial, by simp⟩
  case double.w64 b => exact .inr ⟨rfl, _, .fixed64 rfl, trivial, by simp⟩
  case fixed64.w64 b => exact .inr ⟨rfl, _, .fixed64 rfl, trivial, by simp⟩
  case sfixed64.w64 b => exact .inr ⟨rfl, _, .fixed64 rfl, trivial, by simp⟩
  case int32.w32 b => exact (u 32 b.toNat (by omega) (by omega) b.isLt).imp (fun h => ⟨h, rfl⟩) fun h => ⟨h.1, .varint b.toNat, h.2.1, trivial, h.2.2⟩
  case uint32.w32 b => exact (u 32 b.toNat (by omega) (by omega) b.isLt).imp (fun h => ⟨h, rfl⟩) fun h => ⟨h.1, .varint b.toNat, h.2.1, trivial, h.2.2⟩
  case int64.w64 b => exact (u 64 b.toNat (by omega) (by omega) b.isLt).imp (fun h => ⟨h, rfl⟩) fun h => ⟨h.1, .varint b.toNat, h.2.1, trivial, h.2.2⟩
  case uint64.w64 b => exact (u 64 b.toNat (by omega) (by omega) b.isLt).imp (fun h => ⟨h, rfl⟩) fun h => ⟨h.1, .varint b.toNat, h.2.1, trivial, h.2.2⟩
  case sint32.w32 b =>
    exact (u 32 (zigzag b).toNat (by omega) (by omega) (zigzag b).isLt).imp (fun h => ⟨h, rfl⟩) fun h => ⟨h.1, .varint (zigzag b).toNat, h.2.1, (zigzag b).isLt, h.2.2⟩
  case sint64.w64 b =>
    exact (u 64 (zigzag b).toNat (by omega) (by omega) (zigzag b).isLt).imp (fun h => ⟨h, rfl⟩) fun h => ⟨h.1, .varint (zigzag b).toNat, h.2.1, trivial, h.2.2⟩
  case bool.bool b =>
    exact (u 32 (if b then 1 else 0) (by omega) (by omega) (by split <;> omega)).imp (fun h => ⟨h, rfl⟩)
      fun h => ⟨h.1, .varint (if b then 1 else 0), h.2.1, show (if b then 1 else 0) < 2 ^ 32 by split <;> omega, h.2.2⟩
  case string.str s =>
    right
    refine ⟨rfl, ?_⟩
    simp only [serializeBasic, prependLengthDelimitedSize, List.length_append] at hlen ⊢
    exact ⟨_, .delimited (prepend_varint (by omega)), trivial, by simp⟩
  case bytes.bytes b =>
    right
    refine ⟨rfl, ?_⟩
    simp only [serializeBasic, prependLengthDelimitedSize, List.length_append] at hlen ⊢
    exact ⟨_, .delimited (prepend_varint (by omega)), trivial, by simp⟩

/-- A scalar field: no record, or one that fits. -/
theorem scalar_cut (env : Env) {k : Kind} {s : Scalar} (hs : k.holds s) {num : Nat} (h : 1 ≤ num ∧ num < 2 ^ 29)
    (hlen : (serializeScalarField env num k s).length < 2 ^ 31) :
    ∃ ps : List Payload, Cut (serializeScalarField env num k s) (ps.map fun p => (num, p)) ∧ (∀ p ∈ ps, Fits k p) ∧
      ps.length ≤ 1 ∧ Payload.varint 0 ∉ ps := by
  by_cases hn : s.isNull = true
  · exact ⟨[], by simpa [serializeScalarField, serializeWrapper, hn, withHeader] using Cut.nil, by simp⟩
  · have hn' : s.isNull = false := by simpa using hn
    simp only [serializeScalarField, serializeWrapper, hn', Bool.false_eq_true, if_false] at hlen ⊢
    have hl : (serializeBasic env k s num).1.length < 2 ^ 31 := by
      unfold withHeader at hlen
      split at hlen
      · exact hlen
      · simp only [List.length_append] at hlen; omega
    rcases basic_payload env hs num hl with ⟨a, _⟩ | ⟨a, p, b, c, z⟩
    · exact ⟨[], by simpa [a, withHeader] using Cut.nil, by simp⟩
    · refine ⟨[p], ?_, by simpa using c, by simp, by simpa using Ne.symm z⟩
      unfold withHeader
      rw [if_neg (by rw [a]; exact natCast_ne_notUsed num)]
      refine cut_one ?_ b
      rw [← wireType_eq]
      exact encodeHeader_tag h.1 h.2 (by cases k <;> decide)

theorem enum_cut (e : BitVec 32) {num : Nat} (h : 1 ≤ num ∧ num < 2 ^ 29) :
    ∃ ps : List Payload, Cut (serializeEnumField num e) (ps.map fun p => (num, p)) ∧ (∀ p ∈ ps, ∃ n, p = .varint n) ∧
      ps.length ≤ 1 ∧ Payload.varint 0 ∉ ps := by
  unfold serializeEnumField
  rcases unsigned_cases 64 (by omega) (by omega) _ (enumToInt64 e).isLt (num : Int) with ⟨a, b⟩ | ⟨z, b, c⟩
  · exact ⟨[], by simpa [b, withHeader] using Cut.nil, by simp⟩
  · refine ⟨[.varint (enumToInt64 e).toNat], ?_, by simp, by simp, by simpa using Ne.symm z⟩
    unfold withHeader
    rw [if_neg (by rw [b]; exact natCast_ne_notUsed num)]
    exact cut_one (encodeHeader_tag h.1 h.2 (by decide)) (.varint c (enumToInt64 e).isLt)

theorem zero_payload : PayloadIs 0 [0] (.varint 0) := payload1 0 0 (by decide) (by decide)

theorem varint_nil {n : Nat} (h : Varint [] n) : False := nomatch h

/-- The elements of a packed list. -/
theorem packed_of {k : Kind} {l : List Scalar} (hl : ∀ s ∈ l, k.holds s) (hlen : (serializePackedElems env k l).length < 2 ^ 31) :
    Packed k (serializePackedElems env k l) := by
  induction l with
  | nil => exact .nil
  | cons s l ih =>
    simp only [serializePackedElems, List.length_append] at hlen ⊢
    simp only [List.mem_cons, forall_eq_or_imp] at hl
    have hl' : (serializeBasic env k s notUsed).1.length < 2 ^ 31 := by
      split at hlen
      · simp_all
      · omega
    have hz : wireType k = 0 → Fits k (.varint 0) := by cases k <;> simp [wireType, Fits]
    rcases basic_payload env hl.1 notUsed hl' with ⟨a, b⟩ | ⟨_, p, b, c, _⟩
    · rw [a]
      exact .cons zero_payload (hz b) (ih hl.2 (by omega))
    · by_cases he : (serializeBasic env k s notUsed).1.isEmpty = true
      · have := List.isEmpty_iff.1 he
        generalize wireType k = wt at b
        generalize (serializeBasic env k s notUsed).1 = bs at b this
        exfalso
        cases b with
        | varint h _ => subst this; exact varint_nil h
        | fixed64 h => subst this; simp at h
        | fixed32 h => subst this; simp at h
        | delimited h => exact varint_nil ((List.append_eq_nil_iff.1 this).1 ▸ h)
      · rw [if_neg (by simpa using he)]
        exact .cons b c (ih hl.2 (by omega))

theorem fits_int32_of_int64 {b : Bytes} (h : Packed .int64 b) : Packed .int32 b := by
  induction h with
  | nil => exact .nil
  | cons h1 h2 _ ih =>
    refine .cons h1 ?_ ih
    cases h1 <;> first | exact trivial | exact h2

section
variable {Sub : Nat → Bytes → Prop} {rec : Nat → Obj → Res Bytes}

/-- What the induction hypothesis says about nested messages. -/
def OwnOk (env : Env) (Sub : Nat → Bytes → Prop) (rec : Nat → Obj → Res Bytes) : Prop :=
  ∀ m o body, rec m o = .ok body → HasTy env (.msg m) (.msg o) → body.length < 2 ^ 31 → Sub m body

theorem delimitedElems_cut {k : Kind} (hk : k = .string ∨ k = .bytes) {l : List Scalar} {num : Nat} (h : 1 ≤ num ∧ num < 2 ^ 29)
    (hs : ∀ s ∈ l, k.holds s) (hlen : (serializeDelimitedElems env k num l).length < 2 ^ 31) :
    ∃ ps : List Payload, Cut (serializeDelimitedElems env k num l) (ps.map fun p => (num, p)) ∧ ∀ p ∈ ps, Fits k p := by
  induction l with
  | nil => exact ⟨[], by simpa [serializeDelimitedElems] using Cut.nil, by simp⟩
  | cons s l ih =>
    simp only [serializeDelimitedElems, List.length_append] at hlen ⊢
    simp only [List.mem_cons, forall_eq_or_imp] at hs
    obtain ⟨ps, h1, h2⟩ := ih hs.2 (by omega)
    rcases basic_payload env hs.1 num (by omega) with ⟨_, b⟩ | ⟨_, p, b, c, _⟩
    · rcases hk with rfl | rfl <;> cases b
    · have hw : wireType k = 2 := by rcases hk with rfl | rfl <;> rfl
      rw [hw] at b
      exact ⟨p :: ps, by simpa using (cut_one (frameObject_tag h.1 h.2) b).append h1, by simpa using ⟨c, h2⟩⟩

theorem list_cut {k : Kind} (hk : k.hasListHandler = true) {l : List Scalar} {num : Nat} (h : 1 ≤ num ∧ num < 2 ^ 29)
    (hs : ∀ s ∈ l, k.holds s) (hlen : (withHeader num wtLengthDelimited (serializeListType env k l num)).length < 2 ^ 31) :
    ∃ ps : List Payload, Cut (withHeader num wtLengthDelimited (serializeListType env k l num)) (ps.map fun p => (num, p)) ∧
      UsualField Sub (.list k) ps ∧ (AtMostOnce (.list k) → ps.length ≤ 1) := by
  by_cases hsb : k = .string ∨ k = .bytes
  · have e : withHeader num wtLengthDelimited (serializeListType env k l num) = serializeDelimitedElems env k num l := by
      cases l with
      | nil => simp [serializeListType, withHeader, serializeDelimitedElems]
      | cons s l => rcases hsb with h | h <;> subst h <;> simp [serializeListType, withHeader]
    rw [e] at hlen ⊢
    obtain ⟨ps, h1, h2⟩ := delimitedElems_cut hsb h hs hlen
    exact ⟨ps, h1, by rcases hsb with rfl | rfl <;> exact ⟨h2, fun h => by simp [AtMostOnce] at h⟩⟩
  · have hsb' : k ≠ .string ∧ k ≠ .bytes := by simpa using hsb
    have usual : ∀ ps : List Payload, (ps.length ≤ 1 ∧ ∀ p ∈ ps, ∃ body, p = .delimited body ∧ Packed k body) → UsualField Sub (.list k) ps := by
      intro ps hps
      cases k <;> first | exact hps | exact absurd rfl hsb'.1 | exact absurd rfl hsb'.2 | cases hk
    cases l with
    | nil => exact ⟨[], by simpa [serializeListType, withHeader] using Cut.nil, usual _ (by simp), by simp⟩
    | cons s l =>
      have e : withHeader num wtLengthDelimited (serializeListType env k (s :: l) num) =
          frameObject num (serializePackedElems env k (s :: l)) := by
        cases k <;> simp_all [serializeListType, withHeader, notUsed, frameObject]
      rw [e] at hlen ⊢
      have hl := frame_length h.1 h.2 (serializePackedElems env k (s :: l))
      exact ⟨[_], cut_frame h (by omega), usual _ ⟨by simp, by simpa using packed_of hs (by omega)⟩, by simp⟩

theorem enumList_cut {l : List (BitVec 32)} {num : Nat} (h : 1 ≤ num ∧ num < 2 ^ 29)
    (hlen : (serializeEnumListField env num l).length < 2 ^ 31) :
    ∃ ps : List Payload, Cut (serializeEnumListField env num l) (ps.map fun p => (num, p)) ∧ UsualField Sub .enumList ps ∧ ps.length ≤ 1 := by
  cases l with
  | nil => exact ⟨[], by simpa [serializeEnumListField, serializeListType, withHeader] using Cut.nil, by simp [UsualField]⟩
  | cons e0 l0 =>
    have e : serializeEnumListField env num (e0 :: l0) =
        frameObject num (serializePackedElems env .int64 ((e0 :: l0).map fun e => .w64 (enumToInt64 e))) := by
      simp [serializeEnumListField, serializeListType, withHeader, notUsed, frameObject]
    rw [e] at hlen ⊢
    have hl := frame_length h.1 h.2 (serializePackedElems env .int64 ((e0 :: l0).map fun e => .w64 (enumToInt64 e)))
    refine ⟨[_], cut_frame h (by omega), ?_, by simp⟩
    intro p hp
    simp only [List.mem_singleton] at hp
    refine ⟨_, hp, fits_int32_of_int64 (packed_of ?_ (by omega))⟩
    intro s hs
    obtain ⟨e, _, rfl⟩ := List.mem_map.1 hs
    rfl

theorem msg_cut (hrec : OwnOk env Sub rec) {num m : Nat} {v : Val} (h : 1 ≤ num ∧ num < 2 ^ 29) (hv : HasTy env (.msg m) v) {bs : Bytes}
    (hbs : serializeMsgField env rec num m v = .ok bs) (hlen : bs.length < 2 ^ 31) :
    ∃ ps : List Payload, Cut bs (ps.map fun p => (num, p)) ∧ UsualField Sub (.msg m) ps := by
  simp only [serializeMsgField, Res.bind_eq, Res.bind_eq_ok, Res.ok.injEq] at hbs
  obtain ⟨body, hb, rfl⟩ := hbs
  have hfl := frame_length h.1 h.2 body
  have ht : HasTy env (.msg m) (.msg (materialize env m v)) := by
    cases hv with
    | null => exact default_hasTy env m
    | msg h1 h2 => exact .msg h1 h2
  exact ⟨[_], cut_frame h (by omega), by simp, by simpa using hrec _ _ _ hb ht (by omega)⟩

theorem msgList_cut (hrec : OwnOk env Sub rec) {num m : Nat} {l : List Val} (h : 1 ≤ num ∧ num < 2 ^ 29)
    (hv : ∀ v ∈ l, HasTy env (.msg m) v) {bs : Bytes} (hbs : serializeMsgList rec num m l = .ok bs) (hlen : bs.length < 2 ^ 31) :
    ∃ ps : List Payload, Cut bs (ps.map fun p => (num, p)) ∧ UsualField Sub (.msgList m) ps := by
  induction l generalizing bs with
  | nil =>
    simp only [serializeMsgList, Res.ok.injEq] at hbs
    subst hbs
    exact ⟨[], .nil, by simp [UsualField]⟩
  | cons v l ih =>
    simp only [List.mem_cons, forall_eq_or_imp] at hv
    obtain ⟨hv1, hv2⟩ := hv
    cases hv1 with
    | null =>
      simp only [serializeMsgList] at hbs
      exact ih hv2 hbs hlen
    | @msg _ o ho1 ho2 =>
      simp only [serializeMsgList, Res.bind_eq, Res.bind_eq_ok, Res.ok.injEq] at hbs
      obtain ⟨body, hb, r, hr, rfl⟩ := hbs
      simp only [List.length_append] at hlen
      have hfl := frame_length h.1 h.2 body
      obtain ⟨ps, h1, h2⟩ := ih hv2 hr (by omega)
      refine ⟨.delimited body :: ps, by simpa using (cut_frame h (by omega)).append h1, ?_⟩
      intro p hp
      rcases List.mem_cons.1 hp with rfl | hp
      · exact ⟨_, rfl, hrec _ _ _ hb (.msg ho1 ho2) (by omega)⟩
      · exact h2 p hp

theorem entry_own (hrec : OwnOk env Sub rec) {kk : Kind} {vt : MapVal} {key : Scalar} {v : Val} (hk : kk.holds key)
    (hv : HasTy env (MapVal.toTy vt) v) (hnn : v ≠ .msgNull) {value : Bytes} (hb : serializeMapValue env rec vt v = .ok value)
    (hlen : (serializeScalarField env 1 kk key ++ value).length < 2 ^ 31) :
    UsualEntry Sub kk vt (serializeScalarField env 1 kk key ++ value) := by
  simp only [List.length_append] at hlen
  obtain ⟨ps, h1, h2, _⟩ := scalar_cut env hk (num := 1) (by omega) (by omega)
  have key1 : ∀ (qs : List Payload), Cut value (qs.map fun p => (2, p)) → (∀ p ∈ qs, FitsValue Sub vt p) →
      (∀ m, vt = .msg m → qs.length = 1) → UsualEntry Sub kk vt (serializeScalarField env 1 kk key ++ value) := by
    intro qs hc hq hm
    refine ⟨_, h1.append hc, ?_, ?_⟩
    · intro r hr
      simp only [List.mem_append, List.mem_map] at hr
      rcases hr with ⟨p, hp, rfl⟩ | ⟨p, hp, rfl⟩
      · exact .inl ⟨rfl, h2 p hp⟩
      · exact .inr ⟨rfl, hq p hp⟩
    · intro m e
      have e1 : (ps.map fun p => ((1 : Nat), p)).filter (fun r => r.1 == 2) = [] := by
        rw [List.filter_eq_nil_iff]; intro r hr; obtain ⟨p, _, rfl⟩ := List.mem_map.1 hr; simp
      have e2 : (qs.map fun p => ((2 : Nat), p)).filter (fun r => r.1 == 2) = qs.map fun p => ((2 : Nat), p) := by
        rw [List.filter_eq_self]; intro r hr; obtain ⟨p, _, rfl⟩ := List.mem_map.1 hr; simp
      rw [List.filter_append, e1, e2]
      simpa using hm m e
  cases vt with
  | scalar k =>
    cases hv with
    | @sc _ s hs =>
      simp only [serializeMapValue, Res.ok.injEq] at hb
      subst hb
      obtain ⟨qs, g1, g2, _⟩ := scalar_cut env hs (num := 2) (by omega) (by omega)
      exact key1 qs g1 g2 (by simp)
  | enum =>
    cases hv with
    | enum e =>
      simp only [serializeMapValue, Res.ok.injEq] at hb
      subst hb
      obtain ⟨qs, g1, g2, _⟩ := enum_cut e (num := 2) (by omega)
      refine key1 qs g1 ?_ (by simp)
      intro p hp
      obtain ⟨n, rfl⟩ := g2 p hp
      trivial
  | msg m =>
    cases hv with
    | null => exact absurd rfl hnn
    | @msg _ o ho1 ho2 =>
      simp only [serializeMapValue, Res.bind_eq, Res.bind_eq_ok, Res.ok.injEq] at hb
      obtain ⟨body, hb, rfl⟩ := hb
      have hfl := frame_length (num := 2) (by omega) (by omega) body
      refine key1 [.delimited body] (cut_frame (by omega) (by omega)) ?_ (by simp)
      intro p hp
      simp only [List.mem_singleton] at hp
      subst hp
      exact hrec _ _ _ hb (.msg ho1 ho2) (by omega)

theorem map_cut (hrec : OwnOk env Sub rec) {num : Nat} {kk : Kind} {vt : MapVal} {es : List (Scalar × Val)} (h : 1 ≤ num ∧ num < 2 ^ 29)
    (hk : ∀ e ∈ es, kk.holds e.1) (hvt : ∀ e ∈ es, HasTy env (MapVal.toTy vt) e.2) {bs : Bytes}
    (hbs : serializeMap env rec num kk vt es = .ok bs) (hlen : bs.length < 2 ^ 31) :
    ∃ ps : List Payload, Cut bs (ps.map fun p => (num, p)) ∧ UsualField Sub (.map kk vt) ps := by
  induction es generalizing bs with
  | nil =>
    simp only [serializeMap, Res.ok.injEq] at hbs
    subst hbs
    exact ⟨[], .nil, by simp [UsualField]⟩
  | cons e es ih =>
    simp only [List.mem_cons, forall_eq_or_imp] at hk hvt
    obtain ⟨key, v⟩ := e
    by_cases hnn : v = .msgNull
    · subst hnn
      simp only [serializeMap] at hbs
      exact ih hk.2 hvt.2 hbs hlen
    · have hbs' : (do
          let value ← serializeMapValue env rec vt v
          let r ← serializeMap env rec num kk vt es
          Res.ok (frameObject num (serializeScalarField env 1 kk key ++ value) ++ r)) = .ok bs := by
        rw [← hbs]
        cases v <;> first | rfl | exact absurd rfl hnn
      simp only [Res.bind_eq, Res.bind_eq_ok, Res.ok.injEq] at hbs'
      obtain ⟨value, hb, r, hr, rfl⟩ := hbs'
      simp only [List.length_append] at hlen
      have hfl := frame_length h.1 h.2 (serializeScalarField env 1 kk key ++ value)
      obtain ⟨ps, h1, h2⟩ := ih hk.2 hvt.2 hr (by omega)
      refine ⟨.delimited (serializeScalarField env 1 kk key ++ value) :: ps, by simpa using (cut_frame h (by omega)).append h1, ?_⟩
      intro p hp
      rcases List.mem_cons.1 hp with rfl | hp
      · exact ⟨_, rfl, entry_own hrec hk.1 hvt.1 hnn hb (show _ < _ by dsimp only at hfl ⊢; omega)⟩
      · exact h2 p hp

theorem property_cut (hrec : OwnOk env Sub rec) {num : Nat} {ty : FieldTy} {v : Val} (h : 1 ≤ num ∧ num < 2 ^ 29) (hvt : HasTy env ty v)
    {bs : Bytes} (hbs : serializeProperty env rec num ty v = .ok bs) (hlen : bs.length < 2 ^ 31) :
    ∃ ps : List Payload, Cut bs (ps.map fun p => (num, p)) ∧ UsualField Sub ty ps ∧
      (AtMostOnce ty → ps.length ≤ 1) ∧ ((∃ k, ty = .scalar k) ∨ ty = .enum → Payload.varint 0 ∉ ps) := by
  cases ty with
  | scalar k =>
    cases hvt with
    | sc hs =>
      simp only [serializeProperty, Res.ok.injEq] at hbs
      subst hbs
      obtain ⟨ps, h1, h2, h3, h4⟩ := scalar_cut env hs h hlen
      exact ⟨ps, h1, h2, fun _ => h3, fun _ => h4⟩
  | list k =>
    cases hvt with
    | scList hs =>
      simp only [serializeProperty] at hbs
      split at hbs
      · simp only [Res.ok.injEq] at hbs
        subst hbs
        obtain ⟨ps, h1, h2, h3⟩ := list_cut (Sub := Sub) (by assumption) h hs hlen
        exact ⟨ps, h1, h2, h3, by simp⟩
      · simp at hbs
  | enum =>
    cases hvt
    simp only [serializeProperty, Res.ok.injEq] at hbs
    subst hbs
    obtain ⟨ps, h1, h2, h3, h4⟩ := enum_cut _ h
    exact ⟨ps, h1, h2, fun _ => h3, fun _ => h4⟩
  | enumList =>
    cases hvt
    simp only [serializeProperty, Res.ok.injEq] at hbs
    subst hbs
    obtain ⟨ps, h1, h2, h3⟩ := enumList_cut (Sub := Sub) h hlen
    exact ⟨ps, h1, h2, fun _ => h3, by simp⟩
  | msg m' =>
    have hbs' : serializeMsgField env rec num m' v = .ok bs := by rw [← hbs]; cases v <;> rfl
    obtain ⟨ps, h1, h2⟩ := msg_cut hrec h hvt hbs' hlen
    exact ⟨ps, h1, h2, fun _ => h2.1, by simp⟩
  | msgList m' =>
    cases hvt with
    | msgList hs =>
      simp only [serializeProperty] at hbs
      obtain ⟨ps, h1, h2⟩ := msgList_cut hrec h hs hbs hlen
      exact ⟨ps, h1, h2, by simp [AtMostOnce], by simp⟩
  | map kk vt =>
    cases hvt with
    | map hk hvt _ =>
      simp only [serializeProperty] at hbs
      obtain ⟨ps, h1, h2⟩ := map_cut hrec h hk hvt hbs hlen
      exact ⟨ps, h1, h2, by simp [AtMostOnce], by simp⟩

theorem payloadsOf_append (num : Nat) (a b : List (Nat × Payload)) : payloadsOf num (a ++ b) = payloadsOf num a ++ payloadsOf num b := by
  simp [payloadsOf]

theorem payloadsOf_self (num : Nat) (ps : List Payload) : payloadsOf num (ps.map fun p => (num, p)) = ps := by
  induction ps with
  | nil => rfl
  | cons p ps ih => simpa [payloadsOf] using ih

theorem payloadsOf_other {num num' : Nat} (h : num' ≠ num) (ps : List Payload) : payloadsOf num (ps.map fun p => (num', p)) = [] := by
  induction ps with
  | nil => rfl
  | cons p ps ih => simpa [payloadsOf, h] using ih

theorem fields_cut (hv : ValidSchema env) (hrec : OwnOk env Sub rec) {m : Nat} {obj : Obj} (hobj : HasTy env (.msg m) (.msg obj))
    (is : List Nat) (hnd : is.Nodup) (hin : ∀ i ∈ is, i < (env.sch m).length) {bs : Bytes}
    (hbs : concatRes (is.map fun i =>
      match (env.sch m)[i]?, obj[i]? with
      | some f, some v => serializeProperty env rec f.num f.ty v
      | _, _ => .ok []) = .ok bs) (hlen : bs.length < 2 ^ 31) :
    ∃ rs, Cut bs rs ∧ (∀ r ∈ rs, ∃ f ∈ env.sch m, f.num = r.1) ∧ ∀ (i : Nat) (f : Field), (env.sch m)[i]? = some f →
      (i ∈ is → UsualField Sub f.ty (payloadsOf f.num rs) ∧ (AtMostOnce f.ty → (payloadsOf f.num rs).length ≤ 1) ∧
        ((∃ k, f.ty = .scalar k) ∨ f.ty = .enum → Payload.varint 0 ∉ payloadsOf f.num rs)) ∧
      (i ∉ is → payloadsOf f.num rs = []) := by
  induction is generalizing bs with
  | nil =>
    simp only [List.map_nil, concatRes, Res.ok.injEq] at hbs
    subst hbs
    exact ⟨[], .nil, by simp, by simp [payloadsOf]⟩
  | cons i is ih =>
    simp only [List.map_cons, concatRes, Res.bind_eq, Res.bind_eq_ok, Res.ok.injEq] at hbs
    obtain ⟨a, ha, b, hb, rfl⟩ := hbs
    simp only [List.length_append] at hlen
    simp only [List.nodup_cons] at hnd
    simp only [List.mem_cons, forall_eq_or_imp] at hin
    cases hobj with
    | msg hl hf =>
      have hi := hin.1
      have hfi : (env.sch m)[i]? = some (env.sch m)[i] := by simp [hi]
      have hvi : obj[i]? = some (obj[i]'(by omega)) := by simp [hl, hi]
      rw [hfi, hvi] at ha
      simp only at ha
      obtain ⟨ps, h1, h2⟩ := property_cut (Sub := Sub) (rec := rec) hrec ((hv m).2 _ (List.getElem_mem hi)) (hf _ _ _ hfi hvi) ha (by omega)
      obtain ⟨rs, h3, hn, h4⟩ := ih hnd.2 hin.2 hb (by omega)
      refine ⟨_, h1.append h3, ?_, ?_⟩
      · intro r hr
        rcases List.mem_append.1 hr with hr | hr
        · obtain ⟨p, _, rfl⟩ := List.mem_map.1 hr
          exact ⟨_, List.getElem_mem hi, rfl⟩
        · exact hn r hr
      intro j f hj
      obtain ⟨k1, k2⟩ := h4 j f hj
      rw [payloadsOf_append]
      by_cases hij : j = i
      · subst hij
        rw [hfi] at hj
        cases hj
        rw [payloadsOf_self, k2 hnd.1, List.append_nil]
        exact ⟨fun _ => h2, fun h => absurd List.mem_cons_self h⟩
      · have hnum : (env.sch m)[i].num ≠ f.num := by
          intro e
          apply hij
          have hn := (hv m).1
          have hjl := (List.getElem?_eq_some_iff.1 hj)
          obtain ⟨hjl, hje⟩ := hjl
          have : ((env.sch m).map (·.num))[j]'(by simpa using hjl) = ((env.sch m).map (·.num))[i]'(by simpa using hi) := by
            simp [hje, e]
          exact (List.getElem_inj hn).1 this
        rw [payloadsOf_other hnum, List.nil_append]
        exact ⟨fun h => k1 ((List.mem_cons.1 h).resolve_left hij), fun h => k2 fun h' => h (List.mem_cons_of_mem _ h')⟩

end

theorem UsualField.mono {A B : Nat → Bytes → Prop} (h : ∀ m b, A m b → B m b) {ty : FieldTy} {ps : List Payload}
    (hu : UsualField A ty ps) : UsualField B ty ps := by
  cases ty with
  | scalar k => exact hu
  | list k => cases k <;> exact hu
  | enum => exact hu
  | enumList => exact hu
  | msg m => exact ⟨hu.1, fun p hp => let ⟨b, e, g⟩ := hu.2 p hp; ⟨b, e, h _ _ g⟩⟩
  | msgList m => exact fun p hp => let ⟨b, e, g⟩ := hu p hp; ⟨b, e, h _ _ g⟩
  | map kk vt =>
    intro p hp
    obtain ⟨b, e, rs, g1, g2, g3⟩ := hu p hp
    refine ⟨b, e, rs, g1, fun r hr => (g2 r hr).imp id fun g => ⟨g.1, ?_⟩, g3⟩
    obtain ⟨_, g⟩ := g
    revert g
    generalize r.2 = q
    cases vt <;> cases q <;> simp only [FitsValue, imp_self]
    exact h _ _

/-- The form of C79 is a usual encoding. -/
theorem Spec.Sparse.usual {d m : Nat} {bs : Bytes} (h : Sparse env d m bs) : Usual env d m bs := by
  induction d generalizing m bs with
  | zero => exact h
  | succ d ih =>
    obtain ⟨rs, h1, _, h2⟩ := h
    exact ⟨rs, h1, fun f hf => UsualField.mono (fun m b => ih) (h2 f hf).1⟩

/-- **C79**: whatever `serialize` writes, for any message of any type, is a sequence of records of fields of the message type only, with
their wire types; numbers of a list are packed; a field that is neither a list of strings, bytes or messages nor a map has at most one
record; and zeros of varint fields are left out. (2 GB is the limit of `QByteArray`.) -/
theorem C79_form (hv : ValidSchema env) (ho : ValidOrder env) {n m : Nat} {obj : Obj} {bs : Bytes} (hobj : WellTyped env m obj)
    (hs : serializeMessage env n m obj = .ok bs) (hlen : bs.length < 2 ^ 31) : ∃ d, Sparse env d m bs := by
  refine ⟨n, ?_⟩
  induction n generalizing m obj bs with
  | zero => simp [serializeMessage] at hs
  | succ n ih =>
    have hrec : OwnOk env (Sparse env n) (serializeMessage env n) := fun m o body h1 h2 h3 => ih h2 h1 h3
    have hp := ho m
    have hmem : ∀ i, i ∈ env.ord m ↔ i < (env.sch m).length := by
      intro i; rw [hp.mem_iff, List.mem_range]
    have hnd : (env.ord m).Nodup := hp.nodup_iff.mpr List.nodup_range
    simp only [serializeMessage] at hs
    obtain ⟨rs, h1, hn, h2⟩ := fields_cut hv hrec hobj (env.ord m) hnd (fun i hi => (hmem i).mp hi) hs hlen
    refine ⟨rs, h1, hn, fun f hf => ?_⟩
    obtain ⟨i, hi⟩ := List.getElem?_of_mem hf
    exact (h2 i f hi).1 ((hmem i).2 (List.getElem?_eq_some_iff.1 hi).1)

/-- C79 with C67: a message one application writes with this library and another one reads with this library, field by field as the
protobuf specification reads it. -/
theorem C79_usual (hv : ValidSchema env) (ho : ValidOrder env) {n m : Nat} {obj : Obj} {bs : Bytes} (hobj : WellTyped env m obj)
    (hs : serializeMessage env n m obj = .ok bs) (hlen : bs.length < 2 ^ 31) : ∃ d, Usual env d m bs :=
  let ⟨d, h⟩ := C79_form hv ho hobj hs hlen
  ⟨d, h.usual⟩

/-- The servers of C76 and C77 may use this library: what it writes for a message is an encoding of the same message. -/
theorem encodes_own (hv : ValidSchema env) (ho : ValidOrder env) {rank : Nat → Nat} (ha : Acyclic env rank) (hb : NoRepeatedBool env)
    (hE : env.fromUtf8 (env.toUtf8 []) = []) {m : Nat} {o : Obj} (hc : Clean env (.msg m) (.msg o))
    (hsmall : ∀ n bs, serializeMessage env n m o = .ok bs → bs.length + 5 < 2 ^ 31) :
    ∃ N bs a, (∀ n, N ≤ n → serializeMessage env n m o = .ok bs) ∧ EndToEnd.Spec.Encodes env m bs a ∧ Same env (.msg m) (.msg o) (.msg a) := by
  obtain ⟨N, bs, h1, h2⟩ := C21_reference hv ho ha hb hE hc
  have hl := hsmall N bs (h1 N (Nat.le_refl N))
  obtain ⟨a, h3, h4⟩ := h2 (by omega)
  exact ⟨N, bs, a, h1, ⟨C79_usual hv ho hc.plain.safe.hasTy (h1 N (Nat.le_refl N)) (by omega), h3, hl⟩, h4⟩

/-- A message with lists, a map, sub-messages and a null list entry. -/
example : ∃ bs, serializeMessage demoAcyclic 3 0 demoObj = .ok bs ∧ 80 ≤ bs.length ∧ bs.length < 2 ^ 31 := ⟨_, by rfl, by decide, by decide⟩

end QtPb
