import Verif.Codec
import Verif.WireLemmas
/-
The model decoder reads every byte sequence that the specification describes.
-/
namespace QtPb
open Spec

/-- The iterator is inside a container of legal size and the bytes `r` are left. -/
def At (it : It) (r : Bytes) : Prop :=
  it.data.length < 2 ^ 31 ∧ it.pos ≤ it.data.length ∧ it.rest = r

theorem At.len {it : It} {r : Bytes} (h : At it r) : it.pos + r.length = it.data.length :=
  It.pos_le_of_rest h.2.2 h.2.1

theorem At.adv {it : It} {a b : Bytes} (h : At it (a ++ b)) :
    At ⟨it.data, it.pos + a.length⟩ b := by
  have hl := h.len
  simp only [List.length_append] at hl
  exact ⟨h.1, by simp only; omega, rest_adv h.2.2⟩

theorem At.start {data : Bytes} (h : data.length < 2 ^ 31) : At (It.start data) data :=
  ⟨h, by simp [It.start], by simp [It.start, It.rest]⟩

theorem Spec.Reads.length_pos {env : Env} {k : Kind} {bs : Bytes} {s : Scalar}
    (h : Reads env k bs s) : 0 < bs.length := by
  cases h with
  | fixed32 => simp
  | fixed64 => simp
  | int32 h | uint32 h | int64 h | uint64 h => exact h.1.length_pos
  | sint32 h _ | sint64 h _ | bool h _ => exact h.1.length_pos
  | string h | bytes h => have := h.1.length_pos; simp; omega

theorem ofNat_mod_pow (w n : Nat) : BitVec.ofNat w (n % 2 ^ w) = BitVec.ofNat w n := by
  apply BitVec.eq_of_toNat_eq; simp

theorem deserializeBasic_of_reads {env : Env} {k : Kind} {bs : Bytes} {s : Scalar}
    (h : Reads env k bs s) {it : It} {rest : Bytes} (hat : At it (bs ++ rest)) :
    deserializeBasic env k it = .ok (s, ⟨it.data, it.pos + bs.length⟩) := by
  obtain ⟨hlen, hpos, hr⟩ := hat
  cases h with
  | fixed32 hk b0 b1 b2 b3 =>
    have := deserializeFixed_of (n := 4) (by rfl) hlen hpos hr
    have e : ofLe [b0, b1, b2, b3]
        = b0.toNat + 2 ^ 8 * b1.toNat + 2 ^ 16 * b2.toNat + 2 ^ 24 * b3.toNat := by
      simp only [ofLe]; omega
    rw [e] at this
    rcases hk with hk | hk | hk <;> subst hk <;> simp only [deserializeBasic, this] <;> simp
  | fixed64 hk b0 b1 b2 b3 b4 b5 b6 b7 =>
    have := deserializeFixed_of (n := 8) (by rfl) hlen hpos hr
    have e : ofLe [b0, b1, b2, b3, b4, b5, b6, b7]
        = b0.toNat + 2 ^ 8 * b1.toNat + 2 ^ 16 * b2.toNat + 2 ^ 24 * b3.toNat
          + 2 ^ 32 * b4.toNat + 2 ^ 40 * b5.toNat + 2 ^ 48 * b6.toNat + 2 ^ 56 * b7.toNat := by
      simp only [ofLe]; omega
    rw [e] at this
    rcases hk with hk | hk | hk <;> subst hk <;> simp only [deserializeBasic, this] <;> simp
  | int32 h | uint32 h =>
    simp only [deserializeBasic, deserializeVarint_of (w := 32) (by omega) h hr, Res.bind_eq, Res.bind,
      ofNat_mod_pow]
  | int64 h | uint64 h =>
    simp only [deserializeBasic, deserializeVarint_of (w := 64) (by omega) h hr, Res.bind_eq, Res.bind,
      ofNat_mod_pow]
  | sint32 h hn =>
    simp only [deserializeBasic, deserializeVarint_of (w := 32) (by omega) h hr, Res.bind_eq, Res.bind]
    rw [unzigzag_eq (by omega), BitVec.toNat_ofNat, Nat.mod_mod, Nat.mod_eq_of_lt hn]
  | sint64 h hn =>
    simp only [deserializeBasic, deserializeVarint_of (w := 64) (by omega) h hr, Res.bind_eq, Res.bind]
    rw [unzigzag_eq (by omega), BitVec.toNat_ofNat, Nat.mod_mod, Nat.mod_eq_of_lt hn]
  | bool h hn =>
    simp only [deserializeBasic, deserializeVarint_of (w := 32) (by omega) h hr, Res.bind_eq, Res.bind,
      Nat.mod_eq_of_lt hn]
    congr 2
    simp [bne, BEq.beq]
  | string h =>
    simp only [deserializeBasic, deserializeLengthDelimited_of h hlen hpos hr, Res.bind_eq, Res.bind]
  | bytes h =>
    simp only [deserializeBasic, deserializeLengthDelimited_of h hlen hpos hr, Res.bind_eq, Res.bind]

theorem deserializeEnum_of {bs : Bytes} {e : BitVec 32} (h : ReadsEnum bs e) {it : It} {rest : Bytes}
    (hr : it.rest = bs ++ rest) :
    deserializeEnum it = .ok (e, ⟨it.data, it.pos + bs.length⟩) := by
  obtain ⟨n, hv, rfl⟩ := h
  simp only [deserializeEnum, deserializeVarint_of (w := 64) (by omega) hv hr, Res.bind_eq, Res.bind,
    ofNat_mod_pow, enumOfInt64]
  congr 2
  apply BitVec.eq_of_toNat_eq
  simp

/-! ### Packed lists -/

theorem packedLoop_of {env : Env} {k : Kind} {body : Bytes} {vs : List Scalar}
    (h : ReadsAll env k body vs) {it : It} {rest : Bytes} (hat : At it (body ++ rest)) {n : Nat}
    (hn : body.length < n) :
    packedLoop env k (it.pos + body.length) n it
      = .ok (vs, ⟨it.data, it.pos + body.length⟩) := by
  induction h generalizing it n with
  | nil =>
    cases n with
    | zero => omega
    | succ n => simp [packedLoop]
  | @cons b bs s l hb hbs ih =>
    have hp := hb.length_pos
    cases n with
    | zero => omega
    | succ n =>
      simp only [List.length_append] at hn
      rw [List.append_assoc] at hat
      simp only [packedLoop, List.length_append]
      rw [if_neg (by omega), deserializeBasic_of_reads hb hat]
      simp only [Res.bind_eq, Res.bind]
      have := ih hat.adv (n := n) (by omega)
      simp only [Nat.add_assoc] at this ⊢
      rw [this]

theorem plus_of {it : It} {body rest : Bytes} (hat : At it (body ++ rest)) :
    it.plus (toInt32 body.length) = .ok ⟨it.data, it.pos + body.length⟩ := by
  have hl := hat.len
  simp only [List.length_append] at hl
  have := hat.1
  rw [It.plus, toInt32_of_lt (by omega)]
  exact It.add_ok hat.1 hat.2.1 hat.2.2

theorem deserializePacked_of {env : Env} {k : Kind} {l body rest : Bytes} {vs : List Scalar}
    (hl : Varint l body.length) (h : ReadsAll env k body vs) {it : It}
    (hat : At it (l ++ body ++ rest)) {n : Nat} (hn : body.length < n) :
    deserializePacked env k n it = .ok (vs, ⟨it.data, it.pos + (l ++ body).length⟩) := by
  rw [List.append_assoc] at hat
  have hsz := hat.len
  have h31 := hat.1
  simp only [List.length_append] at hsz
  simp only [deserializePacked, deserializeVarint_of (w := 32) (by omega) hl hat.2.2, Res.bind_eq,
    Res.bind]
  rw [Nat.mod_eq_of_lt (by omega), plus_of hat.adv]
  simp only
  rw [packedLoop_of h hat.adv hn]
  simp [Nat.add_assoc]

theorem ReadsEnums.toReadsAll {env : Env} {body : Bytes} {es : List (BitVec 32)}
    (h : ReadsEnums body es) :
    ∃ vs, ReadsAll env .int64 body vs ∧ vs.map enumOfScalar = es := by
  induction h with
  | nil => exact ⟨[], .nil, rfl⟩
  | cons he _ ih =>
    obtain ⟨vs, h1, h2⟩ := ih
    obtain ⟨n, hv, rfl⟩ := he
    refine ⟨_, .cons (.int64 hv) h1, ?_⟩
    simp only [List.map_cons, h2, enumOfScalar, enumOfInt64]
    congr 1
    apply BitVec.eq_of_toNat_eq
    simp

/-! ### Sub-messages and maps -/

section
variable {env : Env} {Sub : Nat → Bytes → Obj → Prop} {rec : Nat → Bytes → MsgResult} {n : Nat}

theorem deserializeObject_of (hrec : ∀ m body o, Sub m body o → body.length < 2 ^ 31 →
      body.length < n → rec m body = (.ok (), o))
    {m : Nat} {l body rest : Bytes} {o : Obj} (hl : Varint l body.length) (hs : Sub m body o)
    {it : It} (hat : At it (l ++ body ++ rest)) (hn : body.length < n) :
    deserializeObject rec m it = .ok (o, ⟨it.data, it.pos + (l ++ body).length⟩) := by
  have hsz := hat.len
  have h31 := hat.1
  simp only [List.length_append] at hsz
  simp only [deserializeObject, deserializeLengthDelimited_of hl hat.1 hat.2.1 hat.2.2, Res.bind_eq,
    Res.bind]
  rw [hrec m body o hs (by omega) hn]

theorem deserializeMapValue_of (hrec : ∀ m body o, Sub m body o → body.length < 2 ^ 31 →
      body.length < n → rec m body = (.ok (), o))
    {vt : MapVal} {wt : Nat} {bs rest : Bytes} {v : Val} (h : ReadsMapVal env Sub vt wt bs v)
    {it : It} (hat : At it (bs ++ rest)) (hn : bs.length < n) :
    deserializeMapValue env rec vt it = .ok (v, ⟨it.data, it.pos + bs.length⟩) := by
  cases h with
  | scalar h => simp only [deserializeMapValue, deserializeBasic_of_reads h hat, Res.bind_eq, Res.bind]
  | enum h => simp only [deserializeMapValue, deserializeEnum_of h hat.2.2, Res.bind_eq, Res.bind]
  | msg hl hs =>
    simp only [List.length_append] at hn
    simp only [deserializeMapValue, deserializeObject_of hrec hl hs hat (by omega), Res.bind_eq, Res.bind]

theorem kind_wireType (k : Kind) : wireType k = 0 ∨ wireType k = 1 ∨ wireType k = 2 ∨ wireType k = 5 := by
  cases k <;> simp [wireType]

theorem readsMapVal_wt {vt : MapVal} {wt : Nat} {bs : Bytes} {v : Val}
    (h : ReadsMapVal env Sub vt wt bs v) : wt = 0 ∨ wt = 1 ∨ wt = 2 ∨ wt = 5 := by
  cases h with
  | scalar => exact kind_wireType _
  | enum => simp
  | msg => simp

theorem mapPairLoop_of (hrec : ∀ m body o, Sub m body o → body.length < 2 ^ 31 →
      body.length < n → rec m body = (.ok (), o))
    {kk : Kind} {vt : MapVal} {body : Bytes} {kv kv' : Scalar × Val}
    (h : Entry env Sub kk vt body kv kv') {it : It} {rest : Bytes} (hat : At it (body ++ rest))
    (hn : body.length < n) {j : Nat} (hj : body.length < j) :
    mapPairLoop env rec kk vt (it.pos + body.length) j kv.1 kv.2 it
      = .ok (kv'.1, kv'.2, ⟨it.data, it.pos + body.length⟩) := by
  induction h generalizing it j with
  | nil kv =>
    cases j with
    | zero => omega
    | succ j => simp [mapPairLoop]
  | @key hdr b bs s kv kv' ht hb _ ih =>
    have hp := ht.1.1.length_pos
    cases j with
    | zero => omega
    | succ j =>
      simp only [List.length_append] at hj hn
      rw [List.append_assoc, List.append_assoc] at hat
      simp only [mapPairLoop, List.length_append]
      rw [if_neg (by omega), decodeHeader_of ht (kind_wireType _) hat.2.2]
      simp only [Res.bind_eq, Res.bind, if_true]
      rw [deserializeBasic_of_reads hb hat.adv]
      simp only
      have := ih hat.adv.adv (by omega) (j := j) (by omega)
      simp only [Nat.add_assoc] at this ⊢
      rw [this]
  | @val hdr b bs wt v kv kv' ht hb _ ih =>
    have hp := ht.1.1.length_pos
    cases j with
    | zero => omega
    | succ j =>
      simp only [List.length_append] at hj hn
      rw [List.append_assoc, List.append_assoc] at hat
      simp only [mapPairLoop, List.length_append]
      rw [if_neg (by omega), decodeHeader_of ht (readsMapVal_wt hb) hat.2.2]
      simp only [Res.bind_eq, Res.bind, if_false, show (2 : Nat) = 1 ↔ False by simp]
      rw [deserializeMapValue_of hrec hb hat.adv (by omega)]
      simp only
      have := ih hat.adv.adv (by omega) (j := j) (by omega)
      simp only [Nat.add_assoc] at this ⊢
      rw [this]

theorem emptyEntry_eq (kk : Kind) (vt : MapVal) :
    emptyEntry kk vt = (defaultScalar kk, defaultMapVal vt) := by
  cases vt <;> rfl

theorem deserializeMapPair_of (hrec : ∀ m body o, Sub m body o → body.length < 2 ^ 31 →
      body.length < n → rec m body = (.ok (), o))
    {kk : Kind} {vt : MapVal} {l body rest : Bytes} {kv : Scalar × Val}
    (hl : Varint l body.length) (h : Entry env Sub kk vt body (emptyEntry kk vt) kv) {it : It}
    (hat : At it (l ++ body ++ rest)) (hn : body.length < n) {j : Nat} (hj : body.length < j) :
    deserializeMapPair env rec kk vt j it
      = .ok (kv.1, kv.2, ⟨it.data, it.pos + (l ++ body).length⟩) := by
  rw [List.append_assoc] at hat
  have hsz := hat.len
  have h31 := hat.1
  simp only [List.length_append] at hsz
  simp only [deserializeMapPair, deserializeVarint_of (w := 32) (by omega) hl hat.2.2, Res.bind_eq,
    Res.bind]
  rw [Nat.mod_eq_of_lt (by omega), plus_of hat.adv]
  simp only
  have := mapPairLoop_of hrec h hat.adv hn hj
  rw [emptyEntry_eq] at this
  rw [this]
  simp [Nat.add_assoc]

theorem store_eq (ty : FieldTy) (a b : Val) : store ty a b = writeVal ty a b := by
  cases ty with
  | map kk vt => cases vt <;> cases a <;> cases b <;> rfl
  | _ => cases a <;> cases b <;> rfl

theorem deserializeValue_of (hrec : ∀ m body o, Sub m body o → body.length < 2 ^ 31 →
      body.length < n → rec m body = (.ok (), o))
    {ty : FieldTy} {wt : Nat} {bs rest : Bytes} {old new : Val}
    (h : FieldEffect env Sub ty wt bs old new) {it : It} (hat : At it (bs ++ rest))
    (hn : bs.length ≤ n) {j : Nat} (hj : bs.length ≤ j) :
    deserializeValue env rec ty j old it = .ok (new, ⟨it.data, it.pos + bs.length⟩) := by
  cases h with
  | scalar _ h => simp only [deserializeValue, deserializeBasic_of_reads h hat, Res.bind_eq, Res.bind]
  | enum _ h => simp only [deserializeValue, deserializeEnum_of h hat.2.2, Res.bind_eq, Res.bind]
  | append old hk h =>
    simp only [deserializeValue, Res.bind_eq]
    rcases hk with hk | hk <;> subst hk <;>
      simp only [deserializeScalarList, deserializeBasic_of_reads h hat, Res.bind_eq, Res.bind]
  | @packed k l body vs _ hk hl h =>
    have := hl.1.length_pos
    simp only [List.length_append] at hj
    have hp := deserializePacked_of hl h hat (n := j) (by omega)
    simp only [deserializeValue, Res.bind_eq]
    cases k <;> simp only [packable] at hk <;>
      simp only [deserializeScalarList, hp, Res.bind]
  | @enums l body es old hl h =>
    have := hl.1.length_pos
    simp only [List.length_append] at hj
    obtain ⟨vs, h1, h2⟩ := ReadsEnums.toReadsAll (env := env) h
    have hp := deserializePacked_of hl h1 hat (n := j) (by omega)
    simp only [deserializeValue, deserializeEnumList, Res.bind_eq, hp, Res.bind, h2]
  | @msg m l body o _ hl hs =>
    have := hl.1.length_pos
    simp only [List.length_append] at hn
    simp only [deserializeValue, deserializeObject_of hrec hl hs hat (by omega), Res.bind_eq, Res.bind]
  | @msgList m l body o _ hl hs =>
    have := hl.1.length_pos
    simp only [List.length_append] at hn
    simp only [deserializeValue, deserializeObject_of hrec hl hs hat (by omega), Res.bind_eq, Res.bind]
  | @map kk vt l body kv _ hl he =>
    have := hl.1.length_pos
    simp only [List.length_append] at hn hj
    simp only [deserializeValue, deserializeMapPair_of hrec hl he hat (by omega) (j := j) (by omega),
      Res.bind_eq, Res.bind]

theorem fieldEffect_wt {ty : FieldTy} {wt : Nat} {bs : Bytes} {old new : Val}
    (h : FieldEffect env Sub ty wt bs old new) : wt = 0 ∨ wt = 1 ∨ wt = 2 ∨ wt = 5 := by
  cases h with
  | scalar => exact kind_wireType _
  | _ => simp

theorem findField_of {fs : List Field} {i : Nat} {f : Field} (hnd : (fs.map (·.num)).Nodup)
    (h : fs[i]? = some f) : findField fs f.num = some i := by
  unfold findField
  rw [List.findIdx?_eq_some_iff_getElem]
  obtain ⟨hi, rfl⟩ := List.getElem?_eq_some_iff.mp h
  refine ⟨hi, by simp, ?_⟩
  intro j hj
  simp only [beq_iff_eq]
  intro he
  have hji : j < fs.length := by omega
  have := List.pairwise_iff_getElem.mp hnd j i (by simpa using hji) (by simpa using hi) hj
  simp at this
  exact this he

theorem findField_none {fs : List Field} {num : Nat} (h : ∀ f ∈ fs, f.num ≠ num) :
    findField fs num = none := by
  unfold findField
  rw [List.findIdx?_eq_none_iff]
  intro f hf
  simpa using h f hf

/-- The record loop implements `Spec.Stream`. -/
theorem messageLoop_of (hv : ValidSchema env) (hrec : ∀ m body o, Sub m body o →
      body.length < 2 ^ 31 → body.length < n → rec m body = (.ok (), o))
    {m : Nat} {bs : Bytes} {o o' : Obj} (h : Stream env Sub m bs o o') {it : It} (hat : At it bs)
    (hn : bs.length ≤ n) {j : Nat} (hj : bs.length < j) :
    messageLoop env rec m j it o = (.ok (), o') := by
  induction h generalizing it j with
  | nil o =>
    have hl := hat.len
    cases j with
    | zero => omega
    | succ j =>
      simp at hl
      simp [messageLoop, hl]
  | @known hdr payload rest wt i f o o' old new hf ht ho he _ ih =>
    have hp := ht.1.1.length_pos
    have hl := hat.len
    cases j with
    | zero => omega
    | succ j =>
      simp only [List.length_append] at hj hl hn
      rw [List.append_assoc] at hat
      simp only [messageLoop]
      rw [if_neg (by omega)]
      have hd : deserializeProperty env rec m j it o
          = .ok (⟨it.data, it.pos + hdr.length + payload.length⟩, o.set i (store f.ty old new)) := by
        simp only [deserializeProperty, decodeHeader_of ht (fieldEffect_wt he) hat.2.2, Res.bind_eq,
          Res.bind, findField_of (hv m).1 hf, hf, ho, store_eq]
        rw [deserializeValue_of hrec he hat.adv (by omega) (j := j) (by omega)]
        simp
      rw [hd]
      exact ih hat.adv.adv (by omega) (by omega)
  | @unknown hdr payload rest num wt o o' hnone ht hs _ ih =>
    have hp := ht.1.1.length_pos
    have hl := hat.len
    cases j with
    | zero => omega
    | succ j =>
      simp only [List.length_append] at hj hl hn
      rw [List.append_assoc] at hat
      simp only [messageLoop]
      rw [if_neg (by omega)]
      have hd : deserializeProperty env rec m j it o
          = .ok (⟨it.data, it.pos + hdr.length + payload.length⟩, o) := by
        simp only [deserializeProperty, decodeHeader_of ht (skippable_wt hs) hat.2.2, Res.bind_eq,
          Res.bind, findField_none hnone]
        rw [skipField_of hs hat.adv.1 hat.adv.2.1 hat.adv.2.2]
        simp
      rw [hd]
      exact ih hat.adv.adv (by omega) (by omega)

end

theorem deserializeMessage_of_message {env : Env} (hv : ValidSchema env) {d m : Nat} {bs : Bytes}
    {o : Obj} (h : Message env d m bs o) (h31 : bs.length < 2 ^ 31) {n : Nat} (hn : bs.length < n) :
    deserializeMessage env n m bs = (.ok (), o) := by
  induction d generalizing m bs o n with
  | zero => exact h.elim
  | succ d ih =>
    cases n with
    | zero => omega
    | succ n =>
      have h' : Stream env (Message env d) m bs (defaultObj env m) o := h
      have hrec : ∀ m body o, Message env d m body o → body.length < 2 ^ 31 → body.length < n →
          deserializeMessage env n m body = (.ok (), o) := fun m body o hs h1 h2 => ih hs h1 h2
      exact messageLoop_of hv hrec h' (At.start h31) (by omega) (by omega)

end QtPb
