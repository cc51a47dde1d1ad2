import Verif.SpecRecords
import Verif.DecodeLemmas
namespace QtPb
open Spec

theorem varintLoop_truncated {w : Nat} {bs : Bytes} (h : ∀ b ∈ bs, 128 ≤ b.toNat) (acc k : Nat)
    (hk : k + 7 * bs.length < 64) : varintLoop w bs acc k = .throw .outOfRange := by
  induction bs generalizing acc k with
  | nil => simp only [varintLoop]; rw [if_neg (by simp at hk; omega)]
  | cons b bs ih =>
    have hb := h b (by simp)
    simp only [List.length_cons] at hk
    have h2 : ¬ (b.toNat &&& 0x80 = 0) := by rw [and80 _ (u8_lt b), if_neg (by omega)]; omega
    simp only [varintLoop]
    rw [if_neg (by omega), if_neg h2]
    simp only [Res.bind_eq]
    rw [ih (fun b hb => h b (List.mem_cons_of_mem _ hb)) _ _ (by omega)]
    rfl

theorem deserializeVarint_truncated {w : Nat} {it : It} (h : Truncated it.rest) :
    deserializeVarint w it = .throw .outOfRange := by
  simp only [deserializeVarint]
  rw [varintLoop_truncated h.1 0 0 (by have := h.2; omega)]
  rfl

theorem skipVarintLoop_truncated {bs : Bytes} (h : ∀ b ∈ bs, 128 ≤ b.toNat) :
    skipVarintLoop bs = .throw .outOfRange := by
  induction bs with
  | nil => rfl
  | cons b bs ih =>
    have hb := h b (by simp)
    have h2 : ¬ (b.toNat &&& 0x80 = 0) := by rw [and80 _ (u8_lt b), if_neg (by omega)]; omega
    simp only [skipVarintLoop]
    rw [if_neg h2, ih (fun b hb => h b (List.mem_cons_of_mem _ hb))]
    rfl

theorem It.add_throw {it : It} {r : Bytes} (h : At it r) {n : Nat} (hn : r.length < n) :
    it.add n = .throw .outOfRange := by
  have hl := h.len
  simp only [It.add]
  rw [if_neg (by have := h.1; omega), if_pos (by omega)]

theorem deserializeBasic_truncated {env : Env} {k : Kind} (hk : startsWithVarint (.scalar k) = true)
    {it : It} (h : Truncated it.rest) : deserializeBasic env k it = .throw .outOfRange := by
  cases k <;> simp only [startsWithVarint, Bool.false_eq_true] at hk <;>
    simp only [deserializeBasic, deserializeLengthDelimited, deserializeVarint_truncated h,
      Res.bind_eq] <;> rfl

theorem deserializePacked_truncated {env : Env} {k : Kind} {it : It} (h : Truncated it.rest) (n : Nat) :
    deserializePacked env k n it = .throw .outOfRange := by
  simp only [deserializePacked, deserializeVarint_truncated h, Res.bind_eq]; rfl

theorem deserializePacked_tooLong {env : Env} {k : Kind} {l rest : Bytes} {len : Nat}
    (hl : Varint l len) (hlen : len < 2 ^ 31) (hr : rest.length < len) {it : It}
    (hat : At it (l ++ rest)) (n : Nat) : deserializePacked env k n it = .throw .outOfRange := by
  simp only [deserializePacked]
  rw [deserializeVarint_of (by omega) hl hat.2.2, Nat.mod_eq_of_lt (by omega)]
  simp only [Res.bind_eq, Res.bind, It.plus]
  rw [toInt32_of_lt hlen, It.add_throw hat.adv hr]

section
variable {env : Env} {rec : Nat → Bytes → MsgResult} {n : Nat}

theorem deserializeObject_truncated {m : Nat} {it : It} (h : Truncated it.rest) :
    deserializeObject rec m it = .throw .outOfRange := by
  simp only [deserializeObject, deserializeLengthDelimited, deserializeVarint_truncated h, Res.bind_eq]
  rfl

theorem deserializeMapPair_truncated {kk : Kind} {vt : MapVal} {it : It} (h : Truncated it.rest)
    (n : Nat) : deserializeMapPair env rec kk vt n it = .throw .outOfRange := by
  simp only [deserializeMapPair, deserializeVarint_truncated h, Res.bind_eq]; rfl

theorem deserializeMapPair_tooLong {kk : Kind} {vt : MapVal} {l rest : Bytes} {len : Nat}
    (hl : Varint l len) (hlen : len < 2 ^ 31) (hr : rest.length < len) {it : It}
    (hat : At it (l ++ rest)) (n : Nat) :
    deserializeMapPair env rec kk vt n it = .throw .outOfRange := by
  simp only [deserializeMapPair]
  rw [deserializeVarint_of (by omega) hl hat.2.2, Nat.mod_eq_of_lt (by omega)]
  simp only [Res.bind_eq, Res.bind, It.plus]
  rw [toInt32_of_lt hlen, It.add_throw hat.adv hr]

theorem deserializeValue_truncated {ty : FieldTy} (hty : startsWithVarint ty = true) {it : It}
    (h : Truncated it.rest) (cur : Val) (n : Nat) :
    deserializeValue env rec ty n cur it = .throw .outOfRange := by
  cases ty with
  | scalar k => simp only [deserializeValue, deserializeBasic_truncated hty h, Res.bind_eq]; rfl
  | list k =>
    cases k <;> simp only [startsWithVarint, Bool.false_eq_true] at hty <;>
      simp only [deserializeValue, deserializeScalarList, deserializePacked_truncated h,
        deserializeBasic_truncated (k := .string) rfl h, deserializeBasic_truncated (k := .bytes) rfl h,
        Res.bind_eq] <;> rfl
  | enum => simp only [deserializeValue, deserializeEnum, deserializeVarint_truncated h, Res.bind_eq]; rfl
  | enumList =>
    simp only [deserializeValue, deserializeEnumList, deserializePacked_truncated h, Res.bind_eq]; rfl
  | msg m => simp only [deserializeValue, deserializeObject_truncated h, Res.bind_eq]; rfl
  | msgList m => simp only [deserializeValue, deserializeObject_truncated h, Res.bind_eq]; rfl
  | map kk vt => simp only [deserializeValue, deserializeMapPair_truncated h, Res.bind_eq]; rfl

theorem deserializeValue_tooLong {ty : FieldTy} (hty : checksLength ty) {l rest : Bytes} {len : Nat}
    (hl : Varint l len) (hlen : len < 2 ^ 31) (hr : rest.length < len) {it : It}
    (hat : At it (l ++ rest)) (cur : Val) (n : Nat) :
    deserializeValue env rec ty n cur it = .throw .outOfRange := by
  cases ty with
  | list k =>
    cases k <;> simp only [checksLength, packable] at hty <;>
      simp only [deserializeValue, deserializeScalarList, deserializePacked_tooLong hl hlen hr hat,
        Res.bind_eq] <;> rfl
  | enumList =>
    simp only [deserializeValue, deserializeEnumList, deserializePacked_tooLong hl hlen hr hat,
      Res.bind_eq]; rfl
  | map kk vt =>
    simp only [deserializeValue, deserializeMapPair_tooLong hl hlen hr hat, Res.bind_eq]; rfl
  | _ => exact absurd hty id

theorem deserializeObject_fails {m : Nat} {l body rest : Bytes} {e : Exn} {o : Obj}
    (hl : Varint l body.length) (hrec : rec m body = (.throw e, o)) {it : It}
    (hat : At it (l ++ body ++ rest)) : deserializeObject rec m it = .throw e := by
  simp only [deserializeObject]
  rw [deserializeLengthDelimited_of hl hat.1 hat.2.1 hat.2.2]
  simp only [Res.bind_eq, Res.bind, hrec]

/-- Elements in front of a position where reading an element throws. -/
theorem packedLoop_throws {k : Kind} {body tr : Bytes} {vs : List Scalar} {e : Exn} {len : Nat}
    (h : ReadsAll env k body vs)
    (hb : ∀ it' : It, At it' tr → deserializeBasic env k it' = .throw e) {it : It}
    (hat : At it (body ++ tr)) (hlen : body.length < len) {j : Nat} (hj : body.length < j) :
    packedLoop env k (it.pos + len) j it = .throw e := by
  induction h generalizing it j len with
  | nil =>
    cases j with
    | zero => omega
    | succ j =>
      simp only [packedLoop]
      rw [if_neg (by simp at hlen; omega), hb it hat]
      rfl
  | @cons b bs s l hb' _ ih =>
    cases j with
    | zero => omega
    | succ j =>
      have hp := hb'.length_pos
      simp only [List.length_append] at hlen hj
      rw [List.append_assoc] at hat
      simp only [packedLoop]
      rw [if_neg (by omega), deserializeBasic_of_reads hb' hat]
      simp only [Res.bind_eq, Res.bind]
      have := ih hat.adv (len := len - b.length) (by omega) (j := j) (by omega)
      simp only at this
      rw [show it.pos + b.length + (len - b.length) = it.pos + len by omega] at this
      rw [this]

theorem deserializePacked_throws {k : Kind} {l body tr : Bytes} {vs : List Scalar} {e : Exn} {len : Nat}
    (hl : Varint l len) (hlen : body.length < len) (hle : len ≤ (body ++ tr).length)
    (h : ReadsAll env k body vs)
    (hb : ∀ it' : It, At it' tr → deserializeBasic env k it' = .throw e) {it : It}
    (hat : At it (l ++ body ++ tr)) {j : Nat} (hj : body.length < j) :
    deserializePacked env k j it = .throw e := by
  rw [List.append_assoc] at hat
  have hsz := hat.len
  have h31 := hat.1
  simp only [List.length_append] at hsz hle
  have hat1 := hat.adv
  have hsplit : body ++ tr = (body ++ tr).take len ++ (body ++ tr).drop len := by simp
  have hlt : ((body ++ tr).take len).length = len := by simp; omega
  simp only [deserializePacked, deserializeVarint_of (w := 32) (by omega) hl hat.2.2, Res.bind_eq,
    Res.bind]
  have hp := plus_of (it := ⟨it.data, it.pos + l.length⟩) (hsplit ▸ hat1)
  rw [hlt] at hp
  rw [Nat.mod_eq_of_lt (by omega), hp]
  simp only
  exact packedLoop_throws h hb hat1 hlen hj

/-- What is wrong with the rest of a map entry makes the entry loop throw. -/
theorem badEntry_throws {SubFails : Nat → Bytes → Exn → Prop}
    (hrec : ∀ m body e, SubFails m body e → body.length < 2 ^ 31 → body.length < n →
      ∃ o, rec m body = (.throw e, o))
    {kk : Kind} {vt : MapVal} {bad : Bytes} {e : Exn} (h : BadEntry SubFails kk vt bad e) {it : It}
    (hat : At it bad) (hn : bad.length ≤ n) {last j : Nat} (hlast : it.pos ≠ last) (hj : 0 < j)
    (kv : Scalar × Val) : mapPairLoop env rec kk vt last j kv.1 kv.2 it = .throw e := by
  cases j with
  | zero => omega
  | succ j =>
    simp only [mapPairLoop]
    rw [if_neg hlast]
    cases h with
    | truncatedTag htr _ =>
      have : Truncated it.rest := by rw [hat.2.2]; exact htr
      simp only [decodeHeader, deserializeVarint_truncated this, Res.bind_eq, Res.bind]
    | @truncatedKey hdr tr ht hk htr =>
      have : Truncated (It.rest ⟨it.data, it.pos + hdr.length⟩) := by rw [hat.adv.2.2]; exact htr
      rw [decodeHeader_of ht (kind_wireType _) hat.2.2]
      simp only [Res.bind_eq, Res.bind, if_true, deserializeBasic_truncated hk this]
    | @truncatedValue hdr tr wt ht hwt hk htr =>
      have : Truncated (It.rest ⟨it.data, it.pos + hdr.length⟩) := by rw [hat.adv.2.2]; exact htr
      rw [decodeHeader_of ht hwt hat.2.2]
      simp only [Res.bind_eq, Res.bind, if_false, show (2 : Nat) = 1 ↔ False by simp]
      cases vt with
      | scalar k => simp only [deserializeMapValue, deserializeBasic_truncated hk this, Res.bind_eq, Res.bind]
      | enum =>
        simp only [deserializeMapValue, deserializeEnum, deserializeVarint_truncated this, Res.bind_eq, Res.bind]
      | msg m => simp only [deserializeMapValue, deserializeObject_truncated this, Res.bind_eq, Res.bind]
    | @nested hdr l body rest m e ht hm hl hs =>
      have hlen := hat.len
      have h31 := hat.1
      simp only [List.length_append] at hn hlen
      have hat' : At it (hdr ++ (l ++ body ++ rest)) := by simpa using hat
      obtain ⟨o', ho'⟩ := hrec m body e hs (by omega) (by have := ht.1.1.length_pos; omega)
      rw [decodeHeader_of ht (by simp) hat'.2.2]
      subst hm
      simp only [Res.bind_eq, Res.bind, if_false, show (2 : Nat) = 1 ↔ False by simp, deserializeMapValue,
        deserializeObject_fails hl ho' hat'.adv]

theorem mapPairLoop_throws {Sub : Nat → Bytes → Obj → Prop} {SubFails : Nat → Bytes → Exn → Prop}
    (hok : ∀ m body o, Sub m body o → body.length < 2 ^ 31 → body.length < n →
      rec m body = (.ok (), o))
    (hrec : ∀ m body e, SubFails m body e → body.length < 2 ^ 31 → body.length < n →
      ∃ o, rec m body = (.throw e, o))
    {kk : Kind} {vt : MapVal} {body bad : Bytes} {kv kv' : Scalar × Val} {e : Exn} {len : Nat}
    (h : Entry env Sub kk vt body kv kv') (hbad : BadEntry SubFails kk vt bad e) {it : It}
    (hat : At it (body ++ bad)) (hn : (body ++ bad).length ≤ n) (hlen : body.length < len) {j : Nat}
    (hj : body.length < j) :
    mapPairLoop env rec kk vt (it.pos + len) j kv.1 kv.2 it = .throw e := by
  induction h generalizing it j len with
  | nil kv =>
    exact badEntry_throws hrec hbad hat (by simpa using hn) (by simp at hlen; omega) (by omega) kv
  | @key hdr b bs s kv kv' ht hb _ ih =>
    cases j with
    | zero => omega
    | succ j =>
      simp only [List.length_append] at hj hn hlen
      have hp := ht.1.1.length_pos
      have hat' : At it (hdr ++ (b ++ (bs ++ bad))) := by simpa using hat
      simp only [mapPairLoop]
      rw [if_neg (by omega), decodeHeader_of ht (kind_wireType _) hat'.2.2]
      simp only [Res.bind_eq, Res.bind, if_true]
      rw [deserializeBasic_of_reads hb hat'.adv]
      simp only
      have := ih hat'.adv.adv (by simp; omega) (len := len - hdr.length - b.length) (by omega) (j := j)
        (by omega)
      simp only at this
      rw [show it.pos + hdr.length + b.length + (len - hdr.length - b.length) = it.pos + len by omega]
        at this
      exact this
  | @val hdr b bs wt v kv kv' ht hb _ ih =>
    cases j with
    | zero => omega
    | succ j =>
      simp only [List.length_append] at hj hn hlen
      have hp := ht.1.1.length_pos
      have hat' : At it (hdr ++ (b ++ (bs ++ bad))) := by simpa using hat
      simp only [mapPairLoop]
      rw [if_neg (by omega), decodeHeader_of ht (readsMapVal_wt hb) hat'.2.2]
      simp only [Res.bind_eq, Res.bind, if_false, show (2 : Nat) = 1 ↔ False by simp]
      rw [deserializeMapValue_of hok hb hat'.adv (by omega)]
      simp only
      have := ih hat'.adv.adv (by simp; omega) (len := len - hdr.length - b.length) (by omega) (j := j)
        (by omega)
      simp only at this
      rw [show it.pos + hdr.length + b.length + (len - hdr.length - b.length) = it.pos + len by omega]
        at this
      exact this

theorem deserializeMapPair_throws {Sub : Nat → Bytes → Obj → Prop} {SubFails : Nat → Bytes → Exn → Prop}
    (hok : ∀ m body o, Sub m body o → body.length < 2 ^ 31 → body.length < n →
      rec m body = (.ok (), o))
    (hrec : ∀ m body e, SubFails m body e → body.length < 2 ^ 31 → body.length < n →
      ∃ o, rec m body = (.throw e, o))
    {kk : Kind} {vt : MapVal} {l body bad : Bytes} {kv : Scalar × Val} {e : Exn} {len : Nat}
    (hl : Varint l len) (hlen : body.length < len) (hle : len ≤ (body ++ bad).length)
    (h : Entry env Sub kk vt body (emptyEntry kk vt) kv) (hbad : BadEntry SubFails kk vt bad e) {it : It}
    (hat : At it (l ++ body ++ bad)) (hn : (body ++ bad).length ≤ n) {j : Nat} (hj : body.length < j) :
    deserializeMapPair env rec kk vt j it = .throw e := by
  rw [List.append_assoc] at hat
  have hsz := hat.len
  have h31 := hat.1
  simp only [List.length_append] at hsz hle
  have hat1 := hat.adv
  have hsplit : body ++ bad = (body ++ bad).take len ++ (body ++ bad).drop len := by simp
  have hlt : ((body ++ bad).take len).length = len := by simp; omega
  simp only [deserializeMapPair, deserializeVarint_of (w := 32) (by omega) hl hat.2.2, Res.bind_eq,
    Res.bind]
  have hp := plus_of (it := ⟨it.data, it.pos + l.length⟩) (hsplit ▸ hat1)
  rw [hlt] at hp
  rw [Nat.mod_eq_of_lt (by omega), hp]
  simp only
  have := mapPairLoop_throws hok hrec h hbad hat1 hn hlen hj
  rwa [emptyEntry_eq] at this

/-- Decoding valid records first: the loop arrives behind them with their effect applied. -/
theorem messageLoop_prefix {Sub : Nat → Bytes → Obj → Prop} (hv : ValidSchema env)
    (hrec : ∀ m body o, Sub m body o → body.length < 2 ^ 31 → body.length < n →
      rec m body = (.ok (), o))
    {m : Nat} {bs : Bytes} {o o' : Obj} (h : Stream env Sub m bs o o') {it : It} {rest : Bytes}
    (hat : At it (bs ++ rest)) (hn : bs.length ≤ n) {j : Nat} (hj : bs.length < j) :
    ∃ j', j ≤ j' + bs.length ∧ j' ≤ j ∧
      messageLoop env rec m j it o = messageLoop env rec m j' ⟨it.data, it.pos + bs.length⟩ o' := by
  induction h generalizing it j with
  | nil o => exact ⟨j, by simp, by simp, by simp⟩
  | @known hdr payload rest' wt i f o o' old new hf ht ho he _ ih =>
    have hpos := ht.1.1.length_pos
    have hlen := hat.len
    simp only [List.length_append] at hj hn hlen
    cases j with
    | zero => omega
    | succ j =>
      have hne : ¬ it.pos = it.data.length := by omega
      have hat1 : At it (hdr ++ (payload ++ (rest' ++ rest))) := by simpa using hat
      have hat2 := hat1.adv
      have hwt := fieldEffect_wt he
      have hh := decodeHeader_of ht hwt hat1.2.2
      have hff := findField_of (hv m).1 hf
      have hval := deserializeValue_of hrec he (it := ⟨it.data, it.pos + hdr.length⟩) hat2
        (by omega) (j := j) (by omega)
      have hprop : deserializeProperty env rec m j it o
          = .ok (⟨it.data, it.pos + hdr.length + payload.length⟩, o.set i (store f.ty old new)) := by
        simp only [deserializeProperty, hh, Res.bind_eq, Res.bind, Bool.not_true, Bool.false_eq_true,
          if_false, hff, hf, ho, hval, store_eq]
      obtain ⟨j', h1, h2, h3⟩ := ih (it := ⟨it.data, it.pos + hdr.length + payload.length⟩) (j := j)
        hat2.adv (by omega) (by omega)
      refine ⟨j', by simp; omega, by omega, ?_⟩
      simp only [messageLoop, hne, if_false, hprop, h3]
      simp [Nat.add_assoc]
  | @unknown hdr payload rest' num wt o o' hn' ht hs _ ih =>
    have hpos := ht.1.1.length_pos
    have hlen := hat.len
    simp only [List.length_append] at hj hn hlen
    cases j with
    | zero => omega
    | succ j =>
      have hne : ¬ it.pos = it.data.length := by omega
      have hat1 : At it (hdr ++ (payload ++ (rest' ++ rest))) := by simpa using hat
      have hat2 := hat1.adv
      have hwt := skippable_wt hs
      have hh := decodeHeader_of ht hwt hat1.2.2
      have hff := findField_none hn'
      have hsk := skipField_of hs hat2.1 hat2.2.1 hat2.2.2
      have hprop : deserializeProperty env rec m j it o
          = .ok (⟨it.data, it.pos + hdr.length + payload.length⟩, o) := by
        simp only [deserializeProperty, hh, Res.bind_eq, Res.bind, Bool.not_true, Bool.false_eq_true,
          if_false, hff, hsk]
      obtain ⟨j', h1, h2, h3⟩ := ih (it := ⟨it.data, it.pos + hdr.length + payload.length⟩) (j := j)
        hat2.adv (by omega) (by omega)
      refine ⟨j', by simp; omega, by omega, ?_⟩
      simp only [messageLoop, hne, if_false, hprop, h3]
      simp [Nat.add_assoc]

/-- A bad record makes `deserializeProperty` throw. -/
theorem badRecord_throws (hv : ValidSchema env) {Sub : Nat → Bytes → Obj → Prop}
    {SubFails : Nat → Bytes → Exn → Prop}
    (hok : ∀ m body o, Sub m body o → body.length < 2 ^ 31 → body.length < n →
      rec m body = (.ok (), o))
    (hrec : ∀ m body e, SubFails m body e → body.length < 2 ^ 31 → body.length < n →
      ∃ o, rec m body = (.throw e, o))
    {m : Nat} {bs : Bytes} {e : Exn} (h : BadRecord env Sub SubFails m bs e) {it : It} (hat : At it bs)
    (hn : bs.length ≤ n) {j : Nat} (hj : bs.length ≤ j) {o : Obj} (ho : o.length = (env.sch m).length) :
    deserializeProperty env rec m j it o = .throw e ∧ bs ≠ [] := by
  have hdrne : ∀ {hdr : Bytes} {num wt : Nat} {r : Bytes}, Tag hdr num wt → hdr ++ r ≠ [] := by
    intro hdr num wt r ht hc
    have := ht.1.1.ne_nil
    simp_all
  have field : ∀ {f : Field}, f ∈ env.sch m → ∃ (i : Nat) (cur : Val), (env.sch m)[i]? = some f ∧
      o[i]? = some cur ∧ findField (env.sch m) f.num = some i := by
    intro f hf
    obtain ⟨i, hi, rfl⟩ := List.getElem_of_mem hf
    exact ⟨i, o[i]'(by omega), by simp [hi], by simp [ho, hi],
      findField_of (hv m).1 (by simp [hi])⟩
  have known : ∀ {hdr rest : Bytes} {f : Field} {wt : Nat}, f ∈ env.sch m → Tag hdr f.num wt →
      wt = 0 ∨ wt = 1 ∨ wt = 2 ∨ wt = 5 → At it (hdr ++ rest) →
      (∀ it' cur, At it' rest → deserializeValue env rec f.ty j cur it' = .throw e) →
      deserializeProperty env rec m j it o = .throw e := by
    intro hdr rest f wt hf ht hwt hat hval
    obtain ⟨i, cur, h1, h2, h3⟩ := field hf
    simp only [deserializeProperty, decodeHeader_of ht hwt hat.2.2, Res.bind_eq, Res.bind,
      Bool.not_true, Bool.false_eq_true, if_false, h3, h1, h2, hval _ cur hat.adv]
  have unknown : ∀ {hdr rest : Bytes} {num wt : Nat}, (∀ f ∈ env.sch m, f.num ≠ num) →
      Tag hdr num wt → wt = 0 ∨ wt = 1 ∨ wt = 2 ∨ wt = 5 → At it (hdr ++ rest) →
      (∀ it', At it' rest → skipField it' wt = .throw e) →
      deserializeProperty env rec m j it o = .throw e := by
    intro hdr rest num wt hnum ht hwt hat hval
    simp only [deserializeProperty, decodeHeader_of ht hwt hat.2.2, Res.bind_eq, Res.bind,
      Bool.not_true, Bool.false_eq_true, if_false, findField_none hnum, hval _ hat.adv]
  cases h with
  | @tag tg rest t hvar hbad =>
    refine ⟨?_, ?_⟩
    · have hd : t % 2 ^ 32 = t % 2 ^ 32 / 8 * 8 + t % 8 := by omega
      have hval : (splitHeader (t % 2 ^ 32)).valid = false := by
        rw [hd, splitHeader_of (by omega)]
        rcases hbad with hb | hb | hb | hb | hb <;> simp [hb]
      simp only [deserializeProperty, decodeHeader,
        deserializeVarint_of (w := 32) (by omega) hvar hat.2.2,
        Res.bind_eq, Res.bind, hval, Bool.not_false, if_true]
    · have := hvar.1.ne_nil
      simp [this]
  | truncatedTag htr hne =>
    refine ⟨?_, hne⟩
    have : Truncated it.rest := by rw [hat.2.2]; exact htr
    simp only [deserializeProperty, decodeHeader, deserializeVarint_truncated this, Res.bind_eq, Res.bind]
  | truncatedValue hf ht hwt hs htr =>
    refine ⟨known hf ht hwt hat fun it' cur hat' => ?_, hdrne ht⟩
    exact deserializeValue_truncated hs (by rw [hat'.2.2]; exact htr) cur j
  | @tooLong hdr l rest f wt len hf ht hwt hc hl hlen hr =>
    have hat' : At it (hdr ++ (l ++ rest)) := by simpa using hat
    refine ⟨known hf ht hwt hat' fun it' cur hat'' => deserializeValue_tooLong hc hl hlen hr hat'' cur j,
      by simpa using hdrne (r := l ++ rest) ht⟩
  | @nested hdr l body rest f wt m' e hf ht hwt hsub hl hsf =>
    have hat' : At it (hdr ++ (l ++ body ++ rest)) := by simpa using hat
    have hlen := hat.len
    have := hat.1
    simp only [List.length_append] at hn hlen
    obtain ⟨o', ho'⟩ := hrec m' body e hsf (by omega) (by
      have := ht.1.1.length_pos; omega)
    refine ⟨known hf ht hwt hat' fun it' cur hat'' => ?_,
      by simpa using hdrne (r := l ++ body ++ rest) ht⟩
    have := deserializeObject_fails hl ho' hat''
    cases hty : f.ty <;> rw [hty] at hsub <;> simp only [subMessage, Option.some.injEq, reduceCtorEq] at hsub
    · subst hsub; simp only [deserializeValue, this, Res.bind_eq]; rfl
    · subst hsub; simp only [deserializeValue, this, Res.bind_eq]; rfl
  | @packedTruncated hdr l body tr f wt len k vs hf ht hwt hty hpk hw hl hlt hle hall htr =>
    have hat' : At it (hdr ++ (l ++ body ++ tr)) := by simpa using hat
    have hp := ht.1.1.length_pos
    simp only [List.length_append] at hj
    refine ⟨known hf ht hwt hat' fun it' cur hat'' => ?_, by simpa using hdrne (r := l ++ body ++ tr) ht⟩
    have hthr : ∀ it' : It, At it' tr → deserializeBasic env k it' = .throw .outOfRange := fun it' h =>
      deserializeBasic_truncated (by cases k <;> simp_all [wireType, startsWithVarint])
        (by rw [h.2.2]; exact htr)
    have := deserializePacked_throws hl hlt hle hall hthr hat'' (j := j) (by omega)
    rw [hty]
    cases k <;> first
      | exact absurd hpk id
      | simp only [deserializeValue, deserializeScalarList, this, Res.bind_eq, Res.bind]
  | @enumsTruncated hdr l body tr f wt len es hf ht hwt hty hl hlt hle hall htr =>
    have hat' : At it (hdr ++ (l ++ body ++ tr)) := by simpa using hat
    have hp := ht.1.1.length_pos
    simp only [List.length_append] at hj
    refine ⟨known hf ht hwt hat' fun it' cur hat'' => ?_, by simpa using hdrne (r := l ++ body ++ tr) ht⟩
    have hthr : ∀ it' : It, At it' tr → deserializeBasic env .int64 it' = .throw .outOfRange :=
      fun it' h => deserializeBasic_truncated rfl (by rw [h.2.2]; exact htr)
    obtain ⟨vs, hvs, -⟩ := ReadsEnums.toReadsAll (env := env) hall
    have := deserializePacked_throws hl hlt hle hvs hthr hat'' (j := j) (by omega)
    rw [hty]
    simp only [deserializeValue, deserializeEnumList, this, Res.bind_eq, Res.bind]
  | @entry hdr l body bad f wt len kk vt kv e hf ht hwt hty hl hlt hle hent hbe =>
    have hat' : At it (hdr ++ (l ++ body ++ bad)) := by simpa using hat
    have hp := ht.1.1.length_pos
    simp only [List.length_append] at hj hn
    refine ⟨known hf ht hwt hat' fun it' cur hat'' => ?_, by simpa using hdrne (r := l ++ body ++ bad) ht⟩
    have := deserializeMapPair_throws hok hrec hl hlt hle hent hbe hat'' (by simp; omega) (j := j) (by omega)
    rw [hty]
    simp only [deserializeValue, this, Res.bind_eq, Res.bind]
  | boolList hf ht hwt hty =>
    refine ⟨known hf ht hwt hat fun it' cur hat' => ?_, hdrne ht⟩
    rw [hty]
    simp only [deserializeValue, deserializeScalarList, Res.bind_eq]; rfl
  | unknownVarint hnum ht htr =>
    refine ⟨unknown hnum ht (by simp) hat fun it' hat' => ?_, hdrne ht⟩
    have : ∀ b ∈ it'.rest, 128 ≤ b.toNat := by rw [hat'.2.2]; exact htr
    simp only [skipField, wtVarint, if_true, skipVarint, skipVarintLoop_truncated this, Res.bind_eq]; rfl
  | unknownFixed32 hnum ht hr =>
    refine ⟨unknown hnum ht (by simp) hat fun it' hat' => ?_, hdrne ht⟩
    have := It.add_throw hat' hr
    simpa [skipField, wtVarint, wtFixed32] using this
  | unknownFixed64 hnum ht hr =>
    refine ⟨unknown hnum ht (by simp) hat fun it' hat' => ?_, hdrne ht⟩
    have := It.add_throw hat' hr
    simpa [skipField, wtVarint, wtFixed32, wtFixed64] using this
  | unknownLength hnum ht htr =>
    refine ⟨unknown hnum ht (by simp) hat fun it' hat' => ?_, hdrne ht⟩
    have : Truncated it'.rest := by rw [hat'.2.2]; exact htr
    simp only [skipField, wtVarint, wtFixed32, wtFixed64, wtLengthDelimited, skipLengthDelimited,
      deserializeVarint_truncated this, Res.bind_eq]
    simp [Res.bind]
  | @unknownTooLong hdr l rest num len hnum ht hl hlen hr =>
    have hat' : At it (hdr ++ (l ++ rest)) := by simpa using hat
    refine ⟨unknown hnum ht (by simp) hat' fun it' hat'' => ?_,
      by simpa using hdrne (r := l ++ rest) ht⟩
    have h1 := deserializeVarint_of (w := 32) (by omega) hl hat''.2.2
    rw [Nat.mod_eq_of_lt (by omega)] at h1
    have h2 := It.add_throw hat''.adv hr
    simp only [skipField, wtVarint, wtFixed32, wtFixed64, wtLengthDelimited, skipLengthDelimited, h1,
      Res.bind_eq, Res.bind, toInt32_of_lt hlen, h2]
    simp

end

theorem Spec.Stream.length {env : Env} {Sub : Nat → Bytes → Obj → Prop} {m : Nat} {bs : Bytes}
    {o o' : Obj} (h : Stream env Sub m bs o o') : o'.length = o.length := by
  induction h with
  | nil => rfl
  | known _ _ _ _ _ ih => simpa using ih
  | unknown _ _ _ _ ih => exact ih

/-- Inputs that fail in the sense of `Spec.Fails` are reported with that exception, and the object has
the effect of the records in front of the bad one. -/
theorem deserializeMessage_of_fails {env : Env} (hv : ValidSchema env) {d m : Nat} {bs : Bytes} {e : Exn}
    {o : Obj} (h : Fails env d m bs e o) (h31 : bs.length < 2 ^ 31) {n : Nat} (hn : bs.length < n) :
    deserializeMessage env n m bs = (.throw e, o) := by
  induction d generalizing m bs e o n with
  | zero => exact absurd h id
  | succ d ih =>
    obtain ⟨pre, bad, rfl, hs, hb⟩ := h
    cases n with
    | zero => omega
    | succ n =>
      simp only [deserializeMessage]
      have hat := At.start h31
      simp only [List.length_append] at hn
      have hrec : ∀ m' body o', Message env d m' body o' → body.length < 2 ^ 31 → body.length < n →
          deserializeMessage env n m' body = (.ok (), o') :=
        fun m' body o' hs' hl hl' => deserializeMessage_of_message hv hs' hl hl'
      have hrec' : ∀ m' body e', (∃ o', Fails env d m' body e' o') → body.length < 2 ^ 31 →
          body.length < n → ∃ o', deserializeMessage env n m' body = (.throw e', o') :=
        fun m' body e' ⟨o', hf⟩ hl hl' => ⟨o', ih hf hl hl'⟩
      obtain ⟨j', h1, h2, h3⟩ := messageLoop_prefix hv hrec hs hat (by omega) (j := n + 1) (by omega)
      have hat2 := hat.adv
      have hlen : o.length = (env.sch m).length := by rw [hs.length]; simp [defaultObj]
      rw [h3]
      cases j' with
      | zero => omega
      | succ j' =>
        obtain ⟨hp, hne⟩ := badRecord_throws hv hrec hrec' hb hat2 (by omega) (j := j') (by omega) hlen
        have hl2 := hat2.len
        have : 0 < bad.length := List.length_pos_iff.mpr hne
        simp only at hl2
        have hpos : ¬ (It.start (pre ++ bad)).pos + pre.length = (It.start (pre ++ bad)).data.length := by
          omega
        simp only [messageLoop, hpos, if_false, hp]

end QtPb
