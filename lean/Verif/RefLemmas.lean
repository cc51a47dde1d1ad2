import Verif.Reference
import Verif.ArriveLemmas
/-
Lemmas about the reference decoder of `Verif/Reference.lean` and the output of the serializer.
-/
namespace QtPb

open Spec Ref

theorem varintOf_of {bs : Bytes} {n : Nat} (h : IsVarint bs n) : ∀ {k : Nat} (_ : bs.length ≤ k)
    (rest : Bytes), varintOf k (bs ++ rest) = some (n, rest) := by
  induction h with
  | last b hb =>
    intro k hk rest
    cases k with
    | zero => simp at hk
    | succ k => simp [varintOf, hb]
  | more b bs n hb _ ih =>
    intro k hk rest
    cases k with
    | zero => simp at hk
    | succ k =>
      have hb' : ¬ b.toNat < 128 := by omega
      simp only [List.length_cons, Nat.add_le_add_iff_right] at hk
      simp [varintOf, hb', ih hk rest]

theorem varint_of {bs : Bytes} {n : Nat} (h : Varint bs n) (rest : Bytes) :
    varint (bs ++ rest) = some (n % 2 ^ 64, rest) := by
  simp [varint, varintOf_of h.1 h.2 rest]

theorem cut_append (a rest : Bytes) : cut a.length (a ++ rest) = some (a, rest) := by
  simp [cut]

theorem ref_isVarint_length {bs : Bytes} {n : Nat} (h : IsVarint bs n) : 0 < bs.length := by
  cases h <;> simp

theorem delimited_of {l body : Bytes} (h : Varint l body.length) (hb : body.length < 2 ^ 31)
    (rest : Bytes) : payload 2 (l ++ body ++ rest) = some (.delimited body, rest) := by
  have e : body.length % 2 ^ 64 = body.length := Nat.mod_eq_of_lt (by omega)
  rw [List.append_assoc]
  simp only [payload, varint_of h]
  rw [e, cut_append]
  rfl

theorem ofNat_mod32 (n : Nat) : BitVec.ofNat 32 (n % 2 ^ 64) = BitVec.ofNat 32 n := by
  apply BitVec.eq_of_toNat_eq
  simp only [BitVec.toNat_ofNat]
  omega

theorem ofNat_mod64 (n : Nat) : BitVec.ofNat 64 (n % 2 ^ 64) = BitVec.ofNat 64 n := by
  apply BitVec.eq_of_toNat_eq
  simp

theorem payload_of {env : Env} {k : Kind} {bs : Bytes} {s : Scalar} (h : Reads env k bs s)
    (hlen : bs.length < 2 ^ 31) :
    ∃ p, (∀ rest, payload (wireType k) (bs ++ rest) = some (p, rest)) ∧ scalarOf env k p = some s := by
  cases h with
  | fixed32 hk b0 b1 b2 b3 =>
    refine ⟨.fixed32 (littleEndian [b0, b1, b2, b3]), fun rest => ?_, ?_⟩
    · have := cut_append [b0, b1, b2, b3] rest
      simp only [List.length_cons, List.length_nil] at this
      rcases hk with rfl | rfl | rfl <;> simp only [wireType, payload, this] <;> rfl
    · have e : littleEndian [b0, b1, b2, b3] =
          b0.toNat + 2 ^ 8 * b1.toNat + 2 ^ 16 * b2.toNat + 2 ^ 24 * b3.toNat := by
        simp only [littleEndian]; omega
      rw [e]
      rcases hk with rfl | rfl | rfl <;> rfl
  | fixed64 hk b0 b1 b2 b3 b4 b5 b6 b7 =>
    refine ⟨.fixed64 (littleEndian [b0, b1, b2, b3, b4, b5, b6, b7]), fun rest => ?_, ?_⟩
    · have := cut_append [b0, b1, b2, b3, b4, b5, b6, b7] rest
      simp only [List.length_cons, List.length_nil] at this
      rcases hk with rfl | rfl | rfl <;> simp only [wireType, payload, this] <;> rfl
    · have e : littleEndian [b0, b1, b2, b3, b4, b5, b6, b7] =
          b0.toNat + 2 ^ 8 * b1.toNat + 2 ^ 16 * b2.toNat + 2 ^ 24 * b3.toNat
          + 2 ^ 32 * b4.toNat + 2 ^ 40 * b5.toNat + 2 ^ 48 * b6.toNat + 2 ^ 56 * b7.toNat := by
        simp only [littleEndian]; omega
      rw [e]
      rcases hk with rfl | rfl | rfl <;> rfl
  | @int32 _ n h => exact ⟨.varint (n % 2 ^ 64), fun rest => by simp only [wireType, payload, varint_of h]; rfl, by
      simp only [scalarOf, ofNat_mod32]⟩
  | @uint32 _ n h => exact ⟨.varint (n % 2 ^ 64), fun rest => by simp only [wireType, payload, varint_of h]; rfl, by
      simp only [scalarOf, ofNat_mod32]⟩
  | @int64 _ n h => exact ⟨.varint (n % 2 ^ 64), fun rest => by simp only [wireType, payload, varint_of h]; rfl, by
      simp only [scalarOf, ofNat_mod64]⟩
  | @uint64 _ n h => exact ⟨.varint (n % 2 ^ 64), fun rest => by simp only [wireType, payload, varint_of h]; rfl, by
      simp only [scalarOf, ofNat_mod64]⟩
  | @sint32 _ n h hn => exact ⟨.varint (n % 2 ^ 64), fun rest => by simp only [wireType, payload, varint_of h]; rfl, by
      simp only [scalarOf]; rw [show n % 2 ^ 64 % 2 ^ 32 = n by omega]⟩
  | @sint64 _ n h hn => exact ⟨.varint (n % 2 ^ 64), fun rest => by simp only [wireType, payload, varint_of h]; rfl, by
      simp only [scalarOf]; rw [show n % 2 ^ 64 = n by omega]⟩
  | @bool _ n h hn => exact ⟨.varint (n % 2 ^ 64), fun rest => by simp only [wireType, payload, varint_of h]; rfl, by
      simp only [scalarOf]; rw [show n % 2 ^ 64 = n by omega]⟩
  | @string l body h =>
    simp only [List.length_append] at hlen
    exact ⟨_, delimited_of h (by omega), rfl⟩
  | @bytes l body h =>
    simp only [List.length_append] at hlen
    exact ⟨_, delimited_of h (by omega), rfl⟩

theorem ref_reads_length {env : Env} {k : Kind} {bs : Bytes} {s : Scalar} (h : Reads env k bs s) :
    0 < bs.length := by
  cases h with
  | fixed32 | fixed64 => simp
  | string h | bytes h => have := ref_isVarint_length h.1; simp only [List.length_append]; omega
  | int32 h | uint32 h | int64 h | uint64 h => exact ref_isVarint_length h.1
  | sint32 h | sint64 h | bool h => exact ref_isVarint_length h.1

theorem scalars_of {env : Env} {k : Kind} {bs : Bytes} {l : List Scalar} (h : ReadsAll env k bs l) :
    ∀ {n : Nat}, bs.length ≤ n → bs.length < 2 ^ 31 → scalars env k n bs = some l := by
  induction h with
  | nil => intro n _ _; cases n <;> rfl
  | @cons b bs s l h _ ih =>
    intro n hn hlen
    simp only [List.length_append] at hn hlen
    have hb := ref_reads_length h
    cases n with
    | zero => omega
    | succ n =>
      obtain ⟨p, h1, h2⟩ := payload_of h (by omega)
      replace h1 := h1 bs
      cases hb' : b ++ bs with
      | nil => simp only [List.append_eq_nil_iff] at hb'; rw [hb'.1] at hb; simp at hb
      | cons x xs =>
        rw [hb'] at h1
        simp only [scalars, h1, h2, ih (n := n) (by omega) (by omega)]

theorem enums_of {bs : Bytes} {l : List (BitVec 32)} (h : ReadsEnums bs l) :
    ∀ {n : Nat}, bs.length ≤ n → enums n bs = some l := by
  induction h with
  | nil => intro n _; cases n <;> rfl
  | @cons b bs e l h _ ih =>
    intro n hn
    obtain ⟨v, hv, rfl⟩ := h
    simp only [List.length_append] at hn
    have hb := ref_isVarint_length hv.1
    cases n with
    | zero => omega
    | succ n =>
      have h1 := varint_of hv bs
      cases hb' : b ++ bs with
      | nil => simp only [List.append_eq_nil_iff] at hb'; rw [hb'.1] at hb; simp at hb
      | cons x xs =>
        rw [hb'] at h1
        simp only [enums, h1, ih (n := n) (by omega), ofNat_mod32]
        rfl

theorem payload_lt {wt : Nat} {bs rest : Bytes} {p : Payload} (h : payload wt bs = some (p, rest)) :
    wt < 8 := by
  unfold payload at h
  split at h <;> first | omega | simp at h

theorem record_of {hdr b rest : Bytes} {num wt : Nat} {p : Payload} (ht : Tag hdr num wt)
    (hp : payload wt (b ++ rest) = some (p, rest)) :
    record (hdr ++ b ++ rest) = some (num, p, rest) := by
  have := payload_lt hp
  obtain ⟨h1, h2, h3⟩ := ht
  rw [List.append_assoc]
  simp only [record, varint_of h1]
  rw [show (num * 8 + wt) % 2 ^ 64 = num * 8 + wt by omega,
    show (num * 8 + wt) / 8 = num by omega, show (num * 8 + wt) % 8 = wt by omega,
    if_neg (by omega), hp]
  rfl

theorem tag_length {hdr : Bytes} {num wt : Nat} (ht : Tag hdr num wt) : 0 < hdr.length :=
  ref_isVarint_length ht.1.1

theorem fieldIndex_of {fs : List Field} (hnd : (fs.map (·.num)).Nodup) {i : Nat} {f : Field}
    (hf : fs[i]? = some f) : fieldIndex f.num fs = some i := by
  induction fs generalizing i with
  | nil => simp at hf
  | cons g fs ih =>
    simp only [List.map_cons, List.nodup_cons] at hnd
    cases i with
    | zero => simp at hf; subst hf; simp [fieldIndex]
    | succ i =>
      simp only [List.getElem?_cons_succ] at hf
      have hne : g.num ≠ f.num := fun e => hnd.1 (by
        rw [e]; exact List.mem_map.mpr ⟨f, List.mem_of_getElem? hf, rfl⟩)
      simp [fieldIndex, hne, ih hnd.2 hf]

/-! ### Serialized properties -/

section
variable {env : Env} {sub : Nat → Bytes → Obj → Option Obj} {rec : Nat → Obj → Res Bytes}

/-- `bs` takes field `i` from `old` to `new`. -/
def Takes (env : Env) (sub : Nat → Bytes → Obj → Option Obj) (m i : Nat) (bs : Bytes)
    (old new : Val) : Prop :=
  ∀ (rest : Bytes) (o : Obj) (k : Nat), (bs ++ rest).length ≤ k → o[i]? = some old →
    ∃ k', rest.length ≤ k' ∧
      records env sub m k (bs ++ rest) o = records env sub m k' rest (o.set i new)

theorem Takes.nil (m i : Nat) (v : Val) : Takes env sub m i [] v v := by
  intro rest o k hk ho
  exact ⟨k, by simpa using hk, by rw [set_self ho]; rfl⟩

theorem Takes.trans {m i : Nat} {a b : Bytes} {u v w : Val} (h1 : Takes env sub m i a u v)
    (h2 : Takes env sub m i b v w) : Takes env sub m i (a ++ b) u w := by
  intro rest o k hk ho
  obtain ⟨hi, _⟩ := List.getElem?_eq_some_iff.mp ho
  obtain ⟨k1, hk1, e1⟩ := h1 (b ++ rest) o k (by simpa using hk) ho
  obtain ⟨k2, hk2, e2⟩ := h2 rest (o.set i v) k1 hk1 (by simp [hi])
  refine ⟨k2, hk2, ?_⟩
  rw [List.append_assoc, e1, e2]
  simp

theorem Takes.record (hv : ValidSchema env) {m i : Nat} {f : Field} {hdr b : Bytes} {wt : Nat}
    {p : Payload} {old new : Val} (hf : (env.sch m)[i]? = some f) (ht : Tag hdr f.num wt)
    (hp : ∀ rest, payload wt (b ++ rest) = some (p, rest))
    (he : fieldValue env sub f.ty p old = some new) :
    Takes env sub m i (hdr ++ b) old new := by
  intro rest o k hk ho
  have hl := tag_length ht
  simp only [List.length_append] at hk
  cases k with
  | zero => omega
  | succ k =>
    refine ⟨k, by omega, ?_⟩
    have h1 := record_of ht (hp rest)
    have h2 : apply env sub m f.num p o = some (o.set i new) := by
      simp [apply, fieldIndex_of (hv m).1 hf, hf, ho, he]
    cases hc : hdr ++ b ++ rest with
    | nil => simp only [List.append_eq_nil_iff] at hc; rw [hc.1.1] at hl; simp at hl
    | cons x xs =>
      rw [hc] at h1
      simp only [records, h1, h2]

/-- What the induction hypothesis says about nested messages shorter than `d` bytes. -/
def RefOk (env : Env) (sub : Nat → Bytes → Obj → Option Obj) (rec : Nat → Obj → Res Bytes)
    (d : Nat) : Prop :=
  ∀ m o body, rec m o = .ok body → HasTy env (.msg m) (.msg o) → body.length < 2 ^ 31 →
    body.length < d → ∃ o', sub m body (defaultObj env m) = some o' ∧
      Delivered env (.msg m) (.msg o) (.msg o')

theorem scalar_takes (hv : ValidSchema env) {m i : Nat} {f : Field} {k : Kind} {s : Scalar}
    (hf : (env.sch m)[i]? = some f) (hn : 1 ≤ f.num ∧ f.num < 2 ^ 29) (hty : f.ty = .scalar k)
    (hs : k.holds s) (hlen : (serializeScalarField env f.num k s).length < 2 ^ 31) :
    Takes env sub m i (serializeScalarField env f.num k s) (defaultVal f.ty)
      (.sc (entryScalar env s)) := by
  rcases scalarField_cases env hs hn.1 hn.2 hlen with ⟨a, _, b⟩ | ⟨hdr, payload, a, b, c, d⟩
  · rw [a, b, hty]; exact Takes.nil _ _ _
  · rw [a] at hlen ⊢
    simp only [List.length_append] at hlen
    obtain ⟨p, hp, hp2⟩ := payload_of c (by omega)
    refine Takes.record hv hf b hp ?_
    simp [hty, fieldValue, hp2, entryScalar, d]

theorem ref_enum_payload {bs : Bytes} {e : BitVec 32} (h : ReadsEnum bs e) :
    ∃ n, (∀ rest, payload 0 (bs ++ rest) = some (.varint n, rest)) ∧ BitVec.ofNat 32 n = e := by
  obtain ⟨n, h, rfl⟩ := h
  exact ⟨n % 2 ^ 64, fun rest => by simp only [payload, varint_of h]; rfl, ofNat_mod32 n⟩

theorem enum_takes (hv : ValidSchema env) {m i : Nat} {f : Field} {e : BitVec 32}
    (hf : (env.sch m)[i]? = some f) (hn : 1 ≤ f.num ∧ f.num < 2 ^ 29) (hty : f.ty = .enum) :
    Takes env sub m i (serializeEnumField f.num e) (defaultVal f.ty) (.enum e) := by
  rcases enumField_cases e hn.1 hn.2 with ⟨a, b⟩ | ⟨hdr, payload, a, b, c⟩
  · rw [a, b, hty]; exact Takes.nil _ _ _
  · rw [a]
    obtain ⟨n, h1, h2⟩ := ref_enum_payload c
    exact Takes.record hv hf b h1 (by simp [hty, fieldValue, h2])

theorem enumList_takes (hv : ValidSchema env) {m i : Nat} {f : Field} {l : List (BitVec 32)}
    (hf : (env.sch m)[i]? = some f) (hn : 1 ≤ f.num ∧ f.num < 2 ^ 29) (hty : f.ty = .enumList)
    (hlen : (serializeEnumListField env f.num l).length < 2 ^ 31) :
    Takes env sub m i (serializeEnumListField env f.num l) (defaultVal f.ty) (.enumList l) := by
  cases l with
  | nil =>
    have e : serializeEnumListField env f.num [] = [] := by
      simp [serializeEnumListField, serializeListType, withHeader]
    rw [e, hty]; exact Takes.nil _ _ _
  | cons e0 l0 =>
    have e : serializeEnumListField env f.num (e0 :: l0) =
        encodeHeader f.num wtLengthDelimited ++ prependLengthDelimitedSize
          (serializePackedElems env .int64 ((e0 :: l0).map fun e => .w64 (enumToInt64 e))) := by
      simp [serializeEnumListField, serializeListType, withHeader, notUsed]
    rw [e] at hlen ⊢
    simp only [prependLengthDelimitedSize, List.length_append] at hlen ⊢
    refine Takes.record hv hf (frameObject_tag hn.1 hn.2)
      (delimited_of (prepend_varint (by omega)) (by omega)) ?_
    simp only [hty, fieldValue, defaultVal, enums_of (enumElems_of env (e0 :: l0)) (Nat.le_refl _),
      Option.map_some, List.nil_append]

theorem delimited_takes (hv : ValidSchema env) {m i : Nat} {f : Field} {k : Kind}
    (hk : k = .string ∨ k = .bytes)
    {l : List Scalar} (hf : (env.sch m)[i]? = some f) (hn : 1 ≤ f.num ∧ f.num < 2 ^ 29)
    (hty : f.ty = .list k) (hs : ∀ s ∈ l, k.holds s)
    (hlen : (serializeDelimitedElems env k f.num l).length < 2 ^ 31) (acc : List Scalar) :
    Takes env sub m i (serializeDelimitedElems env k f.num l) (.scList acc)
      (.scList (acc ++ l.map (transmitted env))) := by
  induction l generalizing acc with
  | nil => simpa [serializeDelimitedElems] using Takes.nil _ _ _
  | cons s l ih =>
    simp only [serializeDelimitedElems, List.length_append] at hlen ⊢
    simp only [List.mem_cons, forall_eq_or_imp] at hs
    have e : acc ++ (s :: l).map (transmitted env)
        = (acc ++ [transmitted env s]) ++ l.map (transmitted env) := by simp
    rw [e]
    refine Takes.trans ?_ (ih hs.2 (by omega) _)
    rcases serializeBasic_cases env hs.1 f.num (by omega) with ⟨_, _, _, h1, h2, _⟩ | ⟨_, b⟩
    · rcases hk with hk | hk
      · exact absurd hk h1
      · exact absurd hk h2
    · obtain ⟨p, hp, hp2⟩ := payload_of b (by omega)
      have hw : wireType k = 2 := by rcases hk with rfl | rfl <;> rfl
      rw [hw] at hp
      refine Takes.record hv hf (frameObject_tag hn.1 hn.2) hp ?_
      simp [hty, fieldValue, hp2]

theorem list_takes (hv : ValidSchema env) {m i : Nat} {f : Field} {k : Kind}
    (hk : k.hasListHandler = true)
    {l : List Scalar} (hf : (env.sch m)[i]? = some f) (hn : 1 ≤ f.num ∧ f.num < 2 ^ 29)
    (hty : f.ty = .list k) (hs : ∀ s ∈ l, k.holds s)
    (hlen : (withHeader f.num wtLengthDelimited (serializeListType env k l f.num)).length < 2 ^ 31) :
    Takes env sub m i (withHeader f.num wtLengthDelimited (serializeListType env k l f.num))
      (defaultVal f.ty) (.scList (l.map (transmitted env))) := by
  by_cases hsb : k = .string ∨ k = .bytes
  · have e : withHeader f.num wtLengthDelimited (serializeListType env k l f.num)
        = serializeDelimitedElems env k f.num l := by
      cases l with
      | nil => simp [serializeListType, withHeader, serializeDelimitedElems]
      | cons s l => rcases hsb with h | h <;> subst h <;> simp [serializeListType, withHeader]
    rw [e] at hlen ⊢
    have := delimited_takes (sub := sub) hv hsb hf hn hty hs hlen []
    simpa [defaultVal, hty] using this
  · have hsb' : k ≠ .string ∧ k ≠ .bytes := by simpa using hsb
    cases l with
    | nil => simpa [serializeListType, withHeader, defaultVal, hty] using Takes.nil _ _ _
    | cons s l =>
      have e : withHeader f.num wtLengthDelimited (serializeListType env k (s :: l) f.num)
          = encodeHeader f.num wtLengthDelimited ++ prependLengthDelimitedSize
            (serializePackedElems env k (s :: l)) := by
        cases k <;> simp_all [serializeListType, withHeader, notUsed]
      rw [e] at hlen ⊢
      simp only [prependLengthDelimitedSize, List.length_append] at hlen ⊢
      have hd : ∀ b, scalarOf env k (.delimited b) = none := by
        intro b; cases k <;> first | rfl | exact absurd rfl hsb'.1 | exact absurd rfl hsb'.2
      have hnum : numeric k = true := by
        cases k <;> first | rfl | exact absurd rfl hsb'.1 | exact absurd rfl hsb'.2
      refine Takes.record hv hf (frameObject_tag hn.1 hn.2)
        (delimited_of (prepend_varint (by omega)) (by omega)) ?_
      simp [hty, fieldValue, defaultVal, hd, hnum,
        scalars_of (packedElems_of env hs (by omega)) (Nat.le_refl _) (by omega)]

theorem frame_takes (hv : ValidSchema env) {m i : Nat} {f : Field} {body : Bytes} {old new : Val}
    (hf : (env.sch m)[i]? = some f) (hn : 1 ≤ f.num ∧ f.num < 2 ^ 29)
    (hlen : (frameObject f.num body).length < 2 ^ 31)
    (he : fieldValue env sub f.ty (.delimited body) old = some new) :
    Takes env sub m i (frameObject f.num body) old new := by
  have hl := frame_len hlen
  simp only [frameObject, prependLengthDelimitedSize, List.length_append] at hlen
  exact Takes.record hv hf (frameObject_tag hn.1 hn.2) (delimited_of hl (by omega)) he

theorem frame_length {num : Nat} (h1 : 1 ≤ num) (h2 : num < 2 ^ 29) (body : Bytes) :
    body.length < (frameObject num body).length := by
  have := tag_length (frameObject_tag h1 h2)
  simp only [frameObject, prependLengthDelimitedSize, List.length_append]
  omega

theorem msg_takes (hv : ValidSchema env) {d : Nat} (hrec : RefOk env sub rec d) {m i : Nat} {f : Field}
    {m' : Nat} {v : Val} (hf : (env.sch m)[i]? = some f) (hn : 1 ≤ f.num ∧ f.num < 2 ^ 29)
    (hty : f.ty = .msg m') (hvt : HasTy env f.ty v) {bs : Bytes}
    (hbs : serializeMsgField env rec f.num m' v = .ok bs) (hlen : bs.length < 2 ^ 31)
    (hd : bs.length ≤ d) :
    ∃ v', Delivered env f.ty v v' ∧ Takes env sub m i bs (defaultVal f.ty) v' := by
  simp only [serializeMsgField, Res.bind_eq, Res.bind_eq_ok, Res.ok.injEq] at hbs
  obtain ⟨body, hb, rfl⟩ := hbs
  have hfl := frame_length hn.1 hn.2 body
  have key : ∀ o, HasTy env (.msg m') (.msg o) → rec m' o = .ok body →
      ∃ o', Delivered env (.msg m') (.msg o) (.msg o') ∧
        Takes env sub m i (frameObject f.num body) (defaultVal f.ty) (.msg o') := by
    intro o ho hro
    obtain ⟨o', h1, h2⟩ := hrec m' o body hro ho (by omega) (by omega)
    refine ⟨o', h2, frame_takes hv hf hn hlen ?_⟩
    simp [hty, fieldValue, defaultVal, current, h1]
  rw [hty] at hvt
  cases hvt with
  | null =>
    obtain ⟨o', h1, h2⟩ := key _ (default_hasTy env m') hb
    exact ⟨.msg o', by rw [hty]; exact .unset h1, h2⟩
  | msg h1 h2 =>
    obtain ⟨o', h3, h4⟩ := key _ (.msg h1 h2) hb
    exact ⟨.msg o', by rw [hty]; exact h3, h4⟩

theorem msgList_takes (hv : ValidSchema env) {d : Nat} (hrec : RefOk env sub rec d) {m i : Nat}
    {f : Field} {m' : Nat} {l : List Val}
    (hf : (env.sch m)[i]? = some f) (hn : 1 ≤ f.num ∧ f.num < 2 ^ 29) (hty : f.ty = .msgList m')
    (hvt : ∀ v ∈ l, HasTy env (.msg m') v) {bs : Bytes}
    (hbs : serializeMsgList rec f.num m' l = .ok bs) (hlen : bs.length < 2 ^ 31)
    (hd : bs.length ≤ d) :
    ∃ l', DeliveredList env m' l l' ∧
      ∀ acc, Takes env sub m i bs (.msgList acc) (.msgList (acc ++ l')) := by
  induction l generalizing bs with
  | nil =>
    simp only [serializeMsgList, Res.ok.injEq] at hbs
    subst hbs
    exact ⟨[], .nil _, fun acc => by simpa using Takes.nil _ _ _⟩
  | cons v l ih =>
    simp only [List.mem_cons, forall_eq_or_imp] at hvt
    obtain ⟨hv1, hv2⟩ := hvt
    cases hv1 with
    | null =>
      simp only [serializeMsgList] at hbs
      obtain ⟨l', h1, h2⟩ := ih hv2 hbs hlen hd
      exact ⟨l', .null h1, h2⟩
    | @msg _ o ho1 ho2 =>
      simp only [serializeMsgList, Res.bind_eq, Res.bind_eq_ok, Res.ok.injEq] at hbs
      obtain ⟨body, hb, r, hr, rfl⟩ := hbs
      simp only [List.length_append] at hlen hd
      have hfl := frame_length hn.1 hn.2 body
      obtain ⟨l', h1, h2⟩ := ih hv2 hr (by omega) (by omega)
      obtain ⟨o', h3, h4⟩ := hrec m' o body hb (.msg ho1 ho2) (by omega) (by omega)
      refine ⟨.msg o' :: l', .cons h4 h1, fun acc => ?_⟩
      have e : acc ++ Val.msg o' :: l' = (acc ++ [.msg o']) ++ l' := by simp
      rw [e]
      refine Takes.trans (frame_takes hv hf hn (by omega) ?_) (h2 _)
      simp [hty, fieldValue, h3]

/-! ### Map entries -/

/-- `bs` takes a map entry from `kv` to `kv'`. -/
def EntryTakes (env : Env) (sub : Nat → Bytes → Obj → Option Obj) (kk : Kind) (vt : MapVal)
    (bs : Bytes) (kv kv' : Scalar × Val) : Prop :=
  ∀ (rest : Bytes) (k : Nat), (bs ++ rest).length ≤ k →
    ∃ k', rest.length ≤ k' ∧ entry env sub kk vt k (bs ++ rest) kv = entry env sub kk vt k' rest kv'

theorem EntryTakes.record {kk : Kind} {vt : MapVal} {hdr b : Bytes} {num wt : Nat} {p : Payload}
    {kv kv' : Scalar × Val} (ht : Tag hdr num wt) (hp : ∀ rest, payload wt (b ++ rest) = some (p, rest))
    (he : (num = 1 ∧ kv' = ((scalarOf env kk p).getD kv.1, kv.2)) ∨
      (num = 2 ∧ entryValue env sub vt p kv.2 = some kv'.2 ∧ kv'.1 = kv.1)) :
    EntryTakes env sub kk vt (hdr ++ b) kv kv' := by
  intro rest k hk
  have hl := tag_length ht
  simp only [List.length_append] at hk
  cases k with
  | zero => omega
  | succ k =>
    refine ⟨k, by omega, ?_⟩
    have h1 := record_of ht (hp rest)
    cases hc : hdr ++ b ++ rest with
    | nil => simp only [List.append_eq_nil_iff] at hc; rw [hc.1.1] at hl; simp at hl
    | cons x xs =>
      rw [hc] at h1
      rcases he with ⟨rfl, rfl⟩ | ⟨rfl, h2, h3⟩
      · simp only [entry, h1]
      · simp only [entry, h1, h2, ← h3]

theorem entryTakes_nil {kk : Kind} {vt : MapVal} {kv : Scalar × Val} :
    EntryTakes env sub kk vt [] kv kv := fun rest k hk => ⟨k, by simpa using hk, rfl⟩

theorem entry_of_takes {kk : Kind} {vt : MapVal} {a b : Bytes} {x y z : Scalar × Val}
    (h1 : EntryTakes env sub kk vt a x y) (h2 : EntryTakes env sub kk vt b y z) :
    entry env sub kk vt (a ++ b).length (a ++ b) x = some z := by
  obtain ⟨k1, hk1, e1⟩ := h1 b (a ++ b).length (Nat.le_refl _)
  rw [e1]
  obtain ⟨k2, _, e2⟩ := h2 [] k1 (by simpa using hk1)
  rw [List.append_nil] at e2
  rw [e2]
  cases k2 <;> rfl

theorem ref_entry_of {d : Nat} (hrec : RefOk env sub rec d) {kk : Kind} {vt : MapVal} {key : Scalar}
    {v : Val} (hk : kk.holds key) (hv : HasTy env (MapVal.toTy vt) v) (hnn : v ≠ .msgNull)
    {value : Bytes} (hb : serializeMapValue env rec vt v = .ok value)
    (hlen : (serializeScalarField env 1 kk key ++ value).length < 2 ^ 31)
    (hd : value.length ≤ d) :
    ∃ v', Delivered env (MapVal.toTy vt) v v' ∧
      entry env sub kk vt (serializeScalarField env 1 kk key ++ value).length
        (serializeScalarField env 1 kk key ++ value) (entryDefault env kk vt)
        = some (entryScalar env key, v') := by
  simp only [List.length_append] at hlen
  have hkey : EntryTakes env sub kk vt (serializeScalarField env 1 kk key) (entryDefault env kk vt)
      (entryScalar env key, (entryDefault env kk vt).2) := by
    have e1 : (entryDefault env kk vt).1 = defaultScalar kk := by cases vt <;> rfl
    rcases scalarField_cases env hk (num := 1) (by omega) (by omega) (by omega) with
      ⟨a, _, b⟩ | ⟨hdr, payload, a, b, c, d⟩
    · rw [a, b, ← e1]; exact entryTakes_nil
    · have hl : (hdr ++ payload).length < 2 ^ 31 := by rw [← a]; omega
      rw [a]
      simp only [List.length_append] at hl
      obtain ⟨p, hp, hp2⟩ := payload_of c (by omega)
      exact EntryTakes.record b hp (Or.inl ⟨rfl, by simp [hp2, entryScalar, d]⟩)
  cases vt with
  | scalar k =>
    cases hv with
    | @sc _ s hs =>
      simp only [serializeMapValue, Res.ok.injEq] at hb
      subst hb
      refine ⟨_, .sc k s, entry_of_takes hkey ?_⟩
      rcases scalarField_cases env hs (num := 2) (by omega) (by omega) (by omega) with
        ⟨a, _, b⟩ | ⟨hdr, payload, a, b, c, d⟩
      · rw [a, b]; exact entryTakes_nil
      · have hl : (hdr ++ payload).length < 2 ^ 31 := by rw [← a]; omega
        rw [a]
        simp only [List.length_append] at hl
        obtain ⟨p, hp, hp2⟩ := payload_of c (by omega)
        exact EntryTakes.record b hp (Or.inr ⟨rfl, by simp [entryValue, hp2, entryScalar, d], rfl⟩)
  | enum =>
    cases hv with
    | enum e =>
      simp only [serializeMapValue, Res.ok.injEq] at hb
      subst hb
      refine ⟨_, .enum e, entry_of_takes hkey ?_⟩
      rcases enumField_cases e (num := 2) (by omega) (by omega) with ⟨a, b⟩ | ⟨hdr, payload, a, b, c⟩
      · rw [a, b]; exact entryTakes_nil
      · rw [a]
        obtain ⟨n, h1, h2⟩ := ref_enum_payload c
        exact EntryTakes.record b h1 (Or.inr ⟨rfl, by simp [entryValue, h2], rfl⟩)
  | msg m =>
    cases hv with
    | null => exact absurd rfl hnn
    | @msg _ o ho1 ho2 =>
      simp only [serializeMapValue, Res.bind_eq, Res.bind_eq_ok, Res.ok.injEq] at hb
      obtain ⟨body, hb, rfl⟩ := hb
      have hfl := frame_length (num := 2) (by omega) (by omega) body
      obtain ⟨o', h3, h4⟩ := hrec m o body hb (.msg ho1 ho2) (by omega) (by omega)
      refine ⟨.msg o', h4, entry_of_takes hkey ?_⟩
      exact EntryTakes.record (frameObject_tag (num := 2) (by omega) (by omega))
        (delimited_of (frame_len (num := 2) (by omega)) (by omega))
        (Or.inr ⟨rfl, by simp [entryValue, entryDefault, current, h3], rfl⟩)

theorem map_takes (hv : ValidSchema env) {d : Nat} (hrec : RefOk env sub rec d) {m i : Nat} {f : Field}
    {kk : Kind} {vt : MapVal} {es : List (Scalar × Val)} (hf : (env.sch m)[i]? = some f)
    (hn : 1 ≤ f.num ∧ f.num < 2 ^ 29) (hty : f.ty = .map kk vt) (hk : ∀ e ∈ es, kk.holds e.1)
    (hvt : ∀ e ∈ es, HasTy env (MapVal.toTy vt) e.2) {bs : Bytes}
    (hbs : serializeMap env rec f.num kk vt es = .ok bs) (hlen : bs.length < 2 ^ 31)
    (hd : bs.length ≤ d) :
    ∃ es', DeliveredEntries env vt es es' ∧
      ∀ acc, Takes env sub m i bs (.map acc) (.map (insertEach kk es' acc)) := by
  induction es generalizing bs with
  | nil =>
    simp only [serializeMap, Res.ok.injEq] at hbs
    subst hbs
    exact ⟨[], .nil _, fun acc => by simpa [insertEach] using Takes.nil _ _ _⟩
  | cons e es ih =>
    simp only [List.mem_cons, forall_eq_or_imp] at hk hvt
    obtain ⟨key, v⟩ := e
    by_cases hnn : v = .msgNull
    · subst hnn
      simp only [serializeMap] at hbs
      obtain ⟨es', h1, h2⟩ := ih hk.2 hvt.2 hbs hlen hd
      exact ⟨es', .null h1, h2⟩
    · have hbs' : (do
          let value ← serializeMapValue env rec vt v
          let r ← serializeMap env rec f.num kk vt es
          Res.ok (frameObject f.num (serializeScalarField env 1 kk key ++ value) ++ r)) = .ok bs := by
        rw [← hbs]
        cases v <;> first | rfl | exact absurd rfl hnn
      simp only [Res.bind_eq, Res.bind_eq_ok, Res.ok.injEq] at hbs'
      obtain ⟨value, hb, r, hr, rfl⟩ := hbs'
      simp only [List.length_append] at hlen hd
      have hfl := frame_length hn.1 hn.2 (serializeScalarField env 1 kk key ++ value)
      have hap : (serializeScalarField env 1 kk key ++ value).length =
        (serializeScalarField env 1 kk key).length + value.length := List.length_append
      obtain ⟨es', h1, h2⟩ := ih hk.2 hvt.2 hr (by omega) (by omega)
      obtain ⟨v', h3, h4⟩ := ref_entry_of (key := key) hrec hk.1 hvt.1 hnn hb (by omega) (by omega)
      refine ⟨_, .cons hnn h3 h1, fun acc => ?_⟩
      refine Takes.trans (frame_takes hv hf hn (by omega) ?_) (h2 _)
      simp only [hty, fieldValue, h4, Option.map_some]

theorem property_takes (hv : ValidSchema env) {d : Nat} (hrec : RefOk env sub rec d) {m i : Nat}
    {f : Field} {v : Val} (hf : (env.sch m)[i]? = some f) (hn : 1 ≤ f.num ∧ f.num < 2 ^ 29)
    (hvt : HasTy env f.ty v) {bs : Bytes} (hbs : serializeProperty env rec f.num f.ty v = .ok bs)
    (hlen : bs.length < 2 ^ 31) (hd : bs.length ≤ d) :
    ∃ v', Delivered env f.ty v v' ∧ Takes env sub m i bs (defaultVal f.ty) v' := by
  cases hty : f.ty with
  | scalar k =>
    rw [hty] at hvt hbs
    cases hvt with
    | sc hs =>
      simp only [serializeProperty, Res.ok.injEq] at hbs
      subst hbs
      exact ⟨_, .sc _ _, hty ▸ scalar_takes hv hf hn hty hs hlen⟩
  | list k =>
    rw [hty] at hvt hbs
    cases hvt with
    | scList hs =>
      simp only [serializeProperty] at hbs
      split at hbs
      · simp only [Res.ok.injEq] at hbs
        subst hbs
        exact ⟨_, .scList _ _, hty ▸ list_takes hv (by assumption) hf hn hty hs hlen⟩
      · simp at hbs
  | enum =>
    rw [hty] at hvt hbs
    cases hvt
    simp only [serializeProperty, Res.ok.injEq] at hbs
    subst hbs
    exact ⟨_, .enum _, hty ▸ enum_takes hv hf hn hty⟩
  | enumList =>
    rw [hty] at hvt hbs
    cases hvt
    simp only [serializeProperty, Res.ok.injEq] at hbs
    subst hbs
    exact ⟨_, .enumList _, hty ▸ enumList_takes hv hf hn hty hlen⟩
  | msg m' =>
    rw [hty] at hbs
    have hbs' : serializeMsgField env rec f.num m' v = .ok bs := by
      rw [← hbs]; cases v <;> rfl
    have := msg_takes (sub := sub) hv hrec hf hn hty hvt hbs' hlen hd
    rw [hty] at this
    exact this
  | msgList m' =>
    rw [hty] at hvt hbs
    cases hvt with
    | msgList hs =>
      simp only [serializeProperty] at hbs
      obtain ⟨l', h1, h2⟩ := msgList_takes (sub := sub) hv hrec hf hn hty hs hbs hlen hd
      exact ⟨_, .msgList h1, by simpa [defaultVal] using h2 []⟩
  | map kk vt =>
    rw [hty] at hvt hbs
    cases hvt with
    | map hk hvt _ =>
      simp only [serializeProperty] at hbs
      obtain ⟨es', h1, h2⟩ := map_takes (sub := sub) hv hrec hf hn hty hk hvt hbs hlen hd
      exact ⟨_, .map h1, h2 []⟩

theorem fields_takes (hv : ValidSchema env) {d : Nat} (hrec : RefOk env sub rec d) {m : Nat}
    {obj : Obj} (hobj : HasTy env (.msg m) (.msg obj)) (is : List Nat) (hnd : is.Nodup)
    (hin : ∀ i ∈ is, i < (env.sch m).length) {bs : Bytes}
    (hbs : concatRes (is.map fun i =>
      match (env.sch m)[i]?, obj[i]? with
      | some f, some v => serializeProperty env rec f.num f.ty v
      | _, _ => .ok []) = .ok bs)
    (hlen : bs.length < 2 ^ 31) (hd : bs.length ≤ d) (o : Obj) (hol : o.length = (env.sch m).length)
    (hdef : ∀ i ∈ is, ∀ f, (env.sch m)[i]? = some f → o[i]? = some (defaultVal f.ty))
    (k : Nat) (hk : bs.length ≤ k) :
    ∃ o', records env sub m k bs o = some o' ∧ o'.length = (env.sch m).length ∧
      (∀ i, i ∉ is → o'[i]? = o[i]?) ∧
      (∀ i f v v', i ∈ is → (env.sch m)[i]? = some f → obj[i]? = some v → o'[i]? = some v' →
        Delivered env f.ty v v') := by
  induction is generalizing bs o k with
  | nil =>
    simp only [List.map_nil, concatRes, Res.ok.injEq] at hbs
    subst hbs
    exact ⟨o, by cases k <;> rfl, hol, fun _ _ => rfl, by simp⟩
  | cons i is ih =>
    simp only [List.map_cons, concatRes, Res.bind_eq, Res.bind_eq_ok, Res.ok.injEq] at hbs
    obtain ⟨a, ha, b, hb, rfl⟩ := hbs
    have hk0 := hk
    simp only [List.length_append] at hlen hd hk
    simp only [List.nodup_cons] at hnd
    simp only [List.mem_cons, forall_eq_or_imp] at hin hdef
    cases hobj with
    | msg hl hf =>
      have hi := hin.1
      have hfi : (env.sch m)[i]? = some (env.sch m)[i] := by simp [hi]
      have hvi : obj[i]? = some (obj[i]'(by omega)) := by simp [hl, hi]
      rw [hfi, hvi] at ha
      simp only at ha
      obtain ⟨v', h1, h2⟩ := property_takes (sub := sub) (rec := rec) hv hrec hfi
        ((hv m).2 _ (List.getElem_mem hi)) (hf _ _ _ hfi hvi) ha (by omega) (by omega)
      obtain ⟨k', hk', e⟩ := h2 b o k hk0 (hdef.1 _ hfi)
      obtain ⟨o', h3, h4, h5, h6⟩ := ih hnd.2 hin.2 hb (by omega) (by omega) (o.set i v')
        (by simpa using hol) (by
          intro j hj f hf
          have hij : i ≠ j := fun e => hnd.1 (e ▸ hj)
          rw [List.getElem?_set_ne hij]
          exact hdef.2 j hj f hf) k' hk'
      refine ⟨o', by rw [e]; exact h3, h4, ?_, ?_⟩
      · intro j hj
        simp only [List.mem_cons, not_or] at hj
        rw [h5 j hj.2, List.getElem?_set_ne (Ne.symm hj.1)]
      · intro j f v w hj hfj hvj hwj
        simp only [List.mem_cons] at hj
        rcases hj with rfl | hj
        · rw [h5 _ hnd.1] at hwj
          simp only [List.getElem?_set_self (show j < o.length by omega), Option.some.injEq] at hwj
          subst hwj
          rw [hfi] at hfj
          rw [hvi] at hvj
          simp only [Option.some.injEq] at hfj hvj
          subst hfj hvj
          exact h1
        · exact h6 j f v w hj hfj hvj hwj

end

/-- The reference decoder reads the serializer's output. -/
theorem serializeMessage_merge {env : Env} (hv : ValidSchema env) (ho : ValidOrder env) {n m : Nat}
    {obj : Obj} {bs : Bytes} (hobj : WellTyped env m obj) (hs : serializeMessage env n m obj = .ok bs)
    (hlen : bs.length < 2 ^ 31) {d : Nat} (hd : bs.length < d) :
    ∃ o', merge env d m bs (defaultObj env m) = some o' ∧
      Delivered env (.msg m) (.msg obj) (.msg o') := by
  induction n generalizing m obj bs d with
  | zero => simp [serializeMessage] at hs
  | succ n ih =>
    cases d with
    | zero => omega
    | succ d =>
    have hrec : RefOk env (merge env d) (serializeMessage env n) d :=
      fun m o body h1 h2 h3 h4 => ih h2 h1 h3 h4
    have hp := ho m
    have hmem : ∀ i, i ∈ env.ord m ↔ i < (env.sch m).length := by
      intro i; rw [hp.mem_iff, List.mem_range]
    have hnd : (env.ord m).Nodup := hp.nodup_iff.mpr List.nodup_range
    simp only [serializeMessage] at hs
    obtain ⟨o', h1, h2, _, h4⟩ := fields_takes hv hrec hobj (env.ord m) hnd (fun i hi => (hmem i).mp hi)
      hs hlen (by omega) (defaultObj env m) (by simp [defaultObj]) (by
        intro i _ f hf; simp [defaultObj, hf]) bs.length (Nat.le_refl _)
    refine ⟨o', h1, .msg h2 ?_⟩
    intro i f v v' hf hv hv'
    refine h4 i f v v' ((hmem i).mpr ?_) hf hv hv'
    exact (List.getElem?_eq_some_iff.mp hf).1

theorem insertEach_sorted {kk : Kind} {es acc : List (Scalar × Val)}
    (h : (acc ++ es).Pairwise fun a b => keyLt kk a.1 b.1 = true) :
    insertEach kk es acc = acc ++ es := by
  induction es generalizing acc with
  | nil => simp [insertEach]
  | cons e es ih =>
    have h1 : ∀ x ∈ acc, keyLt kk x.1 e.1 = true := by
      intro x hx
      exact (List.pairwise_append.mp h).2.2 x hx e (by simp)
    have h2 : insertEach kk (e :: es) acc = insertEach kk es (acc ++ [e]) := by
      simp only [insertEach, List.foldl_cons]
      rw [mapInsert_append h1]
    rw [h2, ih (by simpa using h)]
    simp

/-- A message without NaN and with text that survives UTF-8 is delivered the same. -/
theorem delivered_same {env : Env} (hE : env.fromUtf8 (env.toUtf8 []) = []) {ty : FieldTy} {v v' : Val}
    (h : Delivered env ty v v') (hc : Clean env ty v) : Same env ty v v' := by
  have hdef : ∀ k : Kind, k.holds (defaultScalar k) ∧ notNaN k (defaultScalar k) ∧
      textExact env (defaultScalar k) := by
    intro k
    refine ⟨default_holds k, default_notNaN k, ?_⟩
    cases k <;> simp [defaultScalar, textExact, hE]
  refine Delivered.rec
    (motive_1 := fun ty v v' _ => Clean env ty v → Same env ty v v')
    (motive_2 := fun m l l' _ => (∀ v ∈ l, v ≠ .msgNull) → (∀ v ∈ l, Clean env (.msg m) v) →
      l.length = l'.length ∧
      ∀ (i : Nat) (x y : Val), l[i]? = some x → l'[i]? = some y → Same env (.msg m) x y)
    (motive_3 := fun vt es es' _ => (∀ e ∈ es, e.2 ≠ .msgNull) →
      (∀ e ∈ es, Clean env (MapVal.toTy vt) e.2) →
      es'.map (·.1) = es.map (fun e => entryScalar env e.1) ∧
      ∀ (i : Nat) (x y : Scalar × Val), es[i]? = some x → es'[i]? = some y →
        Same env (MapVal.toTy vt) x.2 y.2)
    ?_ ?_ ?_ ?_ ?_ ?_ ?_ ?_ ?_ ?_ ?_ ?_ ?_ ?_ h hc
  · intro k s hc
    cases hc with | sc hs => exact .sc (entryScalar_same hs)
  · intro k l hc
    cases hc with
    | scList hs =>
      refine .scList (by simp) fun i x y hx hy => ?_
      simp only [List.getElem?_map, hx, Option.map_some, Option.some.injEq] at hy
      subst hy
      exact transmitted_same (hs x (List.mem_of_getElem? hx))
  · intro e _; exact .enum e
  · intro l _; exact .enumList l
  · intro m v _ ih _
    have hd : Clean env (.msg m) (.msg (defaultObj env m)) :=
      holds_contents hdef (Holds.null (env := env) m)
    exact same_msg_iff.mpr ((same_msg_iff (a := .msg (defaultObj env m))).mp (ih hd))
  · intro m o o' hl _ ih hc
    cases hc with
    | msg hlo hf => exact .msg fun i f x y hfi hx hy => ih i f x y hfi hx hy (hf i f x hfi hx)
  · intro m l l' _ ih hc
    cases hc with
    | msgList hn hs => exact .msgList (ih hn hs).1 (ih hn hs).2
  · intro kk vt es es' _ ih hc
    cases hc with
    | map hk hn hs hsorted =>
      obtain ⟨i1, i2⟩ := ih hn hs
      have hlen : es.length = es'.length := by
        have := congrArg List.length i1
        simpa using this.symm
      have hso := sorted_entries i1 (fun e he => (hk e he).2.2) hsorted
      rw [insertEach_sorted (by simpa using hso), List.nil_append]
      refine .map hlen (fun i x y hx hy => ?_) i2
      have h1 : y.1 = entryScalar env x.1 := by
        have h1 := congrArg (fun l => l[i]?) i1
        simp only [List.getElem?_map, hx, hy, Option.map_some, Option.some.injEq] at h1
        exact h1
      have hx' := (hk x (List.mem_of_getElem? hx)).2.2
      rw [h1, (keyLt_entry hx' hx').1, (keyLt_entry hx' hx').2]
      exact ⟨keyLt_irrefl _ _, keyLt_irrefl _ _⟩
  · intro m _ _; exact ⟨rfl, by simp⟩
  · intro m l l' _ _ hn _; exact absurd rfl (hn .msgNull (by simp))
  · intro m o o' l l' _ _ ih1 ih2 hn hs
    obtain ⟨j1, j2⟩ := ih2 (fun v hv => hn v (List.mem_cons_of_mem _ hv))
      (fun v hv => hs v (List.mem_cons_of_mem _ hv))
    refine ⟨by simp [j1], fun i x y hx hy => ?_⟩
    cases i with
    | zero => simp at hx hy; subst hx hy; exact ih1 (hs _ (by simp))
    | succ i => exact j2 i x y (by simpa using hx) (by simpa using hy)
  · intro vt _ _; exact ⟨rfl, by simp⟩
  · intro vt key es es' _ _ hn _; exact absurd rfl (hn _ (List.mem_cons_self ..))
  · intro vt key v v' es es' _ _ _ ih1 ih2 hn hs
    obtain ⟨j1, j2⟩ := ih2 (fun v hv => hn v (List.mem_cons_of_mem _ hv))
      (fun v hv => hs v (List.mem_cons_of_mem _ hv))
    refine ⟨by simp [j1], fun i x y hx hy => ?_⟩
    cases i with
    | zero => simp at hx hy; subst hx hy; exact ih1 (hs _ (List.mem_cons_self ..))
    | succ i => exact j2 i x y (by simpa using hx) (by simpa using hy)

end QtPb
