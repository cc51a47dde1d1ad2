import Verif.SpecInterop
import Verif.RefLemmas
/-
Lemmas for C67: usual encodings are read alike by the specification of the library's decoder
(`Message`) and by the reference decoder.
-/
namespace QtPb

open Spec Ref

/-! ### Payloads -/

theorem payloadIs_payload {wt : Nat} {b : Bytes} {p : Payload} (h : PayloadIs wt b p)
    (hlen : b.length < 2 ^ 31) (rest : Bytes) : payload wt (b ++ rest) = some (p, rest) := by
  cases h with
  | varint h hn =>
    simp [payload, varint_of h, Nat.mod_eq_of_lt hn]
  | fixed64 h => simp [payload, ← h, cut_append]
  | delimited h =>
    simp only [List.length_append] at hlen
    exact delimited_of h (by omega) rest
  | fixed32 h => simp [payload, ← h, cut_append]

theorem payloadIs_pos {wt : Nat} {b : Bytes} {p : Payload} (h : PayloadIs wt b p) : 0 < b.length := by
  cases h with
  | varint h _ => exact ref_isVarint_length h.1
  | fixed64 h => omega
  | delimited h => have := ref_isVarint_length h.1; simp only [List.length_append]; omega
  | fixed32 h => omega

theorem payloadIs_skippable {wt : Nat} {b : Bytes} {p : Payload} (h : PayloadIs wt b p) :
    Skippable wt b := by
  cases h with
  | varint h _ => exact .varint h.1
  | fixed64 h => exact .fixed64 h
  | delimited h => exact .delimited h
  | fixed32 h => exact .fixed32 h

theorem len4 {b : Bytes} (h : b.length = 4) : ∃ b0 b1 b2 b3, b = [b0, b1, b2, b3] := by
  match b, h with
  | [b0, b1, b2, b3], _ => exact ⟨_, _, _, _, rfl⟩

theorem len8 {b : Bytes} (h : b.length = 8) :
    ∃ b0 b1 b2 b3 b4 b5 b6 b7, b = [b0, b1, b2, b3, b4, b5, b6, b7] := by
  match b, h with
  | [b0, b1, b2, b3, b4, b5, b6, b7], _ => exact ⟨_, _, _, _, _, _, _, _, rfl⟩

theorem le4 (b0 b1 b2 b3 : UInt8) : littleEndian [b0, b1, b2, b3] =
    b0.toNat + 2 ^ 8 * b1.toNat + 2 ^ 16 * b2.toNat + 2 ^ 24 * b3.toNat := by
  simp only [littleEndian]; omega

theorem le8 (b0 b1 b2 b3 b4 b5 b6 b7 : UInt8) : littleEndian [b0, b1, b2, b3, b4, b5, b6, b7] =
    b0.toNat + 2 ^ 8 * b1.toNat + 2 ^ 16 * b2.toNat + 2 ^ 24 * b3.toNat
          + 2 ^ 32 * b4.toNat + 2 ^ 40 * b5.toNat + 2 ^ 48 * b6.toNat + 2 ^ 56 * b7.toNat := by
  simp only [littleEndian]; omega

theorem fits_reads (env : Env) {wt : Nat} {b : Bytes} {p : Payload} (h : PayloadIs wt b p) {k : Kind}
    (hf : Fits k p) : wt = wireType k ∧ ∃ s, Reads env k b s ∧ scalarOf env k p = some s := by
  cases h with
  | @varint bs n h hn =>
    cases k <;> simp only [Fits] at hf <;> refine ⟨rfl, ?_⟩
    case int32 => exact ⟨_, .int32 h, rfl⟩
    case int64 => exact ⟨_, .int64 h, rfl⟩
    case uint32 => exact ⟨_, .uint32 h, rfl⟩
    case uint64 => exact ⟨_, .uint64 h, rfl⟩
    case sint32 => exact ⟨_, .sint32 h hf, by simp [scalarOf, Nat.mod_eq_of_lt hf]⟩
    case sint64 => exact ⟨_, .sint64 h hn, rfl⟩
    case bool => exact ⟨_, .bool h hf, rfl⟩
  | fixed64 h =>
    obtain ⟨b0, b1, b2, b3, b4, b5, b6, b7, rfl⟩ := len8 h
    cases k <;> simp only [Fits] at hf <;> refine ⟨rfl, _, .fixed64 (by simp) _ _ _ _ _ _ _ _, ?_⟩ <;>
      simp only [scalarOf, le8]
  | delimited h =>
    cases k <;> simp only [Fits] at hf <;> refine ⟨rfl, ?_⟩
    case string => exact ⟨_, .string h, rfl⟩
    case bytes => exact ⟨_, .bytes h, rfl⟩
  | fixed32 h =>
    obtain ⟨b0, b1, b2, b3, rfl⟩ := len4 h
    cases k <;> simp only [Fits] at hf <;> refine ⟨rfl, _, .fixed32 (by simp) _ _ _ _, ?_⟩ <;>
      simp only [scalarOf, le4]

theorem packed_reads (env : Env) {k : Kind} {bs : Bytes} (h : Packed k bs) :
    ∃ l, ReadsAll env k bs l := by
  induction h with
  | nil => exact ⟨_, .nil⟩
  | cons h1 h2 _ ih =>
    obtain ⟨l, hl⟩ := ih
    obtain ⟨_, s, hs, _⟩ := fits_reads env h1 h2
    exact ⟨_, .cons hs hl⟩

theorem packed_enums {bs : Bytes} (h : Packed .int32 bs) : ∃ l, ReadsEnums bs l := by
  induction h with
  | nil => exact ⟨_, .nil⟩
  | cons h1 h2 _ ih =>
    obtain ⟨l, hl⟩ := ih
    cases h1 with
    | varint h hn => exact ⟨_, .cons ⟨_, h, rfl⟩ hl⟩
    | fixed64 | fixed32 | delimited => simp [Fits] at h2

/-! ### Maps -/

theorem mapInsert_keys {kk : Kind} {key : Scalar} {v w : Val} : ∀ {a b : List (Scalar × Val)},
    a.map (·.1) = b.map (·.1) →
    (mapInsert kk key v a).map (·.1) = (mapInsert kk key w b).map (·.1)
  | [], [], _ => rfl
  | [], _ :: _, h => by simp at h
  | _ :: _, [], h => by simp at h
  | (k1, _) :: a, (k2, _) :: b, h => by
    simp only [List.map_cons, List.cons.injEq] at h
    obtain ⟨h1, h2⟩ := h
    subst h1
    simp only [mapInsert]
    split
    · simp [mapInsert_keys (kk := kk) (key := key) (v := v) (w := w) h2]
    · split <;> simp [h2]

theorem mapInsert_rel {R : Val → Val → Prop} {kk : Kind} {key : Scalar} {v w : Val} (hvw : R v w) :
    ∀ {a b : List (Scalar × Val)}, a.map (·.1) = b.map (·.1) →
    (∀ (i : Nat) (x y : Scalar × Val), a[i]? = some x → b[i]? = some y → R x.2 y.2) →
    ∀ (i : Nat) (x y : Scalar × Val), (mapInsert kk key v a)[i]? = some x →
      (mapInsert kk key w b)[i]? = some y → R x.2 y.2
  | [], [], _, _ => by
    intro i x y hx hy
    cases i with
    | zero => simp [mapInsert] at hx hy; subst hx; subst hy; exact hvw
    | succ i => simp [mapInsert] at hx
  | [], _ :: _, h, _ => by simp at h
  | _ :: _, [], h, _ => by simp at h
  | (k1, v1) :: a, (k2, v2) :: b, h, hr => by
    simp only [List.map_cons, List.cons.injEq] at h
    obtain ⟨h1, h2⟩ := h
    subst h1
    have ht : ∀ (i : Nat) (x y : Scalar × Val), a[i]? = some x → b[i]? = some y → R x.2 y.2 :=
      fun i x y hx hy => hr (i + 1) x y (by simpa using hx) (by simpa using hy)
    have h0 : R v1 v2 := hr 0 (k1, v1) (k1, v2) rfl rfl
    intro i x y hx hy
    simp only [mapInsert] at hx hy
    split at hx
    · rename_i hlt
      rw [if_pos hlt] at hy
      cases i with
      | zero => simp at hx hy; subst hx; subst hy; exact h0
      | succ i =>
        exact mapInsert_rel hvw h2 ht i x y (by simpa using hx) (by simpa using hy)
    · rename_i hlt
      rw [if_neg hlt] at hy
      split at hx
      · rename_i hlt2
        rw [if_pos hlt2] at hy
        match i with
        | 0 => simp at hx hy; subst hx; subst hy; exact hvw
        | 1 => simp at hx hy; subst hx; subst hy; exact h0
        | i + 2 => exact ht i x y (by simpa using hx) (by simpa using hy)
      · rename_i hlt2
        rw [if_neg hlt2] at hy
        cases i with
        | zero => simp at hx hy; subst hx; subst hy; exact hvw
        | succ i => exact ht i x y (by simpa using hx) (by simpa using hy)

theorem mapInsert_same_length {kk : Kind} {key : Scalar} {v : Val} : ∀ {a : List (Scalar × Val)},
    (mapInsert kk key v a).length = a.length → (mapInsert kk key v a).map (·.1) = a.map (·.1)
  | [], h => by simp [mapInsert] at h
  | (k1, v1) :: a, h => by
    simp only [mapInsert] at h ⊢
    split at h
    · rename_i hlt
      simp only [List.length_cons, Nat.add_right_cancel_iff] at h
      simp [if_pos hlt, mapInsert_same_length h]
    · rename_i hlt
      split at h
      · simp at h
      · rename_i hlt2
        simp [if_neg hlt, if_neg hlt2]

theorem mapScalarEq_values {kk vk : Kind} : ∀ {a b : List (Scalar × Val)}, mapScalarEq kk vk a b = true →
    a.length = b.length ∧ ∀ (i : Nat) (x y : Scalar × Val), a[i]? = some x → b[i]? = some y →
      ∃ s t, x.2 = .sc s ∧ y.2 = .sc t ∧ scalarEq vk s t = true
  | [], [], _ => ⟨rfl, fun i x y h => by simp at h⟩
  | (ka, .sc va) :: a, (kb, .sc vb) :: b, h => by
    simp only [mapScalarEq, Bool.and_eq_true] at h
    obtain ⟨hl, hr⟩ := mapScalarEq_values h.2
    refine ⟨by simp [hl], fun i x y hx hy => ?_⟩
    cases i with
    | zero => simp at hx hy; subst hx; subst hy; exact ⟨_, _, rfl, rfl, h.1.2⟩
    | succ i => exact hr i x y (by simpa using hx) (by simpa using hy)
  | [], _ :: _, h => by simp [mapScalarEq] at h
  | (_, .sc _) :: _, [], h => by simp [mapScalarEq] at h
  | (_, .sc _) :: _, (_, .scList _) :: _, h => by simp [mapScalarEq] at h
  | (_, .sc _) :: _, (_, .enum _) :: _, h => by simp [mapScalarEq] at h
  | (_, .sc _) :: _, (_, .enumList _) :: _, h => by simp [mapScalarEq] at h
  | (_, .sc _) :: _, (_, .msgNull) :: _, h => by simp [mapScalarEq] at h
  | (_, .sc _) :: _, (_, .msg _) :: _, h => by simp [mapScalarEq] at h
  | (_, .sc _) :: _, (_, .msgList _) :: _, h => by simp [mapScalarEq] at h
  | (_, .sc _) :: _, (_, .map _) :: _, h => by simp [mapScalarEq] at h
  | (_, .scList _) :: _, _, h => by simp [mapScalarEq] at h
  | (_, .enum _) :: _, _, h => by simp [mapScalarEq] at h
  | (_, .enumList _) :: _, _, h => by simp [mapScalarEq] at h
  | (_, .msgNull) :: _, _, h => by simp [mapScalarEq] at h
  | (_, .msg _) :: _, _, h => by simp [mapScalarEq] at h
  | (_, .msgList _) :: _, _, h => by simp [mapScalarEq] at h
  | (_, .map _) :: _, _, h => by simp [mapScalarEq] at h

theorem mapEnumEq_values {kk : Kind} {a b : List (Scalar × Val)} (h : mapEnumEq kk a b = true) :
    a.length = b.length ∧ ∀ (i : Nat) (x y : Scalar × Val), a[i]? = some x → b[i]? = some y → x.2 = y.2 := by
  induction a generalizing b with
  | nil => cases b <;> simp_all [mapEnumEq]
  | cons x a ih =>
    obtain ⟨kx, vx⟩ := x
    cases b with
    | nil => cases vx <;> simp [mapEnumEq] at h
    | cons y b =>
      obtain ⟨ky, vy⟩ := y
      cases vx <;> cases vy <;> simp [mapEnumEq] at h
      obtain ⟨hl, hr⟩ := ih h.2
      refine ⟨by simp [hl], fun i x y hx hy => ?_⟩
      cases i with
      | zero => simp at hx hy; subst hx; subst hy; simp [h.1.2]
      | succ i => exact hr i x y (by simpa using hx) (by simpa using hy)

theorem alike_trans {k : Kind} {a b c : Scalar} (h1 : scalarEq k a b = true)
    (h2 : b = c ∨ scalarEq k b c = true) : scalarEq k a c = true := by
  rcases h2 with rfl | h2
  · exact h1
  · exact scalarEq_trans h1 h2

/-- Storing the inserted map keeps agreement. -/
theorem store_map_agrees {env : Env} {kk : Kind} {vt : MapVal} {key : Scalar} {v w : Val}
    {a b : List (Scalar × Val)} (hvw : Agrees env (MapVal.toTy vt) v w)
    (h : Agrees env (.map kk vt) (.map a) (.map b)) :
    Agrees env (.map kk vt) (store (.map kk vt) (.map a) (.map (mapInsert kk key v a)))
      (.map (mapInsert kk key w b)) := by
  cases h with
  | map hk hr =>
    have hk' := mapInsert_keys (kk := kk) (key := key) (v := v) (w := w) hk
    have hr' := mapInsert_rel (R := Agrees env (MapVal.toTy vt)) (kk := kk) (key := key) hvw hk hr
    have hplain : Agrees env (.map kk vt) (.map (mapInsert kk key v a)) (.map (mapInsert kk key w b)) :=
      .map hk' hr'
    cases vt with
    | scalar vk =>
      simp only [store]
      split
      · rename_i heq
        obtain ⟨hl, hs⟩ := mapScalarEq_values heq
        have hka := mapInsert_same_length hl.symm
        refine .map (hka.symm.trans hk') fun i x y hx hy => ?_
        obtain ⟨z, hz⟩ : ∃ z, (mapInsert kk key v a)[i]? = some z := by
          obtain ⟨hi, _⟩ := List.getElem?_eq_some_iff.mp hx
          exact ⟨_, List.getElem?_eq_getElem (by omega)⟩
        obtain ⟨s, t, e1, e2, e3⟩ := hs i x z hx hz
        have := hr' i z y hz hy
        rw [e2] at this
        rw [e1]
        revert this
        generalize y.2 = q
        intro this
        cases this with
        | sc h => exact .sc (.inr (alike_trans e3 h))
      · exact hplain
    | enum =>
      simp only [store]
      split
      · rename_i heq
        obtain ⟨hl, hs⟩ := mapEnumEq_values heq
        have hka := mapInsert_same_length hl.symm
        refine .map (hka.symm.trans hk') fun i x y hx hy => ?_
        obtain ⟨z, hz⟩ : ∃ z, (mapInsert kk key v a)[i]? = some z := by
          obtain ⟨hi, _⟩ := List.getElem?_eq_some_iff.mp hx
          exact ⟨_, List.getElem?_eq_getElem (by omega)⟩
        rw [hs i x z hx hz]
        exact hr' i z y hz hy
      · exact hplain
    | msg m => exact hplain

/-! ### Fields -/

section
variable {env : Env} {S : Nat → Bytes → Obj → Prop} {sub : Nat → Bytes → Obj → Option Obj}
  {R : Nat → Bytes → Prop} {L : Nat}

/-- What is known about nested messages shorter than `L` bytes. -/
def SubOk (env : Env) (S : Nat → Bytes → Obj → Prop) (sub : Nat → Bytes → Obj → Option Obj)
    (R : Nat → Bytes → Prop) (L : Nat) : Prop :=
  ∀ m body, R m body → body.length < L → ∃ o2 o, S m body o2 ∧
    sub m body (defaultObj env m) = some o ∧ Agrees env (.msg m) (.msg o2) (.msg o)

/-- Records 2 among the records of a map entry. -/
def count2 (rs : List (Nat × Payload)) : Nat := (rs.filter fun r => r.1 == 2).length

theorem entry_usual (hsub : SubOk env S sub R L) {kk : Kind} {vt : MapVal} {body : Bytes}
    {rs : List (Nat × Payload)} (hc : Cut body rs)
    (hr : ∀ r ∈ rs, r.1 = 1 ∧ Fits kk r.2 ∨ r.1 = 2 ∧ FitsValue R vt r.2) :
    ∀ {k2 k : Scalar} {v2 v : Val} {n : Nat}, body.length < 2 ^ 31 → body.length ≤ L → body.length ≤ n →
    k2 = k → (∀ m, vt = .msg m → count2 rs ≤ 1 ∧ (count2 rs = 1 → v = .msg (defaultObj env m))) →
    ((∀ m, vt = .msg m → count2 rs = 0) → Agrees env (MapVal.toTy vt) v2 v) →
    ∃ k2' v2' v', Entry env S kk vt body (k2, v2) (k2', v2') ∧
      entry env sub kk vt n body (k, v) = some (k2', v') ∧ Agrees env (MapVal.toTy vt) v2' v' := by
  induction hc with
  | nil =>
    intro k2 k v2 v n _ _ _ hk _ ha
    subst hk
    exact ⟨k2, v2, v, .nil _, by cases n <;> rfl, ha fun m _ => rfl⟩
  | @cons hdr b rest num wt p rs ht hp hc ih =>
    intro k2 k v2 v n h31 hL hn hk hone ha
    subst hk
    have hh := tag_length ht
    simp only [List.length_append] at h31 hL hn
    replace ih := @ih fun r h => hr r (List.mem_cons_of_mem _ h)
    have hrec := record_of ht (payloadIs_payload hp (by omega) rest)
    cases n with
    | zero => omega
    | succ n =>
      cases hb' : hdr ++ b ++ rest with
      | nil => simp only [List.append_eq_nil_iff] at hb'; rw [hb'.1.1] at hh; simp at hh
      | cons x xs =>
      rw [hb'] at hrec
      rw [← hb']
      rcases hr (num, p) List.mem_cons_self with ⟨h1, h2⟩ | ⟨h1, h2⟩
      · simp only at h1 h2
        subst h1
        obtain ⟨e, s, hs1, hs2⟩ := fits_reads env hp h2
        subst e
        have hcnt : count2 ((1, p) :: rs) = count2 rs := by simp [count2]
        rw [hcnt] at hone ha
        obtain ⟨k2', v2', v', e1, e2, e3⟩ := ih (k2 := s) (k := s) (v2 := v2) (v := v) (n := n)
          (by omega) (by omega) (by omega) rfl hone ha
        refine ⟨k2', v2', v', .key ht hs1 e1, ?_, e3⟩
        rw [hb']
        simp only [entry, hrec, hs2, Option.getD_some, e2]
      · simp only at h1 h2
        subst h1
        have hcnt : count2 ((2, p) :: rs) = count2 rs + 1 := by simp [count2]
        rw [hcnt] at hone ha
        have hval : ∃ w2 w, ReadsMapVal env S vt wt b w2 ∧ entryValue env sub vt p v = some w ∧
            Agrees env (MapVal.toTy vt) w2 w := by
          cases vt with
          | scalar vk =>
            obtain ⟨e, s, hs1, hs2⟩ := fits_reads env hp h2
            subst e
            exact ⟨.sc s, .sc s, .scalar hs1, by simp [entryValue, hs2], .sc (.inl rfl)⟩
          | enum =>
            cases hp with
            | varint h hn => exact ⟨_, _, .enum ⟨_, h, rfl⟩, rfl, .enum _⟩
            | fixed64 | fixed32 | delimited => simp [FitsValue] at h2
          | msg m =>
            cases hp with
            | @delimited l body' h =>
              simp only [FitsValue] at h2
              simp only [List.length_append] at h31 hL hn
              obtain ⟨o2, o, q1, q2, q3⟩ := hsub m body' h2 (by omega)
              have hv : v = .msg (defaultObj env m) := (hone m rfl).2 (by
                have := (hone m rfl).1; omega)
              exact ⟨.msg o2, .msg o, .msg h q1, by simp [entryValue, hv, current, q2], q3⟩
            | varint | fixed64 | fixed32 => simp [FitsValue] at h2
        obtain ⟨w2, w, hw1, hw2, hw3⟩ := hval
        obtain ⟨k2', v2', v', e1, e2, e3⟩ := ih (k2 := k2) (k := k2) (v2 := w2) (v := w) (n := n)
          (by omega) (by omega) (by omega) rfl
          (fun m hm => ⟨by have := (hone m hm).1; omega, fun h => by have := (hone m hm).1; omega⟩)
          (fun _ => hw3)
        refine ⟨k2', v2', v', .val ht hw1 e1, ?_, e3⟩
        rw [hb']
        simp only [entry, hrec, hw2, e2]

/-- A field of which encoders write at most one record. -/
def once : FieldTy → Prop
  | .list .string | .list .bytes => False
  | .list _ | .msg _ => True
  | _ => False

theorem packed_field {k : Kind} {wt : Nat} {b : Bytes} {p : Payload} (hpk : packable k)
    (hnum : numeric k = true) (hno : ∀ body, scalarOf env k (.delimited body) = none)
    (hp : PayloadIs wt b p) (hlen : b.length < 2 ^ 31)
    (hu : ∃ body, p = .delimited body ∧ Packed k body) :
    ∃ new2 new, FieldEffect env S (.list k) wt b (.scList []) new2 ∧
      fieldValue env sub (.list k) p (.scList []) = some new ∧
      Agrees env (.list k) (store (.list k) (.scList []) new2) new := by
  obtain ⟨body, rfl, hb⟩ := hu
  obtain ⟨l, hl⟩ := packed_reads env hb
  cases hp with
  | delimited h =>
    simp only [List.length_append] at hlen
    refine ⟨.scList l, .scList l, .packed _ hpk h hl, ?_, ?_⟩
    · simp [fieldValue, hno, hnum, scalars_of hl (Nat.le_refl _) (by omega)]
    · simp only [store]
      split
      · rename_i h
        cases l with
        | nil => exact .scList _ _
        | cons x xs => simp [scalarListEq] at h
      · exact .scList _ _

theorem append_ne {k : Kind} : ∀ {l : List Scalar} {s : Scalar}, scalarListEq k l (l ++ [s]) = false
  | [], s => rfl
  | x :: l, s => by simp [scalarListEq, append_ne (l := l)]

theorem append_field {k : Kind} {wt : Nat} {b : Bytes} {p : Payload} (hk : k = .string ∨ k = .bytes)
    {old2 old : Val} (ha : Agrees env (.list k) old2 old) (hp : PayloadIs wt b p) (hu : Fits k p) :
    ∃ new2 new, FieldEffect env S (.list k) wt b old2 new2 ∧
      fieldValue env sub (.list k) p old = some new ∧
      Agrees env (.list k) (store (.list k) old2 new2) new := by
  cases ha with
  | scList _ l =>
    obtain ⟨e, s, hs1, hs2⟩ := fits_reads env hp hu
    have e2 : wireType k = 2 := by rcases hk with rfl | rfl <;> rfl
    rw [e2] at e
    subst e
    refine ⟨_, .scList (l ++ [s]), .append l hk hs1, by simp [fieldValue, hs2], ?_⟩
    simp only [store, append_ne]
    exact .scList _ _

theorem field_usual (hsub : SubOk env S sub R L) {ty : FieldTy} {wt : Nat} {b : Bytes} {p : Payload}
    (hp : PayloadIs wt b p) (h31 : b.length < 2 ^ 31) (hL : b.length ≤ L) {ps : List Payload}
    (hu : UsualField R ty (p :: ps)) {old2 old : Val} (ha : Agrees env ty old2 old)
    (hdef : once ty → old2 = defaultVal ty ∧ old = defaultVal ty) :
    ∃ new2 new, FieldEffect env S ty wt b old2 new2 ∧ fieldValue env sub ty p old = some new ∧
      Agrees env ty (store ty old2 new2) new := by
  cases ty with
  | scalar k =>
    obtain ⟨e, s, hs1, hs2⟩ := fits_reads env hp (hu p List.mem_cons_self)
    subst e
    cases ha with
    | @sc _ x y h =>
    refine ⟨.sc s, .sc s, .scalar _ hs1, by simp [fieldValue, hs2], ?_⟩
    simp only [store]
    split
    · rename_i h; exact .sc (.inr h)
    · exact .sc (.inl rfl)
  | list k =>
    cases k
    case bool => simp [UsualField] at hu
    case string => exact append_field (.inl rfl) ha hp (hu p List.mem_cons_self)
    case bytes => exact append_field (.inr rfl) ha hp (hu p List.mem_cons_self)
    all_goals
      obtain ⟨e1, e2⟩ := hdef trivial
      rw [e1, e2]
      exact packed_field trivial rfl (fun _ => rfl) hp h31 (hu.2 p List.mem_cons_self)
  | enum =>
    obtain ⟨n, rfl⟩ := hu p List.mem_cons_self
    cases hp with
    | varint h hn => exact ⟨_, _, .enum _ ⟨_, h, rfl⟩, rfl, by simp only [store]; exact .enum _⟩
  | enumList =>
    obtain ⟨body, rfl, hb⟩ := hu p List.mem_cons_self
    obtain ⟨l, hl⟩ := packed_enums hb
    cases ha with
    | enumList old =>
    cases hp with
    | delimited h =>
      refine ⟨_, .enumList (old ++ l), .enums old h hl, by simp [fieldValue, enums_of hl (Nat.le_refl _)], ?_⟩
      simp only [store]
      exact .enumList _
  | msg m =>
    obtain ⟨body, rfl, hb⟩ := hu.2 p List.mem_cons_self
    obtain ⟨e1, e2⟩ := hdef trivial
    rw [e1, e2]
    cases hp with
    | @delimited l _ h =>
      have hl := ref_isVarint_length h.1
      simp only [List.length_append] at hL
      obtain ⟨o2, o, q1, q2, q3⟩ := hsub m body hb (by omega)
      exact ⟨.msg o2, .msg o, .msg _ h q1, by simp [fieldValue, defaultVal, current, q2], by
        simp only [store]; exact q3⟩
  | msgList m =>
    obtain ⟨body, rfl, hb⟩ := hu p List.mem_cons_self
    cases ha with
    | @msgList _ l2 l hlen hr =>
    cases hp with
    | @delimited ll _ h =>
      have hl := ref_isVarint_length h.1
      simp only [List.length_append] at hL
      obtain ⟨o2, o, q1, q2, q3⟩ := hsub m body hb (by omega)
      refine ⟨_, .msgList (l ++ [.msg o]), .msgList l2 h q1, by simp [fieldValue, q2], ?_⟩
      simp only [store]
      refine .msgList (by simp [hlen]) fun i x y hx hy => ?_
      rw [List.getElem?_append] at hx hy
      rw [hlen] at hx
      split at hx
      · rename_i hi
        rw [if_pos hi] at hy
        exact hr i x y hx hy
      · rename_i hi
        rw [if_neg hi] at hy
        cases h0 : i - l.length with
        | zero => rw [h0] at hx hy; simp at hx hy; subst hx; subst hy; exact q3
        | succ j => rw [h0] at hx; simp at hx
  | map kk vt =>
    obtain ⟨body, rfl, rs, hc, hr, hone⟩ := hu p List.mem_cons_self
    cases hp with
    | @delimited ll _ h =>
      have hl := ref_isVarint_length h.1
      simp only [List.length_append] at hL h31
      have hstart : ∃ k0 v2 v0, emptyEntry kk vt = (k0, v2) ∧ entryDefault env kk vt = (k0, v0) ∧
          (∀ m, vt = .msg m → count2 rs ≤ 1 ∧ (count2 rs = 1 → v0 = .msg (defaultObj env m))) ∧
          ((∀ m, vt = .msg m → count2 rs = 0) → Agrees env (MapVal.toTy vt) v2 v0) := by
        cases vt with
        | scalar k =>
          exact ⟨_, _, _, rfl, rfl, fun m h => by simp at h, fun _ => .sc (.inl rfl)⟩
        | enum => exact ⟨_, _, _, rfl, rfl, fun m h => by simp at h, fun _ => .enum _⟩
        | msg m =>
          refine ⟨_, _, _, rfl, rfl, fun m' h => ?_, fun h0 => ?_⟩
          · cases h
            exact ⟨by have := hone m rfl; simp only [count2]; omega, fun _ => rfl⟩
          · have := hone m rfl
            have h0 := h0 m rfl
            simp only [count2] at h0
            omega
      obtain ⟨k0, v2, v0, e1, e2, e3, e4⟩ := hstart
      obtain ⟨k2', v2', v', q1, q2, q3⟩ := entry_usual hsub hc hr (k2 := k0) (k := k0) (v2 := v2)
        (v := v0) (n := body.length) (by omega) (by omega) (Nat.le_refl _) rfl e3 e4
      cases ha with
      | @map _ _ a b' hk hrr =>
      refine ⟨_, _, .map a h (by rw [e1]; exact q1), by simp [fieldValue, e2, q2]; rfl, ?_⟩
      exact store_map_agrees q3 (.map hk hrr)

/-! ### Messages -/

theorem payloadsOf_cons {num n : Nat} {p : Payload} {rs : List (Nat × Payload)} :
    payloadsOf num ((n, p) :: rs) = if n = num then p :: payloadsOf num rs else payloadsOf num rs := by
  simp only [payloadsOf, List.filter_cons, beq_iff_eq]
  split <;> simp

theorem usualField_tail {ty : FieldTy} {p : Payload} {ps : List Payload}
    (h : UsualField R ty (p :: ps)) : UsualField R ty ps := by
  have hs : ∀ {P : Payload → Prop}, (∀ q ∈ p :: ps, P q) → ∀ q ∈ ps, P q :=
    fun h q hq => h q (List.mem_cons_of_mem _ hq)
  cases ty with
  | list k =>
    cases k
    case bool => simp [UsualField] at h
    case string | bytes => exact hs h
    all_goals
      exact ⟨by have := h.1; simp only [List.length_cons] at this; omega, hs h.2⟩
  | msg m => exact ⟨by have := h.1; simp only [List.length_cons] at this; omega, hs h.2⟩
  | scalar k => exact hs h
  | enum => exact hs h
  | enumList => exact hs h
  | msgList m => exact hs h
  | map kk vt => exact hs h

theorem usualField_once {ty : FieldTy} {p : Payload} {ps : List Payload} (ho : once ty)
    (h : UsualField R ty (p :: ps)) : ps = [] := by
  cases ty with
  | list k =>
    cases k
    case bool => simp [UsualField] at h
    case string | bytes => exact ho.elim
    all_goals
      have := h.1; simp only [List.length_cons] at this
      exact List.eq_nil_of_length_eq_zero (by omega)
  | msg m =>
    have := h.1; simp only [List.length_cons] at this
    exact List.eq_nil_of_length_eq_zero (by omega)
  | scalar | enum | enumList | msgList | map => exact ho.elim

theorem agrees_default (f : FieldTy) : Agrees env f (defaultVal f) (defaultVal f) := by
  cases f with
  | scalar k => exact .sc (.inl rfl)
  | list k => exact .scList _ _
  | enum => exact .enum _
  | enumList => exact .enumList _
  | msg m => exact .unset m
  | msgList m => exact .msgList rfl fun i x y hx => by simp at hx
  | map kk vt => exact .map rfl fun i x y hx => by simp at hx

theorem stream_usual (hv : ValidSchema env) (hsub : SubOk env S sub R L) {m : Nat} {bs : Bytes}
    {rs : List (Nat × Payload)} (hc : Cut bs rs) :
    ∀ {o2 o : Obj} {n : Nat}, bs.length < 2 ^ 31 → bs.length ≤ L → bs.length ≤ n →
    (∀ f ∈ env.sch m, UsualField R f.ty (payloadsOf f.num rs)) →
    Agrees env (.msg m) (.msg o2) (.msg o) →
    (∀ (i : Nat) (f : Field), (env.sch m)[i]? = some f → once f.ty → payloadsOf f.num rs ≠ [] →
      o2[i]? = some (defaultVal f.ty) ∧ o[i]? = some (defaultVal f.ty)) →
    ∃ o2' o', Stream env S m bs o2 o2' ∧ records env sub m n bs o = some o' ∧
      Agrees env (.msg m) (.msg o2') (.msg o') := by
  induction hc with
  | nil =>
    intro o2 o n _ _ _ _ ha _
    exact ⟨o2, o, .nil _, by cases n <;> rfl, ha⟩
  | @cons hdr b rest num wt p rs ht hp hc ih =>
    intro o2 o n h31 hL hn hu ha hdef
    have hh := tag_length ht
    simp only [List.length_append] at h31 hL hn
    have hrec := record_of ht (payloadIs_payload hp (by omega) rest)
    have hu' : ∀ f ∈ env.sch m, UsualField R f.ty (payloadsOf f.num rs) := fun f hf => by
      have := hu f hf
      rw [payloadsOf_cons] at this
      split at this
      · exact usualField_tail this
      · exact this
    cases n with
    | zero => omega
    | succ n =>
      cases hb' : hdr ++ b ++ rest with
      | nil => simp only [List.append_eq_nil_iff] at hb'; rw [hb'.1.1] at hh; simp at hh
      | cons x xs =>
      rw [hb'] at hrec
      rw [← hb']
      by_cases hk : ∃ (i : Nat) (f : Field), (env.sch m)[i]? = some f ∧ f.num = num
      · obtain ⟨i, f, hf, rfl⟩ := hk
        have hfm := List.mem_of_getElem? hf
        cases ha with
        | msg hl2 hl hr =>
        obtain ⟨hi, _⟩ := List.getElem?_eq_some_iff.mp hf
        have h2 : o2[i]? = some o2[i] := List.getElem?_eq_getElem (by omega)
        have h1 : o[i]? = some o[i] := List.getElem?_eq_getElem (by omega)
        have huf := hu f hfm
        rw [payloadsOf_cons, if_pos rfl] at huf
        obtain ⟨new2, new, e1, e2, e3⟩ := field_usual hsub hp (by omega) (by omega) huf
          (hr i f _ _ hf h2 h1) (fun ho => by
            have := hdef i f hf ho (by rw [payloadsOf_cons, if_pos rfl]; simp)
            rw [h2, h1] at this
            simpa using this)
        have happ : apply env sub m f.num p o = some (o.set i new) := by
          simp [apply, fieldIndex_of (hv m).1 hf, hf, h1, e2]
        obtain ⟨o2', o', q1, q2, q3⟩ := ih (o2 := o2.set i (store f.ty o2[i] new2)) (o := o.set i new)
          (n := n) (by omega) (by omega) (by omega) hu'
          (.msg (by simp [hl2]) (by simp [hl]) fun j g x y hg hx hy => by
            rw [List.getElem?_set] at hx hy
            by_cases hij : i = j
            · subst hij
              rw [if_pos rfl, if_pos (by omega)] at hx
              rw [if_pos rfl, if_pos (by omega)] at hy
              rw [hf] at hg
              cases hg; cases hx; cases hy
              exact e3
            · rw [if_neg hij] at hx hy
              exact hr j g x y hg hx hy)
          (fun j g hg ho hne => by
            by_cases hij : i = j
            · subst hij
              rw [hf] at hg
              cases hg
              exact absurd (usualField_once ho huf) hne
            · have hnum : g.num ≠ f.num := fun e => by
                have h1 := fieldIndex_of (hv m).1 hf
                have h2 := fieldIndex_of (hv m).1 hg
                rw [e, h1] at h2
                exact hij (Option.some.inj h2)
              have := hdef j g hg ho (by rw [payloadsOf_cons, if_neg (Ne.symm hnum)]; exact hne)
              simp only [List.getElem?_set, if_neg hij]
              exact this)
        refine ⟨o2', o', .known hf ht h2 e1 q1, ?_, q3⟩
        rw [hb']
        simp only [records, hrec, happ, q2]
      · have hunk : ∀ f ∈ env.sch m, f.num ≠ num := fun f hf e => by
          obtain ⟨i, hi⟩ := List.getElem?_of_mem hf
          exact hk ⟨i, f, hi, e⟩
        have hidx : fieldIndex num (env.sch m) = none := by
          revert hunk
          generalize env.sch m = fs
          intro hunk
          induction fs with
          | nil => rfl
          | cons g fs ih =>
            simp only [fieldIndex, if_neg (hunk g List.mem_cons_self),
              ih fun f hf => hunk f (List.mem_cons_of_mem _ hf)]
            rfl
        have happ : apply env sub m num p o = some o := by simp [apply, hidx]
        obtain ⟨o2', o', q1, q2, q3⟩ := ih (o2 := o2) (o := o) (n := n) (by omega) (by omega) (by omega)
          hu' ha (fun j g hg ho hne => hdef j g hg ho (by
            rw [payloadsOf_cons, if_neg (Ne.symm (hunk g (List.mem_of_getElem? hg)))]; exact hne))
        refine ⟨o2', o', .unknown hunk ht (payloadIs_skippable hp) q1, ?_, q3⟩
        rw [hb']
        simp only [records, hrec, happ, q2]

theorem agrees_defaultObj (m : Nat) :
    Agrees env (.msg m) (.msg (defaultObj env m)) (.msg (defaultObj env m)) :=
  .msg (by simp [defaultObj]) (by simp [defaultObj]) fun i f x y hf hx hy => by
    simp only [defaultObj, List.getElem?_map, hf, Option.map_some, Option.some.injEq] at hx hy
    subst hx; subst hy
    exact agrees_default _

end

theorem message_usual {env : Env} (hv : ValidSchema env) {d : Nat} : ∀ {d' m : Nat} {bs : Bytes},
    Usual env d m bs → bs.length < 2 ^ 31 → bs.length < d' →
    ∃ o2 o, Message env d m bs o2 ∧ Ref.merge env d' m bs (defaultObj env m) = some o ∧
      Agrees env (.msg m) (.msg o2) (.msg o) := by
  induction d with
  | zero => intro d' m bs h; exact h.elim
  | succ d ih =>
    intro d' m bs h h31 hd
    cases d' with
    | zero => omega
    | succ d' =>
      obtain ⟨rs, hc, hu⟩ := h
      refine stream_usual hv (S := Message env d) (sub := Ref.merge env d') (R := Usual env d)
        (L := bs.length) (fun m body hb hl => ih hb (by omega) (by omega)) hc h31 (Nat.le_refl _)
        (Nat.le_refl _) hu (agrees_defaultObj m) fun i f hf _ _ => ?_
      simp [defaultObj, hf]

end QtPb
