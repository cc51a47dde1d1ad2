import Verif.ReceiveLemmas
/-
`SpecReceive` says something about every input.
-/
namespace QtPb
open Spec

variable {env : Env}

theorem isVarint_front {c : Bytes} {n : Nat} (h : IsVarint c n) (j : Nat) (hj : j < c.length) : ∀ b ∈ c.take j, 128 ≤ b.toNat := by
  induction h generalizing j with
  | last b _ =>
    simp only [List.length_singleton] at hj
    obtain rfl : j = 0 := by omega
    simp
  | more b bs n hb _ ih =>
    cases j with
    | zero => simp
    | succ j =>
      intro x hx
      simp only [List.take_succ_cons, List.mem_cons] at hx
      rcases hx with rfl | hx
      · exact hb
      · exact ih j (by simpa using hj) x hx

theorem varint_or_open (bs : Bytes) : (∃ c rest n, bs = c ++ rest ∧ IsVarint c n) ∨ ∀ b ∈ bs, 128 ≤ b.toNat := by
  induction bs with
  | nil => exact .inr (by simp)
  | cons b bs ih =>
    by_cases hb : b.toNat < 128
    · exact .inl ⟨[b], bs, _, rfl, .last b hb⟩
    · rcases ih with ⟨c, rest, n, rfl, h⟩ | h
      · exact .inl ⟨b :: c, rest, _, rfl, .more b c n (by omega) h⟩
      · refine .inr fun x hx => ?_
        rcases List.mem_cons.1 hx with rfl | hx
        · omega
        · exact h x hx

theorem getVarint_total (bs : Bytes) : ∃ g, GetVarint bs g := by
  rcases varint_or_open bs with ⟨c, rest, n, rfl, h⟩ | h
  · by_cases hc : c.length ≤ 10
    · exact ⟨_, .value ⟨h, hc⟩⟩
    · refine ⟨_, .long ⟨by simp; omega, ?_⟩⟩
      rw [List.take_append_of_le_length (by omega)]
      exact isVarint_front h 10 (by omega)
  · by_cases hc : bs.length ≤ 9
    · exact ⟨_, .truncated ⟨h, hc⟩⟩
    · exact ⟨_, .long ⟨by omega, fun b hb => h b (List.mem_of_mem_take hb)⟩⟩

theorem getFixed_total (w : Nat) (bs : Bytes) : ∃ g, GetFixed w bs g := by
  by_cases h : w ≤ bs.length
  · refine ⟨.value (bs.take w) (bs.drop w), ?_⟩
    have := GetFixed.value (w := w) (c := bs.take w) (rest := bs.drop w) (by simp; omega)
    rwa [List.take_append_drop] at this
  · by_cases h1 : bs.length + 1 = w
    · exact ⟨_, .oneMissing h1⟩
    · exact ⟨_, .moreMissing (by omega)⟩

theorem getBody_total (bs : Bytes) : ∃ g, GetBody bs g := by
  obtain ⟨g, h⟩ := getVarint_total bs
  cases g with
  | value n rest =>
    by_cases hn : n % 2 ^ 32 < 2 ^ 31
    · obtain ⟨g', h'⟩ := getFixed_total (n % 2 ^ 32) rest
      exact ⟨_, .read h hn h'⟩
    · exact ⟨_, .negative h (by omega)⟩
  | trouble t => exact ⟨_, .noLength h⟩

theorem getScalar_total (k : Kind) (bs : Bytes) : ∃ g, GetScalar env k bs g := by
  rcases kind_wireType k with h | h | h | h
  · obtain ⟨g, h'⟩ := getVarint_total bs
    exact ⟨_, .varint h h'⟩
  · obtain ⟨g, h'⟩ := getFixed_total 8 bs
    exact ⟨_, .fixed64 h h'⟩
  · obtain ⟨g, h'⟩ := getBody_total bs
    exact ⟨_, .body h h'⟩
  · obtain ⟨g, h'⟩ := getFixed_total 4 bs
    exact ⟨_, .fixed32 h h'⟩

section
variable {σ : Type} {Step : σ → Bytes → Got σ → Prop}

theorem getSteps_total {L : Nat} (ht : ∀ s bs, bs.length ≤ L → ∃ g, Step s bs g)
    (hpos : ∀ s bs s' rest, Step s bs (.value s' rest) → rest.length < bs.length) (stop : Nat) :
    ∀ (done : Nat) (s : σ) (bs : Bytes), bs.length ≤ L → ∃ g, GetSteps Step stop done s bs g := by
  intro done s bs
  induction hl : bs.length using Nat.strongRecOn generalizing done s bs with
  | ind l ih =>
    subst hl
    intro hL
    by_cases hd : done = stop
    · subst hd
      exact ⟨_, .stop⟩
    · obtain ⟨g, h⟩ := ht s bs hL
      cases g with
      | value s' rest =>
        have := hpos _ _ _ _ h
        obtain ⟨g', h'⟩ := ih rest.length this (done + (bs.length - rest.length)) s' rest rfl (by omega)
        exact ⟨_, .step hd h h'⟩
      | trouble t => exact ⟨_, .trouble hd h⟩

theorem getMany_total {L : Nat} (ht : ∀ s bs, bs.length ≤ L → ∃ g, Step s bs g)
    (hpos : ∀ s bs s' rest, Step s bs (.value s' rest) → rest.length < bs.length) (s : σ) (bs : Bytes) (hL : bs.length ≤ L) :
    ∃ g, GetMany Step s bs g := by
  obtain ⟨g, h⟩ := getVarint_total bs
  cases g with
  | value n rest =>
    have := getVarint_pos h
    by_cases hn : n % 2 ^ 32 < 2 ^ 31
    · by_cases hle : n % 2 ^ 32 ≤ rest.length
      · obtain ⟨g', h'⟩ := getSteps_total ht hpos (n % 2 ^ 32) 0 s rest (by omega)
        exact ⟨_, .read h hn hle h'⟩
      · exact ⟨_, .tooLong h hn (by omega)⟩
    · exact ⟨_, .negative h (by omega)⟩
  | trouble t => exact ⟨_, .noLength h⟩

end

theorem getElement_total (k : Kind) (l : List Scalar) (bs : Bytes) : ∃ g, GetElement env k l bs g := by
  obtain ⟨g, h⟩ := getScalar_total (env := env) k bs
  exact ⟨_, .next h⟩

theorem getNumber_total (l : List (BitVec 32)) (bs : Bytes) : ∃ g, GetNumber l bs g := by
  obtain ⟨g, h⟩ := getVarint_total bs
  exact ⟨_, .next h⟩

theorem getSkipped_total {wt : Nat} (hwt : KnownWireType wt) (bs : Bytes) : ∃ g, GetSkipped wt bs g := by
  rcases hwt with rfl | rfl | rfl | rfl
  · rcases varint_or_open bs with ⟨c, rest, n, rfl, h⟩ | h
    · exact ⟨_, .varint h⟩
    · exact ⟨_, .openVarint h⟩
  · by_cases h : 8 ≤ bs.length
    · refine ⟨.value () (bs.drop 8), ?_⟩
      have := GetSkipped.fixed (wt := 1) (w := 8) (c := bs.take 8) (rest := bs.drop 8) (by omega) (by simp; omega)
      rwa [List.take_append_drop] at this
    · exact ⟨_, .fixedShort (w := 8) (by omega) (by omega)⟩
  · obtain ⟨g, h⟩ := getVarint_total bs
    cases g with
    | value n rest =>
      by_cases hn : n % 2 ^ 32 < 2 ^ 31
      · by_cases hle : n % 2 ^ 32 ≤ rest.length
        · refine ⟨.value () (rest.drop (n % 2 ^ 32)), ?_⟩
          refine GetSkipped.body (n := n) (c := rest.take (n % 2 ^ 32)) (rest := rest.drop (n % 2 ^ 32)) ?_ (by simp; omega) hn
          rwa [List.take_append_drop]
        · exact ⟨_, .bodyShort h (by omega) hn⟩
      · exact ⟨_, .negative h (by omega)⟩
    | trouble t => exact ⟨_, .noLength h⟩
  · by_cases h : 4 ≤ bs.length
    · refine ⟨.value () (bs.drop 4), ?_⟩
      have := GetSkipped.fixed (wt := 5) (w := 4) (c := bs.take 4) (rest := bs.drop 4) (by omega) (by simp; omega)
      rwa [List.take_append_drop] at this
    · exact ⟨_, .fixedShort (w := 4) (by omega) (by omega)⟩

section
variable {Sub : Nat → Bytes → Obj → Option Trouble → Prop} {B : Nat}

/-- `Sub` says something about all inputs of fewer than `B` bytes. -/
def SubTotal (Sub : Nat → Bytes → Obj → Option Trouble → Prop) (B : Nat) : Prop :=
  ∀ m body, body.length < B → ∃ o r, Sub m body o r

theorem getObject_total (hs : SubTotal Sub B) (m : Nat) (bs : Bytes) (hB : bs.length ≤ B) : ∃ g, GetObject Sub m bs g := by
  obtain ⟨g, h⟩ := getBody_total bs
  cases g with
  | value body rest =>
    have := getBody_pos h
    obtain ⟨o, r, h'⟩ := hs m body (by omega)
    cases r with
    | none => exact ⟨_, .value h h'⟩
    | some t => exact ⟨_, .inside h h'⟩
  | trouble t => exact ⟨_, .noBody h⟩

theorem getMapValue_total (hs : SubTotal Sub B) (vt : MapVal) (bs : Bytes) (hB : bs.length ≤ B) : ∃ g, GetMapValue env Sub vt bs g := by
  cases vt with
  | scalar k =>
    obtain ⟨g, h⟩ := getScalar_total (env := env) k bs
    exact ⟨_, .scalar h⟩
  | enum =>
    obtain ⟨g, h⟩ := getVarint_total bs
    exact ⟨_, .enum h⟩
  | msg m =>
    obtain ⟨g, h⟩ := getObject_total hs m bs hB
    exact ⟨_, .msg h⟩

theorem getPart_total (hs : SubTotal Sub B) (kk : Kind) (vt : MapVal) (kv : Scalar × Val) (bs : Bytes) (hB : bs.length ≤ B) :
    ∃ g, GetPart env Sub kk vt kv bs g := by
  obtain ⟨g, h⟩ := getVarint_total bs
  cases g with
  | value t rest =>
    have := getVarint_pos h
    by_cases ht : t % 2 ^ 32 / 8 = 1
    · obtain ⟨g', h'⟩ := getScalar_total (env := env) kk rest
      exact ⟨_, .key h ht h'⟩
    · obtain ⟨g', h'⟩ := getMapValue_total (env := env) hs vt rest (by omega)
      exact ⟨_, .value h ht h'⟩
  | trouble t => exact ⟨_, .noTag h⟩

/-- Lists and maps hold lists and maps. -/
def Shaped : FieldTy → Val → Prop
  | .list _, v => ∃ l, v = .scList l
  | .enumList, v => ∃ l, v = .enumList l
  | .msgList _, v => ∃ l, v = .msgList l
  | .map _ _, v => ∃ l, v = .map l
  | _, _ => True

theorem shaped_default (ty : FieldTy) : Shaped ty (defaultVal ty) := by
  cases ty <;> simp [Shaped, defaultVal]

theorem getValue_shaped {ty : FieldTy} {old new : Val} {bs rest : Bytes} (hold : Shaped ty old)
    (h : GetValue env Sub ty old bs (.value new rest)) : Shaped ty (store ty old new) := by
  generalize hg : (Got.value new rest) = g at h
  cases h with
  | scalar | enum | msg => trivial
  | append _ _ =>
    obtain ⟨a, rfl, rfl⟩ := Got.map_value hg.symm
    simp only [store, Shaped]
    split <;> exact ⟨_, rfl⟩
  | packed _ _ =>
    obtain ⟨a, rfl, rfl⟩ := Got.map_value hg.symm
    obtain ⟨l, rfl⟩ := hold
    simp only [store, Shaped]
    split <;> exact ⟨_, rfl⟩
  | bools => cases hg
  | enums | msgList =>
    obtain ⟨a, rfl, rfl⟩ := Got.map_value hg.symm
    exact ⟨_, rfl⟩
  | @map kk vt l _ g _ =>
    obtain ⟨a, rfl, rfl⟩ := Got.map_value hg.symm
    cases vt with
    | scalar k =>
      simp only [store, Shaped]
      split <;> exact ⟨_, rfl⟩
    | enum =>
      simp only [store, Shaped]
      split <;> exact ⟨_, rfl⟩
    | msg m => exact ⟨_, rfl⟩

theorem getValue_total (hs : SubTotal Sub B) {ty : FieldTy} {old : Val} (hold : Shaped ty old) (bs : Bytes) (hB : bs.length ≤ B) :
    ∃ g, GetValue env Sub ty old bs g := by
  cases ty with
  | scalar k =>
    obtain ⟨g, h⟩ := getScalar_total (env := env) k bs
    exact ⟨_, .scalar h⟩
  | enum =>
    obtain ⟨g, h⟩ := getVarint_total bs
    exact ⟨_, .enum h⟩
  | list k =>
    obtain ⟨l, rfl⟩ := hold
    by_cases hk : k = .string ∨ k = .bytes
    · obtain ⟨g, h⟩ := getScalar_total (env := env) k bs
      exact ⟨_, .append hk h⟩
    · by_cases hb : k = .bool
      · subst hb
        exact ⟨_, .bools⟩
      · obtain ⟨g, h⟩ := getMany_total (L := bs.length) (Step := GetElement env k) (fun s bs _ => getElement_total k s bs)
          (fun _ _ _ _ => getElement_pos) [] bs (Nat.le_refl _)
        refine ⟨_, .packed ?_ h⟩
        cases k <;> simp_all [packable]
  | enumList =>
    obtain ⟨l, rfl⟩ := hold
    obtain ⟨g, h⟩ := getMany_total (L := bs.length) (Step := GetNumber) (fun s bs _ => getNumber_total s bs)
          (fun _ _ _ _ => getNumber_pos) l bs (Nat.le_refl _)
    exact ⟨_, .enums h⟩
  | msg m =>
    obtain ⟨g, h⟩ := getObject_total hs m bs hB
    exact ⟨_, .msg h⟩
  | msgList m =>
    obtain ⟨l, rfl⟩ := hold
    obtain ⟨g, h⟩ := getObject_total hs m bs hB
    exact ⟨_, .msgList h⟩
  | map kk vt =>
    obtain ⟨l, rfl⟩ := hold
    obtain ⟨g, h⟩ := getMany_total (Step := GetPart env Sub kk vt) (fun s bs h => getPart_total hs kk vt s bs h)
          (fun _ _ _ _ => getPart_pos) (emptyEntry kk vt) bs hB
    exact ⟨_, .map h⟩

/-- An object with as many values as the message type has fields, lists and maps where it should. -/
def ObjShaped (env : Env) (m : Nat) (o : Obj) : Prop :=
  o.length = (env.sch m).length ∧ ∀ (i : Nat) (f : Field) (v : Val), (env.sch m)[i]? = some f → o[i]? = some v → Shaped f.ty v

theorem getRecord_total (hs : SubTotal Sub B) {m : Nat} {o : Obj} (ho : ObjShaped env m o) (bs : Bytes) (hB : bs.length ≤ B) :
    ∃ g, GetRecord env Sub m o bs g := by
  obtain ⟨g, h⟩ := getVarint_total bs
  cases g with
  | value t rest =>
    have hp := getVarint_pos h
    by_cases hbad : t % 2 ^ 32 / 8 = 0 ∨ ¬ KnownWireType (t % 8)
    · exact ⟨_, .badTag h hbad⟩
    · have h0 : t % 2 ^ 32 / 8 ≠ 0 := fun h => hbad (.inl h)
      have hwt : KnownWireType (t % 8) := Classical.byContradiction fun h => hbad (.inr h)
      by_cases hex : ∃ (i : Nat) (f : Field), (env.sch m)[i]? = some f ∧ f.num = t % 2 ^ 32 / 8
      · obtain ⟨i, f, hf, hnum⟩ := hex
        have hi : i < o.length := by
          rw [ho.1]
          exact (List.getElem?_eq_some_iff.1 hf).1
        have hold := List.getElem?_eq_getElem hi
        obtain ⟨g, h'⟩ := getValue_total (env := env) hs (ho.2 i f _ hf hold) rest (by omega)
        exact ⟨_, .known h hwt hf hnum hold h'⟩
      · obtain ⟨g, h'⟩ := getSkipped_total hwt rest
        refine ⟨_, .unknown h hwt h0 ?_ h'⟩
        intro f hf hnum
        obtain ⟨i, hi⟩ := List.getElem?_of_mem hf
        exact hex ⟨i, f, hi, hnum⟩
  | trouble t => exact ⟨_, .noTag h⟩

theorem getRecord_shaped {m : Nat} {o o' : Obj} (ho : ObjShaped env m o) {bs rest : Bytes}
    (h : GetRecord env Sub m o bs (.value o' rest)) : ObjShaped env m o' := by
  generalize hg : (Got.value o' rest) = g at h
  cases h with
  | @known rest t i f old g _ _ hf _ hold h =>
    obtain ⟨v, rfl, rfl⟩ := Got.map_value hg.symm
    have h1 := getValue_shaped (ho.2 i f old hf hold) h
    refine ⟨by rw [List.length_set]; exact ho.1, fun j f' v' hf' hv' => ?_⟩
    by_cases hij : i = j
    · subst hij
      rw [hf] at hf'
      cases hf'
      rw [List.getElem?_set_self (List.getElem?_eq_some_iff.1 hold).1] at hv'
      cases hv'
      exact h1
    · rw [List.getElem?_set_ne hij] at hv'
      exact ho.2 j f' v' hf' hv'
  | unknown =>
    obtain ⟨v, rfl, rfl⟩ := Got.map_value hg.symm
    exact ho
  | badTag | noTag => cases hg

theorem getRecords_total {m : Nat} (hs : SubTotal Sub B) (o : Obj) (ho : ObjShaped env m o) (bs : Bytes)
    (hB : bs.length ≤ B) : ∃ o' r, GetRecords env Sub m o bs o' r := by
  induction hl : bs.length using Nat.strongRecOn generalizing o bs with
  | ind l ih =>
    subst hl
    by_cases hne : bs = []
    · subst hne
      exact ⟨_, _, .done⟩
    · obtain ⟨g, h⟩ := getRecord_total hs ho bs hB
      cases g with
      | value o1 rest =>
        have := getRecord_pos h
        obtain ⟨o', r, h'⟩ := ih rest.length this o1 (getRecord_shaped ho h) rest (by omega) rfl
        exact ⟨_, _, .record hne h h'⟩
      | trouble t => exact ⟨_, _, .trouble hne h⟩

end

theorem objShaped_default (m : Nat) : ObjShaped env m (defaultObj env m) := by
  refine ⟨by simp [defaultObj], fun i f v hf hv => ?_⟩
  simp only [defaultObj, List.getElem?_map, hf, Option.map_some, Option.some.injEq] at hv
  subst hv
  exact shaped_default f.ty

theorem received_total (d m : Nat) (bs : Bytes) (hd : bs.length < d) : ∃ o r, Received env d m bs o r := by
  induction d generalizing m bs with
  | zero => omega
  | succ d ih => exact getRecords_total (B := d) (fun m body h => ih m body h) _ (objShaped_default m) bs (by omega)

end QtPb
