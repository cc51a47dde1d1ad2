import Verif.ReceiveLocal
/-
What `SpecReceive` says about a part that is read does not depend on what follows, and whether a record is in trouble does not depend
on the object.
-/
namespace QtPb
open Spec

variable {env : Env}

/-! ### What follows does not matter -/

/-- What is read from `c ++ rest` leaving `rest` is read from `c ++ post` leaving `post`. -/
def LocalGet {α : Type} (P : Bytes → Got α → Prop) : Prop :=
  ∀ ⦃bs a rest⦄, P bs (.value a rest) → ∃ c, bs = c ++ rest ∧ ∀ post, P (c ++ post) (.value a post)

theorem getVarint_local : LocalGet GetVarint := by
  intro bs a rest h
  cases h with
  | @value c _ _ hv => exact ⟨c, rfl, fun post => .value hv⟩

theorem getFixed_local (w : Nat) : LocalGet (GetFixed w) := by
  intro bs a rest h
  cases h with
  | value hc => exact ⟨_, rfl, fun post => .value hc⟩

theorem getBody_local : LocalGet GetBody := by
  intro bs a rest h
  cases h with
  | read hv hn h =>
    obtain ⟨c, rfl, h1⟩ := getVarint_local hv
    obtain ⟨c', rfl, h2⟩ := getFixed_local _ h
    exact ⟨c ++ c', by simp, fun post => by rw [List.append_assoc]; exact .read (h1 _) hn (h2 post)⟩

theorem LocalGet.of_map {α β : Type} {P : Bytes → Got α → Prop} (hP : LocalGet P) {f : α → β} {g : Got α} {bs rest : Bytes} {b : β}
    (h : P bs g) (he : g.map f = .value b rest) :
    ∃ c, bs = c ++ rest ∧ ∀ post, ∃ g', P (c ++ post) g' ∧ g'.map f = .value b post := by
  obtain ⟨a, rfl, rfl⟩ := Got.map_value he
  obtain ⟨c, h1, h2⟩ := hP h
  exact ⟨c, h1, fun post => ⟨_, h2 post, rfl⟩⟩

theorem getScalar_local (k : Kind) : LocalGet (GetScalar env k) := by
  intro bs a rest h
  generalize hg : (Got.value a rest) = g at h
  cases h with
  | varint hw h =>
    obtain ⟨c, h1, h2⟩ := getVarint_local.of_map h hg.symm
    exact ⟨c, h1, fun post => by obtain ⟨g', h3, h4⟩ := h2 post; rw [← h4]; exact .varint hw h3⟩
  | fixed32 hw h =>
    obtain ⟨c, h1, h2⟩ := (getFixed_local 4).of_map h hg.symm
    exact ⟨c, h1, fun post => by obtain ⟨g', h3, h4⟩ := h2 post; rw [← h4]; exact .fixed32 hw h3⟩
  | fixed64 hw h =>
    obtain ⟨c, h1, h2⟩ := (getFixed_local 8).of_map h hg.symm
    exact ⟨c, h1, fun post => by obtain ⟨g', h3, h4⟩ := h2 post; rw [← h4]; exact .fixed64 hw h3⟩
  | body hw h =>
    obtain ⟨c, h1, h2⟩ := getBody_local.of_map h hg.symm
    exact ⟨c, h1, fun post => by obtain ⟨g', h3, h4⟩ := h2 post; rw [← h4]; exact .body hw h3⟩

section
variable {σ : Type} {Step : σ → Bytes → Got σ → Prop}

theorem getSteps_local (hs : ∀ s, LocalGet (Step s)) {stop done : Nat} {s s' : σ} {bs rest : Bytes}
    (h : GetSteps Step stop done s bs (.value s' rest)) :
    ∃ c, bs = c ++ rest ∧ stop = done + c.length ∧ ∀ post, GetSteps Step stop done s (c ++ post) (.value s' post) := by
  generalize hg : (Got.value s' rest) = g at h
  induction h with
  | stop =>
    cases hg
    exact ⟨[], rfl, rfl, fun post => .stop⟩
  | step hn h1 _ ih =>
    obtain ⟨c, rfl, h2⟩ := hs _ h1
    obtain ⟨c', rfl, h3, h4⟩ := ih hg
    refine ⟨c ++ c', by simp, ?_, fun post => ?_⟩
    · simp only [List.length_append] at h3 ⊢
      omega
    · rw [List.append_assoc]
      refine .step hn (h2 (c' ++ post)) ?_
      have h5 := h4 post
      simp only [List.length_append] at h5 ⊢
      have e1 : c.length + (c'.length + rest.length) - (c'.length + rest.length) = c.length + (c'.length + post.length) - (c'.length + post.length) := by
        omega
      rwa [e1] at h5
  | trouble => cases hg

theorem getMany_local (hs : ∀ s, LocalGet (Step s)) (s : σ) : LocalGet (GetMany Step s) := by
  intro bs a rest h
  cases h with
  | read hv hn hle h =>
    obtain ⟨c, rfl, h1⟩ := getVarint_local hv
    obtain ⟨c', rfl, h2, h3⟩ := getSteps_local hs h
    refine ⟨c ++ c', by simp, fun post => ?_⟩
    rw [List.append_assoc]
    exact .read (h1 _) hn (by simp; omega) (h3 post)

end

theorem getElement_local (k : Kind) (l : List Scalar) : LocalGet (GetElement env k l) := by
  intro bs a rest h
  generalize hg : (Got.value a rest) = g at h
  cases h with
  | next h =>
    obtain ⟨c, h1, h2⟩ := (getScalar_local k).of_map h hg.symm
    exact ⟨c, h1, fun post => by obtain ⟨g', h3, h4⟩ := h2 post; rw [← h4]; exact .next h3⟩

theorem getNumber_local (l : List (BitVec 32)) : LocalGet (GetNumber l) := by
  intro bs a rest h
  generalize hg : (Got.value a rest) = g at h
  cases h with
  | next h =>
    obtain ⟨c, h1, h2⟩ := getVarint_local.of_map h hg.symm
    exact ⟨c, h1, fun post => by obtain ⟨g', h3, h4⟩ := h2 post; rw [← h4]; exact .next h3⟩

theorem getSkipped_local (wt : Nat) : LocalGet (GetSkipped wt) := by
  intro bs a rest h
  cases h with
  | varint hv => exact ⟨_, rfl, fun post => .varint hv⟩
  | fixed hw hc => exact ⟨_, rfl, fun post => .fixed hw hc⟩
  | @body _ c rest n hv hc hn =>
    obtain ⟨c', rfl, h1⟩ := getVarint_local hv
    exact ⟨c' ++ c, by simp, fun post => by rw [List.append_assoc]; exact .body (h1 _) hc hn⟩

section
variable {Sub : Nat → Bytes → Obj → Option Trouble → Prop}

theorem getObject_local (m : Nat) : LocalGet (GetObject Sub m) := by
  intro bs a rest h
  cases h with
  | value hb h =>
    obtain ⟨c, rfl, h1⟩ := getBody_local hb
    exact ⟨c, rfl, fun post => .value (h1 post) h⟩

theorem getMapValue_local (vt : MapVal) : LocalGet (GetMapValue env Sub vt) := by
  intro bs a rest h
  generalize hg : (Got.value a rest) = g at h
  cases h with
  | scalar h =>
    obtain ⟨c, h1, h2⟩ := (getScalar_local _).of_map h hg.symm
    exact ⟨c, h1, fun post => by obtain ⟨g', h3, h4⟩ := h2 post; rw [← h4]; exact .scalar h3⟩
  | enum h =>
    obtain ⟨c, h1, h2⟩ := getVarint_local.of_map h hg.symm
    exact ⟨c, h1, fun post => by obtain ⟨g', h3, h4⟩ := h2 post; rw [← h4]; exact .enum h3⟩
  | msg h =>
    obtain ⟨c, h1, h2⟩ := (getObject_local _).of_map h hg.symm
    exact ⟨c, h1, fun post => by obtain ⟨g', h3, h4⟩ := h2 post; rw [← h4]; exact .msg h3⟩

theorem getPart_local (kk : Kind) (vt : MapVal) (kv : Scalar × Val) : LocalGet (GetPart env Sub kk vt kv) := by
  intro bs a rest h
  generalize hg : (Got.value a rest) = g at h
  cases h with
  | key hv ht h =>
    obtain ⟨c, rfl, h0⟩ := getVarint_local hv
    obtain ⟨c', rfl, h2⟩ := (getScalar_local _).of_map h hg.symm
    exact ⟨c ++ c', by simp, fun post => by
      obtain ⟨g', h3, h4⟩ := h2 post; rw [← h4, List.append_assoc]; exact .key (h0 _) ht h3⟩
  | value hv ht h =>
    obtain ⟨c, rfl, h0⟩ := getVarint_local hv
    obtain ⟨c', rfl, h2⟩ := (getMapValue_local _).of_map h hg.symm
    exact ⟨c ++ c', by simp, fun post => by
      obtain ⟨g', h3, h4⟩ := h2 post; rw [← h4, List.append_assoc]; exact .value (h0 _) ht h3⟩
  | noTag => cases hg

theorem getValue_local (ty : FieldTy) (old : Val) : LocalGet (GetValue env Sub ty old) := by
  intro bs a rest h
  generalize hg : (Got.value a rest) = g at h
  cases h with
  | scalar h =>
    obtain ⟨c, h1, h2⟩ := (getScalar_local _).of_map h hg.symm
    exact ⟨c, h1, fun post => by obtain ⟨g', h3, h4⟩ := h2 post; rw [← h4]; exact .scalar h3⟩
  | enum h =>
    obtain ⟨c, h1, h2⟩ := getVarint_local.of_map h hg.symm
    exact ⟨c, h1, fun post => by obtain ⟨g', h3, h4⟩ := h2 post; rw [← h4]; exact .enum h3⟩
  | append hk h =>
    obtain ⟨c, h1, h2⟩ := (getScalar_local _).of_map h hg.symm
    exact ⟨c, h1, fun post => by obtain ⟨g', h3, h4⟩ := h2 post; rw [← h4]; exact .append hk h3⟩
  | bools => cases hg
  | packed hk h =>
    obtain ⟨c, h1, h2⟩ := (getMany_local (getElement_local _) _).of_map h hg.symm
    exact ⟨c, h1, fun post => by obtain ⟨g', h3, h4⟩ := h2 post; rw [← h4]; exact .packed hk h3⟩
  | enums h =>
    obtain ⟨c, h1, h2⟩ := (getMany_local getNumber_local _).of_map h hg.symm
    exact ⟨c, h1, fun post => by obtain ⟨g', h3, h4⟩ := h2 post; rw [← h4]; exact .enums h3⟩
  | msg h =>
    obtain ⟨c, h1, h2⟩ := (getObject_local _).of_map h hg.symm
    exact ⟨c, h1, fun post => by obtain ⟨g', h3, h4⟩ := h2 post; rw [← h4]; exact .msg h3⟩
  | msgList h =>
    obtain ⟨c, h1, h2⟩ := (getObject_local _).of_map h hg.symm
    exact ⟨c, h1, fun post => by obtain ⟨g', h3, h4⟩ := h2 post; rw [← h4]; exact .msgList h3⟩
  | map h =>
    obtain ⟨c, h1, h2⟩ := (getMany_local (getPart_local _ _) _).of_map h hg.symm
    exact ⟨c, h1, fun post => by obtain ⟨g', h3, h4⟩ := h2 post; rw [← h4]; exact .map h3⟩

theorem getRecord_local (m : Nat) (o : Obj) : LocalGet (GetRecord env Sub m o) := by
  intro bs a rest h
  generalize hg : (Got.value a rest) = g at h
  cases h with
  | known hv hw hf hn ho h =>
    obtain ⟨c, rfl, h0⟩ := getVarint_local hv
    obtain ⟨c', rfl, h2⟩ := (getValue_local _ _).of_map h hg.symm
    exact ⟨c ++ c', by simp, fun post => by
      obtain ⟨g', h3, h4⟩ := h2 post; rw [← h4, List.append_assoc]; exact .known (h0 _) hw hf hn ho h3⟩
  | unknown hv hw hz hn h =>
    obtain ⟨c, rfl, h0⟩ := getVarint_local hv
    obtain ⟨c', rfl, h2⟩ := (getSkipped_local _).of_map h hg.symm
    exact ⟨c ++ c', by simp, fun post => by
      obtain ⟨g', h3, h4⟩ := h2 post; rw [← h4, List.append_assoc]; exact .unknown (h0 _) hw hz hn h3⟩
  | badTag | noTag => cases hg

/-- What was read before the trouble is read from a prefix of the input. -/
theorem getRecords_prefix {m : Nat} {o o' : Obj} {bs : Bytes} {t : Trouble} (h : GetRecords env Sub m o bs o' (some t)) :
    ∃ p rest, bs = p ++ rest ∧ rest ≠ [] ∧ GetRecords env Sub m o p o' none ∧ GetRecord env Sub m o' rest (.trouble t) := by
  generalize hr : some t = r at h
  induction h with
  | done => cases hr
  | record hne h _ ih =>
    obtain ⟨p, rest, rfl, h1, h2, h3⟩ := ih hr
    obtain ⟨c, rfl, h4⟩ := getRecord_local m _ h
    refine ⟨c ++ p, rest, by simp, h1, .record ?_ (h4 p) h2, h3⟩
    intro he
    have := getRecord_pos (h4 p)
    rw [he] at this
    simp at this
  | trouble hne h =>
    cases hr
    exact ⟨[], _, rfl, hne, .done, h⟩

/-! ### The object does not matter for trouble -/

theorem Got.map_trouble {α β : Type} {g : Got α} {f : α → β} {t : Trouble} (h : g.map f = .trouble t) : g = .trouble t := by
  cases g with
  | value a r => simp [Got.map] at h
  | trouble t' => simpa [Got.map] using h

theorem getSteps_trouble {stop done : Nat} {s s' : List (BitVec 32)} {bs : Bytes} {t : Trouble}
    (h : GetSteps GetNumber stop done s bs (.trouble t)) : GetSteps GetNumber stop done s' bs (.trouble t) := by
  generalize hg : (Got.trouble t : Got (List (BitVec 32))) = g at h
  induction h generalizing s' with
  | stop => cases hg
  | @step _ _ s2 _ rest _ hn h1 _ ih =>
    generalize hg1 : (Got.value s2 rest) = g1 at h1
    cases h1 with
    | next h1 =>
      obtain ⟨a, rfl, rfl⟩ := Got.map_value hg1.symm
      exact .step hn (.next (g := .value a rest) h1) (ih hg)
  | @trouble _ _ _ t' hn h1 =>
    generalize hg1 : (Got.trouble t' : Got (List (BitVec 32))) = g1 at h1
    cases h1 with
    | next h1 =>
      obtain rfl := Got.map_trouble hg1.symm
      exact .trouble hn (.next (g := .trouble t') h1)

theorem getMany_trouble {s s' : List (BitVec 32)} {bs : Bytes} {t : Trouble}
    (h : GetMany GetNumber s bs (.trouble t)) : GetMany GetNumber s' bs (.trouble t) := by
  cases h with
  | read hv hn hle h => exact .read hv hn hle (getSteps_trouble h)
  | tooLong hv hn hle => exact .tooLong hv hn hle
  | negative hv hn => exact .negative hv hn
  | noLength hv => exact .noLength hv

theorem getValue_trouble {ty : FieldTy} {old old' : Val} {bs : Bytes} {t : Trouble} (hold : Shaped ty old')
    (h : GetValue env Sub ty old bs (.trouble t)) : GetValue env Sub ty old' bs (.trouble t) := by
  generalize hg : (Got.trouble t : Got Val) = g at h
  cases h with
  | scalar h => obtain rfl := Got.map_trouble hg.symm; exact .scalar (g := .trouble t) h
  | enum h => obtain rfl := Got.map_trouble hg.symm; exact .enum (g := .trouble t) h
  | append hk h =>
    obtain rfl := Got.map_trouble hg.symm
    obtain ⟨l, rfl⟩ := hold
    exact .append (g := .trouble t) hk h
  | bools => cases hg; exact .bools
  | packed hk h => obtain rfl := Got.map_trouble hg.symm; exact .packed (g := .trouble t) hk h
  | enums h =>
    obtain rfl := Got.map_trouble hg.symm
    obtain ⟨l, rfl⟩ := hold
    exact .enums (g := .trouble t) (getMany_trouble h)
  | msg h => obtain rfl := Got.map_trouble hg.symm; exact .msg (g := .trouble t) h
  | msgList h =>
    obtain rfl := Got.map_trouble hg.symm
    obtain ⟨l, rfl⟩ := hold
    exact .msgList (g := .trouble t) h
  | map h =>
    obtain rfl := Got.map_trouble hg.symm
    obtain ⟨l, rfl⟩ := hold
    exact .map (g := .trouble t) h

theorem getRecord_trouble {m : Nat} {o o' : Obj} {bs : Bytes} {t : Trouble} (ho : ObjShaped env m o')
    (h : GetRecord env Sub m o bs (.trouble t)) : GetRecord env Sub m o' bs (.trouble t) := by
  generalize hg : (Got.trouble t : Got Obj) = g at h
  cases h with
  | @known _ _ i f _ _ hv hw hf hn _ h =>
    obtain rfl := Got.map_trouble hg.symm
    have hi : i < o'.length := by
      rw [ho.1]
      exact (List.getElem?_eq_some_iff.1 hf).1
    have hold := List.getElem?_eq_getElem hi
    exact .known (g := .trouble t) hv hw hf hn hold (getValue_trouble (ho.2 i f _ hf hold) h)
  | unknown hv hw hz hn h => obtain rfl := Got.map_trouble hg.symm; exact .unknown (g := .trouble t) hv hw hz hn h
  | badTag hv hb => cases hg; exact .badTag hv hb
  | noTag hv => cases hg; exact .noTag hv

end

/-- Input in trouble: an accepted part, and a rest that is in the same trouble from the beginning. -/
theorem received_prefix {d m : Nat} {bs : Bytes} {o : Obj} {t : Trouble} (h : Received env d m bs o (some t)) :
    ∃ p rest, bs = p ++ rest ∧ rest ≠ [] ∧ Received env d m p o none ∧ Received env d m rest (defaultObj env m) (some t) := by
  cases d with
  | zero => exact h.elim
  | succ d =>
    obtain ⟨p, rest, h1, h2, h3, h4⟩ := getRecords_prefix h
    exact ⟨p, rest, h1, h2, h3, .trouble h2 (getRecord_trouble (objShaped_default m) h4)⟩

/-! ### The format is included -/

theorem reads_scalar {k : Kind} {c : Bytes} {s : Scalar} (h : Reads env k c s) (h31 : c.length < 2 ^ 31) (post : Bytes) :
    GetScalar env k (c ++ post) (.value s post) := by
  cases h with
  | fixed32 hk b0 b1 b2 b3 =>
    have h := GetScalar.fixed32 (env := env) (k := k) (bs := [b0, b1, b2, b3] ++ post) (g := .value [b0, b1, b2, b3] post)
      (by rcases hk with rfl | rfl | rfl <;> rfl) (.value rfl)
    have e : littleEndian [b0, b1, b2, b3] = b0.toNat + 2 ^ 8 * b1.toNat + 2 ^ 16 * b2.toNat + 2 ^ 24 * b3.toNat := by
      simp only [littleEndian]; omega
    rw [← e]
    exact h
  | fixed64 hk b0 b1 b2 b3 b4 b5 b6 b7 =>
    have h := GetScalar.fixed64 (env := env) (k := k) (bs := [b0, b1, b2, b3, b4, b5, b6, b7] ++ post)
      (g := .value [b0, b1, b2, b3, b4, b5, b6, b7] post) (by rcases hk with rfl | rfl | rfl <;> rfl) (.value rfl)
    have e : littleEndian [b0, b1, b2, b3, b4, b5, b6, b7] = b0.toNat + 2 ^ 8 * b1.toNat + 2 ^ 16 * b2.toNat + 2 ^ 24 * b3.toNat
        + 2 ^ 32 * b4.toNat + 2 ^ 40 * b5.toNat + 2 ^ 48 * b6.toNat + 2 ^ 56 * b7.toNat := by
      simp only [littleEndian]; omega
    rw [← e]
    exact h
  | int32 hv | uint32 hv | int64 hv | uint64 hv => exact GetScalar.varint (g := .value _ post) rfl (.value hv)
  | sint32 hv hn =>
    have := GetScalar.varint (env := env) (k := .sint32) (g := .value _ post) rfl (.value hv)
    simp only [Got.map, ofVarint] at this
    rwa [Nat.mod_eq_of_lt hn] at this
  | sint64 hv hn =>
    have := GetScalar.varint (env := env) (k := .sint64) (g := .value _ post) rfl (.value hv)
    simp only [Got.map, ofVarint] at this
    rwa [Nat.mod_eq_of_lt hn] at this
  | bool hv hn =>
    have := GetScalar.varint (env := env) (k := .bool) (g := .value _ post) rfl (.value hv)
    simp only [Got.map, ofVarint] at this
    rwa [Nat.mod_eq_of_lt hn] at this
  | @string l body hv =>
    simp only [List.length_append] at h31
    have h2 : body.length % 2 ^ 32 = body.length := Nat.mod_eq_of_lt (by omega)
    have := GetScalar.body (env := env) (k := .string) (bs := l ++ (body ++ post)) (g := .value body post) rfl
      (.read (.value hv) (by omega) (.value h2.symm))
    rw [List.append_assoc]
    exact this
  | @bytes l body hv =>
    simp only [List.length_append] at h31
    have h2 : body.length % 2 ^ 32 = body.length := Nat.mod_eq_of_lt (by omega)
    have := GetScalar.body (env := env) (k := .bytes) (bs := l ++ (body ++ post)) (g := .value body post) rfl
      (.read (.value hv) (by omega) (.value h2.symm))
    rw [List.append_assoc]
    exact this

end QtPb
