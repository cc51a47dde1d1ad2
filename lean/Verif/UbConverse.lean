import Verif.UbLemmas
/-
Where undefined behaviour does come from when arbitrary bytes are decoded: the converse of `UbLemmas`. First, larger budgets do not
change results; then, every input that is cut off leads to an undefined operation.
-/
namespace QtPb
open Spec

variable {env : Env}

/-! ### Larger budgets -/

theorem bind_le {α β : Type} {x x' : Res α} {f f' : α → Res β} (h : (x >>= f) ≠ .fuel) (hx : x ≠ .fuel → x' = x)
    (hf : ∀ a, f a ≠ .fuel → f' a = f a) : (x' >>= f') = (x >>= f) := by
  have h1 : x ≠ .fuel := by rintro rfl; exact h rfl
  rw [hx h1]
  cases x with
  | ok a => exact hf a h
  | _ => rfl

/-- `rec'` gives every result that `rec` gives. -/
def RecLe (rec rec' : Nat → Bytes → MsgResult) : Prop := ∀ m b, (rec m b).1 ≠ .fuel → rec' m b = rec m b

section
variable {rec rec' : Nat → Bytes → MsgResult}

theorem ofSub_le (hle : RecLe rec rec') {m : Nat} {b : Bytes} (h : ofSub (rec m b) ≠ .fuel) : ofSub (rec' m b) = ofSub (rec m b) := by
  rw [hle]
  intro h1
  apply h
  generalize rec m b = x at h1
  obtain ⟨a, o⟩ := x
  subst h1
  rfl

theorem deserializeObject_le (hle : RecLe rec rec') {m : Nat} {it : It} (h : deserializeObject rec m it ≠ .fuel) :
    deserializeObject rec' m it = deserializeObject rec m it := by
  rw [deserializeObject_eq] at h
  rw [deserializeObject_eq, deserializeObject_eq]
  exact bind_le h (fun _ => rfl) fun a ha => bind_le ha (fun h => ofSub_le hle h) fun _ _ => rfl

theorem deserializeMapValue_le (hle : RecLe rec rec') {vt : MapVal} {it : It} (h : deserializeMapValue env rec vt it ≠ .fuel) :
    deserializeMapValue env rec' vt it = deserializeMapValue env rec vt it := by
  cases vt with
  | scalar k => rfl
  | enum => rfl
  | msg m => exact bind_le h (fun h => deserializeObject_le hle h) fun _ _ => rfl

theorem mapStep_le (hle : RecLe rec rec') {kk : Kind} {vt : MapVal} {kv : Scalar × Val} {it : It}
    (h : mapStep env rec kk vt kv it ≠ .fuel) : mapStep env rec' kk vt kv it = mapStep env rec kk vt kv it := by
  refine bind_le h (fun _ => rfl) fun a ha => ?_
  split
  · rfl
  · rename_i hn
    rw [if_neg hn] at ha
    exact bind_le ha (fun h => deserializeMapValue_le hle h) fun _ _ => rfl

theorem stepLoop_le {σ : Type} {step step' : σ → It → Res (σ × It)} (hs : ∀ s it, step s it ≠ .fuel → step' s it = step s it)
    {last n n' : Nat} {s : σ} {it : It} (hn : n ≤ n') (h : stepLoop step last n s it ≠ .fuel) :
    stepLoop step' last n' s it = stepLoop step last n s it := by
  induction n generalizing n' s it with
  | zero => simp [stepLoop] at h
  | succ n ih =>
    obtain ⟨k, rfl⟩ : ∃ k, n' = k + 1 := ⟨n' - 1, by omega⟩
    simp only [stepLoop] at h ⊢
    split
    · rfl
    · rename_i hl
      rw [if_neg hl] at h
      exact bind_le h (hs s it) fun a ha => ih (by omega) ha

theorem deserializeMapPair_le (hle : RecLe rec rec') {kk : Kind} {vt : MapVal} {n n' : Nat} {it : It} (hn : n ≤ n')
    (h : deserializeMapPair env rec kk vt n it ≠ .fuel) :
    deserializeMapPair env rec' kk vt n' it = deserializeMapPair env rec kk vt n it := by
  have h1 := deserializeMapPair_eq (env := env) (rec := rec) kk vt n it
  have h2 := deserializeMapPair_eq (env := env) (rec := rec') kk vt n' it
  have h0 : lengthLoop (mapStep env rec kk vt) n (defaultScalar kk, defaultMapVal vt) it ≠ .fuel := by
    rw [← h1]
    exact bind_ne_fuel h fun _ _ => by simp
  have h3 : lengthLoop (mapStep env rec' kk vt) n' (defaultScalar kk, defaultMapVal vt) it =
      lengthLoop (mapStep env rec kk vt) n (defaultScalar kk, defaultMapVal vt) it :=
    bind_le h0 (fun _ => rfl) fun a ha => bind_le ha (fun _ => rfl) fun last hl =>
      stepLoop_le (fun s it h => mapStep_le hle h) hn hl
  rw [h3, ← h1] at h2
  simp only [Res.bind_eq] at h2
  cases h3 : deserializeMapPair env rec kk vt n it <;>
    cases h4 : deserializeMapPair env rec' kk vt n' it <;> rw [h3, h4] at h2 <;>
    simp [Res.bind] at h2 ⊢
  · rename_i a b
    obtain ⟨a1, a2, a3⟩ := a
    obtain ⟨b1, b2, b3⟩ := b
    simp_all
  · exact h2

theorem deserializeValue_le (hle : RecLe rec rec') {ty : FieldTy} {n n' : Nat} {cur : Val} {it : It} (hn : n ≤ n')
    (h : deserializeValue env rec ty n cur it ≠ .fuel) :
    deserializeValue env rec' ty n' cur it = deserializeValue env rec ty n cur it := by
  cases ty with
  | scalar k => rfl
  | list k => exact bind_le h (fun h => deserializeScalarList_mono hn h) fun _ _ => rfl
  | enum => rfl
  | enumList => exact bind_le h (fun h => bind_le h (fun h => deserializePacked_mono hn h) fun _ _ => rfl) fun _ _ => rfl
  | msg m => exact bind_le h (fun h => deserializeObject_le hle h) fun _ _ => rfl
  | msgList m => exact bind_le h (fun h => deserializeObject_le hle h) fun _ _ => rfl
  | map kk vt => exact bind_le h (fun h => deserializeMapPair_le hle hn h) fun _ _ => rfl

theorem deserializeProperty_le (hle : RecLe rec rec') {m n n' : Nat} {it : It} {obj : Obj} (hn : n ≤ n')
    (h : deserializeProperty env rec m n it obj ≠ .fuel) :
    deserializeProperty env rec' m n' it obj = deserializeProperty env rec m n it obj := by
  refine bind_le h (fun _ => rfl) fun a ha => ?_
  dsimp only at ha ⊢
  split
  · rfl
  · rename_i hv
    rw [if_neg hv] at ha
    cases hf : findField (env.sch m) a.1.num with
    | none => rfl
    | some i =>
      rw [hf] at ha
      dsimp only at ha ⊢
      cases h1 : (env.sch m)[i]? with
      | none => rfl
      | some f =>
        cases h2 : obj[i]? with
        | none => rfl
        | some cur =>
          rw [h1, h2] at ha
          exact bind_le ha (fun h => deserializeValue_le hle hn h) fun _ _ => rfl

theorem messageLoop_le (hle : RecLe rec rec') {m n n' : Nat} {it : It} {obj : Obj} (hn : n ≤ n')
    (h : (messageLoop env rec m n it obj).1 ≠ .fuel) : messageLoop env rec' m n' it obj = messageLoop env rec m n it obj := by
  induction n generalizing n' it obj with
  | zero => simp [messageLoop] at h
  | succ n ih =>
    obtain ⟨k, rfl⟩ : ∃ k, n' = k + 1 := ⟨n' - 1, by omega⟩
    simp only [messageLoop] at h ⊢
    split
    · rfl
    · rename_i hl
      rw [if_neg hl] at h
      have hp : deserializeProperty env rec m n it obj ≠ .fuel := by
        intro h0
        rw [h0] at h
        exact h rfl
      rw [deserializeProperty_le hle (Nat.le_of_succ_le_succ hn) hp]
      cases h1 : deserializeProperty env rec m n it obj with
      | ok x =>
        rw [h1] at h
        exact ih (by omega) h
      | _ => rfl

end

theorem deserializeMessage_le {n n' m : Nat} {data : Bytes} (hn : n ≤ n') (h : (deserializeMessage env n m data).1 ≠ .fuel) :
    deserializeMessage env n' m data = deserializeMessage env n m data := by
  induction n generalizing n' m data with
  | zero => simp [deserializeMessage] at h
  | succ n ih =>
    obtain ⟨k, rfl⟩ : ∃ k, n' = k + 1 := ⟨n' - 1, by omega⟩
    exact messageLoop_le (fun m b h => ih (by omega) h) hn h

/-- What is accepted with some budget is accepted with every budget above the number of bytes. -/
theorem accepted_budget {n m : Nat} {data : Bytes} (hr : NoNegativeLength env data) (hlen : data.length < 2 ^ 31)
    (hn : data.length < n) (h : accepted env m data) : ∃ o, deserializeMessage env n m data = (.ok (), o) := by
  obtain ⟨k, o, h⟩ := h
  refine ⟨o, ?_⟩
  have h1 := deserializeMessage_le (n := n) (n' := max n k) (by omega) (deserializeMessage_ends n m data hr hlen hn)
  have h2 := deserializeMessage_le (n := k) (n' := max n k) (m := m) (data := data) (by omega) (by rw [h]; simp)
  rw [← h1, h2, h]

/-! ### Cut off values -/

theorem varintLoop_long {w : Nat} {bs : Bytes} {value k j : Nat} (hk : 64 ≤ k + 7 * j) (hj : j ≤ bs.length)
    (h : ∀ b ∈ bs.take j, 128 ≤ b.toNat) : varintLoop w bs value k = .ub := by
  induction j generalizing bs value k with
  | zero =>
    cases bs <;> simp only [varintLoop] <;> rw [if_pos (by omega)]
  | succ j ih =>
    cases bs with
    | nil => simp at hj
    | cons b tl =>
      simp only [varintLoop]
      split
      · rfl
      · have hb : 128 ≤ b.toNat := h b (by simp)
        rw [if_neg (by rw [and80 _ (u8_lt b)]; split <;> omega),
          ih (by omega) (by simpa using hj) (fun x hx => h x (by simp [hx]))]
        rfl

theorem deserializeVarint_long {w : Nat} {it : It} {r : Bytes} (hat : At it r) (h : LongVarint r) :
    deserializeVarint w it = .ub := by
  simp only [deserializeVarint, hat.2.2]
  rw [varintLoop_long (j := 10) (by omega) h.1 h.2]
  rfl

theorem deserializeFixed_short {n : Nat} {it : It} {r : Bytes} (hat : At it r) (h : r.length + 1 < n) :
    deserializeFixed n it = .ub := by
  unfold deserializeFixed
  rw [if_pos (by rw [It.left_eq, hat.2.2]; exact h)]

theorem deserializeLengthDelimited_short {it : It} {l rest : Bytes} {n : Nat} (hat : At it (l ++ rest)) (hr : LenOk (l ++ rest))
    (hv : Varint l n) (h : rest.length + 1 < n % 2 ^ 32) : deserializeLengthDelimited it = .ub := by
  have hlen := lenOk_of hv hr
  simp only [deserializeLengthDelimited]
  rw [deserializeVarint_of (by omega) hv hat.2.2]
  simp only [Res.bind_eq, Res.bind]
  rw [if_neg (toInt32_nonneg hlen).1, toInt32_of_lt hlen, if_pos]
  rw [It.left_eq, hat.adv.2.2]
  omega

theorem deserializeLengthDelimited_long {it : It} {r : Bytes} (hat : At it r) (h : LongVarint r) :
    deserializeLengthDelimited it = .ub := by
  simp only [deserializeLengthDelimited]
  rw [deserializeVarint_long hat h]
  rfl

theorem deserializeLengthDelimited_whole {it : It} {l body rest : Bytes} {n : Nat} (hat : At it (l ++ (body ++ rest)))
    (hv : Varint l n) (h : body.length = n % 2 ^ 32) :
    deserializeLengthDelimited it = .ok (body, ⟨it.data, it.pos + (l ++ body).length⟩) := by
  have h1 := hat.len
  have h2 := hat.1
  simp only [List.length_append] at h1
  have hlen : n % 2 ^ 32 < 2 ^ 31 := by omega
  simp only [deserializeLengthDelimited]
  rw [deserializeVarint_of (by omega) hv hat.2.2]
  simp only [Res.bind_eq, Res.bind]
  rw [if_neg (toInt32_nonneg hlen).1, toInt32_of_lt hlen, if_neg, add_nat hat.adv, if_pos (by simp; omega)]
  · simp only [hat.adv.2.2, ← h, List.take_left', List.length_append, Nat.add_assoc]
  · rw [It.left_eq, hat.adv.2.2]
    simp only [List.length_append]
    omega

theorem deserializeBasic_cut {k : Kind} {it : It} {r : Bytes} (hat : At it r) (hr : BasicOk k r) (h : CutScalar k r) :
    deserializeBasic env k it = .ub := by
  cases h with
  | varint hw h =>
    cases k <;> first
      | (exfalso; revert hw; decide)
      | (simp only [deserializeBasic, deserializeVarint_long hat h, deserializeLengthDelimited_long hat h]; rfl)
  | fixed32 hw h =>
    cases k <;> first
      | (exfalso; revert hw; decide)
      | (simp only [deserializeBasic, deserializeFixed_short hat h]; rfl)
  | fixed64 hw h =>
    cases k <;> first
      | (exfalso; revert hw; decide)
      | (simp only [deserializeBasic, deserializeFixed_short hat h]; rfl)
  | body hw hv h =>
    have : hasLength (.scalar k) := by
      cases k <;> first
        | (exfalso; revert hw; decide)
        | exact .inl rfl
        | exact .inr rfl
    have h1 := deserializeLengthDelimited_short hat (hr this) hv h
    cases k <;> first
      | (exfalso; revert hw; decide)
      | (simp only [deserializeBasic, h1]; rfl)

theorem deserializeBasic_ok {k : Kind} {it : It} {c post : Bytes} (hat : At it (c ++ post)) (h : WholeScalar k c) :
    ∃ v, deserializeBasic env k it = .ok (v, ⟨it.data, it.pos + c.length⟩) := by
  cases h with
  | varint hw hv =>
    have h1 := deserializeVarint_of (w := 32) (by omega) hv hat.2.2
    have h2 := deserializeVarint_of (w := 64) (by omega) hv hat.2.2
    cases k <;> first
      | (exfalso; revert hw; decide)
      | (simp only [deserializeBasic, h1, h2, Res.bind_eq, Res.bind]; exact ⟨_, rfl⟩)
  | fixed32 hw hl =>
    have h1 := deserializeFixed_of (n := 4) hl hat.1 hat.2.1 hat.2.2
    cases k <;> first
      | (exfalso; revert hw; decide)
      | (simp only [deserializeBasic, h1, hl, Res.bind_eq, Res.bind]; exact ⟨_, rfl⟩)
  | fixed64 hw hl =>
    have h1 := deserializeFixed_of (n := 8) hl hat.1 hat.2.1 hat.2.2
    cases k <;> first
      | (exfalso; revert hw; decide)
      | (simp only [deserializeBasic, h1, hl, Res.bind_eq, Res.bind]; exact ⟨_, rfl⟩)
  | lengthDelimited hw hv hl =>
    rw [List.append_assoc] at hat
    have h1 := deserializeLengthDelimited_whole hat hv hl
    cases k <;> first
      | (exfalso; revert hw; decide)
      | (simp only [deserializeBasic, h1, Res.bind_eq, Res.bind]; exact ⟨_, rfl⟩)

theorem decodeHeader_whole {it : It} {tag rest : Bytes} {t : Nat} (hat : At it (tag ++ rest)) (hv : Varint tag t) :
    ∃ h, decodeHeader it = .ok (h, ⟨it.data, it.pos + tag.length⟩) ∧ h.num = t % 2 ^ 32 / 8 ∧ h.wt = t % 8 ∧
      (h.num ≠ 0 → KnownWireType h.wt → h.valid = true) := by
  refine ⟨splitHeader (t % 2 ^ 32), ?_, shr3 _, ?_, ?_⟩
  · simp only [decodeHeader]
    rw [deserializeVarint_of (by omega) hv hat.2.2]
    rfl
  · simp only [splitHeader, and7]
    omega
  · simp only [splitHeader, KnownWireType, Bool.and_eq_true, Bool.or_eq_true, decide_eq_true_eq, beq_iff_eq, wtVarint, wtFixed64,
      wtFixed32, wtLengthDelimited, shr3]
    omega

theorem bind_of_ub {α β : Type} {x : Res α} {f : α → Res β} (h : x = .ub) : (x >>= f) = .ub := by
  rw [h]; rfl

theorem bind_of_ok {α β : Type} {x : Res α} {f : α → Res β} {a : α} (h : x = .ok a) : (x >>= f) = f a := by
  rw [h]; rfl

section
variable {σ : Type} {step : σ → It → Res (σ × It)} {W : Bytes → Prop} {tail : Bytes}

theorem stepLoop_past (hW : ∀ s c post it, W c → At it (c ++ (post ++ tail)) → ∃ s', step s it = .ok (s', ⟨it.data, it.pos + c.length⟩))
    (hpos : ∀ c, W c → 0 < c.length) (hU : ∀ s it, At it tail → step s it = .ub) {last n stop done : Nat} {s : σ} {it : It}
    {elems : Bytes} (hat : At it (elems ++ tail)) (hp : Past W stop done elems) (hl : (last : Int) - it.pos = stop - done)
    (hn : elems.length < n) : stepLoop step last n s it = .ub := by
  induction hp generalizing s it n with
  | nil hd =>
    obtain ⟨k, rfl⟩ : ∃ k, n = k + 1 := ⟨n - 1, by omega⟩
    simp only [stepLoop]
    rw [if_neg (by omega)]
    exact bind_of_ub (hU s it hat)
  | @cons done c rest hd hc _ ih =>
    obtain ⟨k, rfl⟩ : ∃ k, n = k + 1 := ⟨n - 1, by omega⟩
    have := hpos c hc
    simp only [List.length_append] at hn
    simp only [stepLoop]
    rw [if_neg (by omega)]
    rw [List.append_assoc] at hat
    obtain ⟨s', h1⟩ := hW s c rest it hc hat
    rw [bind_of_ok h1]
    exact ih hat.adv (by simp only; omega) (by omega)

theorem lengthLoop_past (hW : ∀ s c post it, W c → At it (c ++ (post ++ tail)) → ∃ s', step s it = .ok (s', ⟨it.data, it.pos + c.length⟩))
    (hpos : ∀ c, W c → 0 < c.length) (hU : ∀ s it, At it tail → step s it = .ub) {n N : Nat} {s : σ} {it : It}
    {l elems : Bytes} (hat : At it (l ++ (elems ++ tail))) (hv : Varint l N) (hle : N % 2 ^ 32 ≤ (elems ++ tail).length)
    (hp : Past W (N % 2 ^ 32) 0 elems) (hn : (l ++ (elems ++ tail)).length ≤ n) : lengthLoop step n s it = .ub := by
  have h1 := hat.len
  have h2 := hat.1
  have := hv.pos
  simp only [List.length_append] at h1 hle hn
  have hlen : N % 2 ^ 32 < 2 ^ 31 := by omega
  unfold lengthLoop
  rw [bind_of_ok (deserializeVarint_of (by omega) hv hat.2.2)]
  simp only [It.plus, toInt32_of_lt hlen]
  rw [bind_of_ok (by rw [add_nat hat.adv, if_pos (by simpa using hle)])]
  exact stepLoop_past hW hpos hU hat.adv hp (by simp only; omega) (by omega)

theorem lengthLoop_long {n : Nat} {s : σ} {it : It} {r : Bytes} (hat : At it r) (h : LongVarint r) : lengthLoop step n s it = .ub :=
  bind_of_ub (deserializeVarint_long hat h)

end

theorem deserializePacked_cut {k : Kind} (hk : ¬ hasLength (.scalar k)) {n N : Nat} {it : It} {l elems tail : Bytes}
    (hat : At it (l ++ (elems ++ tail))) (hv : Varint l N) (hle : N % 2 ^ 32 ≤ (elems ++ tail).length)
    (hp : Past (WholeScalar k) (N % 2 ^ 32) 0 elems) (hc : CutScalar k tail) (hn : (l ++ (elems ++ tail)).length ≤ n) :
    deserializePacked env k n it = .ub := by
  rw [deserializePacked_eq]
  refine lengthLoop_past ?_ (fun c h => h.pos) ?_ hat hv hle hp hn
  · intro s c post it hc hat
    obtain ⟨v, h⟩ := deserializeBasic_ok (env := env) hat hc
    exact ⟨s ++ [v], bind_of_ok h⟩
  · exact fun s it hat => bind_of_ub (deserializeBasic_cut hat (fun h => absurd h hk) hc)

section
variable {N : Nat}

theorem mapStep_ok {kk : Kind} {vt : MapVal} {kv : Scalar × Val} {c post : Bytes} {it : It} (hN : c.length < N)
    (hr : NoNegativeLength env c) (h : WholePart (accepted env) kk vt c) (hat : At it (c ++ post)) :
    ∃ kv', mapStep env (deserializeMessage env N) kk vt kv it = .ok (kv', ⟨it.data, it.pos + c.length⟩) := by
  cases h with
  | @key tag c t hv hn hw =>
    rw [List.append_assoc] at hat
    obtain ⟨h, h1, h2, _⟩ := decodeHeader_whole hat hv
    obtain ⟨v, h3⟩ := deserializeBasic_ok (env := env) hat.adv hw
    refine ⟨(v, kv.2), ?_⟩
    unfold mapStep
    rw [bind_of_ok h1]
    simp only [h2, hn, if_true]
    rw [bind_of_ok h3]
    simp [Nat.add_assoc]
  | @value tag c t hv hn hw =>
    rw [List.append_assoc] at hat
    obtain ⟨h, h1, h2, _⟩ := decodeHeader_whole hat hv
    have h3 : ∃ v, deserializeMapValue env (deserializeMessage env N) vt ⟨it.data, it.pos + tag.length⟩ =
        .ok (v, ⟨it.data, it.pos + tag.length + c.length⟩) := by
      cases hw with
      | scalar hw =>
        obtain ⟨v, h3⟩ := deserializeBasic_ok (env := env) hat.adv hw
        exact ⟨.sc v, bind_of_ok h3⟩
      | enum hv2 =>
        have h3 := deserializeVarint_of (w := 64) (by omega) hv2 hat.adv.2.2
        refine ⟨_, (bind_of_ok (x := deserializeEnum ⟨it.data, it.pos + tag.length⟩) (bind_of_ok h3)).trans rfl⟩
      | @msg m l body n hv2 hl hacc =>
        have hat2 := hat.adv
        rw [List.append_assoc] at hat2
        have h4 := hat.len
        have h5 := hat.1
        simp only [List.length_append] at hN h4
        obtain ⟨o, ho⟩ := accepted_budget (n := N) hr.suffix.suffix (by omega) (by omega) hacc
        refine ⟨.msg o, ?_⟩
        simp only [deserializeMapValue, deserializeObject_eq]
        rw [bind_of_ok (x := _ >>= _) (a := (o, ⟨it.data, it.pos + tag.length + (l ++ body).length⟩))]
        · rw [bind_of_ok (deserializeLengthDelimited_whole hat2 hv2 hl), ho]
          rfl
    obtain ⟨v, h3⟩ := h3
    refine ⟨(kv.1, v), ?_⟩
    unfold mapStep
    rw [bind_of_ok h1]
    simp only [h2, hn, if_false]
    rw [bind_of_ok h3]
    simp [Nat.add_assoc]

theorem mapPair_of_ub {rec : Nat → Bytes → MsgResult} {kk : Kind} {vt : MapVal} {n : Nat} {it : It}
    (h : lengthLoop (mapStep env rec kk vt) n (defaultScalar kk, defaultMapVal vt) it = .ub) :
    deserializeMapPair env rec kk vt n it = .ub := by
  rw [← deserializeMapPair_eq] at h
  exact bind_ub_pure h

theorem deserializeObject_ub_of {rec : Nat → Bytes → MsgResult} {m : Nat} {it : It} (h : deserializeLengthDelimited it = .ub) :
    deserializeObject rec m it = .ub := by
  rw [deserializeObject_eq]
  exact bind_of_ub h

/-- Only parts of map entries of values read so far. -/
theorem mapPair_past {kk : Kind} {vt : MapVal} {n L : Nat} {it : It} {l parts tail : Bytes}
    (hat : At it (l ++ (parts ++ tail))) (hr : NoNegativeLength env (l ++ (parts ++ tail))) (hv : Varint l L)
    (hle : L % 2 ^ 32 ≤ (parts ++ tail).length) (hp : Past (WholePart (accepted env) kk vt) (L % 2 ^ 32) 0 parts)
    (hU : ∀ kv it, At it tail → mapStep env (deserializeMessage env N) kk vt kv it = .ub)
    (hn : (l ++ (parts ++ tail)).length ≤ n) (hN : (l ++ (parts ++ tail)).length ≤ N) :
    deserializeMapPair env (deserializeMessage env N) kk vt n it = .ub := by
  apply mapPair_of_ub
  have hpos := hv.pos
  simp only [List.length_append] at hN
  have hr' := hr.suffix.prefix
  -- remember that every part lies in `parts`
  have hp' : Past (fun c => WholePart (accepted env) kk vt c ∧ NoNegativeLength env c ∧ c.length < N) (L % 2 ^ 32) 0 parts := by
    have hb : parts.length < N := by omega
    clear hle hn hU hat hr
    generalize 0 = done at hp
    induction hp with
    | nil hd => exact .nil hd
    | cons hd hc _ ih =>
      simp only [List.length_append] at hN hb
      exact .cons hd ⟨hc, hr'.prefix, by omega⟩ (ih (by omega) hr'.suffix (by omega))
  refine lengthLoop_past ?_ ?_ hU hat hv hle hp' hn
  · intro s c post it hc hat
    exact mapStep_ok hc.2.2 hc.2.1 hc.1 hat
  · rintro c ⟨h, _⟩
    cases h with
    | key hv _ _ => have := hv.pos; simp only [List.length_append]; omega
    | value hv _ _ => have := hv.pos; simp only [List.length_append]; omega

end

/-- The loop over an accepted message in front of `rest` arrives at `rest`. -/
theorem messageLoop_over {rec : Nat → Bytes → MsgResult} {m b : Nat} {it it2 : It} {obj o : Obj} {pre rest : Bytes}
    (hat : At it pre) (hr : NoNegativeLength env pre) (h : messageLoop env rec m b it obj = (.ok (), o))
    (hat2 : At it2 (pre ++ rest)) (hb : (pre ++ rest).length < b) : ∃ b', rest.length < b' ∧ o.length = obj.length ∧
      messageLoop env rec m b it2 obj = messageLoop env rec m b' ⟨it2.data, it2.pos + pre.length⟩ o := by
  induction b generalizing it it2 obj pre with
  | zero => simp [messageLoop] at h
  | succ b ih =>
    simp only [messageLoop] at h
    split at h
    · rename_i he
      rw [at_end hat] at he
      subst he
      simp only [Prod.mk.injEq, true_and] at h
      subst h
      exact ⟨b + 1, by simpa using hb, rfl, by simp⟩
    · cases h1 : deserializeProperty env rec m b it obj with
      | ok x =>
        rw [h1] at h
        obtain ⟨it', obj1⟩ := x
        obtain ⟨c, r', rfl, hc, rfl, hloc⟩ := property_local hat hr h1
        rw [List.append_assoc] at hat2
        simp only [List.length_append] at hb
        obtain ⟨b', h2, h3, h4⟩ := ih hat.adv hr.suffix h hat2.adv (by simp only [List.length_append]; omega)
        refine ⟨b', h2, h3.trans (deserializeProperty_length h1), ?_⟩
        simp only [messageLoop]
        rw [if_neg (by rw [at_end hat2]; intro h0; simp at h0; simp [h0.1] at hc), hloc _ _ hat2]
        simp only [h4, List.length_append, Nat.add_assoc]
      | throw e => rw [h1] at h; simp at h
      | ub => rw [h1] at h; simp at h
      | fuel => rw [h1] at h; simp at h

/-- Behind an accepted message, an undefined operation of the next record is one of the whole message. -/
theorem deserializeMessage_over {n m : Nat} {pre rest : Bytes} (hr : NoNegativeLength env (pre ++ rest))
    (hlen : (pre ++ rest).length < 2 ^ 31) (hn : (pre ++ rest).length < n) (hacc : accepted env m pre)
    (hne : rest ≠ [])
    (h : ∀ b it obj, At it rest → rest.length ≤ b → obj.length = (env.sch m).length →
      deserializeProperty env (deserializeMessage env (n - 1)) m b it obj = .ub) :
    (deserializeMessage env n m (pre ++ rest)).1 = .ub := by
  obtain ⟨k, rfl⟩ : ∃ k, n = k + 1 := ⟨n - 1, by omega⟩
  simp only [List.length_append] at hlen hn
  obtain ⟨o, ho⟩ := accepted_budget (n := k + 1) hr.prefix (by omega) (by omega) hacc
  simp only [deserializeMessage] at ho ⊢
  obtain ⟨b', h1, h2, h3⟩ := messageLoop_over (At.start (by omega)) hr.prefix ho
    (At.start (data := pre ++ rest) (by simp only [List.length_append]; omega)) (by simp only [List.length_append]; omega)
  have hat := (At.start (data := pre ++ rest) (by simp only [List.length_append]; omega)).adv
  rw [h3]
  obtain ⟨b, rfl⟩ : ∃ b, b' = b + 1 := ⟨b' - 1, by omega⟩
  simp only [messageLoop]
  rw [if_neg (by rw [at_end hat]; exact hne)]
  have h4 := h b _ o hat (by omega) (h2.trans (defaultObj_length m))
  simp only [Nat.add_sub_cancel] at h4
  rw [h4]

theorem Spec.LongVarint.ne {r : Bytes} (h : LongVarint r) : r ≠ [] := by
  rintro rfl
  have := h.1
  simp at this

theorem skipField_long {it : It} {r : Bytes} (hat : At it r) (h : LongVarint r) : skipField it 2 = .ub := by
  unfold skipField
  rw [if_neg (by decide), if_neg (by decide), if_neg (by decide), if_pos (by decide)]
  exact bind_of_ub (deserializeVarint_long hat h)

theorem property_header {rec : Nat → Bytes → MsgResult} {m b : Nat} {it : It} {obj : Obj} {tag rest : Bytes} {t : Nat}
    (hat : At it (tag ++ rest)) (hv : Varint tag t) (hnz : t % 2 ^ 32 / 8 ≠ 0) (hw : KnownWireType (t % 8)) :
    deserializeProperty env rec m b it obj = match findField (env.sch m) (t % 2 ^ 32 / 8) with
    | none => skipField ⟨it.data, it.pos + tag.length⟩ (t % 8) >>= fun it => .ok (it, obj)
    | some i =>
      match (env.sch m)[i]?, obj[i]? with
      | some f, some cur => deserializeValue env rec f.ty b cur ⟨it.data, it.pos + tag.length⟩ >>= fun x =>
          .ok (x.2, obj.set i (writeVal f.ty cur x.1))
      | _, _ => .ub := by
  obtain ⟨h, h1, h2, h3, h4⟩ := decodeHeader_whole hat hv
  unfold deserializeProperty
  rw [bind_of_ok h1]
  simp only [h4 (h2 ▸ hnz) (h3 ▸ hw), Bool.not_true, if_neg Bool.false_ne_true, h2, h3]
  rfl

/-- Map values as values of a field. -/
theorem mapValue_of_value {rec : Nat → Bytes → MsgResult} {vt : MapVal} {n : Nat} {cur : Val} {it : It}
    (h : deserializeValue env rec (MapVal.toTy vt) n cur it = .ub) : deserializeMapValue env rec vt it = .ub := by
  cases vt <;> exact h

theorem mapStep_tag {rec : Nat → Bytes → MsgResult} {kk : Kind} {vt : MapVal} {kv : Scalar × Val} {it : It} {r : Bytes}
    (hat : At it r) (h : LongVarint r) : mapStep env rec kk vt kv it = .ub :=
  bind_of_ub (bind_of_ub (deserializeVarint_long hat h))

/-- Cut off messages with fewer than `L` bytes lead to undefined operations. -/
def MessageCut (env : Env) (L : Nat) : Prop :=
  ∀ {m : Nat} {bs : Bytes}, CutMessage env (accepted env) m bs → bs.length < L → ∀ {n : Nat}, NoNegativeLength env bs →
    bs.length < 2 ^ 31 → bs.length < n → (deserializeMessage env n m bs).1 = .ub

/-- Cut off values with fewer than `L` bytes lead to undefined operations. -/
def ValueCut (env : Env) (L : Nat) : Prop :=
  ∀ {ty : FieldTy} {bs : Bytes}, CutValue env (accepted env) ty bs → bs.length < L → ∀ {N n : Nat} {cur : Val} {it : It},
    (∀ kk vt, ty = .map kk vt → InSchema env kk vt) → At it bs → ValueOk env ty bs → bs.length ≤ n → bs.length ≤ N →
    deserializeValue env (deserializeMessage env N) ty n cur it = .ub

theorem message_cut (hvs : ValidSchema env) {L : Nat} (ih : ValueCut env L) : MessageCut env (L + 1) := by
  intro m bs h hL n hr hlen hn
  cases h with
  | tag hacc hl =>
    exact deserializeMessage_over hr hlen hn hacc hl.ne fun b it obj hat _ _ => bind_of_ub (bind_of_ub (deserializeVarint_long hat hl))
  | unknown hacc hv hw hnz hno hl =>
    refine deserializeMessage_over hr hlen hn hacc (by have := hl.ne; simp [this]) fun b it obj hat _ _ => ?_
    rw [property_header hat hv hnz (.inr (.inr (.inl hw))), findField_none hno, hw]
    exact bind_of_ub (skipField_long hat.adv hl)
  | @field m pre tag bs t f hacc hv hw hf hnum hc =>
    have hpos := hv.pos
    refine deserializeMessage_over hr hlen hn hacc (by rintro h0; simp at h0; simp [h0.1] at hpos) fun b it obj hat hb ho => ?_
    have hok := (hvs m).2 f hf
    rw [property_header hat hv (by omega) hw]
    obtain ⟨i, hi, hfi⟩ := List.getElem_of_mem hf
    have hfi' : (env.sch m)[i]? = some f := by rw [List.getElem?_eq_some_iff]; exact ⟨hi, hfi⟩
    have ho' : obj[i]? = some (obj[i]'(by omega)) := by simp
    rw [← hnum, findField_of (hvs m).1 hfi']
    simp only [hfi', ho']
    simp only [List.length_append] at hlen hn hb hL
    refine bind_of_ub (ih hc (by omega) (fun kk vt ht => ⟨m, f, hf, ht⟩) hat.adv ⟨hr.suffix.suffix, fun hl =>
      hr.suffix.lenOk hv (.inr (.inl ⟨m, f, hf, hnum, hl⟩))⟩ (by omega) (by omega))

theorem value_cut {L : Nat} (ihm : MessageCut env L) (ih : ValueCut env L) : ValueCut env (L + 1) := by
  intro ty bs h hL N n cur it hin hat hr hn hN
  cases h with
  | scalar hc => exact bind_of_ub (deserializeBasic_cut hat hr.2 hc)
  | enum hl => exact bind_of_ub (bind_of_ub (deserializeVarint_long hat hl))
  | @element k _ hk hc =>
    have hb := deserializeBasic_cut (env := env) hat (fun _ => hr.2 trivial) hc
    rcases hk with rfl | rfl <;> exact bind_of_ub (bind_of_ub hb)
  | length hty hne hl =>
    cases ty with
    | scalar k =>
      have h1 := deserializeLengthDelimited_long hat hl
      rcases hty with rfl | rfl <;> exact bind_of_ub (bind_of_ub h1)
    | list k =>
      have h1 := deserializeLengthDelimited_long hat hl
      have h2 : ∀ k, deserializePacked env k n it = .ub := fun k => by
        rw [deserializePacked_eq]
        exact lengthLoop_long hat hl
      cases k
      case bool => exact absurd rfl hne
      case string => exact bind_of_ub (bind_of_ub (bind_of_ub h1))
      case bytes => exact bind_of_ub (bind_of_ub (bind_of_ub h1))
      all_goals exact bind_of_ub (h2 _)
    | enum => exact hty.elim
    | enumList =>
      refine bind_of_ub (bind_of_ub ?_)
      rw [deserializePacked_eq]
      exact lengthLoop_long hat hl
    | msg m => exact bind_of_ub (deserializeObject_ub_of (deserializeLengthDelimited_long hat hl))
    | msgList m => exact bind_of_ub (deserializeObject_ub_of (deserializeLengthDelimited_long hat hl))
    | map kk vt => exact bind_of_ub (mapPair_of_ub (lengthLoop_long hat hl))
  | @packed k l elems tail _ hb hs hby hv hle hp hc =>
    have h1 := deserializePacked_cut (env := env) (by simp [hasLength, hs, hby]) hat hv hle hp hc hn
    cases k
    case bool => exact absurd rfl hb
    case string => exact absurd rfl hs
    case bytes => exact absurd rfl hby
    all_goals exact bind_of_ub h1
  | packedEnum hv hle hp hc =>
    exact bind_of_ub (bind_of_ub (deserializePacked_cut (by simp [hasLength]) hat hv hle hp hc hn))
  | bodyShort hty hc =>
    have h1 : ∀ h : LenOk bs, deserializeLengthDelimited it = .ub := by
      intro hl
      cases hc with
      | varint _ h => exact deserializeLengthDelimited_long hat h
      | fixed32 hw _ => exact absurd hw (by decide)
      | fixed64 hw _ => exact absurd hw (by decide)
      | body _ hv h => exact deserializeLengthDelimited_short hat hl hv h
    rcases hty with rfl | rfl <;> exact bind_of_ub (deserializeObject_ub_of (h1 (hr.2 trivial)))
  | @inBody ty m l body rest _ hty hv hl hc =>
    have h1 := hat.len
    have h2 := hat.1
    have hpos := hv.pos
    simp only [List.length_append] at hn hN h1 hL
    have h3 := ihm hc (by omega) (n := N) hr.1.suffix.prefix (by omega) (by omega)
    have h4 : deserializeObject (deserializeMessage env N) m it = .ub := by
      rw [deserializeObject_eq, bind_of_ok (deserializeLengthDelimited_whole hat hv hl)]
      refine bind_of_ub ?_
      simp only
      generalize deserializeMessage env N m body = x at h3
      obtain ⟨a, o⟩ := x
      subst h3
      rfl
    rcases hty with rfl | rfl <;> exact bind_of_ub h4
  | entryTag hv hle hp hl =>
    exact bind_of_ub (mapPair_past hat hr.1 hv hle hp (fun kv it hat => mapStep_tag hat hl) hn hN)
  | @entryKey kk vt l parts tag tail _ t hv hle hp ht hnum hc =>
    refine bind_of_ub (mapPair_past hat hr.1 hv hle hp (fun kv it hat => ?_) hn hN)
    obtain ⟨h, h1, h2, _⟩ := decodeHeader_whole hat ht
    refine (bind_of_ok h1).trans ?_
    simp only [h2, hnum, if_true]
    exact bind_of_ub (deserializeBasic_cut hat.adv (fun hl => hr.1.suffix.suffix.lenOk ht
      (inSchema_len (hin kk vt rfl) (.inl ⟨hnum, hl⟩))) hc)
  | @entryValue kk vt l parts tag tail _ t hv hle hp ht hnum hc =>
    refine bind_of_ub (mapPair_past hat hr.1 hv hle hp (fun kv it hat => ?_) hn hN)
    obtain ⟨h, h1, h2, _⟩ := decodeHeader_whole hat ht
    refine (bind_of_ok h1).trans ?_
    have hpos := ht.pos
    simp only [h2, hnum, if_false]
    simp only [List.length_append] at hn hN hL
    refine bind_of_ub (mapValue_of_value (ih hc (by omega) (n := n) (cur := .msgNull) ?_ hat.adv ⟨hr.1.suffix.suffix.suffix, fun hl =>
      hr.1.suffix.suffix.lenOk ht (inSchema_len (hin kk vt rfl) (.inr ⟨hnum, hl⟩))⟩ (by omega) (by omega)))
    intro kk' vt' h0
    cases vt <;> cases h0

theorem cut_ub (hvs : ValidSchema env) (L : Nat) : MessageCut env L ∧ ValueCut env L := by
  induction L with
  | zero => exact ⟨fun _ h => by omega, fun _ h => by omega⟩
  | succ L ih => exact ⟨message_cut hvs ih.2, value_cut ih.1 ih.2⟩

/-- Every cut off message leads to an undefined operation. -/
theorem deserializeMessage_cut (hvs : ValidSchema env) {n m : Nat} {data : Bytes} (hr : NoNegativeLength env data)
    (hlen : data.length < 2 ^ 31) (hn : data.length < n) (h : CutMessage env (accepted env) m data) :
    (deserializeMessage env n m data).1 = .ub :=
  (cut_ub hvs (data.length + 1)).1 h (by omega) hr hlen hn

end QtPb
