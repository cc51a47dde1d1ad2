import Verif.LocalLemmas2
/-
Where undefined behaviour can come from when arbitrary bytes are decoded.
-/
namespace QtPb
open Spec

variable {env : Env}

/-- When `f` performs an undefined operation, `U` holds of the bytes in front of it. -/
def UbOnly {α : Type} (P : Bytes → Prop) (U : Bytes → Prop) (f : It → Res α) : Prop :=
  ∀ it r, At it r → P r → f it = .ub → U r

theorem bind_ub {α β : Type} {x : Res α} {f : α → Res β} (h : (x >>= f) = .ub) :
    x = .ub ∨ ∃ a, x = .ok a ∧ f a = .ub := by
  cases x with
  | ok a => exact .inr ⟨a, rfl, h⟩
  | ub => exact .inl rfl
  | throw e => simp [Res.bind_eq, Res.bind] at h
  | fuel => simp [Res.bind_eq, Res.bind] at h

theorem bind_ub_pure {α β : Type} {x : Res α} {f : α → β} (h : (x >>= fun a => Res.ok (f a)) = .ub) :
    x = .ub := by
  rcases bind_ub h with h | ⟨a, _, h⟩
  · exact h
  · simp at h

theorem varintLoop_ub {w : Nat} {bs : Bytes} {value k : Nat} (hk : k ≤ 70)
    (h : varintLoop w bs value k = .ub) :
    ∃ l rest, bs = l ++ rest ∧ (∀ b ∈ l, 128 ≤ b.toNat) ∧ 64 ≤ k + 7 * l.length ∧
      k + 7 * l.length ≤ 70 := by
  induction bs generalizing value k with
  | nil =>
    simp only [varintLoop] at h
    split at h
    · exact ⟨[], [], rfl, by simp, by simpa, by simpa⟩
    · simp at h
  | cons b tl ih =>
    simp only [varintLoop] at h
    split at h
    · exact ⟨[], b :: tl, rfl, by simp, by simpa, by simpa⟩
    · rename_i hk2
      split at h
      · simp at h
      · rename_i hb
        rw [and80 _ (u8_lt b)] at hb
        rcases bind_ub h with h | ⟨a, _, h⟩
        · obtain ⟨l, rest, rfl, h1, h2, h3⟩ := ih (by omega) h
          refine ⟨b :: l, rest, rfl, ?_, by simp; omega, by simp; omega⟩
          intro x hx
          rcases List.mem_cons.1 hx with rfl | hx
          · split at hb <;> omega
          · exact h1 x hx
        · simp at h

theorem deserializeVarint_ub {w : Nat} {it : It} {r : Bytes} (hat : At it r)
    (h : deserializeVarint w it = .ub) : LongVarint r := by
  simp only [deserializeVarint] at h
  rcases bind_ub h with h | ⟨a, _, h⟩
  · obtain ⟨l, rest, he, h1, h2, h3⟩ := varintLoop_ub (by omega) h
    rw [hat.2.2] at he
    subst he
    have hl : l.length = 10 := by omega
    refine ⟨by simp; omega, fun b hb => ?_⟩
    rw [← hl, List.take_left] at hb
    exact h1 b hb
  · simp at h

theorem add_nat_ub {it : It} {r : Bytes} (hat : At it r) (n : Nat) : it.add (n : Int) ≠ .ub := by
  rw [add_nat hat]
  split <;> simp

theorem deserializeFixed_ub {n : Nat} {it : It} {r : Bytes} (hat : At it r)
    (h : deserializeFixed n it = .ub) : r.length + 1 < n := by
  unfold deserializeFixed at h
  split at h
  · rename_i hc
    rwa [It.left_eq, hat.2.2] at hc
  · rcases bind_ub h with h | ⟨a, _, h⟩
    · exact absurd h (add_nat_ub hat n)
    · simp at h

theorem deserializeLengthDelimited_ub {it : It} {r : Bytes} (hat : At it r) (hr : LenOk r)
    (h : deserializeLengthDelimited it = .ub) :
    LongVarint r ∨ ∃ l rest n, r = l ++ rest ∧ Varint l n ∧ rest.length + 1 < n % 2 ^ 32 := by
  simp only [deserializeLengthDelimited] at h
  rcases bind_ub h with h | ⟨⟨len, it1⟩, h1, h⟩
  · exact .inl (deserializeVarint_ub hat h)
  · obtain ⟨c, r', rfl, ⟨N, hv, rfl⟩, rfl, _⟩ :=
      (deserializeVarint_local (w := 32) (by omega)).ok hat trivial h1
    have hlen := lenOk_of hv hr
    simp only at h
    rw [if_neg (toInt32_nonneg hlen).1, toInt32_of_lt hlen] at h
    split at h
    · rename_i hc
      rw [It.left_eq, hat.adv.2.2] at hc
      exact .inr ⟨c, r', N, rfl, hv, by omega⟩
    · rcases bind_ub h with h | ⟨a, _, h⟩
      · exact absurd h (add_nat_ub hat.adv _)
      · simp at h

theorem deserializeBasic_ub {k : Kind} {it : It} {r : Bytes} (hat : At it r) (hr : BasicOk k r)
    (h : deserializeBasic env k it = .ub) : CutScalar k r := by
  have ld : ∀ {α : Type} (g : Bytes × It → α), hasLength (.scalar k) → wireType k = 2 →
      (deserializeLengthDelimited it >>= fun x => Res.ok (g x)) = .ub → CutScalar k r := by
    intro α g hk hw h
    rcases deserializeLengthDelimited_ub hat (hr hk) (bind_ub_pure h) with h | ⟨l, rest, n, rfl, h1, h2⟩
    · exact .varint (.inr hw) h
    · exact .body hw h1 h2
  cases k <;> simp only [deserializeBasic] at h <;>
    first
    | exact ld _ (Or.inl rfl) rfl h
    | exact ld _ (Or.inr rfl) rfl h
    | exact .varint (.inl rfl) (deserializeVarint_ub hat (bind_ub_pure h))
    | exact .fixed32 rfl (deserializeFixed_ub hat (bind_ub_pure h))
    | exact .fixed64 rfl (deserializeFixed_ub hat (bind_ub_pure h))

theorem deserializeEnum_ub {it : It} {r : Bytes} (hat : At it r) (h : deserializeEnum it = .ub) :
    LongVarint r :=
  deserializeVarint_ub hat (bind_ub_pure h)

theorem decodeHeader_ub {it : It} {r : Bytes} (hat : At it r) (h : decodeHeader it = .ub) :
    LongVarint r :=
  deserializeVarint_ub hat (bind_ub_pure h)

section
variable {σ : Type} {step : σ → It → Res (σ × It)} {P W U : Bytes → Prop}

theorem stepLoop_ub (hstep : ∀ s, LocalOp P (fun c _ => W c) (step s)) (hP : ∀ c r, P (c ++ r) → P r)
    (hu : ∀ s, UbOnly P U (step s)) {last n stop done : Nat} {s : σ} {it : It} {r : Bytes} (hat : At it r)
    (hr : P r) (hl : (last : Int) - it.pos = stop - done) (h : stepLoop step last n s it = .ub) :
    ∃ elems tail, r = elems ++ tail ∧ Past W stop done elems ∧ U tail := by
  induction n generalizing s it r done with
  | zero => simp [stepLoop] at h
  | succ n ih =>
    simp only [stepLoop] at h
    split at h
    · simp at h
    · have hd : done ≠ stop := by omega
      rcases bind_ub h with h | ⟨⟨s1, it1⟩, h1, h⟩
      · exact ⟨[], r, rfl, .nil hd, hu s it r hat hr h⟩
      · obtain ⟨c, r', rfl, hW, rfl, _⟩ := (hstep s).ok hat hr h1
        obtain ⟨elems, tail, rfl, h2, h3⟩ := ih (done := done + c.length) hat.adv (hP _ _ hr) (by simp only; omega) h
        exact ⟨c ++ elems, tail, by simp, .cons hd hW h2, h3⟩

theorem lengthLoop_ub (hstep : ∀ s, LocalOp P (fun c _ => W c) (step s)) (hP : ∀ c r, P (c ++ r) → P r)
    (hu : ∀ s, UbOnly P U (step s)) {n : Nat} {s : σ} {it : It} {r : Bytes} (hat : At it r)
    (hr : P r) (hl : LenOk r) (h : lengthLoop step n s it = .ub) :
    LongVarint r ∨ ∃ l N elems tail, r = l ++ (elems ++ tail) ∧ Varint l N ∧ N % 2 ^ 32 ≤ (elems ++ tail).length ∧
      Past W (N % 2 ^ 32) 0 elems ∧ U tail := by
  rcases bind_ub h with h | ⟨⟨len, it1⟩, h1, h⟩
  · exact .inl (deserializeVarint_ub hat h)
  · obtain ⟨c, r', rfl, ⟨N, hv, rfl⟩, rfl, _⟩ :=
      (deserializeVarint_local (w := 32) (by omega)).ok hat trivial h1
    have hlen := lenOk_of hv hl
    rcases bind_ub h with h | ⟨last, h2, h⟩
    · simp only [It.plus, toInt32_of_lt hlen] at h
      exact absurd h (add_nat_ub hat.adv _)
    · simp only [It.plus, toInt32_of_lt hlen] at h2
      rw [add_nat hat.adv] at h2
      split at h2
      · rename_i hle
        cases h2
        obtain ⟨elems, tail, rfl, h3, h4⟩ := stepLoop_ub (stop := N % 2 ^ 32) (done := 0) hstep hP hu hat.adv (hP _ _ hr)
          (by simp only; omega) h
        exact .inr ⟨c, N, elems, tail, rfl, hv, hle, h3, h4⟩
      · cases h2

end

theorem deserializePacked_ub {k : Kind} (hk : ¬ hasLength (.scalar k)) {n : Nat} {it : It} {r : Bytes}
    (hat : At it r) (hl : LenOk r) (h : deserializePacked env k n it = .ub) :
    LongVarint r ∨ ∃ l N elems tail, r = l ++ (elems ++ tail) ∧ Varint l N ∧ N % 2 ^ 32 ≤ (elems ++ tail).length ∧
      Past (WholeScalar k) (N % 2 ^ 32) 0 elems ∧ CutScalar k tail := by
  rw [deserializePacked_eq] at h
  refine lengthLoop_ub (P := fun _ => True) (W := WholeScalar k) (U := CutScalar k) ?_
    (fun _ _ _ => trivial) ?_ hat trivial hl h
  · exact fun s => ((deserializeBasic_whole k).map (fun v => s ++ [v]) (fun _ _ h => h)).weaken
      (fun _ _ h => absurd h hk) (fun _ _ h => h)
  · exact fun s it r hat _ h => deserializeBasic_ub hat (fun h => absurd h hk) (bind_ub_pure h)

section
variable {rec : Nat → Bytes → MsgResult} {accepted : Nat → Bytes → Prop}

/-- The induction hypothesis for sub-messages. -/
def RecUb (env : Env) (rec : Nat → Bytes → MsgResult) (accepted : Nat → Bytes → Prop) : Prop :=
  ∀ m body o, NoNegativeLength env body → body.length < 2 ^ 31 → rec m body = (.ub, o) →
    CutMessage env accepted m body

theorem ofSub_ub {x : MsgResult} (h : ofSub x = .ub) : ∃ o, x = (.ub, o) := by
  obtain ⟨a, o⟩ := x
  cases a <;> simp_all [ofSub]

theorem deserializeObject_ub (hrec : RecUb env rec accepted) {ty : FieldTy} {m : Nat}
    (hty : ty = .msg m ∨ ty = .msgList m) {it : It} {r : Bytes} (hat : At it r)
    (hr : NoNegativeLength env r) (hl : LenOk r) (h : deserializeObject rec m it = .ub) :
    CutValue env accepted ty r := by
  rw [deserializeObject_eq] at h
  rcases bind_ub h with h | ⟨⟨body, it1⟩, h1, h⟩
  · refine .bodyShort hty ?_
    rcases deserializeLengthDelimited_ub hat hl h with h | ⟨l, rest, n, rfl, h1, h2⟩
    · exact .varint (.inr rfl) h
    · exact .body rfl h1 h2
  · obtain ⟨c, r', rfl, ⟨l, N, rfl, hv, hlen⟩, rfl, _⟩ := deserializeLengthDelimited_local.ok hat hl h1
    obtain ⟨o, ho⟩ := ofSub_ub (bind_ub_pure h)
    have h2 := hat.len
    have h3 := hat.1
    simp only [List.length_append] at h2
    rw [List.append_assoc] at hr ⊢
    exact .inBody hty hv hlen (hrec m body o hr.suffix.prefix (by omega) ho)

/-- Sub-messages that `rec` accepts are accepted. -/
def RecAccepts (rec : Nat → Bytes → MsgResult) (accepted : Nat → Bytes → Prop) : Prop :=
  ∀ m body o, rec m body = (.ok (), o) → accepted m body

theorem ofSub_ok {x : MsgResult} {o : Obj} (h : ofSub x = .ok o) : x = (.ok (), o) := by
  obtain ⟨a, o⟩ := x
  cases a <;> simp_all [ofSub]

theorem deserializeMapValue_whole (ha : RecAccepts rec accepted) (vt : MapVal) :
    LocalOp (MapValOk vt) (fun c _ => WholeMapValue accepted vt c) (deserializeMapValue env rec vt) := by
  cases vt with
  | scalar k =>
    exact (((deserializeBasic_whole k).map (fun v => Val.sc v) (T := fun c _ => WholeMapValue accepted (.scalar k) c)
      (fun _ _ h => .scalar h)).weaken (fun r (h : MapValOk (.scalar k) r) => h) (fun _ _ h => h)).congr fun it => rfl
  | enum =>
    refine ((((deserializeVarint_local (w := 64) (by omega)).map (fun v => Val.enum (enumOfInt64 (BitVec.ofNat 64 v)))
      (T := fun c _ => WholeMapValue accepted .enum c) (fun c v h => by obtain ⟨N, hv, _⟩ := h; exact .enum hv))).weaken
      (fun r _ => trivial) (fun _ _ h => h)).congr fun it => ?_
    simp only [deserializeMapValue, deserializeEnum, Res.bind_eq]
    cases deserializeVarint 64 it <;> rfl
  | msg m =>
    refine (LocalOp.bind (P := MapValOk (.msg m)) (T := fun c (_ : Val) => WholeMapValue accepted (.msg m) c)
      (g := fun body it => ofSub (rec m body) >>= fun o => .ok (.msg o, it))
      (Q := fun _ _ => True) (S := fun body c _ => c = [] ∧ accepted m body) (deserializeLengthDelimited_local.weaken
        (fun r (h : MapValOk (.msg m) r) => h trivial) (fun _ _ h => h)) ?_
      (fun _ _ _ _ _ => trivial) ?_).congr fun it => ?_
    · intro body
      constructor
      · intro it it' r v hat _ h
        cases h1 : ofSub (rec m body) with
        | ok o =>
          rw [h1] at h
          simp only [Res.bind_eq, Res.bind, Res.ok.injEq, Prod.mk.injEq] at h
          obtain ⟨rfl, rfl⟩ := h
          exact ⟨[], r, rfl, ⟨rfl, ha _ _ _ (ofSub_ok h1)⟩, rfl, fun it2 post hat2 => by simp [Res.bind_eq, Res.bind]⟩
        | _ => rw [h1] at h; simp [Res.bind_eq, Res.bind] at h
      · intro it it2 r e hat hat2 _ h
        cases h1 : ofSub (rec m body) with
        | throw e' => rw [h1] at h; exact h
        | _ => rw [h1] at h; simp [Res.bind_eq, Res.bind] at h
    · rintro c1 c2 v w ⟨l, N, rfl, hv, hl⟩ ⟨rfl, hacc⟩
      simpa using WholeMapValue.msg hv hl hacc
    · simp only [deserializeMapValue, deserializeObject_eq, Res.bind_eq]
      cases h1 : deserializeLengthDelimited it with
      | ok x =>
        simp only [Res.bind]
        cases ofSub (rec m x.1) <;> rfl
      | _ => rfl

theorem mapStep_whole (ha : RecAccepts rec accepted) {kk : Kind} {vt : MapVal} (hin : InSchema env kk vt) (kv : Scalar × Val) :
    LocalOp (NoNegativeLength env) (fun c _ => WholePart accepted kk vt c) (mapStep env rec kk vt kv) := by
  refine (LocalOp.bind (g := fun (h : Header) it =>
      if h.num = 1 then deserializeBasic env kk it >>= fun y => .ok ((y.1, kv.2), y.2)
      else deserializeMapValue env rec vt it >>= fun y => .ok ((kv.1, y.1), y.2))
    (Q := fun h r => if h.num = 1 then BasicOk kk r else MapValOk vt r)
    (S := fun h c _ => if h.num = 1 then WholeScalar kk c else WholeMapValue accepted vt c)
    (decodeHeader_local.weaken (fun _ _ => trivial) (fun _ _ h => h)) ?_ ?_ ?_).congr fun it => rfl
  · intro h
    by_cases hn : h.num = 1
    · simp only [hn, if_true]
      exact (deserializeBasic_whole kk).map (fun y => (y, kv.2)) (fun _ _ h => h)
    · simp only [hn, if_false]
      exact (deserializeMapValue_whole ha vt).map (fun y => (kv.1, y)) (fun _ _ h => h)
  · rintro c h r' ⟨t, hv, h1, h2⟩ hr
    split
    · rename_i hn
      exact fun hl => hr.lenOk hv (inSchema_len hin (.inl ⟨h1 ▸ hn, hl⟩))
    · rename_i hn
      exact fun hl => hr.lenOk hv (inSchema_len hin (.inr ⟨h1 ▸ hn, hl⟩))
  · rintro c1 c2 h w ⟨t, hv, h1, _⟩ hw
    split at hw
    · rename_i hn
      exact .key hv (h1 ▸ hn) hw
    · rename_i hn
      exact .value hv (h1 ▸ hn) hw

/-- What can be cut off at the start of a part of a map entry. -/
def CutPart (env : Env) (accepted : Nat → Bytes → Prop) (kk : Kind) (vt : MapVal) (r : Bytes) : Prop :=
  LongVarint r ∨ ∃ tag t tail, r = tag ++ tail ∧ Varint tag t ∧
    ((t % 2 ^ 32 / 8 = 1 ∧ CutScalar kk tail) ∨
     (t % 2 ^ 32 / 8 ≠ 1 ∧ CutValue env accepted (MapVal.toTy vt) tail))

theorem mapStep_ub (hrec : RecUb env rec accepted) {kk : Kind} {vt : MapVal} (hin : InSchema env kk vt)
    (kv : Scalar × Val) : UbOnly (NoNegativeLength env) (CutPart env accepted kk vt) (mapStep env rec kk vt kv) := by
  intro it r hat hr h
  rcases bind_ub h with h | ⟨⟨hd, it1⟩, h1, h⟩
  · exact .inl (decodeHeader_ub hat h)
  · obtain ⟨c, r', rfl, ⟨t, hv, h2, h3⟩, rfl, _⟩ := decodeHeader_local.ok hat trivial h1
    refine .inr ⟨c, t, r', rfl, hv, ?_⟩
    simp only at h
    split at h
    · rename_i hn
      exact .inl ⟨h2 ▸ hn, deserializeBasic_ub hat.adv
        (fun hl => hr.lenOk hv (inSchema_len hin (.inl ⟨h2 ▸ hn, hl⟩))) (bind_ub_pure h)⟩
    · rename_i hn
      have hok : MapValOk vt r' := fun hl => hr.lenOk hv (inSchema_len hin (.inr ⟨h2 ▸ hn, hl⟩))
      refine .inr ⟨h2 ▸ hn, ?_⟩
      have h := bind_ub_pure h
      cases vt with
      | scalar k => exact .scalar (deserializeBasic_ub hat.adv hok (bind_ub_pure h))
      | enum => exact .enum (deserializeEnum_ub hat.adv (bind_ub_pure h))
      | msg m => exact deserializeObject_ub hrec (.inl rfl) hat.adv hr.suffix (hok trivial) (bind_ub_pure h)

theorem deserializeMapPair_ub (hrec : RecUb env rec accepted) (ha : RecAccepts rec accepted) {kk : Kind} {vt : MapVal}
    (hin : InSchema env kk vt) {n : Nat} {it : It} {r : Bytes} (hat : At it r)
    (hr : NoNegativeLength env r) (hl : LenOk r) (h : deserializeMapPair env rec kk vt n it = .ub) :
    CutValue env accepted (.map kk vt) r := by
  have h1 := deserializeMapPair_eq (env := env) (rec := rec) kk vt n it
  rw [h] at h1
  rcases lengthLoop_ub (mapStep_whole ha hin) (fun _ _ h => h.suffix) (mapStep_ub hrec hin) hat hr hl h1.symm
    with h | ⟨l, N, parts, tail, rfl, hv, hle, hp, h | ⟨tag, t, tail, rfl, ht, h | h⟩⟩
  · exact .length trivial (by simp) h
  · exact .entryTag hv hle hp h
  · exact .entryKey hv hle hp ht h.1 h.2
  · exact .entryValue hv hle hp ht h.1 h.2

theorem deserializeValue_ub (hrec : RecUb env rec accepted) (ha : RecAccepts rec accepted) {ty : FieldTy}
    (hin : ∀ kk vt, ty = .map kk vt → InSchema env kk vt) {n : Nat} {cur : Val} {it : It} {r : Bytes}
    (hat : At it r) (hr : ValueOk env ty r) (h : deserializeValue env rec ty n cur it = .ub) :
    CutValue env accepted ty r := by
  cases ty with
  | scalar k => exact .scalar (deserializeBasic_ub hat hr.2 (bind_ub_pure h))
  | list k =>
    have h := bind_ub_pure h
    have hl : LenOk r := hr.2 trivial
    have pk : k ≠ .bool → ¬ hasLength (.scalar k) → deserializePacked env k n it = .ub →
        CutValue env accepted (.list k) r := by
      intro hb hk h
      rcases deserializePacked_ub hk hat hl h with h | ⟨l, N, elems, tail, rfl, h1, hle, h2, h3⟩
      · exact .length trivial (by simpa using hb) h
      · exact .packed hb (fun e => hk (.inl e)) (fun e => hk (.inr e)) h1 hle h2 h3
    cases k
    case string => exact .element (.inl rfl) (deserializeBasic_ub hat (fun _ => hl) (bind_ub_pure h))
    case bytes => exact .element (.inr rfl) (deserializeBasic_ub hat (fun _ => hl) (bind_ub_pure h))
    case bool => simp [deserializeScalarList] at h
    all_goals exact pk (by simp) (by simp [hasLength]) h
  | enum => exact .enum (deserializeEnum_ub hat (bind_ub_pure h))
  | enumList =>
    have h := bind_ub_pure (bind_ub_pure h)
    rcases deserializePacked_ub (by simp [hasLength]) hat (hr.2 trivial) h with
      h | ⟨l, N, elems, tail, rfl, h1, hle, h2, h3⟩
    · exact .length trivial (by simp) h
    · exact .packedEnum h1 hle h2 h3
  | msg m => exact deserializeObject_ub hrec (.inl rfl) hat hr.1 (hr.2 trivial) (bind_ub_pure h)
  | msgList m => exact deserializeObject_ub hrec (.inr rfl) hat hr.1 (hr.2 trivial) (bind_ub_pure h)
  | map kk vt => exact deserializeMapPair_ub hrec ha (hin kk vt rfl) hat hr.1 (hr.2 trivial) (bind_ub_pure h)

theorem skipField_ub {it : It} {r : Bytes} {wt : Nat} (hat : At it r) (hr : wt = 2 → LenOk r)
    (h : skipField it wt = .ub) : wt = 2 ∧ LongVarint r := by
  unfold skipField at h
  by_cases h0 : wt = wtVarint
  · rw [if_pos h0] at h
    simp only [skipVarint] at h
    have h := bind_ub_pure h
    have : ∀ bs, skipVarintLoop bs ≠ .ub := by
      intro bs
      induction bs with
      | nil => simp [skipVarintLoop]
      | cons b tl ih =>
        simp only [skipVarintLoop]
        split
        · simp
        · exact fun h => ih (bind_ub_pure h)
    exact absurd h (this _)
  rw [if_neg h0] at h
  by_cases h5 : wt = wtFixed32
  · rw [if_pos h5] at h
    exact absurd h (add_nat_ub hat 4)
  rw [if_neg h5] at h
  by_cases h1 : wt = wtFixed64
  · rw [if_pos h1] at h
    exact absurd h (add_nat_ub hat 8)
  rw [if_neg h1] at h
  by_cases h2 : wt = wtLengthDelimited
  · rw [if_pos h2] at h
    refine ⟨h2, ?_⟩
    simp only [skipLengthDelimited] at h
    rcases bind_ub h with h | ⟨⟨len, it1⟩, h1, h⟩
    · exact deserializeVarint_ub hat h
    · obtain ⟨c, r', rfl, ⟨N, hv, rfl⟩, rfl, _⟩ :=
        (deserializeVarint_local (w := 32) (by omega)).ok hat trivial h1
      simp only [toInt32_of_lt (lenOk_of hv (hr h2))] at h
      exact absurd h (add_nat_ub hat.adv _)
  rw [if_neg h2] at h
  simp at h

theorem decodeHeader_valid {it it' : It} {h : Header} (hd : decodeHeader it = .ok (h, it')) (hv : h.valid = true) :
    KnownWireType h.wt ∧ h.num ≠ 0 := by
  simp only [decodeHeader, Res.bind_eq, Res.bind_eq_ok, Res.ok.injEq, Prod.mk.injEq] at hd
  obtain ⟨x, _, rfl, _⟩ := hd
  simp only [splitHeader, Bool.and_eq_true, Bool.or_eq_true, decide_eq_true_eq, beq_iff_eq, wtVarint, wtFixed64, wtFixed32, wtLengthDelimited] at hv
  simp only [splitHeader, KnownWireType]
  omega

theorem findField_none_iff {fs : List Field} {num : Nat} (h : findField fs num = none) : ∀ f ∈ fs, f.num ≠ num := by
  unfold findField at h
  rw [List.findIdx?_eq_none_iff] at h
  intro f hf
  simpa using h f hf

theorem deserializeProperty_ub (hrec : RecUb env rec accepted) (ha : RecAccepts rec accepted) {m n : Nat} {obj : Obj} {it : It}
    {r pre : Bytes} (hat : At it r) (hr : NoNegativeLength env r) (ho : obj.length = (env.sch m).length)
    (hpre : accepted m pre) (h : deserializeProperty env rec m n it obj = .ub) :
    CutMessage env accepted m (pre ++ r) := by
  rcases bind_ub h with h | ⟨⟨hd, it1⟩, h1, h⟩
  · exact .tag hpre (decodeHeader_ub hat h)
  · obtain ⟨c, r', rfl, ⟨t, hv, h2, h3⟩, rfl, _⟩ := decodeHeader_local.ok hat trivial h1
    simp only at h
    split at h
    · simp at h
    · rename_i hval
      obtain ⟨hw, hnz⟩ := decodeHeader_valid h1 (by simpa using hval)
      split at h
      · rename_i hnone
        obtain ⟨h4, h5⟩ := skipField_ub hat.adv (fun hw => hr.lenOk hv (.inl (h3 ▸ hw))) (bind_ub_pure h)
        exact .unknown hpre hv (h3 ▸ h4) (h2 ▸ hnz) (h2 ▸ findField_none_iff hnone) h5
      · rename_i i hfd
        obtain ⟨f, hf, hmem, hnum⟩ := findField_some hfd
        have hi : i < (env.sch m).length := by
          rw [List.getElem?_eq_some_iff] at hf; exact hf.1
        have ho' : obj[i]? = some (obj[i]'(by omega)) := by simp
        rw [hf, ho'] at h
        refine .field hpre hv (h3 ▸ hw) hmem (hnum.trans h2) (deserializeValue_ub hrec ha
          (fun kk vt ht => ⟨m, f, hmem, ht⟩) hat.adv ⟨hr.suffix, fun hl => hr.lenOk hv ?_⟩ (bind_ub_pure h))
        exact .inr (.inl ⟨m, f, hmem, hnum.trans h2, hl⟩)

theorem messageLoop_ub (hrec : RecUb env rec accepted) (ha : RecAccepts rec accepted) {m n : Nat} {obj obj' : Obj} {it : It}
    {r pre : Bytes} (hat : At it r) (hr : NoNegativeLength env r) (ho : obj.length = (env.sch m).length)
    (hpre : accepted m pre)
    (hacc : ∀ p post (obj1 : Obj), r = p ++ post → obj1.length = (env.sch m).length →
      (∀ it2, At it2 p → messageLoop env rec m n it2 obj = (.ok (), obj1)) → accepted m (pre ++ p))
    (h : messageLoop env rec m n it obj = (.ub, obj')) : CutMessage env accepted m (pre ++ r) := by
  induction n generalizing it r obj pre with
  | zero => simp [messageLoop] at h
  | succ n ih =>
    simp only [messageLoop] at h
    split at h
    · simp at h
    · cases h1 : deserializeProperty env rec m n it obj with
      | ok x =>
        rw [h1] at h
        obtain ⟨it', obj1⟩ := x
        obtain ⟨c, r', rfl, hc, rfl, hloc⟩ := property_local hat hr h1
        have hl1 := (deserializeProperty_length h1).trans ho
        have hcont : ∀ p (obj2 : Obj), (∀ it2, At it2 p → messageLoop env rec m n it2 obj1 = (.ok (), obj2)) →
            ∀ it2, At it2 (c ++ p) → messageLoop env rec m (n + 1) it2 obj = (.ok (), obj2) := by
          intro p obj2 hp it2 hat2
          simp only [messageLoop]
          rw [if_neg (by rw [at_end hat2]; intro h0; simp at h0; simp [h0.1] at hc), hloc _ _ hat2]
          exact hp _ hat2.adv
        have hn0 : n ≠ 0 := by
          rintro rfl
          simp [messageLoop] at h
        obtain ⟨n', rfl⟩ : ∃ n', n = n' + 1 := ⟨n - 1, by omega⟩
        rw [← List.append_assoc]
        refine ih hat.adv hr.suffix hl1 (hacc c r' obj1 rfl hl1 ?_) ?_ h
        · have := hcont [] obj1 (fun it2 hat2 => by
            simp only [messageLoop]
            rw [if_pos ((at_end hat2).2 rfl)])
          simpa using this
        · intro p post obj2 he hl2 hp
          rw [List.append_assoc]
          exact hacc (c ++ p) post obj2 (by rw [he]; simp) hl2 (hcont p obj2 hp)
      | throw e' => rw [h1] at h; simp at h
      | ub => exact deserializeProperty_ub hrec ha hat hr ho hpre h1
      | fuel => rw [h1] at h; simp at h

end

/-- `p` is accepted as a message of type `m`. -/
def accepted (env : Env) (m : Nat) (p : Bytes) : Prop := ∃ n o, deserializeMessage env n m p = (.ok (), o)

theorem accepted_nil (m : Nat) : accepted env m [] := ⟨1, defaultObj env m, by
  simp [deserializeMessage, messageLoop, It.start]⟩

theorem deserializeMessage_ub (n m : Nat) (data : Bytes) (o : Obj) (hr : NoNegativeLength env data)
    (hlen : data.length < 2 ^ 31) (h : deserializeMessage env n m data = (.ub, o)) :
    CutMessage env (accepted env) m data := by
  induction n generalizing m data o with
  | zero => simp [deserializeMessage] at h
  | succ n ih =>
    simp only [deserializeMessage] at h
    have := messageLoop_ub (accepted := accepted env) (fun m body o h1 h2 h3 => ih m body o h1 h2 h3)
      (fun m body o h => ⟨n, o, h⟩) (At.start hlen) hr (defaultObj_length m) (accepted_nil m) ?_ h
    · simpa using this
    · intro p post obj1 he _ hp
      subst he
      simp only [List.length_append] at hlen
      rw [List.nil_append]
      exact ⟨n + 1, obj1, hp _ (At.start (by omega))⟩

end QtPb
