import Verif.SpecBytes
import Verif.FailLemmas
/-
How the decoder reads arbitrary byte strings without negative lengths: it only moves forward, what it
does depends only on the bytes it consumes, and it needs at most one step per byte.
-/
namespace QtPb
open Spec

variable {env : Env}

/-- The next varint is not negative as a 32 bit length. -/
def LenOk (r : Bytes) : Prop := ∀ l n rest, r = l ++ rest → Varint l n → n % 2 ^ 32 < 2 ^ 31

/-- `f` is a reader: on success it has consumed some bytes `c`, of which `R c v` holds, and it gives the
same result wherever it finds these bytes; when it throws, it throws wherever it finds the same rest.
It may assume `P` of the bytes in front of it. -/
structure LocalOp {α : Type} (P : Bytes → Prop) (R : Bytes → α → Prop) (f : It → Res (α × It)) : Prop where
  ok : ∀ {it it' : It} {r : Bytes} {v : α}, At it r → P r → f it = .ok (v, it') →
    ∃ c r', r = c ++ r' ∧ R c v ∧ it' = ⟨it.data, it.pos + c.length⟩ ∧
      ∀ it2 post, At it2 (c ++ post) → f it2 = .ok (v, ⟨it2.data, it2.pos + c.length⟩)
  fail : ∀ {it it2 : It} {r : Bytes} {e : Exn}, At it r → At it2 r → P r → f it = .throw e →
    f it2 = .throw e

theorem LocalOp.bind {α β : Type} {P : Bytes → Prop} {R : Bytes → α → Prop} {Q : α → Bytes → Prop}
    {S : α → Bytes → β → Prop} {T : Bytes → β → Prop} {f : It → Res (α × It)} {g : α → It → Res (β × It)}
    (hf : LocalOp P R f) (hg : ∀ v, LocalOp (Q v) (S v) (g v))
    (hPQ : ∀ c v r', R c v → P (c ++ r') → Q v r')
    (hT : ∀ c1 c2 v w, R c1 v → S v c2 w → T (c1 ++ c2) w) :
    LocalOp P T (fun it => f it >>= fun x => g x.1 x.2) := by
  constructor
  · intro it it' r w hat hP h
    simp only [Res.bind_eq, Res.bind_eq_ok] at h
    obtain ⟨⟨v, it1⟩, h1, h2⟩ := h
    obtain ⟨c1, r1, rfl, hR, rfl, hc1⟩ := hf.ok hat hP h1
    obtain ⟨c2, r2, rfl, hS, rfl, hc2⟩ := (hg v).ok hat.adv (hPQ _ _ _ hR hP) h2
    refine ⟨c1 ++ c2, r2, by simp, hT _ _ _ _ hR hS, by simp [Nat.add_assoc], fun it2 post hat2 => ?_⟩
    rw [List.append_assoc] at hat2
    have h3 := hc1 it2 (c2 ++ post) hat2
    have h4 := hc2 _ post hat2.adv
    simp only [Res.bind_eq, Res.bind_eq_ok]
    exact ⟨_, h3, by simpa [Nat.add_assoc] using h4⟩
  · intro it it2 r e hat hat2 hP h
    simp only [Res.bind_eq] at h ⊢
    cases h1 : f it with
    | ok x =>
      obtain ⟨v, it1⟩ := x
      rw [h1] at h
      obtain ⟨c1, r1, rfl, hR, rfl, hc1⟩ := hf.ok hat hP h1
      rw [hc1 it2 r1 hat2]
      exact (hg v).fail hat.adv hat2.adv (hPQ _ _ _ hR hP) h
    | throw e' =>
      rw [h1] at h
      rw [hf.fail hat hat2 hP h1]
      exact h
    | ub => rw [h1] at h; simp [Res.bind] at h
    | fuel => rw [h1] at h; simp [Res.bind] at h

theorem LocalOp.map {α β : Type} {P : Bytes → Prop} {R : Bytes → α → Prop} {T : Bytes → β → Prop}
    {f : It → Res (α × It)} (hf : LocalOp P R f) (g : α → β) (hT : ∀ c v, R c v → T c (g v)) :
    LocalOp P T (fun it => f it >>= fun x => .ok (g x.1, x.2)) := by
  constructor
  · intro it it' r w hat hP h
    simp only [Res.bind_eq, Res.bind_eq_ok, Res.ok.injEq] at h
    obtain ⟨⟨v, it1⟩, h1, h2⟩ := h
    obtain ⟨c1, r1, rfl, hR, rfl, hc1⟩ := hf.ok hat hP h1
    simp only [Prod.mk.injEq] at h2
    obtain ⟨rfl, rfl⟩ := h2
    refine ⟨c1, r1, rfl, hT _ _ hR, rfl, fun it2 post hat2 => ?_⟩
    simp only [Res.bind_eq, Res.bind_eq_ok, Res.ok.injEq]
    exact ⟨_, hc1 it2 post hat2, rfl⟩
  · intro it it2 r e hat hat2 hP h
    simp only [Res.bind_eq] at h ⊢
    cases h1 : f it with
    | ok x => rw [h1] at h; simp [Res.bind] at h
    | throw e' => rw [h1] at h; rw [hf.fail hat hat2 hP h1]; exact h
    | ub => rw [h1] at h; simp [Res.bind] at h
    | fuel => rw [h1] at h; simp [Res.bind] at h

theorem LocalOp.weaken {α : Type} {P P' : Bytes → Prop} {R R' : Bytes → α → Prop} {f : It → Res (α × It)}
    (hf : LocalOp P R f) (hP : ∀ r, P' r → P r) (hR : ∀ c v, R c v → R' c v) : LocalOp P' R' f :=
  ⟨fun hat h' h => by
      obtain ⟨c, r', h1, h2, h3⟩ := hf.ok hat (hP _ h') h
      exact ⟨c, r', h1, hR _ _ h2, h3⟩,
   fun hat hat2 h' h => hf.fail hat hat2 (hP _ h') h⟩

/-! ### Varints -/

theorem varintLoop_inv {w : Nat} {bs : Bytes} {value k v n : Nat}
    (h : varintLoop w bs value k = .ok (v, n)) :
    ∃ l rest N, bs = l ++ rest ∧ l.length = n ∧ IsVarint l N ∧ k + 7 * n ≤ 70 := by
  induction bs generalizing value k v n with
  | nil =>
    simp only [varintLoop] at h
    split at h <;> simp at h
  | cons b tl ih =>
    simp only [varintLoop] at h
    split at h
    · simp at h
    · split at h
      · rename_i hk hb
        simp only [Res.ok.injEq, Prod.mk.injEq] at h
        obtain ⟨_, rfl⟩ := h
        rw [and80 _ (u8_lt b)] at hb
        refine ⟨[b], tl, b.toNat, rfl, rfl, .last b ?_, by omega⟩
        split at hb <;> omega
      · rename_i hk hb
        simp only [Res.bind_eq, Res.bind_eq_ok, Res.ok.injEq] at h
        obtain ⟨⟨v', n'⟩, h1, h2⟩ := h
        simp only [Prod.mk.injEq] at h2
        obtain ⟨_, rfl⟩ := h2
        obtain ⟨l, rest, N, rfl, rfl, hv, hle⟩ := ih h1
        rw [and80 _ (u8_lt b)] at hb
        refine ⟨b :: l, rest, _, rfl, rfl, .more b l N ?_ hv, by omega⟩
        split at hb <;> omega

theorem deserializeVarint_local {w : Nat} (hw : w ≤ 64) :
    LocalOp (fun _ => True) (fun c v => ∃ N, Varint c N ∧ v = N % 2 ^ w) (deserializeVarint w) := by
  constructor
  · intro it it' r v hat _ h
    simp only [deserializeVarint, Res.bind_eq, Res.bind_eq_ok, Res.ok.injEq, Prod.mk.injEq] at h
    obtain ⟨⟨v', n⟩, h1, rfl, rfl⟩ := h
    obtain ⟨l, rest, N, hl, rfl, hv, hle⟩ := varintLoop_inv h1
    have hvar : Varint l N := ⟨hv, by omega⟩
    have h2 := deserializeVarint_of hw hvar hl
    simp only [deserializeVarint, h1, Res.bind_eq, Res.bind, Res.ok.injEq, Prod.mk.injEq] at h2
    refine ⟨l, rest, hat.2.2.symm.trans hl, ⟨N, hvar, h2.1⟩, rfl, fun it2 post hat2 => ?_⟩
    rw [deserializeVarint_of hw hvar hat2.2.2]
    rw [h2.1]
  · intro it it2 r e hat hat2 _ h
    simp only [deserializeVarint, hat.2.2, hat2.2.2, Res.bind_eq] at h ⊢
    cases h1 : varintLoop w r 0 0 <;> rw [h1] at h <;> simp [Res.bind] at h ⊢
    exact h

theorem Spec.Varint.pos {l : Bytes} {n : Nat} (h : Varint l n) : 0 < l.length := h.1.length_pos

/-! ### Fixed width and length delimited values -/

theorem add_nat {it : It} {r : Bytes} (hat : At it r) (n : Nat) :
    it.add (n : Int) = if n ≤ r.length then .ok ⟨it.data, it.pos + n⟩ else .throw .outOfRange := by
  have hl := hat.len
  have := hat.1
  unfold It.add
  simp only
  split
  · omega
  · split
    · rw [if_neg (by omega)]
    · rw [if_neg (by omega), if_pos (by omega)]
      congr 2

theorem deserializeFixed_local {n : Nat} :
    LocalOp (fun _ => True) (fun c _ => c.length = n) (deserializeFixed n) := by
  constructor
  · intro it it' r v hat _ h
    unfold deserializeFixed at h
    split at h
    · simp at h
    · rw [add_nat hat] at h
      split at h
      · rename_i hle
        simp only [Res.bind_eq, Res.bind, Res.ok.injEq, Prod.mk.injEq] at h
        obtain ⟨rfl, rfl⟩ := h
        have hlen : (r.take n).length = n := by simp; omega
        refine ⟨r.take n, r.drop n, by simp, hlen, by simp only [hlen], fun it2 post hat2 => ?_⟩
        have hl2 : it2.left = (r.take n ++ post).length := by rw [It.left_eq, hat2.2.2]
        simp only [List.length_append, hlen] at hl2
        unfold deserializeFixed
        rw [if_neg (by omega), add_nat hat2, if_pos (by simp; omega)]
        simp only [Res.bind_eq, Res.bind, hlen, hat2.2.2, hat.2.2]
        rw [List.take_append_of_le_length (by omega)]
        congr 3
        rw [List.take_of_length_le (by omega)]
      · simp at h
  · intro it it2 r e hat hat2 _ h
    unfold deserializeFixed at h ⊢
    rw [It.left_eq, hat.2.2] at h
    rw [It.left_eq, hat2.2.2]
    split at h
    · simp at h
    · rename_i hc
      rw [if_neg hc]
      rw [add_nat hat] at h
      rw [add_nat hat2]
      split at h
      · simp at h
      · rename_i hc2
        rw [if_neg hc2]; exact h

theorem toInt32_nonneg {n : Nat} (h : n < 2 ^ 31) : ¬ toInt32 n < 0 ∧ toInt32 n = (n : Int) := by
  rw [toInt32_of_lt h]; exact ⟨by omega, rfl⟩

/-- The part of `deserializeLengthDelimited` behind the length. -/
theorem body_local (len : Nat) (hlen : len < 2 ^ 31) : LocalOp (fun _ => True)
    (fun c (v : Bytes) => v = c ∧ c.length = len) (fun it =>
      if (it.left : Int) + 1 < toInt32 len then .ub
      else it.add (toInt32 len) >>= fun it' => .ok (it.rest.take len, it')) := by
  rw [toInt32_of_lt hlen]
  constructor
  · intro it it' r v hat _ h
    split at h
    · simp at h
    · rw [add_nat hat] at h
      split at h
      · rename_i hle
        simp only [Res.bind_eq, Res.bind, Res.ok.injEq, Prod.mk.injEq] at h
        obtain ⟨rfl, rfl⟩ := h
        have hl : (r.take len).length = len := by simp; omega
        refine ⟨r.take len, r.drop len, by simp, ⟨by rw [hat.2.2], hl⟩, by simp only [hl],
          fun it2 post hat2 => ?_⟩
        have hl2 : it2.left = (r.take len ++ post).length := by rw [It.left_eq, hat2.2.2]
        simp only [List.length_append, hl] at hl2
        rw [if_neg (by omega), add_nat hat2, if_pos (by simp; omega)]
        simp only [Res.bind_eq, Res.bind, hl, hat2.2.2, hat.2.2]
        rw [List.take_append_of_le_length (by omega)]
        congr 2
        rw [List.take_of_length_le (by omega)]
      · simp at h
  · intro it it2 r e hat hat2 _ h
    rw [It.left_eq, hat.2.2] at h
    rw [It.left_eq, hat2.2.2]
    split at h
    · simp at h
    · rename_i hc
      rw [if_neg hc]
      rw [add_nat hat] at h
      rw [add_nat hat2]
      split at h
      · simp at h
      · rename_i hc2
        rw [if_neg hc2]; exact h

theorem LocalOp.congr {α : Type} {P : Bytes → Prop} {R : Bytes → α → Prop} {f g : It → Res (α × It)}
    (hf : LocalOp P R f) (h : ∀ it, f it = g it) : LocalOp P R g := by
  have : f = g := funext h
  rw [← this]; exact hf

theorem lenOk_of {c r' : Bytes} {N : Nat} (hv : Varint c N) (h : LenOk (c ++ r')) : N % 2 ^ 32 < 2 ^ 31 :=
  h c N r' rfl hv

/-- `False` as precondition allows anything. -/
theorem LocalOp.absurd {α : Type} {R : Bytes → α → Prop} (f : It → Res (α × It)) :
    LocalOp (fun _ => False) R f :=
  ⟨fun _ h => h.elim, fun _ _ h => h.elim⟩

theorem deserializeLengthDelimited_local :
    LocalOp LenOk (fun c v => ∃ l N, c = l ++ v ∧ Varint l N ∧ v.length = N % 2 ^ 32)
      deserializeLengthDelimited := by
  have h1 := deserializeVarint_local (w := 32) (by omega)
  refine LocalOp.congr
    (LocalOp.bind (g := fun (len : Nat) (it : It) =>
      if toInt32 len < 0 then it.add (toInt32 len) >>= fun it' => .ok (it.rest.takeWhile (· ≠ 0), it')
      else if (it.left : Int) + 1 < toInt32 len then .ub
      else it.add (toInt32 len) >>= fun it' => .ok (it.rest.take len, it')) (Q := fun len _ => len < 2 ^ 31) (S := fun len c (v : Bytes) => v = c ∧ c.length = len) (h1.weaken
      (P' := LenOk) (fun _ _ => trivial) (fun c v h => h)) ?_ ?_ ?_) ?_
  · intro len
    by_cases hlen : len < 2 ^ 31
    · refine ((body_local len hlen).weaken (fun _ _ => trivial) (fun c v h => h)).congr fun it => ?_
      rw [if_neg (toInt32_nonneg hlen).1]
    · exact (LocalOp.absurd _).weaken (fun r h => hlen h) (fun _ _ h => h)
  · rintro c v r' ⟨N, hv, rfl⟩ hP
    exact lenOk_of hv hP
  · rintro c1 c2 v w ⟨N, hv, rfl⟩ ⟨rfl, hl⟩
    exact ⟨c1, N, rfl, hv, hl⟩
  · intro it
    rfl

/-- Precondition for reading a scalar. -/
def BasicOk (k : Kind) (r : Bytes) : Prop := hasLength (.scalar k) → LenOk r

theorem deserializeBasic_whole (k : Kind) :
    LocalOp (BasicOk k) (fun c _ => WholeScalar k c) (deserializeBasic env k) := by
  have h32 := deserializeVarint_local (w := 32) (by omega)
  have h64 := deserializeVarint_local (w := 64) (by omega)
  have hf4 := deserializeFixed_local (n := 4)
  have hf8 := deserializeFixed_local (n := 8)
  have hld := deserializeLengthDelimited_local
  have f4 : wireType k = 5 → LocalOp (BasicOk k) (fun c (_ : Scalar) => WholeScalar k c)
      (fun it => deserializeFixed 4 it >>= fun x => .ok (Scalar.w32 (BitVec.ofNat 32 x.1), x.2)) :=
    fun hw => (hf4.map (fun v => Scalar.w32 (BitVec.ofNat 32 v)) (fun c v h => .fixed32 hw h)).weaken (fun _ _ => trivial)
      (fun _ _ h => h)
  have f8 : wireType k = 1 → LocalOp (BasicOk k) (fun c (_ : Scalar) => WholeScalar k c)
      (fun it => deserializeFixed 8 it >>= fun x => .ok (Scalar.w64 (BitVec.ofNat 64 x.1), x.2)) :=
    fun hw => (hf8.map (fun v => Scalar.w64 (BitVec.ofNat 64 v)) (fun c v h => .fixed64 hw h)).weaken (fun _ _ => trivial)
      (fun _ _ h => h)
  have v32 : wireType k = 0 → ∀ g : Nat → Scalar, LocalOp (BasicOk k) (fun c (_ : Scalar) => WholeScalar k c)
      (fun it => deserializeVarint 32 it >>= fun x => .ok (g x.1, x.2)) := fun hw g =>
    (h32.map g (T := fun c _ => WholeScalar k c) (fun c v h => by obtain ⟨N, hv, _⟩ := h; exact .varint hw hv)).weaken
      (fun _ _ => trivial) (fun _ _ h => h)
  have v64 : wireType k = 0 → ∀ g : Nat → Scalar, LocalOp (BasicOk k) (fun c (_ : Scalar) => WholeScalar k c)
      (fun it => deserializeVarint 64 it >>= fun x => .ok (g x.1, x.2)) := fun hw g =>
    (h64.map g (T := fun c _ => WholeScalar k c) (fun c v h => by obtain ⟨N, hv, _⟩ := h; exact .varint hw hv)).weaken
      (fun _ _ => trivial) (fun _ _ h => h)
  have ld : hasLength (.scalar k) → wireType k = 2 → ∀ g : Bytes → Scalar, LocalOp (BasicOk k) (fun c (_ : Scalar) => WholeScalar k c)
      (fun it => deserializeLengthDelimited it >>= fun x => .ok (g x.1, x.2)) := fun hk hw g =>
    (hld.map g (T := fun c _ => WholeScalar k c) (fun c v h => by
      obtain ⟨l, N, rfl, hv, hl⟩ := h; exact .lengthDelimited hw hv hl)).weaken
      (fun _ h => h hk) (fun _ _ h => h)
  cases k
  case double => exact (f8 rfl).congr fun it => rfl
  case float => exact (f4 rfl).congr fun it => rfl
  case fixed32 => exact (f4 rfl).congr fun it => rfl
  case sfixed32 => exact (f4 rfl).congr fun it => rfl
  case fixed64 => exact (f8 rfl).congr fun it => rfl
  case sfixed64 => exact (f8 rfl).congr fun it => rfl
  case int32 => exact (v32 rfl fun v => .w32 (BitVec.ofNat 32 v)).congr fun it => rfl
  case uint32 => exact (v32 rfl fun v => .w32 (BitVec.ofNat 32 v)).congr fun it => rfl
  case int64 => exact (v64 rfl fun v => .w64 (BitVec.ofNat 64 v)).congr fun it => rfl
  case uint64 => exact (v64 rfl fun v => .w64 (BitVec.ofNat 64 v)).congr fun it => rfl
  case sint32 => exact (v32 rfl fun v => .w32 (unzigzag (BitVec.ofNat 32 v))).congr fun it => rfl
  case sint64 => exact (v64 rfl fun v => .w64 (unzigzag (BitVec.ofNat 64 v))).congr fun it => rfl
  case bool => exact (v32 rfl fun v => .bool (v != 0)).congr fun it => rfl
  case string => exact (ld (Or.inl rfl) rfl fun b => .str (some (env.fromUtf8 b))).congr fun it => rfl
  case bytes => exact (ld (Or.inr rfl) rfl fun b => .bytes (some b)).congr fun it => rfl

theorem Spec.WholeScalar.pos {k : Kind} {c : Bytes} (h : WholeScalar k c) : 0 < c.length := by
  cases h with
  | varint _ hv => exact hv.pos
  | fixed32 _ h => omega
  | fixed64 _ h => omega
  | lengthDelimited _ hv _ => have := hv.pos; simp only [List.length_append]; omega

theorem deserializeBasic_local (k : Kind) :
    LocalOp (BasicOk k) (fun c _ => 0 < c.length) (deserializeBasic env k) :=
  (deserializeBasic_whole k).weaken (fun _ h => h) (fun _ _ h => h.pos)

theorem deserializeEnum_local :
    LocalOp (fun _ => True) (fun c _ => 0 < c.length) deserializeEnum :=
  ((deserializeVarint_local (w := 64) (by omega)).map (fun v => enumOfInt64 (BitVec.ofNat 64 v))
    (T := fun c _ => 0 < c.length) (fun c v h => by obtain ⟨N, hv, _⟩ := h; exact hv.pos)).congr
    fun it => rfl

theorem decodeHeader_local : LocalOp (fun _ => True)
    (fun c h => ∃ t, Varint c t ∧ h.num = t % 2 ^ 32 / 8 ∧ h.wt = t % 8) decodeHeader := by
  refine ((deserializeVarint_local (w := 32) (by omega)).map splitHeader (fun c v h => ?_)).congr
    fun it => rfl
  obtain ⟨N, hv, rfl⟩ := h
  refine ⟨N, hv, shr3 _, ?_⟩
  simp only [splitHeader, and7]
  omega

/-! ### Budgets -/

/-- With a budget that exceeds the number of remaining bytes, `f` does not run out of steps. -/
def Ends {α : Type} (B : Nat) (P : Bytes → Prop) (f : It → Res α) : Prop :=
  ∀ it r, At it r → P r → r.length < B → f it ≠ .fuel

theorem Ends.bind {α β : Type} {B : Nat} {P : Bytes → Prop} {R : Bytes → α → Prop} {Q : α → Bytes → Prop}
    {f : It → Res (α × It)} {g : α → It → Res β} (hf : LocalOp P R f) (he : Ends B P f)
    (hg : ∀ v, Ends B (Q v) (g v)) (hPQ : ∀ c v r', R c v → P (c ++ r') → Q v r') :
    Ends B P (fun it => f it >>= fun x => g x.1 x.2) := by
  intro it r hat hP hB h
  simp only [Res.bind_eq] at h
  cases h1 : f it with
  | ok x =>
    obtain ⟨v, it1⟩ := x
    obtain ⟨c, r', rfl, hR, rfl, _⟩ := hf.ok hat hP h1
    rw [h1] at h
    exact hg v _ _ hat.adv (hPQ _ _ _ hR hP) (by simp only [List.length_append] at hB; omega) h
  | throw e => rw [h1] at h; simp [Res.bind] at h
  | ub => rw [h1] at h; simp [Res.bind] at h
  | fuel => exact he it r hat hP hB h1

theorem bind_ne_fuel {α β : Type} {x : Res α} {f : α → Res β} (h1 : x ≠ .fuel)
    (h2 : ∀ a, x = .ok a → f a ≠ .fuel) : (x >>= f) ≠ .fuel := by
  cases x with
  | ok a => exact h2 a rfl
  | fuel => exact absurd rfl h1
  | _ => simp [Res.bind_eq, Res.bind]

theorem varintLoop_ends (w : Nat) (bs : Bytes) (value k : Nat) : varintLoop w bs value k ≠ .fuel := by
  induction bs generalizing value k with
  | nil => simp only [varintLoop]; split <;> simp
  | cons b tl ih =>
    simp only [varintLoop]
    split
    · simp
    · split
      · simp
      · exact bind_ne_fuel (ih _ _) (fun _ _ => by simp)

theorem deserializeVarint_ends (w : Nat) (it : It) : deserializeVarint w it ≠ .fuel := by
  simp only [deserializeVarint, Res.bind_eq]
  have := varintLoop_ends w it.rest 0 0
  cases h1 : varintLoop w it.rest 0 0 <;> simp_all [Res.bind]

theorem add_ends (it : It) (n : Int) : it.add n ≠ .fuel := by
  unfold It.add
  simp only
  repeat' split
  all_goals simp

theorem deserializeFixed_ends (n : Nat) (it : It) : deserializeFixed n it ≠ .fuel := by
  unfold deserializeFixed
  split
  · simp
  · simp only [Res.bind_eq]
    have := add_ends it n
    cases h1 : it.add (n : Int) <;> simp_all [Res.bind]

theorem deserializeLengthDelimited_ends (it : It) : deserializeLengthDelimited it ≠ .fuel := by
  simp only [deserializeLengthDelimited, Res.bind_eq]
  have := deserializeVarint_ends 32 it
  cases h1 : deserializeVarint 32 it with
  | ok x =>
    obtain ⟨len, it⟩ := x
    simp only [Res.bind]
    have := add_ends it (toInt32 len)
    cases h2 : it.add (toInt32 len) <;> repeat' split
    all_goals simp_all
  | _ => simp_all [Res.bind]

theorem deserializeBasic_ends (k : Kind) (it : It) : deserializeBasic env k it ≠ .fuel := by
  have h1 := deserializeVarint_ends 32 it
  have h2 := deserializeVarint_ends 64 it
  have h3 := deserializeFixed_ends 4 it
  have h4 := deserializeFixed_ends 8 it
  have h5 := deserializeLengthDelimited_ends it
  cases k <;> simp only [deserializeBasic] <;>
    first
    | exact bind_ne_fuel h1 (fun _ _ => by simp)
    | exact bind_ne_fuel h2 (fun _ _ => by simp)
    | exact bind_ne_fuel h3 (fun _ _ => by simp)
    | exact bind_ne_fuel h4 (fun _ _ => by simp)
    | exact bind_ne_fuel h5 (fun _ _ => by simp)

theorem decodeHeader_ends (it : It) : decodeHeader it ≠ .fuel := by
  simp only [decodeHeader, Res.bind_eq]
  have := deserializeVarint_ends 32 it
  cases h1 : deserializeVarint 32 it <;> simp_all [Res.bind]

theorem deserializeEnum_ends (it : It) : deserializeEnum it ≠ .fuel := by
  simp only [deserializeEnum, Res.bind_eq]
  have := deserializeVarint_ends 64 it
  cases h1 : deserializeVarint 64 it <;> simp_all [Res.bind]

/-! ### Loops up to an end position -/

/-- Repeat `step` until the position is `last`. -/
def stepLoop {σ : Type} (step : σ → It → Res (σ × It)) (last : Nat) : Nat → σ → It → Res (σ × It)
  | 0, _, _ => .fuel
  | n + 1, s, it =>
    if it.pos = last then .ok (s, it)
    else step s it >>= fun x => stepLoop step last n x.1 x.2

section
variable {σ : Type} {step : σ → It → Res (σ × It)} {P : Bytes → Prop}

theorem stepLoop_ok (hstep : ∀ s, LocalOp P (fun c _ => 0 < c.length) (step s))
    (hP : ∀ c r, P (c ++ r) → P r) {last n : Nat} {s s' : σ} {it it' : It} {r : Bytes} (hat : At it r)
    (hr : P r) (h : stepLoop step last n s it = .ok (s', it')) :
    ∃ c r', r = c ++ r' ∧ it.pos + c.length = last ∧ it' = ⟨it.data, last⟩ ∧ ∀ it2 post,
      At it2 (c ++ post) →
      stepLoop step (it2.pos + c.length) n s it2 = .ok (s', ⟨it2.data, it2.pos + c.length⟩) := by
  induction n generalizing s it r with
  | zero => simp [stepLoop] at h
  | succ n ih =>
    simp only [stepLoop] at h
    split at h
    · rename_i hl
      simp only [Res.ok.injEq, Prod.mk.injEq] at h
      obtain ⟨rfl, rfl⟩ := h
      subst hl
      refine ⟨[], r, rfl, rfl, rfl, fun it2 post hat2 => ?_⟩
      simp [stepLoop]
    · simp only [Res.bind_eq, Res.bind_eq_ok] at h
      obtain ⟨⟨s1, it1⟩, h1, h2⟩ := h
      obtain ⟨c, r1, rfl, hc, rfl, hloc⟩ := (hstep s).ok hat hr h1
      obtain ⟨c2, r2, rfl, hlast, rfl, hloc2⟩ := ih hat.adv (hP _ _ hr) h2
      simp only at hlast
      refine ⟨c ++ c2, r2, by simp, by simp; omega, by simp, fun it2 post hat2 => ?_⟩
      rw [List.append_assoc] at hat2
      simp only [stepLoop]
      rw [if_neg (by simp only [List.length_append]; omega), hloc _ _ hat2]
      have := hloc2 _ post hat2.adv
      simp only [Res.bind_eq, Res.bind, List.length_append]
      simpa [Nat.add_assoc] using this

theorem stepLoop_fail (hstep : ∀ s, LocalOp P (fun c _ => 0 < c.length) (step s))
    (hP : ∀ c r, P (c ++ r) → P r) {last last2 n : Nat} {s : σ} {it it2 : It} {r : Bytes} {e : Exn}
    (hat : At it r) (hat2 : At it2 r) (hr : P r) (hl : (last : Int) - it.pos = last2 - it2.pos)
    (h : stepLoop step last n s it = .throw e) : stepLoop step last2 n s it2 = .throw e := by
  induction n generalizing s it it2 r with
  | zero => simp [stepLoop] at h
  | succ n ih =>
    simp only [stepLoop] at h ⊢
    split at h
    · simp at h
    · rw [if_neg (by omega)]
      simp only [Res.bind_eq] at h ⊢
      cases h1 : step s it with
      | ok x =>
        obtain ⟨s1, it1⟩ := x
        rw [h1] at h
        obtain ⟨c, r1, rfl, hc, rfl, hloc⟩ := (hstep s).ok hat hr h1
        rw [hloc _ _ hat2]
        exact ih hat.adv hat2.adv (hP _ _ hr) (by simp only; omega) h
      | throw e' =>
        rw [h1] at h
        rw [(hstep s).fail hat hat2 hr h1]
        exact h
      | ub => rw [h1] at h; simp [Res.bind] at h
      | fuel => rw [h1] at h; simp [Res.bind] at h

theorem stepLoop_ends (hstep : ∀ s, LocalOp P (fun c _ => 0 < c.length) (step s))
    (hP : ∀ c r, P (c ++ r) → P r) {B : Nat} (he : ∀ s, Ends B P (step s)) {last n : Nat} {s : σ} {it : It}
    {r : Bytes} (hat : At it r) (hr : P r) (hB : r.length < B) (hn : r.length < n) :
    stepLoop step last n s it ≠ .fuel := by
  induction n generalizing s it r with
  | zero => omega
  | succ n ih =>
    simp only [stepLoop]
    split
    · simp
    · simp only [Res.bind_eq]
      cases h1 : step s it with
      | ok x =>
        obtain ⟨s1, it1⟩ := x
        obtain ⟨c, r1, rfl, hc, rfl, hloc⟩ := (hstep s).ok hat hr h1
        simp only [List.length_append] at hB hn
        exact ih hat.adv (hP _ _ hr) (by omega) (by omega)
      | throw e' => simp [Res.bind]
      | ub => simp [Res.bind]
      | fuel => exact absurd h1 (he s it r hat hr hB)

theorem stepLoop_mono {last n n' : Nat} {s : σ} {it : It} (hn : n ≤ n')
    (h : stepLoop step last n s it ≠ .fuel) : stepLoop step last n' s it = stepLoop step last n s it := by
  induction n generalizing n' s it with
  | zero => simp [stepLoop] at h
  | succ n ih =>
    obtain ⟨k, rfl⟩ : ∃ k, n' = k + 1 := ⟨n' - 1, by omega⟩
    simp only [stepLoop] at h ⊢
    split
    · rfl
    · rename_i hl
      rw [if_neg hl] at h
      simp only [Res.bind_eq] at h ⊢
      cases h1 : step s it with
      | ok x =>
        rw [h1] at h
        exact ih (by omega) h
      | throw e' => rfl
      | ub => rfl
      | fuel => rfl

/-- A length, the check that so many bytes are left, and a loop up to that position. -/
def lengthLoop (step : σ → It → Res (σ × It)) (n : Nat) (s : σ) (it : It) : Res (σ × It) :=
  deserializeVarint 32 it >>= fun x => x.2.plus (toInt32 x.1) >>= fun last => stepLoop step last.pos n s x.2

theorem lengthLoop_local (hstep : ∀ s, LocalOp P (fun c _ => 0 < c.length) (step s))
    (hP : ∀ c r, P (c ++ r) → P r) (n : Nat) (s : σ) :
    LocalOp (fun r => P r ∧ LenOk r) (fun c _ => 0 < c.length) (lengthLoop step n s) := by
  refine LocalOp.bind (g := fun len it => it.plus (toInt32 len) >>= fun last => stepLoop step last.pos n s it)
    (Q := fun len r => len < 2 ^ 31 ∧ P r) (S := fun _ _ _ => True)
    ((deserializeVarint_local (w := 32) (by omega)).weaken (fun _ _ => trivial) (fun _ _ h => h)) ?_ ?_ ?_
  · intro len
    constructor
    · intro it it' r s' hat ⟨hlen, hr⟩ h
      rw [toInt32_of_lt hlen, It.plus, add_nat hat] at h
      split at h
      · simp only [Res.bind_eq, Res.bind] at h
        rename_i hle
        obtain ⟨c, r', rfl, hc, rfl, hloc⟩ := stepLoop_ok hstep hP hat hr h
        have hcl : c.length = len := by omega
        subst hcl
        refine ⟨c, r', rfl, trivial, rfl, fun it2 post hat2 => ?_⟩
        rw [toInt32_of_lt hlen, It.plus, add_nat hat2, if_pos (by simp)]
        exact hloc it2 post hat2
      · simp [Res.bind_eq, Res.bind] at h
    · intro it it2 r e hat hat2 ⟨hlen, hr⟩ h
      rw [toInt32_of_lt hlen, It.plus, add_nat hat] at h
      rw [toInt32_of_lt hlen, It.plus, add_nat hat2]
      split at h
      · rename_i hle
        rw [if_pos hle]
        exact stepLoop_fail hstep hP hat hat2 hr (by simp only; omega) h
      · rename_i hle
        rw [if_neg hle]; exact h
  · rintro c v r' ⟨N, hv, rfl⟩ ⟨h1, h2⟩
    exact ⟨lenOk_of hv h2, hP _ _ h1⟩
  · rintro c1 c2 v w ⟨N, hv, rfl⟩ _
    have := hv.pos
    simp only [List.length_append]; omega

theorem lengthLoop_ends (hstep : ∀ s, LocalOp P (fun c _ => 0 < c.length) (step s))
    (hP : ∀ c r, P (c ++ r) → P r) {B : Nat} (he : ∀ s, Ends B P (step s)) {n : Nat} {s : σ} {it : It}
    {r : Bytes} (hat : At it r) (hr : P r) (hB : r.length < B) (hn : r.length ≤ n) :
    lengthLoop step n s it ≠ .fuel := by
  simp only [lengthLoop, Res.bind_eq]
  cases h1 : deserializeVarint 32 it with
  | ok x =>
    obtain ⟨len, it1⟩ := x
    obtain ⟨c, r', rfl, ⟨N, hv, rfl⟩, rfl, _⟩ :=
      (deserializeVarint_local (w := 32) (by omega)).ok hat trivial h1
    have hpos := hv.pos
    simp only [Res.bind]
    have := add_ends ⟨it.data, it.pos + c.length⟩ (toInt32 (N % 2 ^ 32))
    simp only [It.plus]
    simp only [List.length_append] at hB hn
    split
    · exact stepLoop_ends hstep hP he hat.adv (hP _ _ hr) (by omega) (by omega)
    all_goals simp_all
  | throw e => simp [Res.bind]
  | ub => simp [Res.bind]
  | fuel => exact absurd h1 (deserializeVarint_ends 32 it)

theorem lengthLoop_mono {n n' : Nat} {s : σ} {it : It} (hn : n ≤ n')
    (h : lengthLoop step n s it ≠ .fuel) : lengthLoop step n' s it = lengthLoop step n s it := by
  simp only [lengthLoop, Res.bind_eq] at h ⊢
  cases h1 : deserializeVarint 32 it with
  | ok x =>
    rw [h1] at h
    simp only [Res.bind] at h ⊢
    cases h2 : x.2.plus (toInt32 x.1) with
    | ok last =>
      rw [h2] at h
      exact stepLoop_mono hn h
    | _ => rfl
  | _ => rfl

end

end QtPb
