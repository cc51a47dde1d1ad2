import Verif.InteropLemmas
import Verif.PropsReference
import Verif.PropsRecords
import Verif.PropsCompare
/-
C67: what other protobuf implementations write is read as the same message a reference decoder reads.
-/
namespace QtPb

open Spec

variable {env : Env}

theorem agrees_plain {ty : FieldTy} {a b : Val} (h : Agrees env ty a b) (ha : HasTy env ty a)
    (hb : Plain env ty b) : Plain env ty a ∧ Same env ty a b := by
  unfold Plain at hb ⊢
  induction h with
  | @sc k a b h =>
    cases ha with
    | sc ha =>
    cases hb with
    | sc hb =>
    rcases h with rfl | h
    · exact ⟨.sc hb, .sc (scalarEq_refl hb.2)⟩
    · refine ⟨.sc ⟨ha, ?_⟩, .sc h⟩
      rw [scalarEq_symm] at h
      exact scalarEq_notNaN h hb.1 ha
  | scList k l => exact ⟨hb, Same.refl hb⟩
  | enum e => exact ⟨hb, .enum e⟩
  | enumList l => exact ⟨hb, .enumList l⟩
  | unset m => exact ⟨hb, .unset m⟩
  | @msg m a b hla hlb _ ih =>
    cases ha with
    | msg _ ha =>
    cases hb with
    | msg _ hb =>
    have hx : ∀ {i : Nat} {f : Field} {x : Val}, (env.sch m)[i]? = some f → a[i]? = some x →
        ∃ y, b[i]? = some y := fun _ h2 => getElem?_of_len (hla.trans hlb.symm) h2
    refine ⟨.msg hla fun i f x hf h2 => ?_, .msg fun i f x y hf h2 h3 => ?_⟩
    · obtain ⟨y, hy⟩ := hx hf h2
      exact (ih i f x y hf h2 hy (ha i f x hf h2) (hb i f y hf hy)).1
    · exact (ih i f x y hf h2 h3 (ha i f x hf h2) (hb i f y hf h3)).2
  | @msgList m a b hl hr ih =>
    cases ha with
    | msgList ha =>
    cases hb with
    | msgList hn hb =>
    refine ⟨.msgList (fun v hv => ?_) fun v hv => ?_, .msgList hl fun i x y hx hy =>
      (ih i x y hx hy (ha x (List.mem_of_getElem? hx)) (hb y (List.mem_of_getElem? hy))).2⟩
    · obtain ⟨i, hi⟩ := List.getElem?_of_mem hv
      obtain ⟨y, hy⟩ := getElem?_of_len hl hi
      intro e
      subst e
      have := hr i _ y hi hy
      have hny := hn y (List.mem_of_getElem? hy)
      cases this
      exact hny rfl
    · obtain ⟨i, hi⟩ := List.getElem?_of_mem hv
      obtain ⟨y, hy⟩ := getElem?_of_len hl hi
      exact (ih i v y hi hy (ha v hv) (hb y (List.mem_of_getElem? hy))).1
  | @map kk vt a b hk hr ih =>
    cases ha with
    | map ka ha hs =>
    cases hb with
    | map kb hn hb hsb =>
    have hl : a.length = b.length := by
      have := congrArg List.length hk
      simpa using this
    have key : ∀ (i : Nat) (x y : Scalar × Val), a[i]? = some x → b[i]? = some y → x.1 = y.1 := by
      intro i x y hx hy
      have := congrArg (fun l => l[i]?) hk
      simpa [hx, hy] using this
    refine ⟨.map (fun e he => ?_) (fun e he => ?_) (fun e he => ?_) hs, .map hl
      (fun i x y hx hy => ?_) fun i x y hx hy =>
      (ih i x y hx hy (ha x (List.mem_of_getElem? hx)) (hb y (List.mem_of_getElem? hy))).2⟩
    · obtain ⟨i, hi⟩ := List.getElem?_of_mem he
      obtain ⟨y, hy⟩ := getElem?_of_len hl hi
      rw [key i e y hi hy]
      exact kb y (List.mem_of_getElem? hy)
    · obtain ⟨i, hi⟩ := List.getElem?_of_mem he
      obtain ⟨y, hy⟩ := getElem?_of_len hl hi
      have h1 := hr i e y hi hy
      have h2 := hn y (List.mem_of_getElem? hy)
      intro e'
      rw [e'] at h1
      revert h1 h2
      generalize y.2 = q
      intro h1 h2
      cases vt <;> simp only [MapVal.toTy] at h1 <;> cases h1
      exact h2 rfl
    · obtain ⟨i, hi⟩ := List.getElem?_of_mem he
      obtain ⟨y, hy⟩ := getElem?_of_len hl hi
      exact (ih i e y hi hy (ha e he) (hb y (List.mem_of_getElem? hy))).1
    · rw [key i x y hx hy]
      exact ⟨keyLt_irrefl _ _, keyLt_irrefl _ _⟩

/-- C67, the part that holds: a usual encoding of a message (records of known and unknown fields in
any order, varints of any length, every record of a field with the field's wire type, packed numbers
and sub-messages in one record each) is accepted by the library and by the reference decoder, and both
read the same message (`Agrees`).

Missing: encodings that protobuf allows and that are not usual, see `C67_unpacked_violated`,
`C67_merge_violated`, `C67_wire_type_violated`, `C67_entry_violated` and `C11_split_violated`. -/
theorem C67_usual_partial (hv : ValidSchema env) {d m n : Nat} {bs : Bytes} (h : Usual env d m bs)
    (hlen : bs.length < 2 ^ 31) (hn : bs.length < n) :
    ∃ o2 o, deserializeMessage env n m bs = (.ok (), o2) ∧ Ref.decode env m bs = some o ∧
      Agrees env (.msg m) (.msg o2) (.msg o) := by
  obtain ⟨o2, o, h1, h2, h3⟩ := message_usual hv (d' := bs.length + 1) h hlen (Nat.lt_succ_self _)
  exact ⟨o2, o, deserializeMessage_of_message hv h1 hlen hn, h2, h3⟩

/-- C67 for the public `deserialize` into a new message: when the reference message has no NaN, the
target is the same message (and so equal by the generated `operator==`). -/
theorem C67_target_partial (hv : ValidSchema env) {d m n : Nat} {bs : Bytes} (h : Usual env d m bs)
    (hlen : bs.length < 2 ^ 31) (hn : bs.length < n) :
    ∃ o, Ref.decode env m bs = some o ∧ (Plain env (.msg m) (.msg o) →
      ∃ K, ∀ k, K ≤ k → ∃ r, deserialize env n k m bs (defaultObj env m) = ⟨.ok (), .ok r⟩ ∧
        Same env (.msg m) (.msg r) (.msg o) ∧ ∃ N, ∀ j, N ≤ j → objEq env j m r o = .ok true) := by
  obtain ⟨o2, o, h1, h2, h3⟩ := C67_usual_partial hv h hlen hn
  refine ⟨o, h2, fun hp => ?_⟩
  have hty : HasTy env (.msg m) (.msg o2) := by
    have := deserializeMessage_typed (env := env) n m bs
    rwa [h1] at this
  obtain ⟨hp2, hsame⟩ := agrees_plain h3 hty hp
  obtain ⟨K, hK⟩ := target_fresh h1 (Plain.safe hp2)
  refine ⟨K, fun k hk => ?_⟩
  obtain ⟨r, e1, e2, e3⟩ := hK k hk
  have hs := Same.trans (e2.toSame hp2) hsame e3 (Plain.safe hp2) (Plain.safe hp)
  exact ⟨r, e1, hs, same_equal hs e3 (Plain.safe hp)⟩

/-- A varint payload of one byte. -/
theorem payload1 (b : UInt8) (n : Nat) (h : b.toNat = n) (hb : n < 128) : PayloadIs 0 [b] (.varint n) :=
  .varint (varint1 b n h hb) (by omega)

/-- A length delimited payload with a length of one byte. -/
theorem payload2 (b : UInt8) (body : Bytes) (h : b.toNat = body.length) (hb : body.length < 128) :
    PayloadIs 2 (b :: body) (.delimited body) :=
  .delimited (l := [b]) (varint1 b body.length h hb)

/-- Field 3 (`repeated sint32`) in a packed record, the unknown field 12, field 6 (a message) and two
map entries (the second without value) are a usual encoding. -/
example : Usual demoEnv 2 0 ([0x1a] ++ [2, 1, 2] ++ ([0x65] ++ [1, 2, 3, 4] ++ ([0x32] ++ [3, 0x22, 1, 7]
    ++ ([0x42] ++ [5, 0x0a, 1, 97, 0x10, 5] ++ ([0x42] ++ [3, 0x0a, 1, 98] ++ []))))) := by
  refine ⟨[(3, .delimited [1, 2]), (12, .fixed32 (Ref.littleEndian [1, 2, 3, 4])),
    (6, .delimited [0x22, 1, 7]), (8, .delimited [0x0a, 1, 97, 0x10, 5]), (8, .delimited [0x0a, 1, 98])],
    .cons (tag1 0x1a 3 2 (by decide) (by decide) (by decide)) (payload2 2 _ (by decide) (by decide))
    (.cons (tag1 0x65 12 5 (by decide) (by decide) (by decide)) (.fixed32 rfl)
    (.cons (tag1 0x32 6 2 (by decide) (by decide) (by decide)) (payload2 3 _ (by decide) (by decide))
    (.cons (tag1 0x42 8 2 (by decide) (by decide) (by decide)) (payload2 5 _ (by decide) (by decide))
    (.cons (tag1 0x42 8 2 (by decide) (by decide) (by decide)) (payload2 3 _ (by decide) (by decide))
      .nil)))), ?_⟩
  intro f hf
  simp only [demoEnv, demoSch, List.mem_cons, List.not_mem_nil, or_false] at hf
  rcases hf with rfl | rfl | rfl | rfl | rfl | rfl | rfl | rfl | rfl | rfl | rfl
  case inr.inr.inl =>
    refine ⟨by decide, fun p hp => ?_⟩
    simp [payloadsOf] at hp
    exact ⟨_, hp, .cons (b := [1]) (payload1 1 1 (by decide) (by decide)) (show (1 : Nat) < 2 ^ 32 by decide)
      (.cons (b := [2]) (payload1 2 2 (by decide) (by decide)) (show (2 : Nat) < 2 ^ 32 by decide) .nil)⟩
  case inr.inr.inr.inr.inl =>
    refine ⟨by decide, fun p hp => ?_⟩
    simp [payloadsOf] at hp
    refine ⟨_, hp, [(4, .delimited [7])], .cons (hdr := [0x22]) (b := [1, 7]) (rest := [])
      (tag1 0x22 4 2 (by decide) (by decide) (by decide)) (payload2 1 _ (by decide) (by decide)) .nil, ?_⟩
    intro g hg
    simp only [demoEnv, demoSch, List.mem_cons, List.not_mem_nil, or_false] at hg
    rcases hg with rfl | rfl
    · simp [UsualField, payloadsOf]
    · simp [UsualField, payloadsOf, Fits]
  case inr.inr.inr.inr.inr.inr.inl =>
    intro p hp
    simp [payloadsOf] at hp
    rcases hp with rfl | rfl
    · exact ⟨_, rfl, [(1, .delimited [97]), (2, .varint 5)],
        .cons (hdr := [0x0a]) (b := [1, 97]) (tag1 0x0a 1 2 (by decide) (by decide) (by decide))
          (payload2 1 _ (by decide) (by decide))
        (.cons (hdr := [0x10]) (b := [5]) (rest := []) (tag1 0x10 2 0 (by decide) (by decide) (by decide))
          (payload1 5 5 (by decide) (by decide)) .nil), by simp [Fits, FitsValue], by simp⟩
    · exact ⟨_, rfl, [(1, .delimited [98])],
        .cons (hdr := [0x0a]) (b := [1, 98]) (rest := []) (tag1 0x0a 1 2 (by decide) (by decide) (by decide))
          (payload2 1 _ (by decide) (by decide)) .nil, by simp [Fits], by simp⟩
  all_goals simp [UsualField, payloadsOf]

/-! ### Encodings that are not usual -/

/-- Negation of C67 for repeated numbers that are not packed: field 3 (`repeated sint32`) with the
element -2, `18 03`. A reference decoder reads the list, the library throws. -/
theorem C67_unpacked_violated :
    Ref.decode demoEnv 0 [0x18, 3] = some ((defaultObj demoEnv 0).set 2 (.scList [.w32 (-2)])) ∧
    (deserializeMessage demoEnv 10 0 [0x18, 3]).1 = .throw .outOfRange := ⟨by rfl, by rfl⟩

/-- An unpacked list can also be accepted and read as other numbers, the bytes of the record that
follows among them: field 3 with the element 1 and field 1 with the number 5. -/
theorem C67_unpacked_garbage_violated :
    Ref.decode demoEnv 0 [0x18, 2, 0x08, 5] =
      some (((defaultObj demoEnv 0).set 2 (.scList [.w32 1])).set 0 (.sc (.w32 5))) ∧
    deserializeMessage demoEnv 10 0 [0x18, 2, 0x08, 5] =
      (.ok (), (defaultObj demoEnv 0).set 2 (.scList [.w32 4, .w32 (-3)])) := ⟨by rfl, by rfl⟩

/-- Negation of C67 for a singular sub-message in two records (a float field in the first, a bytes
field in the second): protobuf merges them, the library keeps only the second. -/
theorem C67_merge_violated :
    Ref.decode demoEnv 0 ([0x32, 5, 0x0d, 0, 0, 0x80, 0x3f] ++ [0x32, 3, 0x22, 1, 7]) =
      some ((defaultObj demoEnv 0).set 4 (.msg [.sc (.w32 0x3f800000), .sc (.bytes (some [7]))])) ∧
    deserializeMessage demoEnv 20 0 ([0x32, 5, 0x0d, 0, 0, 0x80, 0x3f] ++ [0x32, 3, 0x22, 1, 7]) =
      (.ok (), (defaultObj demoEnv 0).set 4 (.msg [.sc (.w32 0), .sc (.bytes (some [7]))])) :=
  ⟨by rfl, by rfl⟩

/-- Negation of C67 for a record of a known field with another wire type (field 1, `int32`, as four
bytes): a decoder has to skip it, the library reads a varint and takes the rest for records. -/
theorem C67_wire_type_violated :
    Ref.decode demoEnv 0 [0x0d, 1, 0x10, 0, 0] = some (defaultObj demoEnv 0) ∧
    (deserializeMessage demoEnv 10 0 [0x0d, 1, 0x10, 0, 0]).1 = .throw .invalidArgument ∧
    Ref.decode demoEnv 0 [0x0d, 1, 0x28, 2, 0x28, 0x28, 3] = some ((defaultObj demoEnv 0).set 3 (.enum 3)) ∧
    deserializeMessage demoEnv 10 0 [0x0d, 1, 0x28, 2, 0x28, 0x28, 3] =
      (.throw .invalidArgument, ((defaultObj demoEnv 0).set 0 (.sc (.w32 1))).set 3 (.enum 0x28)) :=
  ⟨by rfl, by rfl, by rfl, by rfl⟩

/-- Negation of C67 for a map entry with a field other than 1 and 2: a decoder has to skip field 3, the
library takes it for the value. -/
theorem C67_entry_violated :
    Ref.decode demoEnv 0 [0x42, 7, 0x0a, 1, 97, 0x10, 5, 0x18, 9] =
      some ((defaultObj demoEnv 0).set 6 (.map [(.str (some ['a']), .sc (.w64 5))])) ∧
    deserializeMessage demoEnv 20 0 [0x42, 7, 0x0a, 1, 97, 0x10, 5, 0x18, 9] =
      (.ok (), (defaultObj demoEnv 0).set 6 (.map [(.str (some ['a']), .sc (.w64 9))])) :=
  ⟨by rfl, by rfl⟩

end QtPb
