import Verif.CompareLemmas
import Verif.PropsBytes
import Verif.PropsSetters
/-
Property theorems about comparison, assignment and decoding for schemas with maps of messages: the parts
of C08, C18, C19, C24, C25 and C26 that hold for every schema. `Spec.Comparable` says which pairs of
messages are covered.
-/
namespace QtPb
open Spec

variable {env : Env}

/-! ### C24 -/

/-- C24 for every schema, null pointers in lists and maps included: the comparison of two messages whose
maps of messages have the same keys gives an answer, in both orders, and it is the right one.
Missing: maps of messages of the same size with different keys, see `C24_message_map_violated` and
`C24_null_entry_violated`. -/
theorem C24_same_keys_partial {m : Nat} {a b : Obj} (h : Comparable env (.msg m) (.msg a) (.msg b))
    (ha : WellTyped env m a) (hb : WellTyped env m b) :
    (∃ N r, (∀ n, N ≤ n → objEq env n m a b = .ok r) ∧
      (r = true ↔ Same env (.msg m) (.msg a) (.msg b))) ∧
    (∃ N r, (∀ n, N ≤ n → objEq env n m b a = .ok r) ∧
      (r = true ↔ Same env (.msg m) (.msg a) (.msg b))) := by
  have hd := cmp_comparable h ha hb
  exact ⟨Decides.congr (hd.1.obj m rfl) (same_msg_iff (a := .msg a) (b := .msg b)).symm,
    Decides.congr (hd.2.obj m rfl) ((same_msg_iff (a := .msg b) (b := .msg a)).symm.trans
      ⟨Same.symm, Same.symm⟩)⟩

/-- C24: comparing any object with a default constructed one gives the right answer, whatever the
schema. -/
theorem C24_with_default {m : Nat} {a : Obj} (ha : WellTyped env m a) :
    ∃ N r, (∀ n, N ≤ n → objEq env n m a (defaultObj env m) = .ok r) ∧
      (r = true ↔ Same env (.msg m) (.msg a) (.msg (defaultObj env m))) := by
  have h : Comparable env (.msg m) (.msg a) (.msg (defaultObj env m)) := by
    cases ha with
    | msg hl hh =>
      refine .msg fun i f x y hf hx hy => ?_
      rw [defaultObj_field hf hy]
      exact (comparable_default (hh i f x hf hx)).symm
  exact (C24_same_keys_partial h ha (default_safe m).hasTy).1

/-- C24: comparing any object with itself gives the right answer, whatever the schema. -/
theorem C24_with_itself {m : Nat} {a : Obj} (ha : WellTyped env m a) :
    ∃ N r, (∀ n, N ≤ n → objEq env n m a a = .ok r) ∧
      (r = true ↔ Same env (.msg m) (.msg a) (.msg a)) :=
  (C24_same_keys_partial (comparable_refl ha) ha ha).1

/-- The earlier theorems are special cases: without maps of messages all messages are comparable. -/
theorem C24_no_maps_comparable (hm : NoMessageMaps env) {m : Nat} {a b : Obj}
    (ha : Safe env (.msg m) (.msg a)) (hb : Safe env (.msg m) (.msg b)) :
    Comparable env (.msg m) (.msg a) (.msg b) :=
  comparable_noMaps hm (by simp) ha hb

/-- Negation of C24: the answer can be wrong. Two inputs, map entries with the keys 1 and 2 and without
value, are decoded to two messages that are not the same and compare equal: the null pointer stored for
the missing value is taken for the null pointer returned when a key is not found. -/
theorem C24_null_entry_violated :
    deserializeMessage demoMapEnv 5 1 [0x0a, 2, 0x08, 1] = (.ok (), [.map [(.w32 1#32, .msgNull)]]) ∧
    deserializeMessage demoMapEnv 5 1 [0x0a, 2, 0x08, 2] = (.ok (), [.map [(.w32 2#32, .msgNull)]]) ∧
    (∀ n, 1 ≤ n → objEq demoMapEnv n 1 [.map [(.w32 1#32, .msgNull)]] [.map [(.w32 2#32, .msgNull)]]
      = .ok true) ∧
    ¬ Same demoMapEnv (.msg 1) (.msg [.map [(.w32 1#32, .msgNull)]])
      (.msg [.map [(.w32 2#32, .msgNull)]]) := by
  refine ⟨rfl, rfl, fun n hn => ?_, fun h => ?_⟩
  · obtain ⟨k, rfl⟩ : ∃ k, n = k + 1 := ⟨n - 1, by omega⟩
    rfl
  · cases h with
    | msg h =>
      have := h 0 ⟨1, .map .int32 (.msg 2)⟩ _ _ rfl rfl rfl
      cases this with
      | map _ h1 _ => exact absurd (h1 0 _ _ rfl rfl).1 (by decide)

/-- Two messages with maps `{1: {}}` and `{1: null}`, respectively `{2: {}}` and `{}`: the hypotheses of
`C24_same_keys_partial` hold of the second pair. -/
example : Comparable demoMapEnv (.msg 1) (.msg [.map [(.w32 2#32, .msg [])]]) (.msg [.map []]) ∧
    WellTyped demoMapEnv 1 [.map [(.w32 2#32, .msg [])]] ∧
    ¬ Comparable demoMapEnv (.msg 1) (.msg [.map [(.w32 1#32, .msg [])]])
      (.msg [.map [(.w32 1#32, .msgNull)]]) := by
  refine ⟨?_, ?_, ?_⟩
  · refine .msg fun i f x y hf hx hy => ?_
    match i with
    | 0 => cases hf; cases hx; cases hy; exact .map (by simp) (by simp) (by simp)
    | _ + 1 => simp [contents] at hx
  · refine .msg rfl fun i f v hf hv => ?_
    match i with
    | 0 =>
      cases hf; cases hv
      refine .map (by simp [Kind.holds]) ?_ (by simp)
      intro e he
      simp at he
      subst he
      exact .msg rfl (by simp)
    | _ + 1 => simp at hv
  · intro h
    cases h with
    | other h1 => exact absurd rfl (h1 1)
    | msg h =>
      have := h 0 ⟨1, .map .int32 (.msg 2)⟩ _ _ rfl rfl rfl
      cases this with
      | other _ _ h3 => exact absurd rfl (h3 .int32 2)
      | map _ h2 _ =>
        have := h2 rfl (.w32 1#32, .msg []) (by simp) (.w32 1#32, .msgNull) (by simp)
          ⟨by decide, by decide⟩
        simp at this

/-! ### C25 -/

/-- C25 for every schema: `target = source` makes the target a copy of the source whenever the
sub-messages of the two have maps of messages with the same keys (or of different sizes), in particular
when the target is new or its sub-messages are unset. The maps of the messages themselves do not
matter. Missing: sub-messages with maps of the same size and different keys, see
`C25_message_map_violated`. -/
theorem C25_assign_same_keys_partial {m : Nat} {cur src : Obj} (h : ComparableSubs env m cur src)
    (hc : WellTyped env m cur) (hs : WellTyped env m src) :
    ∃ K, ∀ k, K ≤ k → ∃ r, assign env k m cur src = .ok r ∧ WellTyped env m r ∧
      Mirrors env (.msg m) (.msg r) (.msg src) := by
  obtain ⟨K, hK⟩ := assign_comparableSubs h hc hs
  exact ⟨K, fun k hk => by obtain ⟨r, h1, h2, h3⟩ := hK k hk; exact ⟨r, h1, h3, h2⟩⟩

/-- The condition on the sub-messages holds of a new target. -/
theorem comparableSubs_default {m : Nat} {src : Obj} (hs : WellTyped env m src) :
    ComparableSubs env m (defaultObj env m) src := by
  intro i f m' x y hf hty hx hy
  have h1 : x = .msgNull := by rw [defaultObj_field hf hx, hty]; rfl
  subst h1
  have h2 : HasTy env f.ty y := hasTy_contents_field (v := .msg src) hs hf hy
  rw [hty] at h2
  exact comparable_default h2

/-- C25: assigning to a default constructed message makes a copy, for every schema and every source,
null pointers in lists and maps included. -/
theorem C25_assign_to_new {m : Nat} {src : Obj} (hs : WellTyped env m src) :
    ∃ K, ∀ k, K ≤ k → ∃ r, assign env k m (defaultObj env m) src = .ok r ∧ WellTyped env m r ∧
      Mirrors env (.msg m) (.msg r) (.msg src) :=
  C25_assign_same_keys_partial (comparableSubs_default hs) (default_safe m).hasTy hs

/-- C25: assigning a message to itself, or to a message with the same contents, gives a copy. -/
theorem C25_assign_to_itself {m : Nat} {src : Obj} (hs : WellTyped env m src) :
    ∃ K, ∀ k, K ≤ k → ∃ r, assign env k m src src = .ok r ∧ WellTyped env m r ∧
      Mirrors env (.msg m) (.msg r) (.msg src) :=
  C25_assign_same_keys_partial (comparableSubs_of (comparable_refl hs)) hs hs

/-! ### Decoding -/

/-- C18, C19: whatever the bytes and the schema, the object filled by the decoder, completely or up to
the failure, is a proper object of its class. -/
theorem C18_decoded_typed (n m : Nat) (data : Bytes) :
    WellTyped env m (deserializeMessage env n m data).2 :=
  deserializeMessage_typed n m data

/-- C08, C18, C19 for every schema and every input: a new target of the public `deserialize` is left as a
copy of the decoded object, whether decoding succeeds or throws; nothing goes wrong in the final
assignment. -/
theorem C19_new_target {n m : Nat} {data : Bytes} :
    ∃ K, ∀ k, K ≤ k → ∃ r, deserialize env n k m data (defaultObj env m)
        = ⟨(deserializeMessage env n m data).1, .ok r⟩ ∧ WellTyped env m r ∧
      Mirrors env (.msg m) (.msg r) (.msg (deserializeMessage env n m data).2) := by
  obtain ⟨K, hK⟩ := C25_assign_to_new (env := env) (deserializeMessage_typed n m data)
  exact ⟨K, fun k hk => by
    obtain ⟨r, h1, h2, h3⟩ := hK k hk
    exact ⟨r, by simp [deserialize, h1], h2, h3⟩⟩

/-- The same for a target that held something, when its sub-messages are comparable with those of the
decoded object. Missing: other targets, see `C19_message_map_violated`. -/
theorem C19_target_same_keys_partial {n m : Nat} {data : Bytes} {old : Obj} (ho : WellTyped env m old)
    (h : ComparableSubs env m old (deserializeMessage env n m data).2) :
    ∃ K, ∀ k, K ≤ k → ∃ r, deserialize env n k m data old
        = ⟨(deserializeMessage env n m data).1, .ok r⟩ ∧ WellTyped env m r ∧
      Mirrors env (.msg m) (.msg r) (.msg (deserializeMessage env n m data).2) := by
  obtain ⟨K, hK⟩ := C25_assign_same_keys_partial (env := env) h ho (deserializeMessage_typed n m data)
  exact ⟨K, fun k hk => by
    obtain ⟨r, h1, h2, h3⟩ := hK k hk
    exact ⟨r, by simp [deserialize, h1], h2, h3⟩⟩

/-- C18 for every schema, on a new target: an input without negative lengths on which the decoder throws
splits into an accepted part and a rest whose first record throws the same exception; the target is a
copy of what the accepted part decodes to. Missing: negative lengths. -/
theorem C18_new_target_partial {n m : Nat} {data : Bytes} {e : Exn} {o : Obj}
    (hneg : NoNegativeLength env data) (hlen : data.length < 2 ^ 31)
    (h : deserializeMessage env n m data = (.throw e, o)) :
    (∃ p rest, data = p ++ rest ∧ deserializeMessage env n m p = (.ok (), o) ∧
      deserializeMessage env n m rest = (.throw e, defaultObj env m)) ∧
    ∃ K, ∀ k, K ≤ k → ∃ r, deserialize env n k m data (defaultObj env m) = ⟨.throw e, .ok r⟩ ∧
      Mirrors env (.msg m) (.msg r) (.msg o) := by
  refine ⟨deserializeMessage_throws hneg hlen h, ?_⟩
  obtain ⟨K, hK⟩ := C19_new_target (env := env) (n := n) (m := m) (data := data)
  rw [h] at hK
  exact ⟨K, fun k hk => by obtain ⟨r, h1, _, h2⟩ := hK k hk; exact ⟨r, h1, h2⟩⟩

/-- C08 for every schema, on a new target. -/
theorem C08_new_target (hv : ValidSchema env) {d m n : Nat} {bs : Bytes} {o : Obj}
    (h : Stream env (Message env d) m bs (defaultObj env m) o) (hlen : bs.length < 2 ^ 31)
    (hn : bs.length < n) :
    ∃ K, ∀ k, K ≤ k → ∃ r, deserialize env n k m bs (defaultObj env m) = ⟨.ok (), .ok r⟩ ∧
      Mirrors env (.msg m) (.msg r) (.msg o) := by
  have h1 := C08_left_to_right hv h hlen hn
  obtain ⟨K, hK⟩ := C19_new_target (env := env) (n := n) (m := m) (data := bs)
  rw [h1] at hK
  exact ⟨K, fun k hk => by obtain ⟨r, h2, _, h3⟩ := hK k hk; exact ⟨r, h2, h3⟩⟩

/-- A message with a map of messages whose input fails after an entry without value. -/
example : deserializeMessage demoMapEnv 6 1 [0x0a, 2, 0x08, 1, 0x0b]
      = (.throw .invalidArgument, [.map [(.w32 1#32, .msgNull)]]) ∧
    NoNegativeLength demoMapEnv [0x0a, 2, 0x08, 1, 0x0b] :=
  ⟨rfl, noNegativeLength_of_small (by decide)⟩

/-- A target whose sub-message has a map of another size. -/
example : ComparableSubs demoMapEnv 0 [.msg [.map [(.w32 1#32, .msg []), (.w32 2#32, .msg [])]]]
    (deserializeMessage demoMapEnv 9 0 [0x0a, 6, 0x0a, 4, 0x08, 2, 0x12, 0]).2 := by
  have e : (deserializeMessage demoMapEnv 9 0 [0x0a, 6, 0x0a, 4, 0x08, 2, 0x12, 0]).2
    = [.msg [.map [(.w32 2#32, .msg [])]]] := rfl
  rw [e]
  intro i f m' x y hf hty hx hy
  match i with
  | 0 =>
    cases hf; cases hty; cases hx; cases hy
    refine .msg fun i f x y hf hx hy => ?_
    match i with
    | 0 => cases hf; cases hx; cases hy; exact .map (by simp) (by simp) (by simp)
    | _ + 1 => simp [contents] at hx
  | _ + 1 => simp at hx

/-! ### C26 -/

/-- C26 for every schema: a write returns, whatever the property and the argument, provided that a
sub-message written by value is comparable with the one held.
Missing: the others, see `C26_message_map_violated`. -/
theorem C26_write_returns_same_keys_partial {fs : List Field} {s : MsgState} {i : Nat} {f : Field}
    {cur : Slot} {arg : Arg} (hs : SlotsOk env fs s.slots) (hf : fs[i]? = some f)
    (hc : s.slots[i]? = some cur) (ha : ArgOk env f.ty arg)
    (hcmp : ∀ m p o, f.ty = .msg m → cur = .sub p → arg = .copy o →
      Comparable env (.msg m) (.msg ((p.map (·.2)).getD (defaultObj env m))) (.msg o)) :
    ∃ K, ∀ n, K ≤ n → ∃ s', setProperty env n fs s i arg = .ok s' := by
  have hcur := hs.2 i f cur hf hc
  obtain ⟨num, ty⟩ := f
  cases ha with
  | @plain ty v h1 h2 h3 hv =>
    cases hcur with
    | plain => exact ⟨0, fun n _ => by simp [setProperty, hf, hc]⟩
    | ptrs => exact absurd rfl (h2 _)
    | ptrMap => exact absurd rfl (h3 _ _)
    | unset => exact absurd rfl (h1 _)
    | sub => exact absurd rfl (h1 _)
  | ptrs l =>
    cases hcur with
    | plain _ h2 => exact absurd rfl (h2 _)
    | ptrs c => exact ⟨0, fun n _ => by simp [setProperty, hf, hc]⟩
  | ptrMap =>
    cases hcur with
    | plain _ _ h3 => exact absurd rfl (h3 _ _)
    | ptrMap => exact ⟨0, fun n _ => by simp [setProperty, hf, hc]⟩
  | @copy m o ho =>
    have hp : ∃ p, cur = .sub p ∧ Safe env (.msg m) (.msg (p.getD (s.next, defaultObj env m)).2) := by
      cases hcur with
      | plain h1 => exact absurd rfl (h1 _)
      | unset => exact ⟨none, rfl, default_safe m⟩
      | sub hsf => exact ⟨_, rfl, hsf⟩
    obtain ⟨p, rfl, hp⟩ := hp
    have hcmp' : Comparable env (.msg m) (.msg (p.getD (s.next, defaultObj env m)).2) (.msg o) := by
      have := hcmp m p o rfl rfl rfl
      cases p <;> exact this
    obtain ⟨⟨N, r, hN, _⟩, _⟩ := C24_same_keys_partial hcmp' hp.hasTy ho.hasTy
    obtain ⟨M, hM⟩ := C25_assign_same_keys_partial (comparableSubs_of hcmp') hp.hasTy ho.hasTy
    refine ⟨max N M, fun n hn => ?_⟩
    obtain ⟨o', ho', _⟩ := hM n (by omega)
    have hne : objNe env n m (p.getD (s.next, defaultObj env m)).2 o = .ok (!r) := by
      rw [C24_not_equal]; simp [hN n (by omega)]
    simp only [setProperty, hf, hc, hne, Res.bind_eq, Res.bind, ho']
    cases r <;> simp
  | @take m o a ho =>
    cases hcur with
    | plain h1 => exact absurd rfl (h1 _)
    | unset => exact ⟨0, fun n _ => by simp [setProperty, hf, hc]⟩
    | sub hsf => exact ⟨0, fun n _ => by simp [setProperty, hf, hc]⟩

/-- Writing a sub-message with a map of messages to an unset property. -/
example : Comparable demoMapEnv (.msg 1)
    (.msg (((none : Option (Nat × Obj)).map (·.2)).getD (defaultObj demoMapEnv 1)))
    (.msg [.map [(.w32 2#32, .msg [])]]) := by
  refine .msg fun i f x y hf hx hy => ?_
  match i with
  | 0 => cases hf; cases hx; cases hy; exact .map (by simp) (by simp) (by simp)
  | _ + 1 => simp [contents] at hy

end QtPb
