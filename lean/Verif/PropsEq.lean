import Verif.FloatLemmas
import Verif.PropsRecords
/-
Property theorems about generated comparison, assignment and copying: C24, C25.
-/
namespace QtPb
open Spec

variable {env : Env}

/-! ### C24 -/

/-- C24, scalars: the comparison of two scalar properties is IEEE equality of numbers, equality of
texts and byte arrays, and bitwise equality of everything else. -/
theorem C24_scalars (k : Kind) (a b : Scalar) : scalarEq k a b = true ↔ scalarSame k a b :=
  scalarEq_iff k a b

/-- C24, keys: two keys of a map that neither precedes (which is how `Same` and `Comparable` name the
same key) are equal numbers or equal texts. -/
theorem C24_keys {kk : Kind} (hk : mapKey kk) {a b : Scalar} (ha : kk.holds a) (hb : kk.holds b) :
    (keyLt kk a b = false ∧ keyLt kk b a = false) ↔ sameKey a b = true :=
  keyEqv_iff hk ha hb

/-- A concrete case: -1 and 4294967295 are different keys of a map with signed 64 bit keys, and a
null text is the same key as an empty one. -/
example : mapKey .int64 ∧ Kind.holds .int64 (.w64 (-1)) ∧ Kind.holds .int64 (.w64 4294967295#64) ∧
    sameKey (.w64 (-1)) (.w64 4294967295#64) = false ∧ sameKey (.str none) (.str (some [])) = true :=
  ⟨trivial, rfl, rfl, by decide, by decide⟩

/-- C24, `notNaN` (used in the hypotheses) says that the number is not a NaN in the IEEE sense. -/
theorem C24_notNaN (a : BitVec 32) (b : BitVec 64) :
    (notNaN .float (.w32 a) ↔ number 8 23 a.toNat ≠ .nan) ∧
    (notNaN .double (.w64 b) ↔ number 11 52 b.toNat ≠ .nan) :=
  ⟨isNaN32_iff a, isNaN64_iff b⟩

/-- C24: every answer of `==` on two messages without null list or map entries is right: `true` exactly
when the messages are the same field by field, element by element and entry by entry. -/
theorem C24_answer_right {n m : Nat} {a b : Obj} {r : Bool} (ha : Safe env (.msg m) (.msg a))
    (hb : Safe env (.msg m) (.msg b)) (h : objEq env n m a b = .ok r) :
    r = true ↔ Same env (.msg m) (.msg a) (.msg b) :=
  (((dec_safe ha hb).leftObj m rfl).sound n r h).trans (same_msg_iff (a := .msg a) (b := .msg b)).symm

/-- C24: `==` never runs forever, and answers `true` for messages that are the same. -/
theorem C24_terminates {m : Nat} {a b : Obj} (ha : Safe env (.msg m) (.msg a))
    (hb : Safe env (.msg m) (.msg b)) :
    (∃ N, ∀ n, N ≤ n → objEq env n m a b ≠ .fuel) ∧
    (Same env (.msg m) (.msg a) (.msg b) → ∃ N, ∀ n, N ≤ n → objEq env n m a b = .ok true) :=
  ⟨((dec_safe ha hb).leftObj m rfl).halts, fun h => same_equal h ha hb⟩

/-- C24, the part that holds: without maps of messages `==` always gives an answer, and it is the right
one. Missing: maps of messages, see `C24_message_map_violated`. -/
theorem C24_decides_partial (hm : NoMessageMaps env) {m : Nat} {a b : Obj}
    (ha : Safe env (.msg m) (.msg a)) (hb : Safe env (.msg m) (.msg b)) :
    ∃ N r, (∀ n, N ≤ n → objEq env n m a b = .ok r) ∧
      (r = true ↔ Same env (.msg m) (.msg a) (.msg b)) := by
  obtain ⟨N, hN⟩ := ((dec_safe ha hb).leftObj m rfl).halts
  have hok : ∀ n, N ≤ n → ∃ r, objEq env n m a b = .ok r ∧
      (r = true ↔ Same env (.msg m) (.msg a) (.msg b)) := by
    intro n hn
    have h1 := hN n hn
    have : Calm (objEq env n m a b) := eq_calm hm n ha hb
    rcases this with ⟨r, hr⟩ | hr
    · exact ⟨r, hr, C24_answer_right ha hb hr⟩
    · exact absurd hr h1
  obtain ⟨r, _, hr⟩ := hok N (Nat.le_refl _)
  refine ⟨N, r, fun n hn => ?_, hr⟩
  obtain ⟨r', h1, h2⟩ := hok n hn
  rw [h1]
  congr 1
  cases r <;> cases r' <;> simp_all

/-- C24, reflexivity: a message without NaN and null entries equals itself. -/
theorem C24_refl {m : Nat} {a : Obj} (ha : Plain env (.msg m) (.msg a)) :
    ∃ N, ∀ n, N ≤ n → objEq env n m a a = .ok true :=
  same_equal (Same.refl ha) ha.safe ha.safe

/-- C24, symmetry: the answers for the two orders agree. -/
theorem C24_symm {n k m : Nat} {a b : Obj} {r r' : Bool} (ha : Safe env (.msg m) (.msg a))
    (hb : Safe env (.msg m) (.msg b)) (h : objEq env n m a b = .ok r) (h' : objEq env k m b a = .ok r') :
    r = r' := by
  have h1 := C24_answer_right ha hb h
  have h2 := C24_answer_right hb ha h'
  have h3 : Same env (.msg m) (.msg a) (.msg b) ↔ Same env (.msg m) (.msg b) (.msg a) :=
    ⟨Same.symm, Same.symm⟩
  rw [h3, ← h2] at h1
  cases r <;> cases r' <;> simp_all

/-- C24, transitivity. -/
theorem C24_trans {n k m : Nat} {a b c : Obj} (ha : Safe env (.msg m) (.msg a))
    (hb : Safe env (.msg m) (.msg b)) (hc : Safe env (.msg m) (.msg c))
    (h1 : objEq env n m a b = .ok true) (h2 : objEq env k m b c = .ok true) :
    ∃ N, ∀ j, N ≤ j → objEq env j m a c = .ok true :=
  same_equal (((C24_answer_right ha hb h1).mp rfl).trans ((C24_answer_right hb hc h2).mp rfl) ha hb hc)
    ha hc

/-- C24: replacing an unset sub-message by a default constructed one gives an equal message. -/
theorem C24_unset_equals_default {m i m' : Nat} {f : Field} {a : Obj} (ha : Plain env (.msg m) (.msg a))
    (hf : (env.sch m)[i]? = some f) (hty : f.ty = .msg m') (hi : a[i]? = some .msgNull) :
    ∃ N, ∀ n, N ≤ n → objEq env n m a (a.set i (.msg (defaultObj env m'))) = .ok true ∧
      objEq env n m (a.set i (.msg (defaultObj env m'))) a = .ok true := by
  have hsafe : Safe env (.msg m) (.msg (a.set i (.msg (defaultObj env m')))) :=
    set_safe ha.safe hf (by rw [hty]; exact default_safe m')
  have hsame : Same env (.msg m) (.msg a) (.msg (a.set i (.msg (defaultObj env m')))) := by
    refine .msg fun j g x y hg hx hy => ?_
    simp only [contents] at hx hy
    by_cases hji : j = i
    · subst hji
      rw [hf] at hg
      cases hg
      rw [hi] at hx
      cases hx
      rw [List.getElem?_set_self (List.getElem?_eq_some_iff.mp hi).1] at hy
      cases hy
      rw [hty]
      exact same_msg_iff.mpr (fieldsSame_default env m')
    · rw [List.getElem?_set_ne (Ne.symm hji)] at hy
      rw [hx] at hy
      cases hy
      cases ha with
      | msg _ h => exact Same.refl (h j g x hg hx)
  obtain ⟨N, hN⟩ := same_equal hsame ha.safe hsafe
  obtain ⟨M, hM⟩ := same_equal hsame.symm hsafe ha.safe
  exact ⟨max N M, fun n hn => ⟨hN n (by omega), hM n (by omega)⟩⟩

/-- C24: `!=` is the negation of `==`. -/
theorem C24_not_equal {n m : Nat} {a b : Obj} {r : Bool} :
    objNe env n m a b = .ok r ↔ objEq env n m a b = .ok (!r) := by
  simp only [objNe, Res.bind_eq, Res.bind_eq_ok, Res.ok.injEq]
  constructor
  · rintro ⟨x, h, rfl⟩; simp [h]
  · intro h; exact ⟨!r, h, by simp⟩

/-- Negation of C24 for maps of messages: comparing `{1: {}}` with `{2: {}}` dereferences a null
pointer. -/
theorem C24_message_map_violated : ∀ n,
    objEq demoMapEnv (n + 1) 1 [.map [(.w32 1#32, .msg [])]] [.map [(.w32 2#32, .msg [])]] = .ub := by
  intro n; rfl

example : Plain demoEnv (.msg 0) (.msg demoObj) ∧ ∃ f, (demoEnv.sch 0)[4]? = some f ∧ f.ty = .msg 1 :=
  ⟨demoObj_clean.plain, _, rfl, rfl⟩

/-! ### C25 -/

theorem assign_to_start {m : Nat} {src : Obj} (g : Obj) (hs : Safe env (.msg m) (.msg src)) :
    AssignObj env m (copyStart (env.sch m) g) src := by
  have hnull : ∀ (fs : List Field) (g : Obj) (i : Nat) (f : Field) (v : Val) (m' : Nat), fs[i]? = some f →
      f.ty = .msg m' → (copyStart fs g)[i]? = some v → v = .msgNull := by
    intro fs
    induction fs with
    | nil => intro g i f v m' hf; simp at hf
    | cons f' fs ih =>
      intro g i f v m' hf hty hv
      cases g with
      | nil =>
        cases i with
        | zero =>
          simp only [copyStart, List.getElem?_cons_zero, Option.some.injEq] at hf hv
          subst hf hv; simp [hty, defaultVal]
        | succ i => exact ih [] i f v m' (by simpa using hf) hty (by simpa [copyStart] using hv)
      | cons g gs =>
        cases i with
        | zero =>
          simp only [copyStart, List.getElem?_cons_zero, Option.some.injEq] at hf hv
          subst hf hv; simp [hty, defaultVal]
        | succ i => exact ih gs i f v m' (by simpa using hf) hty (by simpa [copyStart] using hv)
  cases hs with
  | msg hl hh =>
    exact assignObj_of fun i f x y hf hx hy => by
      cases hty : f.ty with
      | msg m2 =>
        have hy' : Safe env (.msg m2) y := by rw [← hty]; exact hh i f y hf hy
        rw [hnull _ _ i f x m2 hf hty hx]
        obtain ⟨N, hN⟩ := lazyNe_null_returns hy'
        obtain ⟨M, hM⟩ : AssignObj env m2 (defaultObj env m2) (contents env m2 y) := by
          cases hy' with
          | null => exact assign_to_default (default_safe m2)
          | msg h1 h2 => exact assign_to_default (.msg h1 h2)
        refine ⟨max N M, fun n hn => ?_⟩
        obtain ⟨q, hq⟩ := hN n (by omega)
        obtain ⟨r, hr⟩ := hM n (by omega)
        cases q with
        | false => exact ⟨.msgNull, by simp [assignVal, hq, Res.bind]⟩
        | true =>
          refine ⟨.msg r, ?_⟩
          simp [assignVal, hq, Res.bind, deref_eq]
          have : contents env m2 .msgNull = defaultObj env m2 := rfl
          simp only at hr
          rw [this, hr]
      | _ => exact assignOther (by simp) _ _

/-- C25, copy construction: a copy of a message without null list or map entries is made, is a copy
field by field whatever was in the memory before (`garbage`), and compares equal to the source when
that has no NaN. -/
theorem C25_copy {m : Nat} {src : Obj} (hs : Safe env (.msg m) (.msg src)) (garbage : Obj) :
    ∃ K, ∀ k, K ≤ k → ∃ r, copyConstruct env k m garbage src = .ok r ∧
      Mirrors env (.msg m) (.msg r) (.msg src) ∧
      (Plain env (.msg m) (.msg src) → ∃ N, ∀ n, N ≤ n → objEq env n m r src = .ok true) := by
  obtain ⟨K, hK⟩ := assign_to_start garbage hs
  refine ⟨K, fun k hk => ?_⟩
  obtain ⟨r, hr⟩ := hK k hk
  simp only at hr
  obtain ⟨h1, h2⟩ := assign_sound (copyStart_holds m garbage) hs hr
  exact ⟨r, hr, h1, fun hp => same_equal (h1.toSame hp) h2 hs⟩

/-- C25, assignment, the part that holds: without maps of messages `target = source` makes the target a
copy of the source whatever it held; they compare equal when the source has no NaN. Missing: maps of
messages inside sub-messages, see `C25_message_map_violated`. -/
theorem C25_assign_partial (hm : NoMessageMaps env) {m : Nat} {cur src : Obj}
    (hc : Safe env (.msg m) (.msg cur)) (hs : Safe env (.msg m) (.msg src)) :
    ∃ K, ∀ k, K ≤ k → ∃ r, assign env k m cur src = .ok r ∧
      Mirrors env (.msg m) (.msg r) (.msg src) ∧
      (Plain env (.msg m) (.msg src) → ∃ N, ∀ n, N ≤ n → objEq env n m r src = .ok true) := by
  obtain ⟨K, hK⟩ := assign_returns hm hc hs
  refine ⟨K, fun k hk => ?_⟩
  obtain ⟨r, hr⟩ := hK k hk
  simp only at hr
  obtain ⟨h1, h2⟩ := assign_sound hc hs hr
  exact ⟨r, hr, h1, fun hp => same_equal (h1.toSame hp) h2 hs⟩

/-- C25 for every schema: whenever an assignment returns, the target is a copy of the source. -/
theorem C25_assign_sound {k m : Nat} {cur src r : Obj} (hc : Safe env (.msg m) (.msg cur))
    (hs : Safe env (.msg m) (.msg src)) (h : assign env k m cur src = .ok r) :
    Mirrors env (.msg m) (.msg r) (.msg src) ∧
      (Plain env (.msg m) (.msg src) → ∃ N, ∀ n, N ≤ n → objEq env n m r src = .ok true) := by
  obtain ⟨h1, h2⟩ := assign_sound hc hs h
  exact ⟨h1, fun hp => same_equal (h1.toSame hp) h2 hs⟩

/-- Negation of C25 for maps of messages: assigning over a message whose sub-message has another map of
the same size dereferences a null pointer. -/
theorem C25_message_map_violated : ∀ n, 2 ≤ n →
    assign demoMapEnv n 0 [.msg [.map [(.w32 1#32, .msg [])]]] [.msg [.map [(.w32 2#32, .msg [])]]]
      = .ub := by
  intro n hn
  obtain ⟨k, rfl⟩ : ∃ k, n = k + 2 := ⟨n - 2, by omega⟩
  rfl

/-- Copying over uninitialised memory. -/
example : (copyConstruct demoEnv 5 1 [.sc (.w32 0x7fc00000#32), .sc (.bytes (some [1]))]
    [.sc (.w32 0x3f800000#32), .sc (.bytes (some [2]))])
    = .ok [.sc (.w32 0x3f800000#32), .sc (.bytes (some [2]))] := rfl

end QtPb
