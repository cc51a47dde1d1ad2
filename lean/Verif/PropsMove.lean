import Verif.MoveLemmas
import Verif.PropsEq
/-
C56: moving messages.
-/
namespace QtPb
open Spec

variable {env : Env} {q : Containers}

/-- C56: `target = std::move(source)` returns; the target then has the contents the source had, and the source is still a proper
object of its class. For every schema and all contents whose sub-messages have maps of messages with the same keys (or of different
sizes). Missing: the others, see `C56_message_map_violated`. -/
theorem C56_assign_partial (hq : Containers.Sound env q) {m : Nat} {cur src : Obj} (h : ComparableSubs env m cur src)
    (hc : WellTyped env m cur) (hs : WellTyped env m src) :
    ∃ K, ∀ k, K ≤ k → ∃ r, moveAssign env q k m cur src = .ok r ∧ WellTyped env m (targets r) ∧
      Mirrors env (.msg m) (.msg (targets r)) (.msg src) ∧ WellTyped env m (sources r) := by
  obtain ⟨K, hK⟩ := move_comparableSubs hq h hc hs
  exact ⟨K, fun k hk => by obtain ⟨r, h1, h2, h3, h4⟩ := hK k hk; exact ⟨r, h1, h3, h2, h4⟩⟩

/-- C56: the move constructor gives an object with the contents the source had, for every schema, whatever the memory of the new
object held, and leaves the source a proper object of its class. -/
theorem C56_construct (hq : Containers.Sound env q) {m : Nat} (garbage : Obj) {src : Obj} (hs : WellTyped env m src) :
    ∃ K, ∀ k, K ≤ k → ∃ r, moveConstruct env q k m garbage src = .ok r ∧ WellTyped env m (targets r) ∧
      Mirrors env (.msg m) (.msg (targets r)) (.msg src) ∧ WellTyped env m (sources r) := by
  obtain ⟨K, hK⟩ := moveConstruct_moves hq garbage hs
  exact ⟨K, fun k hk => by obtain ⟨r, h1, h2, h3, h4⟩ := hK k hk; exact ⟨r, h1, h3, h2, h4⟩⟩

/-- C56: an object that is moved to itself keeps its contents, for every schema. -/
theorem C56_self {m : Nat} {src : Obj} (hs : WellTyped env m src) :
    ∃ K, ∀ k, K ≤ k → ∃ r, selfMove env k m src = .ok r ∧ WellTyped env m r ∧
      Mirrors env (.msg m) (.msg r) (.msg src) := by
  obtain ⟨K, hK⟩ := selfMove_copies hs m rfl
  exact ⟨K, fun k hk => by obtain ⟨r, h1, h2, h3⟩ := hK k hk; exact ⟨r, h1, h3, h2⟩⟩

/-! ### Signals -/

theorem moveFields_field {neq : Nat → Val → Val → Res Bool} {rec : Nat → Obj → Obj → Res (List Moved)} :
    ∀ {fs : List Field} {c s : Obj} {r : List Moved}, moveFields env q neq rec fs c s = .ok r →
    ∀ (i : Nat) (f : Field) (x y : Val) (v : Moved), fs[i]? = some f → c[i]? = some x → s[i]? = some y → r[i]? = some v →
      moveVal env q neq rec f.ty x y = .ok v
  | [], _, _, _, _, _, _, _, _, _, hf, _, _, _ => by simp at hf
  | _ :: _, [], _, _, _, _, _, _, _, _, _, hx, _, _ => by simp at hx
  | _ :: _, _ :: _, [], _, _, _, _, _, _, _, _, _, hy, _ => by simp at hy
  | f :: fs, a :: as, b :: bs, r, h, i, f', x, y, v, hf, hx, hy, hv => by
    simp only [moveFields, Res.bind_eq] at h
    cases h1 : moveVal env q neq rec f.ty a b with
    | ok v1 =>
      simp only [h1, Res.bind] at h
      cases h2 : moveFields env q neq rec fs as bs with
      | ok r1 =>
        simp only [h2, Res.bind, Res.ok.injEq] at h
        subst h
        cases i with
        | zero => simp at hf hx hy hv; subst hf hx hy hv; exact h1
        | succ i =>
          exact moveFields_field h2 i f' x y v (by simpa using hf) (by simpa using hx) (by simpa using hy) (by simpa using hv)
      | _ => simp [h2, Res.bind] at h
    | _ => simp [h1, Res.bind] at h

/-- C56, signals: a property of the target or the source whose change signal is not emitted keeps its value. Missing: enumeration
fields, see `C56_enum_signal_violated`. -/
theorem C56_signal_partial {n m : Nat} {cur src : Obj} {r : List Moved} (h : moveAssign env q n m cur src = .ok r)
    {i : Nat} {f : Field} {x y : Val} {v : Moved} (hf : (env.sch m)[i]? = some f) (hne : f.ty ≠ .enum)
    (hx : cur[i]? = some x) (hy : src[i]? = some y) (hv : r[i]? = some v)
    (hc : WellTyped env m cur) (hs : WellTyped env m src) :
    (v.targetSignal = false → v.target = x) ∧ (v.sourceSignal = false → v.source = y) := by
  cases n with
  | zero => simp [moveAssign] at h
  | succ n =>
    have h1 := moveFields_field h i f x y v hf hx hy hv
    have hx' : HasTy env f.ty x := hasTy_contents_field (v := .msg cur) hc hf hx
    have hy' : HasTy env f.ty y := hasTy_contents_field (v := .msg src) hs hf hy
    revert h1 hx' hy' hne
    generalize f.ty = ty
    intro hne h1 hx' hy'
    have fin : (if movedWhole ty then
        if wholeEq q ty x y then Res.ok ⟨x, y, false, false⟩ else .ok ⟨y, q.left ty x y, true, true⟩
      else .ok ⟨writeVal ty x y, defaultVal ty, !plainEq ty x y, true⟩) = .ok v →
      (∀ m, ty ≠ .msg m) → (v.targetSignal = false → v.target = x) ∧ (v.sourceSignal = false → v.source = y) := by
      intro h hty
      cases hw : movedWhole ty with
      | true =>
        rw [hw, if_pos rfl] at h
        split at h
        · cases h; exact ⟨fun _ => rfl, fun _ => rfl⟩
        · cases h; exact ⟨by simp, by simp⟩
      | false =>
        rw [hw] at h
        cases h
        refine ⟨fun h => ?_, by simp⟩
        have he : plainEq ty x y = true := by simpa using h
        cases ty with
        | scalar k =>
          cases hx'; cases hy'
          simp only [plainEq] at he
          simp [writeVal, he]
        | enum => exact absurd rfl hne
        | msg m => exact absurd rfl (hty m)
        | _ => simp [movedWhole] at hw
    cases ty with
    | msg m' =>
      simp only [moveVal, Res.bind_eq] at h1
      cases h2 : lazyNe env n m' x y with
      | ok d =>
        simp only [h2, Res.bind] at h1
        cases d with
        | true =>
          simp only [if_true] at h1
          cases h3 : moveAssign env q n m' (deref env m' x) (deref env m' y) with
          | ok r' => simp only [h3, Res.bind, Res.ok.injEq] at h1; subst h1; exact ⟨by simp, by simp⟩
          | _ => simp [h3, Res.bind] at h1
        | false => simp only [Bool.false_eq_true, if_false, Res.ok.injEq] at h1; subst h1; exact ⟨fun _ => rfl, fun _ => rfl⟩
      | _ => simp [h2, Res.bind] at h1
    | enum => exact absurd rfl hne
    | _ => exact fin h1 (by simp)

/-- C56, signals: the target emits the change signal of a property only if the value it gets differs from the value it has.
Missing: lists and maps of messages, which are compared by address. -/
theorem C56_signal_only_partial {m : Nat} {cur src : Obj} {i : Nat} {f : Field} {x y : Val} (hf : (env.sch m)[i]? = some f)
    (hl : ∀ m, f.ty ≠ .msgList m) (hm : ∀ kk m, f.ty ≠ .map kk (.msg m)) (hx : cur[i]? = some x) (hy : src[i]? = some y)
    (hcmp : Comparable env f.ty x y) (hc : WellTyped env m cur) (hs : WellTyped env m src) :
    ∃ K, ∀ k, K ≤ k → ∀ (r : List Moved) (v : Moved), moveAssign env q k m cur src = .ok r → r[i]? = some v →
      v.targetSignal = true → ¬ Same env f.ty x y := by
  have hx' : HasTy env f.ty x := hasTy_contents_field (v := .msg cur) hc hf hx
  have hy' : HasTy env f.ty y := hasTy_contents_field (v := .msg src) hs hf hy
  have key : ∃ K, ∀ k, K ≤ k → ∀ v, moveVal env q (lazyNe env k) (moveAssign env q k) f.ty x y = .ok v →
      v.targetSignal = true → ¬ Same env f.ty x y := by
    revert hcmp hx' hy' hl hm
    generalize f.ty = ty
    intro hl hm hcmp hx' hy'
    have fin : (∀ m, ty ≠ .msg m) → ∀ v : Moved, (if movedWhole ty then
        if wholeEq q ty x y then Res.ok ⟨x, y, false, false⟩ else .ok ⟨y, q.left ty x y, true, true⟩
      else .ok ⟨writeVal ty x y, defaultVal ty, !plainEq ty x y, true⟩) = .ok v → v.targetSignal = true →
        ¬ Same env ty x y := by
      intro hty v h hsig hsame
      have he := (plainEq_same hty hl hm hx' hy').mpr hsame
      have hw' : wholeEq q ty x y = true := by
        unfold wholeEq
        split
        · exact absurd rfl (hl _)
        · exact absurd rfl (hm _ _)
        · exact he
      rw [he, hw'] at h
      split at h <;> (cases h; simp at hsig)
    cases ty with
    | msg m' =>
      have hd := cmp_comparable hcmp hx' hy'
      obtain ⟨N, e, hN, he⟩ := lazyEq_decides (hd.1.obj m' rfl) (hd.2.obj m' rfl)
      refine ⟨N, fun k hk v h hsig hsame => ?_⟩
      have e1 := hN k hk
      have : e = true := he.mpr hsame
      subst this
      simp [moveVal, lazyNe, e1, Res.bind] at h
      subst h
      simp at hsig
    | enum => exact ⟨0, fun k _ v h hsig => by simp only [moveVal, Res.ok.injEq] at h; subst h; simp at hsig⟩
    | _ => exact ⟨0, fun k _ v h => fin (by simp) v h⟩
  obtain ⟨K, hK⟩ := key
  refine ⟨K + 1, fun k hk r v h hv => ?_⟩
  obtain ⟨n, rfl⟩ : ∃ n, k = n + 1 := ⟨k - 1, by omega⟩
  exact hK n (by omega) v (moveFields_field h i f x y v hf hx hy hv)

/-- A schema with an enumeration and a number. -/
def moveEnv : Env := { demoEnv with sch := fun _ => [⟨1, .enum⟩, ⟨2, .scalar .int32⟩] }

/-- Negation of C56 for signals: an enumeration property of the target changes and no signal is emitted. -/
theorem C56_enum_signal_violated (q : Containers) : ∀ n, 1 ≤ n →
    moveAssign moveEnv q n 0 [.enum 1#32, .sc (.w32 7#32)] [.enum 2#32, .sc (.w32 7#32)] =
      .ok [⟨.enum 2#32, .enum 2#32, false, false⟩, ⟨.sc (.w32 7#32), .sc (.w32 0#32), false, true⟩] := by
  intro n hn
  obtain ⟨k, rfl⟩ : ∃ k, n = k + 1 := ⟨n - 1, by omega⟩
  rfl

/-- Negation of "signals are emitted only for changes" on the side of the source: a number that is 0 before and after. -/
theorem C56_source_signal_violated (q : Containers) : ∀ n, 1 ≤ n →
    moveAssign moveEnv q n 0 [.enum 1#32, .sc (.w32 0#32)] [.enum 1#32, .sc (.w32 0#32)] =
      .ok [⟨.enum 1#32, .enum 1#32, false, false⟩, ⟨.sc (.w32 0#32), .sc (.w32 0#32), false, true⟩] := by
  intro n hn
  obtain ⟨k, rfl⟩ : ∃ k, n = k + 1 := ⟨n - 1, by omega⟩
  rfl

/-- Negation of C56: sub-messages with maps of the same size and different keys dereference a null pointer. -/
theorem C56_message_map_violated (q : Containers) : ∀ n, 2 ≤ n →
    moveAssign demoMapEnv q n 0 [.msg [.map [(.w32 1#32, .msg [])]]] [.msg [.map [(.w32 2#32, .msg [])]]] = .ub := by
  intro n hn
  obtain ⟨k, rfl⟩ : ∃ k, n = k + 2 := ⟨n - 2, by omega⟩
  rfl

/-- Containers that swap when they are moved, and pointers that are never shared. -/
def swapping : Containers := ⟨fun _ a _ => a, fun _ _ => false⟩

/-- The hypotheses of the signal theorems: a number field. -/
example : (moveEnv.sch 0)[1]? = some ⟨2, .scalar .int32⟩ ∧ Comparable moveEnv (.scalar .int32) (.sc (.w32 7#32)) (.sc (.w32 8#32)) ∧
    ∀ n, 1 ≤ n → moveAssign moveEnv swapping n 0 [.enum 1#32, .sc (.w32 7#32)] [.enum 1#32, .sc (.w32 8#32)] =
      .ok [⟨.enum 1#32, .enum 1#32, false, false⟩, ⟨.sc (.w32 8#32), .sc (.w32 0#32), true, true⟩] := by
  refine ⟨rfl, .other (by simp) (by simp) (by simp), fun n hn => ?_⟩
  obtain ⟨k, rfl⟩ : ∃ k, n = k + 1 := ⟨n - 1, by omega⟩
  rfl

/-- The assumptions about Qt's containers can be met; a sub-message is moved into an unset one. -/
example : Containers.Sound demoEnv swapping ∧ ComparableSubs demoEnv 0 (defaultObj demoEnv 0) demoObj ∧
    WellTyped demoEnv 0 demoObj := by
  refine ⟨⟨fun _ _ _ h _ => h, fun _ _ _ _ _ h => by simp [swapping] at h⟩, ?_, demoObj_clean.plain.safe.hasTy⟩
  intro i f m' x y hf hty hx hy
  have h1 : x = .msgNull := by rw [defaultObj_field hf hx, hty]; rfl
  subst h1
  have h2 : HasTy demoEnv f.ty y := hasTy_contents_field (v := .msg demoObj) demoObj_clean.plain.safe.hasTy hf hy
  rw [hty] at h2
  exact comparable_default h2

end QtPb
