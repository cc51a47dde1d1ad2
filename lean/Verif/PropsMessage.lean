import Verif.SafeLemmas
import Verif.FailLemmas
import Verif.RecordLemmas
import Verif.DemoLemmas
/-
Property theorems about whole messages: C01, C06, C07, C08, C09, C10, C11, C12, C14, C15, C18, C19, C20.

`serializeMessage env n m obj` is `serialize` of an object of message type `m`, `deserialize env n k m
data old` is `deserialize` into an object that held `old`; `n` and `k` are step budgets.
-/
namespace QtPb
open Spec

variable {env : Env}

/-! ### Examples: a few encodings -/

theorem demo_valid : ValidSchema demoEnv := by
  intro m
  match m with
  | 0 => decide
  | 1 => decide
  | 2 => decide
  | 3 => decide
  | _ + 4 => exact ⟨by simp [demoEnv, demoSch], by simp [demoEnv, demoSch]⟩

theorem demo_order : ValidOrder demoEnv := by
  intro m
  exact List.reverse_perm _

/-- A tag of one byte. -/
theorem tag1 (b : UInt8) (num wt : Nat) (h : b.toNat = num * 8 + wt) (hb : b.toNat < 128) (h1 : 1 ≤ num) :
    Tag [b] num wt := ⟨h ▸ ⟨.last b hb, by simp⟩, h1, by omega⟩

/-- A varint of one byte. -/
theorem varint1 (b : UInt8) (n : Nat) (h : b.toNat = n) (hb : n < 128) : Varint [b] n :=
  h ▸ ⟨.last b (by omega), by simp⟩

/-! ### From decoded objects to the target of `deserialize` -/

/-- The contents of the target of `deserialize`, for a default constructed target. -/
theorem target_fresh {n m : Nat} {data : Bytes} {st : Res Unit} {o : Obj}
    (h : deserializeMessage env n m data = (st, o)) (hs : Safe env (.msg m) (.msg o)) :
    ∃ K, ∀ k, K ≤ k → ∃ r, deserialize env n k m data (defaultObj env m) = ⟨st, .ok r⟩ ∧
      Mirrors env (.msg m) (.msg r) (.msg o) ∧ Safe env (.msg m) (.msg r) := by
  obtain ⟨K, hK⟩ := assign_to_default hs
  refine ⟨K, fun k hk => ?_⟩
  obtain ⟨r, hr⟩ := hK k hk
  have := assign_sound (default_safe m) hs hr
  refine ⟨r, ?_, this⟩
  simp only at hr
  simp [deserialize, h, hr]

/-- The contents of the target of `deserialize`, for an arbitrary target. -/
theorem target_any (hm : NoMessageMaps env) {n m : Nat} {data : Bytes} {st : Res Unit} {o old : Obj}
    (h : deserializeMessage env n m data = (st, o)) (hs : Safe env (.msg m) (.msg o))
    (ho : Safe env (.msg m) (.msg old)) :
    ∃ K, ∀ k, K ≤ k → ∃ r, deserialize env n k m data old = ⟨st, .ok r⟩ ∧
      Mirrors env (.msg m) (.msg r) (.msg o) ∧ Safe env (.msg m) (.msg r) := by
  obtain ⟨K, hK⟩ := assign_returns hm ho hs
  refine ⟨K, fun k hk => ?_⟩
  obtain ⟨r, hr⟩ := hK k hk
  have := assign_sound ho hs hr
  refine ⟨r, ?_, this⟩
  simp only at hr
  simp [deserialize, h, hr]

theorem same_equal {m : Nat} {a b : Obj} (h : Same env (.msg m) (.msg a) (.msg b))
    (ha : Safe env (.msg m) (.msg a)) (hb : Safe env (.msg m) (.msg b)) :
    ∃ N, ∀ n, N ≤ n → objEq env n m a b = .ok true :=
  ((dec_safe ha hb).leftObj m rfl).complete (same_msg_iff.mp h)

/-! ### C20 -/

/-- C20, the part that holds: when the singular message fields do not form a cycle, `serialize` of
every message returns. Missing: recursive types, for which see `C20_recursive_violated`. -/
theorem C20_serialize_terminates_partial {rank : Nat → Nat} (ha : Acyclic env rank)
    (hb : NoRepeatedBool env) {m : Nat} {obj : Obj} (hobj : WellTyped env m obj) :
    ∃ N bs, ∀ n, N ≤ n → serializeMessage env n m obj = .ok bs := by
  obtain ⟨b, N, h⟩ := canSer_ranked (rank := rank) (fun m f hf => ⟨ha m f hf, hb m f hf⟩) hobj
  exact ⟨N, b, h⟩

/-- C20 fails for every type that can reach itself through singular message fields (`S` is a set of
types each of which has a singular field of a type in `S`): `serialize` never returns a result,
whatever the message and the budget. -/
theorem C20_recursive_diverges (ho : ValidOrder env) {S : Nat → Prop}
    (hS : ∀ m, S m → ∃ f ∈ env.sch m, ∃ m', f.ty = .msg m' ∧ S m') {m : Nat} {obj : Obj} (hm : S m)
    (hobj : WellTyped env m obj) (n : Nat) (bs : Bytes) : serializeMessage env n m obj ≠ .ok bs :=
  serialize_cycle ho hS n hm hobj bs

/-- Negation of C20: the message `message M { int32 a = 1; M b = 2; }` cannot be serialized; not even a
default constructed one. The recursion never ends and throws no exception. -/
theorem C20_recursive_violated : ∀ n, serializeMessage demoEnv n 2 (defaultObj demoEnv 2) = .fuel := by
  intro n
  induction n with
  | zero => rfl
  | succ n ih =>
    have e1 : demoEnv.ord 2 = [1, 0] := by decide
    have e2 : demoEnv.sch 2 = [⟨1, .scalar .int32⟩, ⟨2, .msg 2⟩] := rfl
    have e3 : defaultObj demoEnv 2 = [.sc (.w32 0), .msgNull] := rfl
    rw [serializeMessage, e1, e2, e3]
    simp only [List.map_cons, List.map_nil, List.getElem?_cons_succ, List.getElem?_cons_zero, concatRes,
      serializeProperty, serializeMsgField, materialize, ih, Res.bind_eq, Res.bind]

/-- The result does not depend on the budget. -/
theorem C20_budget_independent {n k m : Nat} {obj : Obj} {a b : Bytes}
    (h1 : serializeMessage env n m obj = .ok a) (h2 : serializeMessage env k m obj = .ok b) : a = b := by
  have h3 := serialize_mono (Nat.le_max_left n k) h1
  have h4 := serialize_mono (Nat.le_max_right n k) h2
  rw [h3] at h4
  exact Res.ok.inj h4

example : ∃ (S : Nat → Prop), S 2 ∧ ∀ m, S m → ∃ f ∈ demoEnv.sch m, ∃ m', f.ty = .msg m' ∧ S m' :=
  ⟨fun m => m = 2, rfl, fun m hm => by subst hm; exact ⟨⟨2, .msg 2⟩, by decide, 2, rfl, rfl⟩⟩

/-- A schema without cycles of singular messages: like `demoEnv` without message type 2. -/
def demoAcyclic : Env := { demoEnv with
  sch := fun m => if m = 2 then [] else demoSch m
  ord := fun m => (List.range (if m = 2 then [] else demoSch m).length).reverse }

theorem demoAcyclic_sch (m : Nat) : demoAcyclic.sch m = if m = 2 then [] else demoSch m := rfl

theorem demoAcyclic_all {P : Nat → Field → Prop} (h0 : ∀ f ∈ demoSch 0, P 0 f)
    (h1 : ∀ f ∈ demoSch 1, P 1 f) (h3 : ∀ f ∈ demoSch 3, P 3 f) : ∀ m, ∀ f ∈ demoAcyclic.sch m, P m f := by
  intro m f hf
  match m with
  | 0 => exact h0 f hf
  | 1 => exact h1 f hf
  | 2 => exact absurd hf (by simp [demoAcyclic_sch])
  | 3 => exact h3 f hf
  | _ + 4 => exact absurd hf (by simp [demoAcyclic_sch, demoSch])

example : Acyclic demoAcyclic (fun m => if m = 0 then 1 else 0) ∧ NoRepeatedBool demoAcyclic :=
  ⟨demoAcyclic_all (by simp [demoSch]) (by simp [demoSch]) (by simp [demoSch]),
   demoAcyclic_all (by decide) (by decide) (by decide)⟩

/-! ### C01 -/

/-- C01, exact form: whatever `serialize` returns, `deserialize` accepts, and the decoded object is the
one described by `Arrives` (in particular all numbers bit for bit, except that a zero with sign bit in a
singular float or double field becomes a plain zero; null list and map entries are dropped). -/
theorem C01_roundtrip_exact (hv : ValidSchema env) (ho : ValidOrder env) {n m : Nat} {obj : Obj}
    {bs : Bytes} (hobj : WellTyped env m obj) (hs : serializeMessage env n m obj = .ok bs)
    (hlen : bs.length < 2 ^ 31) {k : Nat} (hk : bs.length < k) :
    ∃ o', deserializeMessage env k m bs = (.ok (), o') ∧ Arrives env (.msg m) (.msg obj) (.msg o') := by
  obtain ⟨o', h1, h2⟩ := serializeMessage_message hv ho hobj hs hlen
  exact ⟨o', deserializeMessage_of_message hv h1 hlen hk, h2⟩

/-- C01: for message types whose singular sub-message fields do not form a cycle, `serialize` returns
some bytes, and `deserialize` of these bytes into a new object finishes without an exception and gives
an object that is the same and that compares equal (`==`) to the original.
(`Clean`: no NaN, which is not equal to itself, no null list or map entries, and text that survives a
conversion to UTF-8 and back.) -/
theorem C01_roundtrip (hv : ValidSchema env) (ho : ValidOrder env) {rank : Nat → Nat}
    (ha : Acyclic env rank) (hb : NoRepeatedBool env) (hE : env.fromUtf8 (env.toUtf8 []) = []) {m : Nat}
    {obj : Obj} (hobj : Clean env (.msg m) (.msg obj)) :
    ∃ N bs, (∀ n, N ≤ n → serializeMessage env n m obj = .ok bs) ∧
      (bs.length < 2 ^ 31 → ∀ n, bs.length < n → ∃ K, ∀ k, K ≤ k → ∃ r,
        deserialize env n k m bs (defaultObj env m) = ⟨.ok (), .ok r⟩ ∧
        Same env (.msg m) (.msg obj) (.msg r) ∧
        (∃ M, ∀ j, M ≤ j → objEq env j m r obj = .ok true ∧ objEq env j m obj r = .ok true)) := by
  have hsafe := hobj.plain.safe
  have hw : WellTyped env m obj := hsafe.hasTy
  obtain ⟨N, bs, hs⟩ := C20_serialize_terminates_partial ha hb hw
  refine ⟨N, bs, hs, fun hlen n hn => ?_⟩
  obtain ⟨o', h1, h2⟩ := C01_roundtrip_exact hv ho hw (hs N (Nat.le_refl N)) hlen hn
  obtain ⟨h3, h4⟩ := arrives_same hE h2 hobj
  obtain ⟨K, hK⟩ := target_fresh h1 h4
  refine ⟨K, fun k hk => ?_⟩
  obtain ⟨r, hr, hmir, hrs⟩ := hK k hk
  have hor : Same env (.msg m) (.msg obj) (.msg r) := by
    refine h3.trans ?_ hsafe h4 hrs
    exact (hmir.toSame (h3.plain_right hobj.plain h4)).symm
  refine ⟨r, hr, hor, ?_⟩
  obtain ⟨M1, hM1⟩ := same_equal hor hsafe hrs
  obtain ⟨M2, hM2⟩ := same_equal hor.symm hrs hsafe
  exact ⟨max M1 M2, fun j hj => ⟨hM2 j (by omega), hM1 j (by omega)⟩⟩


example : Clean demoAcyclic (.msg 0) (.msg demoObj) ∧ demoAcyclic.fromUtf8 (demoAcyclic.toUtf8 []) = [] ∧
    (∃ bs, serializeMessage demoAcyclic 3 0 demoObj = .ok bs ∧ 80 ≤ bs.length ∧ bs.length < 150) := by
  refine ⟨clean_of_cleanB (n := 4) (by decide), rfl, ?_⟩
  exact ⟨_, by rfl, by decide, by decide⟩

end QtPb
