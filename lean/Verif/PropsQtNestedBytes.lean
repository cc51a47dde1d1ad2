import Verif.QtNestedCut
import Verif.PropsBytes
/-
C128: any bytes read into messages in which Qt values occur at any depth.
-/
namespace QtPb.Qt
open QtPb Spec NestedSafeSpec NestedBytesSpec

section
variable {eq : QtVal → QtVal → Bool} {env envQ : Env} {cls : Classes}

/-- Whatever the bytes, and however reading ends, what is left in a new message is an object of its class, at every depth: every Qt value is one of the type of
its field, and no list of messages has a null pointer. -/
theorem C128_shaped_partial (hq : QtOnly cls) (n c : Nat) (data : Bytes) :
    Shaped env cls (.sub c) (.sub (deserializeDeep eq env envQ cls n c data).2) := shaped_all hq n c data

/-- Reading ends, with a budget of one step more than there are bytes, whatever the bytes, if no length in them is negative as a 32 bit `int`.
Missing: negative lengths, see `C128_endless_violated`. -/
theorem C128_terminates_partial (hm : MapsKnown env cls) {c : Nat} {data : Bytes} (h : NoNegativeLengths env envQ cls data) (hlen : data.length < 2 ^ 31)
    {n : Nat} (hn : data.length < n) : (deserializeDeep eq env envQ cls n c data).1 ≠ .fuel :=
  deserializeDeep_ends hm n c data h hn hlen

/-- The budget is an artifact of the model: with every budget above the number of bytes the result is the same. -/
theorem C128_budget_partial (hm : MapsKnown env cls) {c : Nat} {data : Bytes} (h : NoNegativeLengths env envQ cls data) (hlen : data.length < 2 ^ 31)
    {n n' : Nat} (hn : data.length < n) (hn' : data.length < n') : deserializeDeep eq env envQ cls n c data = deserializeDeep eq env envQ cls n' c data := by
  rw [← deserializeDeep_le (n := n) (n' := max n n') (by omega) c data (deserializeDeep_ends hm n c data h hn hlen),
    ← deserializeDeep_le (n := n') (n' := max n n') (by omega) c data (deserializeDeep_ends hm n' c data h hn' hlen)]

/-- For bytes without negative lengths, undefined behaviour has two sources, in the sense of `Breaks`: behind a prefix that is accepted by itself something is
cut off, or a `QRect` ends beyond the range of `int`. Everything else is accepted or rejected with an exception.
Missing: such rectangles, see `C128_overflow_violated`, bytes with something cut off, see C16, and negative lengths. -/
theorem C128_only_partial (hm : MapsKnown env cls) (hq : QtOnly cls) {c : Nat} {data : Bytes} (h : NoNegativeLengths env envQ cls data)
    (hlen : data.length < 2 ^ 31) {n : Nat} (hn : data.length < n) :
    (deserializeDeep eq env envQ cls n c data).1 = .ok () ∨ (∃ e, (deserializeDeep eq env envQ cls n c data).1 = .throw e) ∨
    ((deserializeDeep eq env envQ cls n c data).1 = .ub ∧
      Breaks env envQ cls (fun c p => ∃ n o, deserializeDeep eq env envQ cls n c p = (.ok (), o)) c data) := by
  have h1 := C128_terminates_partial (eq := eq) hm (c := c) h hlen hn
  cases h2 : (deserializeDeep eq env envQ cls n c data).1 with
  | ok u => exact .inl rfl
  | throw e => exact .inr (.inl ⟨e, rfl⟩)
  | ub => exact .inr (.inr ⟨rfl, deserializeDeep_ub hm hq n c data h hlen h2⟩)
  | fuel => exact absurd h2 h1

/-- The bytes on which reading is undefined are exactly those in which something is cut off or a `QRect` ends beyond the range of `int`, for bytes without
negative lengths.
Missing: negative lengths. -/
theorem C128_exactly_partial (hvs : ValidSchema env) (hvq : ValidSchema envQ) (hV : NestedSpec.Valid cls) (hm : MapsKnown env cls) (hq : QtOnly cls)
    {c : Nat} {data : Bytes} (h : NoNegativeLengths env envQ cls data) (hlen : data.length < 2 ^ 31) {n : Nat} (hn : data.length < n) :
    (deserializeDeep eq env envQ cls n c data).1 = .ub ↔
      Breaks env envQ cls (fun c p => ∃ n o, deserializeDeep eq env envQ cls n c p = (.ok (), o)) c data :=
  ⟨deserializeDeep_ub hm hq n c data h hlen, fun hc => deserializeDeep_cut hvs hvq hV hm hq hc h hlen hn⟩

/-! ### Where it fails -/

/-- **C128 violated**: whatever the classes, undefined behaviour follows from everything that is cut off and every `QRect` that ends beyond the range of `int`. -/
theorem C128_breaks_violated (hvs : ValidSchema env) (hvq : ValidSchema envQ) (hV : NestedSpec.Valid cls) (hm : MapsKnown env cls) (hq : QtOnly cls) {c : Nat}
    {data : Bytes} (h : NoNegativeLengths env envQ cls data) (hlen : data.length < 2 ^ 31)
    (hc : Breaks env envQ cls (fun c p => ∃ n o, deserializeDeep eq env envQ cls n c p = (.ok (), o)) c data) {n : Nat} (hn : data.length < n) :
    (deserializeDeep eq env envQ cls n c data).1 = .ub := deserializeDeep_cut hvs hvq hV hm hq hc h hlen hn

/-- **C128 violated**: six bytes, an unknown field with the length -6, make reading any message without a field 15 endless. -/
theorem C128_endless_violated {c : Nat} (hno : ∀ f ∈ cls.tab c, f.num ≠ 15) (n : Nat) :
    deserializeDeep eq env envQ cls n c [0x7A, 0xFA, 0xFF, 0xFF, 0xFF, 0x0F] = (.fuel, newObject cls c) := by
  have hfind : findDeep (cls.tab c) 15 = none := by
    unfold findDeep
    rw [List.findIdx?_eq_none_iff]
    intro f hf
    simpa using hno f hf
  have key : ∀ (rec : Nat → Bytes → Res Unit × List Deep) (n k : Nat) (o : List Deep),
      deepLoop eq env envQ rec n (cls.tab c) k (It.start [0x7A, 0xFA, 0xFF, 0xFF, 0xFF, 0x0F]) o = (.fuel, o) := by
    intro rec n k o
    induction k with
    | zero => rfl
    | succ k ih =>
      have h1 : decodeHeader (It.start [0x7A, 0xFA, 0xFF, 0xFF, 0xFF, 0x0F]) =
          .ok (⟨true, 15, 2⟩, ⟨[0x7A, 0xFA, 0xFF, 0xFF, 0xFF, 0x0F], 1⟩) := by decide
      have h2 : skipField ⟨[0x7A, 0xFA, 0xFF, 0xFF, 0xFF, 0x0F], 1⟩ 2 =
          .ok (It.start [0x7A, 0xFA, 0xFF, 0xFF, 0xFF, 0x0F]) := by decide
      have h3 : deepProperty eq env envQ rec n k (cls.tab c) (It.start [0x7A, 0xFA, 0xFF, 0xFF, 0xFF, 0x0F]) o =
          .ok (It.start [0x7A, 0xFA, 0xFF, 0xFF, 0xFF, 0x0F], o) := by
        simp only [deepProperty, h1, Res.bind_eq, Res.bind, hfind, h2]
        rfl
      simp only [deepLoop]
      rw [if_neg (by decide), h3]
      exact ih
  cases n with
  | zero => rfl
  | succ n => exact key _ _ _ _

end

/-- The classes of C125. -/
example : QtOnly route ∧ ∀ f ∈ route.tab 1, f.num ≠ 15 := by
  refine ⟨fun c f hf m hm => ?_, by decide⟩
  by_cases h0 : c = 0
  · subst h0
    simp [route] at hf
    rcases hf with rfl | rfl <;> cases hm
    · exact ⟨.size ⟨0, 0⟩, rfl⟩
    · exact ⟨.point ⟨0, 0⟩, rfl⟩
  · by_cases h1 : c = 1
    · subst h1
      simp [route] at hf
      rcases hf with rfl | rfl | rfl | rfl <;> cases hm
      exact ⟨.rect ⟨0, 0, 0, 0⟩, rfl⟩
    · simp [route, h0, h1] at hf

theorem noNegativeLengths_of_small {env envQ : Env} {cls : Classes} {bs : Bytes} (h : ∀ b ∈ bs, b.toNat < 128) : NoNegativeLengths env envQ cls bs := by
  intro pre tag l rest t n he _ _ hl
  have hm : ∀ b ∈ l, b.toNat < 128 := fun b hb => h b (by rw [he]; simp [hb])
  obtain ⟨hv, _⟩ := hl
  cases hv with
  | last b hb => rw [Nat.mod_eq_of_lt (by omega)]; omega
  | more b tl m hb _ => have := hm b (by simp); omega

theorem walk_maps : MapsKnown demoEnv walk := by
  intro c f hf kk vt hm
  by_cases h0 : c = 0
  · subst h0
    simp [walk] at hf
    rcases hf with rfl | rfl <;> cases hm
  · by_cases h1 : c = 1
    · subst h1
      simp [walk] at hf
      rcases hf with rfl | rfl | rfl | rfl <;> cases hm
    · simp [walk, h0, h1] at hf

/-- Classes without `QRect`: accepted, rejected, and cut off inside of an element of a list. -/
example : MapsKnown demoEnv walk ∧ NoNegativeLengths demoEnv qtEnv walk [0x1a, 0] ∧ NoNegativeLengths demoEnv qtEnv walk [0x1a, 2, 0x12, 9] ∧
    (deserializeDeep (fun _ _ => false) demoEnv qtEnv walk 9 1 [0x1a, 0]).1 = .ok () ∧
    (deserializeDeep (fun _ _ => false) demoEnv qtEnv walk 9 1 [0x1a, 0, 0x0b]).1 = .throw .invalidArgument ∧
    (deserializeDeep (fun _ _ => false) demoEnv qtEnv walk 9 1 [0x1a, 2, 0x12, 9]).1 = .ub :=
  ⟨walk_maps, noNegativeLengths_of_small (by decide), noNegativeLengths_of_small (by decide), rfl, rfl, rfl⟩

example := C128_only_partial (eq := fun _ _ => false) (c := 1) walk_maps walk_meets.2.1 (envQ := qtEnv)
  (noNegativeLengths_of_small (bs := [0x1a, 2, 0x12, 9]) (by decide)) (by decide) (n := 9) (by decide)

/-- The length 9 of a message for a point, with no bytes behind it, inside of an element of a list. -/
example : Breaks demoEnv qtEnv walk (fun c p => ∃ n o, deserializeDeep (fun _ _ => false) demoEnv qtEnv walk n c p = (.ok (), o)) 1 [0x1a, 2, 0x12, 9] := by
  refine .inside (pre := []) (tag := [0x1a]) (l := [2]) (body := [0x12, 9]) (rest := []) (t := 26) (n := 2) (f := ⟨3, .subs 0⟩) (c' := 0)
    ⟨1, _, rfl⟩ ?_ (.inr (.inr (.inl rfl))) (by decide) rfl (.inr rfl) ?_ rfl ?_
  · exact ⟨.last _ (by decide), by decide⟩
  · exact ⟨.last _ (by decide), by decide⟩
  · refine .qt (pre := []) (tag := [0x12]) (bs := [9]) (t := 18) (f := ⟨2, .qt 7⟩) (m := 7) ⟨1, _, rfl⟩ ?_ (.inr (.inr (.inl rfl))) (by decide) rfl rfl
      (.bodyShort (.inl rfl) (.body (l := [9]) (rest := []) (n := 9) rfl ?_ (by decide)))
    · exact ⟨.last _ (by decide), by decide⟩
    · exact ⟨.last _ (by decide), by decide⟩

example := C128_exactly_partial (eq := fun _ _ => false) (c := 1) demo_valid (qtSch_valid qtEnv_ok.1) walk_meets.1 walk_maps walk_meets.2.1
  (noNegativeLengths_of_small (bs := [0x1a, 2, 0x12, 9]) (by decide)) (by decide) (n := 9) (by decide)

/-- Nothing but the element of the list that was complete is left when the second one is cut off. -/
example : (deserializeDeep (fun _ _ => false) demoEnv qtEnv route 9 1 [0x1a, 0, 0x1a, 3, 0x12, 1, 0x0b]).2 =
    [.val (.sc (.w32 0)), .unset, .subs [.sub [.qt (.size ⟨-1, -1⟩), .qt (.point ⟨0, 0⟩)]], .qt (.rect ⟨0, 0, -1, -1⟩)] := by with_unfolding_all rfl

/-- **C128 violated**: a `QRect` that ends beyond the range of `int` makes reading overflow a signed integer, which is undefined behaviour. -/
theorem C128_overflow_violated : ∃ data, data.length < 100 ∧
    (deserializeDeep (fun _ _ => false) demoEnv qtEnv route 100 1 data).1 = .ub :=
  ⟨[0x2a, 12, 0x0a, 6, 0x08, 0xfe, 0xff, 0xff, 0xff, 0x0f, 0x12, 2, 0x08, 4], by decide, broken_ub (by decide +kernel)⟩

/-- These bytes in the sense of `Breaks`: `x` is 2147483647 and the width is 2. -/
example : Breaks demoEnv qtEnv route (fun c p => ∃ n o, deserializeDeep (fun _ _ => false) demoEnv qtEnv route n c p = (.ok (), o)) 1
    [0x2a, 12, 0x0a, 6, 0x08, 0xfe, 0xff, 0xff, 0xff, 0x0f, 0x12, 2, 0x08, 4] := by
  refine .rect (pre := []) (tag := [0x2a]) (l := [12]) (body := [0x0a, 6, 0x08, 0xfe, 0xff, 0xff, 0xff, 0x0f, 0x12, 2, 0x08, 4]) (rest := []) (t := 42) (n := 12)
    (k := 20) (f := ⟨5, .qt 9⟩) (o := [.msg [.sc (.w32 2147483647), .sc (.w32 0)], .msg [.sc (.w32 2), .sc (.w32 0)]])
    ⟨1, _, rfl⟩ ?_ (.inr (.inr (.inl rfl))) (by decide) rfl rfl ?_ rfl (by with_unfolding_all rfl) ⟨0, by decide, by decide⟩
  · exact ⟨.last _ (by decide), by decide⟩
  · exact ⟨.last _ (by decide), by decide⟩

end QtPb.Qt
