import Verif.SelfCheck
/-
C23: the checked iterator.
-/
namespace QtPb.SelfCheck

/-- Specification: the iterator points into its container or one past the end, and `size()` is the number
of bytes from there to the end. -/
def InRange (h : Heap) (it : SIt) : Prop :=
  0 ≤ it.off ∧ it.off ≤ h it.cont ∧ it.left = h it.cont - it.off ∧ it.size = h it.cont

/-- The counts of `-=` do not exceed what can be added to a size in an `int`. -/
def SmallCounts (h : Heap) (op : Op) : Prop :=
  match op with
  | .plus _ n | .add _ n => n < 2 ^ 31
  | .minus _ n => ∀ c, h c + n < 2 ^ 31
  | _ => True

theorem put_inRange {h : Heap} {vs : List SIt} (hvs : ∀ it ∈ vs, InRange h it) {i : Nat} {e : Eff}
    (hub : e ≠ .ub) (he : ∀ it, e = .done it → InRange h it) :
    put vs i e ≠ .ub ∧ ∀ vs', put vs i e = .next vs' → ∀ it ∈ vs', InRange h it := by
  cases e with
  | done it =>
    refine ⟨by simp [put], fun vs' h' x hx => ?_⟩
    simp only [put, Step.next.injEq] at h'
    subst h'
    rcases List.mem_or_eq_of_mem_set hx with h1 | rfl
    · exact hvs x h1
    · exact he _ rfl
  | thrown it => simp [put]
  | ub => exact absurd rfl hub

theorem plusAssign_ok {h : Heap} (hh : ∀ c, h c < 2 ^ 31) {it : SIt} (hr : InRange h it) {n : Nat}
    (hn : n < 2 ^ 31) :
    plusAssign h it n ≠ .ub ∧ ∀ it', plusAssign h it n = .done it' → InRange h it' := by
  obtain ⟨h1, h2, h3, h4⟩ := hr
  have h5 := hh it.cont
  have hf : fits (it.left - n) = true := by
    simp only [fits, Bool.and_eq_true, decide_eq_true_eq]; omega
  simp only [plusAssign, hf]
  by_cases hl : it.left - n < 0
  · simp [hl]
  · simp only [Bool.not_true, if_neg Bool.false_ne_true, if_neg hl, move]
    rw [if_pos (by constructor <;> omega)]
    refine ⟨by simp, fun it' he => ?_⟩
    simp only [Eff.done.injEq] at he
    subst he
    refine ⟨?_, ?_, ?_, h4⟩ <;> simp only <;> omega

theorem minusAssign_ok {h : Heap} {it : SIt} (hr : InRange h it) {n : Nat} (hn : h it.cont + n < 2 ^ 31) :
    minusAssign h it n ≠ .ub ∧ ∀ it', minusAssign h it n = .done it' → InRange h it' := by
  obtain ⟨h1, h2, h3, h4⟩ := hr
  have hf : fits (it.left + n) = true := by
    simp only [fits, Bool.and_eq_true, decide_eq_true_eq]; omega
  simp only [minusAssign, hf]
  by_cases hl : it.left + n > it.size
  · simp [hl]
  · simp only [Bool.not_true, if_neg Bool.false_ne_true, if_neg hl, move]
    rw [if_pos (by constructor <;> omega)]
    refine ⟨by simp, fun it' he => ?_⟩
    simp only [Eff.done.injEq] at he
    subst he
    refine ⟨?_, ?_, ?_, h4⟩ <;> simp only <;> omega

theorem inc_ok {h : Heap} (hh : ∀ c, h c < 2 ^ 31) {it : SIt} (hr : InRange h it) :
    inc h it ≠ .ub ∧ ∀ it', inc h it = .done it' → InRange h it' :=
  plusAssign_ok hh hr (n := 1) (by omega)

theorem dec_ok {h : Heap} (hh : ∀ c, h c + 1 < 2 ^ 31) {it : SIt} (hr : InRange h it) :
    dec h it ≠ .ub ∧ ∀ it', dec h it = .done it' → InRange h it' :=
  minusAssign_ok hr (n := 1) (hh it.cont)

theorem step_ok {h : Heap} (hh : ∀ c, h c + 1 < 2 ^ 31) {vs : List SIt} (hvs : ∀ it ∈ vs, InRange h it)
    {op : Op} (hop : SmallCounts h op) :
    step h vs op ≠ .ub ∧ ∀ vs', step h vs op = .next vs' → ∀ it ∈ vs', InRange h it := by
  have hh' : ∀ c, h c < 2 ^ 31 := fun c => by have := hh c; omega
  have get : ∀ {i : Nat} {it : SIt}, vs[i]? = some it → InRange h it :=
    fun hi => hvs _ (List.mem_of_getElem? hi)
  have same : (Step.next vs) ≠ .ub ∧ ∀ vs', (Step.next vs) = .next vs' → ∀ it ∈ vs', InRange h it :=
    ⟨by simp, fun vs' h' => by simp only [Step.next.injEq] at h'; subst h'; exact hvs⟩
  have app : ∀ {it : SIt}, InRange h it →
      (Step.next (vs ++ [it])) ≠ .ub ∧ ∀ vs', (Step.next (vs ++ [it])) = .next vs' → ∀ it ∈ vs', InRange h it := by
    intro it hit
    refine ⟨by simp, fun vs' h' x hx => ?_⟩
    simp only [Step.next.injEq] at h'
    subst h'
    rcases List.mem_append.1 hx with h1 | h1
    · exact hvs x h1
    · simp only [List.mem_singleton] at h1
      subst h1; exact hit
  have good : ∀ {it : SIt}, InRange h it → bad it = false := by
    intro it ⟨h1, h2, h3, h4⟩
    simp only [bad, Bool.or_eq_false_iff, decide_eq_false_iff_not]
    omega
  cases op with
  | make c =>
    refine app ⟨by simp [make], ?_, ?_, rfl⟩ <;> simp [make]
  | copy s =>
    simp only [step]
    cases hs : vs[s]? with
    | none => exact same
    | some it =>
      simp only [copyOf, good (get hs)]
      exact app (get hs)
  | inc i =>
    simp only [step]
    cases hs : vs[i]? with
    | none => exact same
    | some it => exact put_inRange hvs (inc_ok hh' (get hs)).1 (inc_ok hh' (get hs)).2
  | dec i =>
    simp only [step]
    cases hs : vs[i]? with
    | none => exact same
    | some it => exact put_inRange hvs (dec_ok hh (get hs)).1 (dec_ok hh (get hs)).2
  | plus i n =>
    simp only [step]
    cases hs : vs[i]? with
    | none => exact same
    | some it => exact put_inRange hvs (plusAssign_ok hh' (get hs) hop).1 (plusAssign_ok hh' (get hs) hop).2
  | minus i n =>
    simp only [step]
    cases hs : vs[i]? with
    | none => exact same
    | some it =>
      exact put_inRange hvs (minusAssign_ok (get hs) (hop _)).1 (minusAssign_ok (get hs) (hop _)).2
  | assign i s =>
    simp only [step]
    cases hi : vs[i]? with
    | none => exact same
    | some it =>
      cases hs : vs[s]? with
      | none => exact same
      | some other =>
        simp only
        split
        · exact same
        · simp only [assign, good (get hs)]
          exact put_inRange hvs (by simp) (fun x hx => by
            simp only [Bool.false_eq_true, if_false, Eff.done.injEq] at hx; subst hx; exact get hs)
  | add s n =>
    simp only [step]
    cases hs : vs[s]? with
    | none => exact same
    | some it =>
      simp only [copyOf, good (get hs)]
      have h1 := plusAssign_ok hh' (get hs) hop
      cases hp : plusAssign h it n with
      | done it' =>
        simp only [Bool.false_eq_true, if_false, good (h1.2 _ hp), hp]
        exact app (h1.2 _ hp)
      | thrown it' => simp [hp]
      | ub => exact absurd hp h1.1

/-- C23 for programs that stop at the first exception: starting without iterators, every sequence of
operations with non-negative counts performs no undefined operation, and if it does not throw, all
iterators are in range and report the right size. Containers are byte arrays, whose size is below
2^31 - 1.
Missing: counts of `-=` that overflow an `int` (`C23_overflow_violated`), and programs that go on using
an iterator whose operation has thrown (`C23_after_exception_violated`). -/
theorem C23_in_range_partial {h : Heap} (hh : ∀ c, h c + 1 < 2 ^ 31) (ops : List Op)
    (hops : ∀ op ∈ ops, SmallCounts h op) :
    run h [] ops ≠ .ub ∧ ∀ vs, run h [] ops = .next vs → ∀ it ∈ vs, InRange h it := by
  have gen : ∀ (ops : List Op) (vs : List SIt), (∀ op ∈ ops, SmallCounts h op) →
      (∀ it ∈ vs, InRange h it) →
      run h vs ops ≠ .ub ∧ ∀ vs', run h vs ops = .next vs' → ∀ it ∈ vs', InRange h it := by
    intro ops
    induction ops with
    | nil =>
      intro vs _ hvs
      refine ⟨by simp [run], fun vs' h' => ?_⟩
      simp only [run, Step.next.injEq] at h'
      subst h'; exact hvs
    | cons op ops ih =>
      intro vs ho hvs
      have h1 := step_ok hh hvs (ho op (by simp))
      simp only [run]
      cases hs : step h vs op with
      | next vs1 => exact ih vs1 (fun o hm => ho o (by simp [hm])) (h1.2 _ hs)
      | throws vs1 => simp
      | ub => exact absurd hs h1.1
  exact gen ops [] hops (by simp)

/-- The operations throw when and only when they would leave the container, and otherwise move by the
count (in range iterators, counts as in the theorem above). -/
theorem C23_throws_iff {h : Heap} (hh : ∀ c, h c + 1 < 2 ^ 31) {it : SIt} (hr : InRange h it) {n : Nat} :
    (n < 2 ^ 31 → (it.off + n ≤ h it.cont →
        plusAssign h it n = .done { it with off := it.off + n, left := it.left - n }) ∧
      (h it.cont < it.off + n → ∃ it', plusAssign h it n = .thrown it')) ∧
    (h it.cont + n < 2 ^ 31 → (0 ≤ it.off - n →
        minusAssign h it n = .done { it with off := it.off - n, left := it.left + n }) ∧
      (it.off - n < 0 → ∃ it', minusAssign h it n = .thrown it')) := by
  obtain ⟨h1, h2, h3, h4⟩ := hr
  have h5 := hh it.cont
  constructor
  · intro hn
    have hf : fits (it.left - n) = true := by
      simp only [fits, Bool.and_eq_true, decide_eq_true_eq]; omega
    constructor
    · intro hle
      simp only [plusAssign, hf, Bool.not_true, if_neg Bool.false_ne_true, move]
      rw [if_neg (by omega), if_pos (by constructor <;> omega)]
    · intro hlt
      simp only [plusAssign, hf, Bool.not_true, if_neg Bool.false_ne_true]
      rw [if_pos (by omega)]
      exact ⟨_, rfl⟩
  · intro hn
    have hf : fits (it.left + n) = true := by
      simp only [fits, Bool.and_eq_true, decide_eq_true_eq]; omega
    constructor
    · intro hle
      simp only [minusAssign, hf, Bool.not_true, if_neg Bool.false_ne_true, move]
      rw [if_neg (by omega), if_pos (by constructor <;> omega)]
      simp [Int.sub_eq_add_neg]
    · intro hlt
      simp only [minusAssign, hf, Bool.not_true, if_neg Bool.false_ne_true]
      rw [if_pos (by omega)]
      exact ⟨_, rfl⟩

/-- What the checks of copying and assigning are for: an iterator whose `++`, `--`, `+=` or `-=` has thrown can
neither be copied nor assigned to another iterator; both throw. -/
theorem C23_failed_not_copied {h : Heap} {it it' : SIt} {n : Nat}
    (hx : inc h it = .thrown it' ∨ dec h it = .thrown it' ∨ plusAssign h it n = .thrown it' ∨ minusAssign h it n = .thrown it') :
    copyOf it' = none ∧ ∀ x, ∃ x', assign x it' = .thrown x' := by
  have mv : ∀ (i : SIt) (d : Int), move h i d ≠ .thrown it' := by intro i d; unfold move; split <;> simp
  have hb : bad it' = true := by
    rcases hx with hx | hx | hx | hx
    · simp only [inc] at hx
      split at hx
      · cases hx
      · split at hx
        · rename_i hl; cases hx; simp only [bad, Bool.or_eq_true, decide_eq_true_eq]; exact .inr hl
        · exact absurd hx (mv _ _)
    · simp only [dec] at hx
      split at hx
      · cases hx
      · split at hx
        · rename_i hl; cases hx; simp only [bad, Bool.or_eq_true, decide_eq_true_eq]; exact .inl hl
        · exact absurd hx (mv _ _)
    · simp only [plusAssign] at hx
      split at hx
      · cases hx
      · split at hx
        · rename_i hl; cases hx; simp only [bad, Bool.or_eq_true, decide_eq_true_eq]; exact .inr hl
        · exact absurd hx (mv _ _)
    · simp only [minusAssign] at hx
      split at hx
      · cases hx
      · split at hx
        · rename_i hl; cases hx; simp only [bad, Bool.or_eq_true, decide_eq_true_eq]; exact .inl hl
        · exact absurd hx (mv _ _)
  refine ⟨by simp [copyOf, hb], fun x => ?_⟩
  simp only [assign, hb, if_true]
  exact ⟨_, rfl⟩

example : plusAssign (fun _ => 5) ⟨5, 5, 0, 0⟩ 10 = .thrown ⟨-5, 5, 0, 0⟩ := by decide

/-- A program over two containers of 5 and 3 bytes. -/
example : let h : Heap := fun c => if c = 0 then 5 else 3
    (∀ op ∈ [Op.make 0, .make 1, .inc 0, .plus 0 2, .copy 0, .minus 2 3, .assign 1 2, .add 1 4],
      SmallCounts h op) ∧
    run h [] [.make 0, .make 1, .inc 0, .plus 0 2, .copy 0, .minus 2 3, .assign 1 2, .add 1 4] =
      .next [⟨2, 5, 0, 3⟩, ⟨5, 5, 0, 0⟩, ⟨5, 5, 0, 0⟩, ⟨1, 5, 0, 4⟩] := by
  refine ⟨?_, by decide⟩
  intro op hop
  simp only [List.mem_cons, List.not_mem_nil, or_false] at hop
  rcases hop with rfl | rfl | rfl | rfl | rfl | rfl | rfl | rfl <;> simp only [SmallCounts] <;>
    first | trivial | omega | (intro c; split <;> omega)

/-- C23 is violated after a caught exception: the failing `+=` has already changed the size, so that a
following `-=` of the same count passes its check and moves the pointer in front of the container. -/
theorem C23_after_exception_violated :
    runCaught (fun _ => 5) [] [.make 0, .plus 0 10, .minus 0 10] = .ub ∧
    runCaught (fun _ => 5) [] [.make 0, .plus 0 10, .minus 0 6, .minus 0 1] = .ub := by
  decide

/-- C23 is violated for huge counts: the size overflows before it is checked. -/
theorem C23_overflow_violated : run (fun _ => 5) [] [.make 0, .minus 0 2147483643] = .ub := by
  decide

/-! ### Relation to the iterator of the codec model -/

/-- The members of the C++ iterator for an iterator `it` of the codec model into array `c`. -/
def repr (c : Nat) (it : It) : SIt :=
  ⟨(it.data.length : Int) - it.pos, it.data.length, c, it.pos⟩

/-- The codec model's `It.add` is `operator +=` of the class: same result, same exception, and undefined
in the same cases. -/
theorem C23_codec_iterator {h : Heap} {c : Nat} {it : It} (hc : h c = it.data.length)
    (hp : it.pos ≤ it.data.length) (hlen : it.data.length < 2 ^ 31) {n : Int}
    (hn : -2147483648 ≤ n ∧ n ≤ 2147483647) :
    (∀ it', it.add n = .ok it' → plusAssign h (repr c it) n = .done (repr c it')) ∧
    (∀ e, it.add n = .throw e → e = .outOfRange ∧ ∃ s, plusAssign h (repr c it) n = .thrown s) ∧
    (it.add n = .ub → plusAssign h (repr c it) n = .ub) := by
  have key : plusAssign h (repr c it) n =
      if (it.data.length : Int) - it.pos - n > 2147483647 then .ub
      else if (it.data.length : Int) - it.pos - n < 0 then
        .thrown { repr c it with left := (it.data.length : Int) - it.pos - n }
      else if (it.pos : Int) + n < 0 then .ub
      else .done (repr c ⟨it.data, ((it.pos : Int) + n).toNat⟩) := by
    unfold plusAssign
    by_cases h1 : (it.data.length : Int) - it.pos - n > 2147483647
    · have hf : fits ((repr c it).left - n) = false := by
        show fits ((it.data.length : Int) - it.pos - n) = false
        simp only [fits, Bool.and_eq_false_iff, decide_eq_false_iff_not]; omega
      rw [if_pos h1, hf]; rfl
    · have hf : fits ((repr c it).left - n) = true := by
        show fits ((it.data.length : Int) - it.pos - n) = true
        simp only [fits, Bool.and_eq_true, decide_eq_true_eq]; omega
      rw [if_neg h1, hf]
      simp only [Bool.not_true, if_neg Bool.false_ne_true]
      by_cases h2 : (it.data.length : Int) - it.pos - n < 0
      · have h2' : (repr c it).left - n < 0 := h2
        rw [if_pos h2, if_pos h2']; rfl
      · have h2' : ¬ (repr c it).left - n < 0 := h2
        rw [if_neg h2, if_neg h2']
        by_cases h3 : (it.pos : Int) + n < 0
        · rw [if_pos h3]
          have h4 : ¬ (0 ≤ (repr c it).off + n ∧ (repr c it).off + n ≤ h (repr c it).cont) := by
            simp only [repr]; omega
          simp only [move, if_neg h4]
        · rw [if_neg h3]
          have h4 : 0 ≤ (repr c it).off + n ∧ (repr c it).off + n ≤ h (repr c it).cont := by
            simp only [repr, hc]; omega
          simp only [move, if_pos h4]
          simp only [repr, Eff.done.injEq, SIt.mk.injEq, true_and]
          omega
  rw [key]
  simp only [It.add]
  by_cases h1 : (it.data.length : Int) - it.pos - n > 2147483647
  · simp only [if_pos h1]; simp
  · simp only [if_neg h1]
    by_cases h2 : (it.data.length : Int) - it.pos - n < 0
    · simp only [if_pos h2]; simp
    · simp only [if_neg h2]
      by_cases h3 : (it.pos : Int) + n < 0
      · simp only [if_pos h3]; simp
      · simp only [if_neg h3]
        refine ⟨fun it' he => ?_, fun e he => by simp at he, fun he => by simp at he⟩
        simp only [Res.ok.injEq] at he
        subst he
        rfl

example : (It.add ⟨[1, 2, 3], 1⟩ 2 = .ok ⟨[1, 2, 3], 3⟩) ∧
    plusAssign (fun _ => 3) (repr 0 ⟨[1, 2, 3], 1⟩) 2 = .done (repr 0 ⟨[1, 2, 3], 3⟩) ∧
    It.add ⟨[1, 2, 3], 1⟩ 3 = .throw .outOfRange ∧ It.add ⟨[1, 2, 3], 1⟩ (-2) = .ub := by decide

end QtPb.SelfCheck
