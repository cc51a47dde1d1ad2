import Verif.Channels
/-
C92: calls under way when the channel of a client is replaced, and when their timers run out.
-/
namespace QtPb.Channels

/-! ### Specification -/

/-- The call was made and its result is not delivered yet. -/
def Underway (x : Call) : Prop := x.state = .waiting ∨ ∃ a, x.state = .answered a

/-- The event destroys the channel: somebody held it before, nobody afterwards. -/
def Dies (w : World) (e : Ev) (c : Nat) : Prop := w.alive c = true ∧ (w.step e).alive c = false

/-- A program that replaces and drops channels only when none of their calls is under way, and in which no timer runs out between the
arrival of an answer and the return of the synchronous call that waits for it. -/
def Patient (es : List Ev) : Prop := ∀ es1 e es2, es = es1 ++ e :: es2 →
  (∀ c, Dies (start.run es1) e c → ∀ x ∈ (start.run es1).calls, x.ch = c → ¬ Underway x) ∧
  (∀ k, e = .expire k → ∀ x, (start.run es1).calls[k]? = some x → ∀ a, x.state ≠ .answered a)

/-! ### Invariant -/

theorem run_snoc (es : List Ev) (e : Ev) : start.run (es ++ [e]) = (start.run es).step e := by
  unfold World.run; rw [List.foldl_append]; rfl

theorem run_append (w : World) (a b : List Ev) : w.run (a ++ b) = (w.run a).run b := List.foldl_append

/-- Induction on histories from the end. -/
theorem snoc_induction {P : List Ev → Prop} (h0 : P []) (hs : ∀ es e, P es → P (es ++ [e])) (es : List Ev) : P es := by
  have : ∀ l : List Ev, P l.reverse := fun l => by
    induction l with
    | nil => exact h0
    | cons e l ih => rw [List.reverse_cons]; exact hs _ _ ih
  have h := this es.reverse
  rwa [List.reverse_reverse] at h

theorem Patient.init {es : List Ev} {e : Ev} (h : Patient (es ++ [e])) : Patient es :=
  fun a x b hab => h a x (b ++ [e]) (by rw [hab]; simp)

/-- Nothing bad has happened, and nothing that is under way points to something deleted. -/
structure Safe (w : World) : Prop where
  ub : w.ub = false
  lost : ∀ x ∈ w.calls, x.state ≠ .lost
  gone : ∀ x ∈ w.calls, Underway x → x.gone = false

theorem mem_modify {α : Type} {l : List α} {k : Nat} {f : α → α} {y : α} (h : y ∈ l.modify k f) :
    y ∈ l ∨ ∃ x, l[k]? = some x ∧ y = f x := by
  obtain ⟨i, hi⟩ := List.mem_iff_getElem?.1 h
  rw [List.getElem?_modify] at hi
  cases hl : l[i]? with
  | none => rw [hl] at hi; cases hi
  | some x =>
    rw [hl] at hi
    by_cases hk : k = i
    · subst hk; right; simp at hi; exact ⟨x, hl, hi.symm⟩
    · simp [hk] at hi; left; rw [← hi]; exact List.mem_of_getElem? hl

theorem mem_set {α : Type} {l : List α} {k : Nat} {v y : α} (h : y ∈ l.set k v) : y ∈ l ∨ y = v := by
  rcases List.mem_or_eq_of_mem_set h with h | h
  · exact .inl h
  · exact .inr h

theorem Safe.bury {w w' : World} (h : Safe w') (hd : ∀ c, w.alive c = true → w'.alive c = false → ∀ x ∈ w'.calls, x.ch = c → ¬ Underway x) :
    Safe (w.bury w') := by
  have key : ∀ y ∈ (w.bury w').calls, y ∈ w'.calls ∨ ∃ x ∈ w'.calls, ¬ Underway x ∧ y = x.orphan := by
    intro y hy
    obtain ⟨x, hx, rfl⟩ := List.mem_map.1 hy
    split
    · rename_i hc
      rw [Bool.and_eq_true, Bool.not_eq_true'] at hc
      exact .inr ⟨x, hx, hd _ hc.1 hc.2 x hx rfl, rfl⟩
    · exact .inl hx
  have orphan_state : ∀ x : Call, ¬ Underway x → x.orphan.state = x.state := by
    intro x hx
    unfold Call.orphan
    split
    · have : x.state ≠ .waiting := fun hw => hx (.inl hw)
      simp [this]
    · rfl
  refine ⟨h.ub, fun y hy => ?_, fun y hy hu => ?_⟩
  · rcases key y hy with hy | ⟨x, hx, hn, rfl⟩
    · exact h.lost y hy
    · rw [orphan_state x hn]; exact h.lost x hx
  · rcases key y hy with hy | ⟨x, hx, hn, rfl⟩
    · exact h.gone y hy hu
    · exact absurd (by unfold Underway at hu ⊢; rw [orphan_state x hn] at hu; exact hu) hn

theorem alive_bury (w w' : World) (c : Nat) : (w.bury w').alive c = w'.alive c := rfl

theorem Safe.step {w : World} {e : Ev} (h : Safe w) (hd : ∀ c, Dies w e c → ∀ x ∈ w.calls, x.ch = c → ¬ Underway x)
    (he : ∀ k, e = .expire k → ∀ x, w.calls[k]? = some x → ∀ a, x.state ≠ .answered a) : Safe (w.step e) := by
  cases e with
  | create k => exact ⟨h.ub, h.lost, h.gone⟩
  | attach c =>
    simp only [World.step]
    by_cases hc : (w.channels[c]?.any (·.held)) = true
    · rw [if_pos hc]
      refine Safe.bury ⟨h.ub, h.lost, h.gone⟩ fun d h1 h2 => hd d ⟨h1, ?_⟩
      simp only [World.step, if_pos hc, alive_bury]; exact h2
    · rw [if_neg hc]; exact h
  | drop c => exact Safe.bury ⟨h.ub, h.lost, h.gone⟩ fun d h1 h2 => hd d ⟨h1, h2⟩
  | call sync =>
    simp only [World.step]
    split
    · exact h
    · split
      · exact h
      · refine ⟨h.ub, fun x hx => ?_, fun x hx hu => ?_⟩
        · rcases List.mem_append.1 hx with hx | hx
          · exact h.lost x hx
          · rw [List.mem_singleton.1 hx]; exact fun h => by cases h
        · rcases List.mem_append.1 hx with hx | hx
          · exact h.gone x hx hu
          · rw [List.mem_singleton.1 hx]
  | begin k =>
    simp only [World.step]
    split
    · rename_i c hc
      have hm := List.mem_of_getElem? hc
      split
      · rename_i hs
        have hg := h.gone c hm (.inl hs.2.2)
        refine ⟨by simp [h.ub, hg], fun x hx => ?_, fun x hx hu => ?_⟩
        · rcases mem_set hx with hx | rfl
          · exact h.lost x hx
          · exact h.lost c hm
        · rcases mem_set hx with hx | rfl
          · exact h.gone x hx hu
          · exact hg
      · exact h
    · exact h
  | answer k a =>
    simp only [World.step]
    refine ⟨h.ub, fun x hx => ?_, fun x hx hu => ?_⟩
    · rcases mem_modify hx with hx | ⟨c, hc, rfl⟩
      · exact h.lost x hx
      · have := h.lost c (List.mem_of_getElem? hc)
        unfold Call.finish
        split
        · simp only
          split <;> exact fun h => by cases h
        · exact this
    · rcases mem_modify hx with hx | ⟨c, hc, rfl⟩
      · exact h.gone x hx hu
      · have := h.gone c (List.mem_of_getElem? hc)
        unfold Call.finish at hu ⊢
        split
        · rename_i hs; exact this (.inl hs.1)
        · rename_i hs; rw [if_neg hs] at hu; exact this hu
  | expire k =>
    have hid : ∀ x, w.calls[k]? = some x → x.expire = x := fun x hx => by
      have := he k rfl x hx
      unfold Call.expire
      split
      · rename_i a _ hst; exact absurd hst (this _)
      · rfl
    simp only [World.step]
    refine ⟨h.ub, fun x hx => ?_, fun x hx hu => ?_⟩
    · rcases mem_modify hx with hx | ⟨c, hc, rfl⟩
      · exact h.lost x hx
      · rw [hid c hc]; exact h.lost c (List.mem_of_getElem? hc)
    · rcases mem_modify hx with hx | ⟨c, hc, rfl⟩
      · exact h.gone x hx hu
      · rw [hid c hc] at hu ⊢; exact h.gone c (List.mem_of_getElem? hc) hu
  | ret =>
    simp only [World.step, World.ret]
    split
    · exact h
    · rename_i k rest hs
      split
      · rename_i c hc
        have hm := List.mem_of_getElem? hc
        split
        · rename_i a ha
          have hg := h.gone c hm (.inr ⟨a, ha⟩)
          refine ⟨by simp [h.ub, hg], fun x hx => ?_, fun x hx hu => ?_⟩
          · rcases mem_set hx with hx | rfl
            · exact h.lost x hx
            · exact fun h => by cases h
          · rcases mem_set hx with hx | rfl
            · exact h.gone x hx hu
            · exact hg
        · exact h
      · exact h

theorem safe {es : List Ev} (h : Patient es) : Safe (start.run es) := by
  induction es using snoc_induction with
  | h0 => exact ⟨rfl, fun _ h => (by cases h), fun _ h => (by cases h)⟩
  | hs es e ih =>
    rw [run_snoc]
    have hp := h es e [] rfl
    exact (ih h.init).step hp.1 hp.2

/-! ### C92 -/

/-- **C92, what holds.** If channels are replaced and dropped only when none of their calls is under way, and no timer runs out while an
answered call waits for loops inside it, then nothing undefined happens and no call is lost.

What is missing: programs that do these things, see the theorems below. -/
theorem C92_safe_partial {es : List Ev} (h : Patient es) : (start.run es).ub = false ∧ ∀ x ∈ (start.run es).calls, x.state ≠ .lost :=
  ⟨(safe h).ub, (safe h).lost⟩

/-- In such a program a request that ends gives its call the result: an asynchronous call at once, a synchronous one when its event loop
is the innermost one. -/
theorem C92_result_partial {es : List Ev} {k : Nat} {a : Bytes} {x : Call} (hx : (start.run es).calls[k]? = some x)
    (hw : x.state = .waiting) (hb : x.kind = .native → x.begun = true) :
    (start.run (es ++ [.answer k a])).calls[k]? = some { x with state := if x.sync then .answered a else .done a } ∧
      ∀ es' y rest, Patient (es ++ [.answer k a] ++ es') → (start.run (es ++ [.answer k a] ++ es')).calls[k]? = some y →
        y.state = .answered a → (start.run (es ++ [.answer k a] ++ es')).stack = k :: rest →
        ∃ z, (start.run (es ++ [.answer k a] ++ es' ++ [.ret])).calls[k]? = some z ∧ z.state = .done a ∧
          (start.run (es ++ [.answer k a] ++ es' ++ [.ret])).ub = false ∧
          (start.run (es ++ [.answer k a] ++ es' ++ [.ret])).stack = rest := by
  constructor
  · rw [run_snoc]
    simp only [World.step, List.getElem?_modify, hx]
    have hf : x.finish a = { x with state := if x.sync then .answered a else .done a } := by
      unfold Call.finish; exact if_pos ⟨hw, hb⟩
    simp [hf]
  · intro es' y rest hp hy hya hst
    have hs := safe hp
    rw [run_snoc]
    have hlt := (List.getElem?_eq_some_iff.1 hy).1
    refine ⟨{ y with state := .done a }, ?_, rfl, ?_, ?_⟩
    · simp only [World.step, World.ret, hst, hy, hya, List.getElem?_set, hlt, if_true]
    · simp only [World.step, World.ret, hst, hy, hya]
      rw [hs.ub, hs.gone y (List.mem_of_getElem? hy) (.inr ⟨a, hya⟩)]; simp
    · simp only [World.step, World.ret, hst, hy, hya]

/-- What a call delivers is an end of its own request, in every program. -/
theorem C92_genuine {es : List Ev} {k : Nat} {x : Call} (hx : (start.run es).calls[k]? = some x) (a : Bytes)
    (h : x.state = .answered a ∨ x.state = .done a) : Ev.answer k a ∈ es := by
  induction es using snoc_induction generalizing k x with
  | h0 => cases hx
  | hs es e ih =>
    have old : ∀ y, (start.run es).calls[k]? = some y → (y.state = .answered a ∨ y.state = .done a) → Ev.answer k a ∈ es ++ [e] :=
      fun y hy hs => List.mem_append_left _ (ih hy hs)
    rw [run_snoc] at hx
    have burial : ∀ w', w'.calls = (start.run es).calls → ((start.run es).bury w').calls[k]? = some x → Ev.answer k a ∈ es ++ [e] := by
      intro w' hw hx
      simp only [World.bury, hw, List.getElem?_map] at hx
      cases hy : (start.run es).calls[k]? with
      | none => rw [hy] at hx; cases hx
      | some y =>
        rw [hy, Option.map_some, Option.some.injEq] at hx
        refine old y hy ?_
        subst hx
        split at h
        · unfold Call.orphan at h
          split at h
          · simp only at h
            split at h
            · rcases h with h | h <;> cases h
            · exact h
          · exact h
        · exact h
    cases e with
    | create c => exact old x hx h
    | attach c =>
      simp only [World.step] at hx
      split at hx
      · exact burial { start.run es with current := some c } rfl hx
      · exact old x hx h
    | drop c => exact burial { start.run es with channels := (start.run es).channels.modify c fun x => { x with held := false } } rfl hx
    | call sync =>
      simp only [World.step] at hx
      split at hx
      · exact old x hx h
      · split at hx
        · exact old x hx h
        · by_cases hj : k < (start.run es).calls.length
          · rw [List.getElem?_append_left hj] at hx; exact old x hx h
          · rw [List.getElem?_append_right (Nat.le_of_not_lt hj)] at hx
            cases hd : k - (start.run es).calls.length with
            | zero =>
              rw [hd] at hx
              simp only [List.getElem?_cons_zero, Option.some.injEq] at hx
              subst hx
              rcases h with h | h <;> cases h
            | succ n => rw [hd] at hx; simp at hx
    | begin j =>
      simp only [World.step] at hx
      split at hx
      · rename_i c hc
        split at hx
        · rw [List.getElem?_set] at hx
          split at hx
          · rename_i hjk
            subst hjk
            split at hx
            · rw [Option.some.injEq] at hx; subst hx; exact old c hc h
            · cases hx
          · exact old x hx h
        · exact old x hx h
      · exact old x hx h
    | answer j b =>
      simp only [World.step, List.getElem?_modify] at hx
      cases hy : (start.run es).calls[k]? with
      | none => rw [hy] at hx; cases hx
      | some y =>
        rw [hy] at hx
        simp only [Option.map_eq_map, Option.map_some, Option.some.injEq] at hx
        by_cases hjk : j = k
        · rw [if_pos hjk] at hx
          subst hjk
          unfold Call.finish at hx
          split at hx
          · subst hx
            have : a = b := by
              simp only at h
              split at h
              · rcases h with h | h
                · injection h with h; exact h.symm
                · cases h
              · rcases h with h | h
                · cases h
                · injection h with h; exact h.symm
            subst this
            simp
          · subst hx; exact old y hy h
        · rw [if_neg hjk] at hx; subst hx; exact old y hy h
    | expire j =>
      simp only [World.step, List.getElem?_modify] at hx
      cases hy : (start.run es).calls[k]? with
      | none => rw [hy] at hx; cases hx
      | some y =>
        rw [hy] at hx
        simp only [Option.map_eq_map, Option.map_some, Option.some.injEq] at hx
        by_cases hjk : j = k
        · rw [if_pos hjk] at hx
          unfold Call.expire at hx
          split at hx
          · subst hx; exact old y hy h
          · subst hx; exact old y hy h
        · rw [if_neg hjk] at hx; subst hx; exact old y hy h
    | ret =>
      simp only [World.step, World.ret] at hx
      split at hx
      · exact old x hx h
      · rename_i j rest hst
        split at hx
        · rename_i c hc
          split at hx
          · rename_i b hb
            rw [List.getElem?_set] at hx
            split at hx
            · rename_i hjk
              subst hjk
              split at hx
              · rw [Option.some.injEq] at hx
                subst hx
                refine old c hc ?_
                rcases h with h | h
                · cases h
                · injection h with h; rw [← h]; exact .inl hb
              · cases hx
            · exact old x hx h
          · exact old x hx h
        · exact old x hx h

/-- A program that never lets go of a channel and is never overtaken by a timer is patient. -/
theorem patient_of_kept {es : List Ev} (hd : ∀ c, Ev.drop c ∉ es) (he : ∀ k, Ev.expire k ∉ es) : Patient es := by
  have inv : ∀ es : List Ev, (∀ c, Ev.drop c ∉ es) → (∀ x ∈ (start.run es).channels, x.held = true) ∧
      ∀ c, (start.run es).current = some c → c < (start.run es).channels.length := by
    intro es
    induction es using snoc_induction with
    | h0 => exact fun _ => ⟨fun _ h => (by cases h), fun _ h => (by cases h)⟩
    | hs es e ih =>
      intro hd
      obtain ⟨h1, h2⟩ := ih fun c hc => hd c (List.mem_append_left _ hc)
      rw [run_snoc]
      cases e with
      | create k =>
        refine ⟨fun x hx => ?_, fun c hc => ?_⟩
        · rcases List.mem_append.1 hx with hx | hx
          · exact h1 x hx
          · rw [List.mem_singleton.1 hx]
        · have := h2 c hc
          simp only [World.step, List.length_append, List.length_singleton]; omega
      | attach c =>
        simp only [World.step]
        split
        · rename_i hc
          refine ⟨h1, fun d hd => ?_⟩
          simp only [World.bury, Option.some.injEq] at hd ⊢
          subst hd
          cases hl : (start.run es).channels[c]? with
          | none => rw [hl] at hc; cases hc
          | some x => exact (List.getElem?_eq_some_iff.1 hl).1
        · exact ⟨h1, h2⟩
      | drop c => exact absurd (by simp) (hd c)
      | call sync =>
        simp only [World.step]
        split
        · exact ⟨h1, h2⟩
        · split <;> exact ⟨h1, h2⟩
      | begin k =>
        simp only [World.step]
        split
        · split <;> exact ⟨h1, h2⟩
        · exact ⟨h1, h2⟩
      | answer k a => exact ⟨h1, h2⟩
      | expire k => exact ⟨h1, h2⟩
      | ret =>
        simp only [World.step, World.ret]
        split
        · exact ⟨h1, h2⟩
        · split
          · split <;> exact ⟨h1, h2⟩
          · exact ⟨h1, h2⟩
  intro es1 e es2 hes
  subst hes
  have hd1 : ∀ c, Ev.drop c ∉ es1 := fun c hc => hd c (List.mem_append_left _ hc)
  obtain ⟨h1, h2⟩ := inv es1 hd1
  obtain ⟨h3, h4⟩ := inv (es1 ++ [e]) (fun c hc => by
    rcases List.mem_append.1 hc with hc | hc
    · exact hd1 c hc
    · exact hd c (by rw [List.mem_singleton.1 hc]; simp))
  rw [run_snoc] at h3 h4
  refine ⟨fun c hdies => ?_, fun k hk => absurd (by rw [hk]; simp) (he k)⟩
  exfalso
  obtain ⟨ha, hb⟩ := hdies
  have hlen : c < (start.run es1).channels.length := by
    simp only [World.alive, Bool.or_eq_true] at ha
    rcases ha with ha | ha
    · cases hl : (start.run es1).channels[c]? with
      | none => rw [hl] at ha; cases ha
      | some x => exact (List.getElem?_eq_some_iff.1 hl).1
    · exact h2 c (by simpa using ha)
  have hmono : (start.run es1).channels.length ≤ ((start.run es1).step e).channels.length := by
    cases e with
    | create k => simp [World.step]
    | attach c => simp only [World.step]; split <;> exact Nat.le_refl _
    | drop c => exact absurd (by simp) (hd c)
    | call sync =>
      simp only [World.step]
      split
      · exact Nat.le_refl _
      · split <;> exact Nat.le_refl _
    | begin k =>
      simp only [World.step]
      split
      · split <;> exact Nat.le_refl _
      · exact Nat.le_refl _
    | answer k a => exact Nat.le_refl _
    | expire k => exact Nat.le_refl _
    | ret =>
      simp only [World.step, World.ret]
      split
      · exact Nat.le_refl _
      · split
        · split <;> exact Nat.le_refl _
        · exact Nat.le_refl _
  have hlt : c < ((start.run es1).step e).channels.length := Nat.lt_of_lt_of_le hlen hmono
  have hheld := h3 _ (List.getElem_mem hlt)
  simp only [World.alive, Bool.or_eq_false_iff, List.getElem?_eq_getElem hlt, Option.any_some, hheld] at hb
  exact absurd hb.1 (by decide)

/-- A lost call stays lost, and on the stack if it is synchronous. -/
theorem lost_stays {k : Nat} (es : List Ev) (w : World) (h : (∃ x : Call, w.calls[k]? = some x ∧ x.state = .lost)) :
    (∃ x : Call, (w.run es).calls[k]? = some x ∧ x.state = .lost) ∧ (k ∈ w.stack → k ∈ (w.run es).stack) := by
  induction es generalizing w with
  | nil => exact ⟨h, id⟩
  | cons e es ih =>
    obtain ⟨x, hx, hl⟩ := h
    have hlt := (List.getElem?_eq_some_iff.1 hx).1
    suffices hs : (∃ y : Call, (w.step e).calls[k]? = some y ∧ y.state = .lost) ∧ (k ∈ w.stack → k ∈ (w.step e).stack) by
      have := ih (w.step e) hs.1
      exact ⟨this.1, fun hk => this.2 (hs.2 hk)⟩
    have burial : ∀ w' : World, w'.calls = w.calls → ∃ y : Call, (w.bury w').calls[k]? = some y ∧ y.state = .lost := by
      intro w' hw
      simp only [World.bury, hw, List.getElem?_map, hx, Option.map_some]
      refine ⟨_, rfl, ?_⟩
      split
      · unfold Call.orphan
        split
        · simp [hl]
        · exact hl
      · exact hl
    cases e with
    | create c => exact ⟨⟨x, hx, hl⟩, id⟩
    | attach c =>
      simp only [World.step]
      split
      · exact ⟨burial _ rfl, id⟩
      · exact ⟨⟨x, hx, hl⟩, id⟩
    | drop c => exact ⟨burial _ rfl, id⟩
    | call sync =>
      simp only [World.step]
      split
      · exact ⟨⟨x, hx, hl⟩, id⟩
      · split
        · exact ⟨⟨x, hx, hl⟩, id⟩
        · refine ⟨⟨x, by rw [List.getElem?_append_left hlt]; exact hx, hl⟩, fun hk => ?_⟩
          simp only
          split
          · exact List.mem_cons_of_mem _ hk
          · exact hk
    | begin j =>
      simp only [World.step]
      split
      · rename_i c hc
        split
        · rename_i hs
          refine ⟨⟨x, ?_, hl⟩, id⟩
          have hjk : j ≠ k := fun hjk => by
            subst hjk; rw [hx, Option.some.injEq] at hc; subst hc; rw [hl] at hs; cases hs.2.2
          rw [List.getElem?_set_ne hjk]; exact hx
        · exact ⟨⟨x, hx, hl⟩, id⟩
      · exact ⟨⟨x, hx, hl⟩, id⟩
    | answer j a =>
      simp only [World.step, List.getElem?_modify, hx]
      refine ⟨⟨_, rfl, ?_⟩, id⟩
      split
      · simp [Call.finish, hl]
      · exact hl
    | expire j =>
      simp only [World.step, List.getElem?_modify, hx]
      refine ⟨⟨_, rfl, ?_⟩, id⟩
      split
      · show (Call.expire x).state = _
        unfold Call.expire; split <;> exact hl
      · exact hl
    | ret =>
      simp only [World.step, World.ret]
      split
      · exact ⟨⟨x, hx, hl⟩, id⟩
      · rename_i j rest hst
        split
        · rename_i c hc
          split
          · rename_i b hb
            have hjk : j ≠ k := fun hjk => by
              subst hjk; rw [hx, Option.some.injEq] at hc; subst hc; rw [hl] at hb; cases hb
            refine ⟨⟨x, by simp only; rw [List.getElem?_set_ne hjk]; exact hx, hl⟩, fun hk => ?_⟩
            rcases List.mem_cons.1 (hst ▸ hk) with h | h
            · exact absurd h.symm hjk
            · exact h
          · exact ⟨⟨x, hx, hl⟩, id⟩
        · exact ⟨⟨x, hx, hl⟩, id⟩

/-- C92 is violated: whenever an HTTP/2 channel is destroyed while a request of it is running, the call never ends, in every state and
whatever happens afterwards: an asynchronous call emits neither `finished` nor `error`, a synchronous one does not return. -/
theorem C92_lost_violated {w : World} {c k : Nat} {x : Call} (hc : w.current = some c) (hheld : w.channels[c]?.any (·.held) = false)
    {c' : Nat} (hne : c' ≠ c) (hc' : w.channels[c']?.any (·.held) = true) (hx : w.calls[k]? = some x) (hch : x.ch = c)
    (hk : x.kind = .http2) (hw : x.state = .waiting) (es : List Ev) :
    (∃ y : Call, ((w.step (.attach c')).run es).calls[k]? = some y ∧ y.state = .lost) ∧
      (k ∈ w.stack → k ∈ ((w.step (.attach c')).run es).stack) := by
  have h1 : ∃ y : Call, (w.step (.attach c')).calls[k]? = some y ∧ y.state = .lost := by
    have ha : w.alive c = true := by simp [World.alive, hc]
    have hb : World.alive { w with current := some c' } c = false := by
      simp only [World.alive, hheld, Bool.false_or]; simpa using hne
    simp only [World.step, if_pos hc', World.bury, List.getElem?_map, hx, Option.map_some, hch, ha, hb]
    exact ⟨_, rfl, by simp [Call.orphan, hk, hw]⟩
  have := lost_stays es _ h1
  refine ⟨this.1, fun hs => this.2 ?_⟩
  simp only [World.step, if_pos hc', World.bury]; exact hs

/-- The shortest such program: attach a channel without keeping it, make an asynchronous call, attach another channel. -/
theorem C92_async_violated (es : List Ev) :
    ∃ y : Call, (start.run ([.create .http2, .attach 0, .drop 0, .call false, .create .http2, .attach 1] ++ es)).calls[0]? = some y ∧
      y.state = .lost := by
  rw [run_append]
  exact (lost_stays es _ ⟨_, rfl, rfl⟩).1

/-- A synchronous call that has got its answer but waits for a loop inside it uses the deleted network reply when it returns: undefined. -/
theorem C92_dangling_violated (a b : Bytes) :
    (start.run [.create .http2, .create .http2, .attach 0, .drop 0, .call true, .attach 1, .call true]).ub = false ∧
    (start.run [.create .http2, .create .http2, .attach 0, .drop 0, .call true, .call true, .answer 0 a, .answer 1 b, .attach 1, .ret]).ub =
      true := ⟨rfl, rfl⟩

/-- The same without any change of the channel: if the timer of the outer call, six seconds after its start, runs out while a call made
inside it is still waiting, the network reply of the outer call is deleted although the answer has not been taken from it. -/
theorem C92_timer_violated (a b : Bytes) :
    (start.run [.create .http2, .attach 0, .call true, .call true, .answer 0 a, .expire 0, .answer 1 b, .ret]).ub = false ∧
    (start.run [.create .http2, .attach 0, .call true, .call true, .answer 0 a, .expire 0, .answer 1 b, .ret, .ret]).ub = true :=
  ⟨rfl, rfl⟩

/-- Over the native channel a call whose thread has not begun yet is given a destroyed channel: undefined. -/
theorem C92_native_violated :
    (start.run [.create .native, .attach 0, .drop 0, .call false, .create .native, .attach 1, .begin 0]).ub = true := rfl

/-- A program that satisfies the hypotheses of `C92_safe_partial`: it replaces the channel during a synchronous call and keeps both. -/
example : Patient [.create .http2, .create .native, .attach 0, .call true, .attach 1, .call false, .begin 1, .answer 0 [1], .answer 1 [2],
    .ret] := patient_of_kept (by simp) (by simp)

example : (start.run [.create .http2, .create .native, .attach 0, .call true, .attach 1, .call false, .begin 1, .answer 0 [1],
    .answer 1 [2], .ret]).calls.map (·.state) = [.done [1], .done [2]] := by decide

end QtPb.Channels
