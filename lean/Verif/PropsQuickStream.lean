import Verif.QuickStream
/-
C39: the QML stream item.
-/
namespace QtPb.Quick

/-- The item has a running subscription, and it is one with these values. -/
def Spec.Subscribed (w : World) (st : State) (i client : Nat) (method : String) (argument : Nat) : Prop :=
  ∃ s, (st.items i).stream = some s ∧ (st.streams s).running = true ∧ (st.streams s).client = client ∧
    (st.streams s).method = method ∧ (st.streams s).arg = w.content argument

/-- The item holds no stream. -/
def Spec.Idle (st : State) (i : Nat) : Prop := (st.items i).stream = none

/-- No object that an item refers to is destroyed. -/
def Spec.keeps : Ev → Prop
  | .clientGone _ => False
  | .argumentGone _ => False
  | _ => True

/-- The invariant. -/
structure Inv (w : World) (st : State) : Prop where
  live : ∀ i s, (st.items i).stream = some s → s < st.nStreams ∧ (st.streams s).running = true ∧ i ∈ (st.streams s).listeners ∧
    (st.items i).enabled = true ∧ (st.items i).client = some (st.streams s).client ∧ (st.items i).method = (st.streams s).method ∧
    (st.items i).method ≠ "" ∧ ∃ a, (st.items i).argument = some a ∧ w.content a = (st.streams s).arg
  idle : ∀ i, (st.items i).stream = none → ¬ ((st.items i).enabled = true ∧ (st.items i).client.isSome ∧ (st.items i).method ≠ "" ∧
    (st.items i).argument.isSome)
  fresh : ∀ s, st.nStreams ≤ s → (st.streams s).running = false ∧ (st.streams s).listeners = []

theorem update_self {α : Type} (f : Nat → α) (i : Nat) (v : α) : update f i v i = v := if_pos rfl
theorem update_ne {α : Type} {f : Nat → α} {i j : Nat} {v : α} (h : j ≠ i) : update f i v j = f j := if_neg h

theorem Inv.start (w : World) : Inv w start where
  live := by intro i s h; simp [Quick.start, Item.new] at h
  idle := by intro i _; simp [Quick.start, Item.new]
  fresh := by intro s _; exact ⟨rfl, rfl⟩

theorem onFinished_stream (it : Item) : (onFinished it).stream = none := by unfold onFinished; split <;> rfl
theorem onFinished_enabled (it : Item) : (onFinished it).enabled = false := by
  unfold onFinished; split
  · rfl
  · rename_i h; simpa using h

theorem Inv.finish {w : World} {st : State} (h : Inv w st) (s : Nat) : Inv w (finish st s) where
  live := by
    intro i s' hs
    simp only [Quick.finish] at hs ⊢
    by_cases hi : i ∈ (st.streams s).listeners
    · rw [if_pos hi, onFinished_stream] at hs; cases hs
    · rw [if_neg hi] at hs ⊢
      have hne : s' ≠ s := by rintro rfl; exact hi (h.live i s' hs).2.2.1
      rw [update_ne hne]
      exact h.live i s' hs
  idle := by
    intro i hs
    simp only [Quick.finish] at hs ⊢
    by_cases hi : i ∈ (st.streams s).listeners
    · rw [if_pos hi, onFinished_enabled]; simp
    · rw [if_neg hi] at hs ⊢
      exact h.idle i hs
  fresh := by
    intro s' hs
    simp only [Quick.finish] at hs ⊢
    by_cases he : s' = s
    · subst he; rw [update_self]; exact ⟨rfl, (h.fresh s' hs).2⟩
    · rw [update_ne he]; exact h.fresh s' hs

/-- The invariant for all items but one, which holds no stream. -/
structure Without (w : World) (st : State) (i : Nat) : Prop where
  live : ∀ j s, j ≠ i → (st.items j).stream = some s → s < st.nStreams ∧ (st.streams s).running = true ∧ j ∈ (st.streams s).listeners ∧
    (st.items j).enabled = true ∧ (st.items j).client = some (st.streams s).client ∧ (st.items j).method = (st.streams s).method ∧
    (st.items j).method ≠ "" ∧ ∃ a, (st.items j).argument = some a ∧ w.content a = (st.streams s).arg
  idle : ∀ j, j ≠ i → (st.items j).stream = none → ¬ ((st.items j).enabled = true ∧ (st.items j).client.isSome ∧ (st.items j).method ≠ "" ∧
    (st.items j).argument.isSome)
  own : (st.items i).stream = none
  fresh : ∀ s, st.nStreams ≤ s → (st.streams s).running = false ∧ (st.streams s).listeners = []

theorem find_spec {st : State} {c : Nat} {m : String} {a : Bytes} {s : Nat} (h : find st c m a = some s) :
    s < st.nStreams ∧ (st.streams s).running = true ∧ (st.streams s).client = c ∧ (st.streams s).method = m ∧ (st.streams s).arg = a := by
  have h1 := List.mem_of_find?_eq_some h
  have h2 := List.find?_some h
  simp only [Bool.and_eq_true, beq_iff_eq] at h2
  exact ⟨List.mem_range.mp h1, h2.1.1.1, h2.1.1.2, h2.1.2, h2.2⟩

/-- Setting fields of the item that holds no stream keeps the rest. -/
theorem Without.set {w : World} {st : State} {i : Nat} (h : Without w st i) (it : Item) (hit : it.stream = none) :
    Without w { st with items := update st.items i it } i where
  live := by
    intro j s hj hs
    simp only [update_ne hj] at hs ⊢
    exact h.live j s hj hs
  idle := by
    intro j hj hs
    simp only [update_ne hj] at hs ⊢
    exact h.idle j hj hs
  own := by simp only [update_self]; exact hit
  fresh := h.fresh

theorem Without.done {w : World} {st : State} {i : Nat} (h : Without w st i)
    (hn : ¬ ((st.items i).enabled = true ∧ (st.items i).client.isSome ∧ (st.items i).method ≠ "" ∧ (st.items i).argument.isSome)) :
    Inv w st where
  live := by
    intro j s hs
    by_cases hj : j = i
    · subst hj; rw [h.own] at hs; cases hs
    · exact h.live j s hj hs
  idle := by
    intro j hs
    by_cases hj : j = i
    · subst hj; exact hn
    · exact h.idle j hj hs
  fresh := h.fresh

theorem Without.subscribe {w : World} {st st' : State} {i c a : Nat} (h : Without w st i)
    (he : (st.items i).enabled = true) (hc : (st.items i).client = some c) (ha : (st.items i).argument = some a)
    (hm : (st.items i).method ≠ "") (hs : subscribe w st i c (st.items i).method a = some st') :
    Inv w st' ∧ Spec.Subscribed w st' i c (st.items i).method a := by
  unfold Quick.subscribe at hs
  split at hs
  · simp only [] at hs
    split at hs
    · rename_i s hf
      cases hs
      obtain ⟨f1, f2, f3, f4, f5⟩ := find_spec hf
      refine ⟨⟨?_, ?_, ?_⟩, ⟨s, by simp [update_self], by simp [update_self, f2], by simp [update_self, f3], by simp [update_self, f4], by simp [update_self, f5]⟩⟩
      · intro j s' hj
        simp only at hj ⊢
        by_cases hji : j = i
        · subst hji
          simp only [update_self] at hj ⊢
          cases hj
          simp only [update_self]
          exact ⟨f1, f2, by simp, he, by rw [hc, f3], f4.symm, hm, a, ha, f5.symm⟩
        · simp only [update_ne hji] at hj ⊢
          obtain ⟨g1, g2, g3, g4⟩ := h.live j s' hji hj
          by_cases hss : s' = s
          · subst hss; simp only [update_self]; exact ⟨g1, g2, by simp [g3], g4⟩
          · simp only [update_ne hss]; exact ⟨g1, g2, g3, g4⟩
      · intro j hj
        simp only at hj ⊢
        by_cases hji : j = i
        · subst hji; simp only [update_self] at hj; cases hj
        · simp only [update_ne hji] at hj ⊢; exact h.idle j hji hj
      · intro s' hs'
        simp only at hs' ⊢
        have : s' ≠ s := by omega
        rw [update_ne this]; exact h.fresh s' hs'
    · cases hs
      refine ⟨⟨?_, ?_, ?_⟩, ⟨st.nStreams, by simp [update_self], by simp [update_self], by simp [update_self], by simp [update_self], by simp [update_self]⟩⟩
      · intro j s' hj
        simp only at hj ⊢
        by_cases hji : j = i
        · subst hji
          simp only [update_self] at hj ⊢
          cases hj
          simp only [update_self]
          exact ⟨by omega, trivial, by simp, he, hc, trivial, hm, a, ha, rfl⟩
        · simp only [update_ne hji] at hj ⊢
          obtain ⟨g1, g2⟩ := h.live j s' hji hj
          rw [update_ne (show s' ≠ st.nStreams by omega)]
          exact ⟨by omega, g2⟩
      · intro j hj
        simp only at hj ⊢
        by_cases hji : j = i
        · subst hji; simp only [update_self] at hj; cases hj
        · simp only [update_ne hji] at hj ⊢; exact h.idle j hji hj
      · intro s' hs'
        simp only at hs' ⊢
        rw [update_ne (show s' ≠ st.nStreams by omega)]; exact h.fresh s' (by omega)
  · cases hs

/-- The second part of `updateStream`. -/
def resubscribe (w : World) (st : State) (i : Nat) : State :=
  match (st.items i).client, (st.items i).argument with
  | some client, some argument =>
    if (st.items i).method = "" ∨ (st.items i).enabled = false then st
    else
      match subscribe w st i client (st.items i).method argument with
      | some st => st
      | none => { st with items := update st.items i { st.items i with enabled := false, returnValue := false } }
  | _, _ => st

theorem Without.resubscribe {w : World} {st : State} {i : Nat} (h : Without w st i) : Inv w (resubscribe w st i) := by
  unfold Quick.resubscribe
  split
  · rename_i c a hc ha
    split
    · rename_i hx
      apply h.done
      rintro ⟨h1, _, h2, _⟩
      rcases hx with hx | hx
      · exact h2 hx
      · rw [hx] at h1; cases h1
    · rename_i hx
      have hm : (st.items i).method ≠ "" := fun e => hx (.inl e)
      have he : (st.items i).enabled = true := by
        cases hb : (st.items i).enabled
        · exact absurd (.inr hb) hx
        · rfl
      split
      · rename_i st' hs
        exact (h.subscribe he hc ha hm hs).1
      · have hw := h.set { st.items i with enabled := false, returnValue := false } h.own
        exact hw.done (by simp [update_self])
  · rename_i hx
    apply h.done
    rintro ⟨_, h1, _, h2⟩
    obtain ⟨c, hc⟩ := Option.isSome_iff_exists.mp h1
    obtain ⟨a, ha⟩ := Option.isSome_iff_exists.mp h2
    exact hx c a hc ha

/-- State of item `i` when `updateStream` decides whether to subscribe. -/
def drop (st : State) (i : Nat) : State :=
  let st := match (st.items i).stream with
    | some s =>
      let st := finish st s
      { st with items := update st.items i { st.items i with stream := none } }
    | none => st
  { st with items := update st.items i { st.items i with returnValue := false } }

theorem updateStream_eq (w : World) (st : State) (i : Nat) : updateStream w st i = resubscribe w (drop st i) i := rfl

/-- Changing fields of item `i` but not its stream, and dropping the stream. -/
theorem Inv.drop {w : World} {st : State} (h : Inv w st) (i : Nat) (it : Item) (hit : it.stream = (st.items i).stream) :
    Without w (drop { st with items := update st.items i it } i) i := by
  unfold Quick.drop
  simp only [update_self, hit]
  cases hs : (st.items i).stream with
  | none =>
    simp only [update_self]
    have h0 : Without w st i := ⟨fun j s _ hj => h.live j s hj, fun j _ hj => h.idle j hj, hs, h.fresh⟩
    have h1 := (h0.set it (by rw [hit, hs])).set { it with returnValue := false } (by rw [← hs, ← hit])
    simpa [update_self] using h1
  | some s =>
    have hm := (h.live i s hs).2.2.1
    have h0 : Without w (Quick.finish { st with items := update st.items i it } s) i := by
      have hf := h.finish s
      have hitems : ∀ j, j ≠ i → (Quick.finish { st with items := update st.items i it } s).items j = (Quick.finish st s).items j := by
        intro j hj; simp only [Quick.finish, update_ne hj]
      refine ⟨?_, ?_, ?_, hf.fresh⟩
      · intro j s' hj hjs
        rw [hitems j hj] at hjs ⊢
        exact hf.live j s' hjs
      · intro j hj hjs
        rw [hitems j hj] at hjs ⊢
        exact hf.idle j hjs
      · simp only [Quick.finish, update_self, if_pos hm, onFinished_stream]
    have h1 := h0.set { (Quick.finish { st with items := update st.items i it } s).items i with stream := none } rfl
    have h2 := h1.set { ({ (Quick.finish { st with items := update st.items i it } s).items i with stream := none } : Item) with returnValue := false } rfl
    simpa [update_self] using h2

theorem Inv.write {w : World} {st : State} (h : Inv w st) (i : Nat) (it : Item) (hit : it.stream = (st.items i).stream) :
    Inv w (write w st i it) := by
  unfold Quick.write
  rw [updateStream_eq]
  exact (h.drop i it hit).resubscribe

theorem Inv.step {w : World} {st : State} (h : Inv w st) (e : Ev) (he : Spec.keeps e) : Inv w (step w st e) := by
  cases e <;> simp only [Quick.step] <;> try (split; exact h; exact h.write _ _ rfl)
  · split
    · exact h.finish _
    · exact h
  · exact he.elim
  · exact he.elim

theorem Inv.run {w : World} (es : List Ev) (he : ∀ e ∈ es, Spec.keeps e) : Inv w (run w es) := by
  have : ∀ (es : List Ev) (st : State), Inv w st → (∀ e ∈ es, Spec.keeps e) → Inv w (es.foldl (Quick.step w) st) := by
    intro es
    induction es with
    | nil => intro st h _; exact h
    | cons e es ih =>
      intro st h he
      exact ih _ (h.step e (he e (by simp))) (fun e' h' => he e' (by simp [h']))
  exact this es _ (Inv.start w) he

/-- In every history in which no client or argument object is destroyed: an item with client, method and argument
that is enabled has a running subscription with exactly these values; every other item has none. -/
theorem C39_running_iff_partial (w : World) (es : List Ev) (hk : ∀ e ∈ es, Spec.keeps e) (i : Nat) :
    ((∃ c m a, ((run w es).items i).enabled = true ∧ ((run w es).items i).client = some c ∧ ((run w es).items i).method = m ∧ m ≠ "" ∧
        ((run w es).items i).argument = some a) → ∃ c m a, ((run w es).items i).client = some c ∧ ((run w es).items i).method = m ∧
        ((run w es).items i).argument = some a ∧ Spec.Subscribed w (run w es) i c m a) ∧
    ((¬ ∃ c m a, ((run w es).items i).enabled = true ∧ ((run w es).items i).client = some c ∧ ((run w es).items i).method = m ∧ m ≠ "" ∧
        ((run w es).items i).argument = some a) → Spec.Idle (run w es) i) := by
  have h : Inv w (run w es) := Inv.run es hk
  constructor
  · rintro ⟨c, m, a, h1, h2, h3, h4, h5⟩
    cases hs : ((run w es).items i).stream with
    | none =>
      exact absurd ⟨h1, by simp [h2], by rw [h3]; exact h4, by simp [h5]⟩ (h.idle i hs)
    | some s =>
      obtain ⟨_, g2, _, g4, g5, g6, g7, a', g8, g9⟩ := h.live i s hs
      exact ⟨_, _, a', g5, rfl, g8, s, hs, g2, rfl, g6.symm, g9.symm⟩
  · intro hn
    cases hs : ((run w es).items i).stream with
    | none => exact hs
    | some s =>
      obtain ⟨_, g2, _, g4, g5, g6, g7, a', g8, g9⟩ := h.live i s hs
      exact absurd ⟨_, _, a', g4, g5, rfl, g7, g8⟩ hn

/-- An item that is enabled and only lacks the method subscribes as soon as it is set, if the client accepts the
subscription; otherwise the item is disabled. The same holds for the other properties. -/
theorem C39_complete_partial (w : World) (es : List Ev) (hk : ∀ e ∈ es, Spec.keeps e) (i c a : Nat) (m : String) (hm : m ≠ "")
    (he : ((run w es).items i).enabled = true) (hc : ((run w es).items i).client = some c)
    (ha : ((run w es).items i).argument = some a) (hno : ((run w es).items i).method = "") :
    if w.ok c m a then Spec.Subscribed w (step w (run w es) (.setMethod i m)) i c m a ∧
        ((step w (run w es) (.setMethod i m)).items i).enabled = true
    else Spec.Idle (step w (run w es) (.setMethod i m)) i ∧ ((step w (run w es) (.setMethod i m)).items i).enabled = false := by
  have h : Inv w (run w es) := Inv.run es hk
  have hs : ((run w es).items i).stream = none := by
    cases hs : ((run w es).items i).stream with
    | none => rfl
    | some s => exact absurd hno (h.live i s hs).2.2.2.2.2.2.1
  have hne : ¬ ((run w es).items i).method = m := by rw [hno]; exact fun e => hm e.symm
  have hw := h.drop i { (run w es).items i with method := m } rfl
  simp only [step, if_neg hne, write, updateStream_eq]
  have hd : (drop { run w es with items := update (run w es).items i { (run w es).items i with method := m } } i).items i =
      { (run w es).items i with method := m, returnValue := false } := by
    simp [drop, update_self, hs]
  generalize drop { run w es with items := update (run w es).items i { (run w es).items i with method := m } } i = st at hw hd
  have e1 : (st.items i).enabled = true := by rw [hd]; exact he
  have e2 : (st.items i).client = some c := by rw [hd]; exact hc
  have e3 : (st.items i).argument = some a := by rw [hd]; exact ha
  have e4 : (st.items i).method = m := by rw [hd]
  have hx : ¬ ((st.items i).method = "" ∨ (st.items i).enabled = false) := by rw [e4, e1]; simp [hm]
  unfold resubscribe
  simp only [e2, e3, if_neg hx]
  by_cases hok : w.ok c m a
  · rw [if_pos hok]
    cases hsub : subscribe w st i c (st.items i).method a with
    | none =>
      rw [e4] at hsub
      simp only [subscribe, hok, if_true] at hsub
      split at hsub <;> cases hsub
    | some st' =>
      obtain ⟨g1, g2⟩ := hw.subscribe e1 e2 e3 (by rw [e4]; exact hm) hsub
      rw [e4] at g2
      refine ⟨g2, ?_⟩
      obtain ⟨s, g3, _⟩ := g2
      exact (g1.live i s g3).2.2.2.1
  · rw [if_neg hok]
    have : subscribe w st i c (st.items i).method a = none := by
      rw [e4]; simp only [subscribe, hok]; rfl
    simp only [this, Spec.Idle, update_self]
    exact ⟨hw.own, trivial⟩

/-- Setting `enabled` on a complete item subscribes. -/
theorem C39_enable (w : World) (es : List Ev) (hk : ∀ e ∈ es, Spec.keeps e) (i c a : Nat) (m : String) (hm : m ≠ "")
    (he : ((run w es).items i).enabled = false) (hc : ((run w es).items i).client = some c)
    (ha : ((run w es).items i).argument = some a) (hme : ((run w es).items i).method = m) (hok : w.ok c m a = true) :
    Spec.Subscribed w (step w (run w es) (.setEnabled i true)) i c m a := by
  have h : Inv w (run w es) := Inv.run es hk
  have hs : ((run w es).items i).stream = none := by
    cases hs : ((run w es).items i).stream with
    | none => rfl
    | some s => have := (h.live i s hs).2.2.2.1; rw [he] at this; cases this
  have hw := h.drop i { (run w es).items i with enabled := true } rfl
  simp only [step, he, write, updateStream_eq]
  have hd : (drop { run w es with items := update (run w es).items i { (run w es).items i with enabled := true } } i).items i =
      { (run w es).items i with enabled := true, returnValue := false } := by
    simp [drop, update_self, hs]
  simp only [Bool.false_eq_true, if_false]
  generalize drop { run w es with items := update (run w es).items i { (run w es).items i with enabled := true } } i = st at hw hd
  have e1 : (st.items i).enabled = true := by rw [hd]
  have e2 : (st.items i).client = some c := by rw [hd]; exact hc
  have e3 : (st.items i).argument = some a := by rw [hd]; exact ha
  have e4 : (st.items i).method = m := by rw [hd]; exact hme
  have hx : ¬ ((st.items i).method = "" ∨ (st.items i).enabled = false) := by rw [e4, e1]; simp [hm]
  unfold resubscribe
  simp only [e2, e3, if_neg hx]
  cases hsub : subscribe w st i c (st.items i).method a with
  | none =>
    rw [e4] at hsub
    simp only [subscribe, hok, if_true] at hsub
    split at hsub <;> cases hsub
  | some st' =>
    obtain ⟨g1, g2⟩ := hw.subscribe e1 e2 e3 (by rw [e4]; exact hm) hsub
    rw [e4] at g2
    exact g2

/-- What is missing: changing the method (likewise client or argument) of an item whose subscription is running
does not subscribe with the new value; it always disables the item. -/
theorem C39_change_violated (w : World) (es : List Ev) (hk : ∀ e ∈ es, Spec.keeps e) (i : Nat) {s : Nat}
    (hs : ((run w es).items i).stream = some s) (m : String) (hm : ((run w es).items i).method ≠ m) :
    Spec.Idle (step w (run w es) (.setMethod i m)) i ∧ ((step w (run w es) (.setMethod i m)).items i).enabled = false := by
  have h : Inv w (run w es) := Inv.run es hk
  obtain ⟨_, _, hl, _⟩ := h.live i s hs
  simp only [step, if_neg hm, write, updateStream_eq]
  have hd : ((drop { run w es with items := update (run w es).items i { (run w es).items i with method := m } } i).items i).enabled = false ∧
      ((drop { run w es with items := update (run w es).items i { (run w es).items i with method := m } } i).items i).stream = none := by
    simp [drop, update_self, hs, finish, hl, onFinished_enabled]
  generalize drop { run w es with items := update (run w es).items i { (run w es).items i with method := m } } i = st at hd
  have : resubscribe w st i = st := by
    unfold resubscribe
    split
    · rw [if_pos (.inr hd.1)]
    · rfl
  rw [this]
  exact ⟨hd.2, hd.1⟩

/-- A world in which every subscription succeeds. -/
def demoWorld : World := ⟨fun _ _ _ => true, fun a => [UInt8.ofNat a]⟩

/-- Two items with the same client, method and argument. -/
def demo : List Ev :=
  [.setClient 0 (some 1), .setMethod 0 "news", .setArgument 0 (some 5), .setEnabled 0 true,
   .setClient 1 (some 1), .setArgument 1 (some 5), .setEnabled 1 true, .setMethod 1 "news"]

example : ∀ e ∈ demo, Spec.keeps e := by simp [demo, Spec.keeps]
example : ((run demoWorld demo).items 0).stream = some 0 ∧ ((run demoWorld demo).items 1).stream = some 0 ∧
    ((run demoWorld demo).streams 0).running = true := by decide +kernel
/-- The hypotheses of `C39_complete_partial` hold before the last write of the demo. -/
example : ((run demoWorld (demo.take 7)).items 1).enabled = true ∧ ((run demoWorld (demo.take 7)).items 1).method = "" ∧
    ((run demoWorld (demo.take 7)).items 1).client = some 1 := by decide +kernel

/-- Disabling one item stops another item that has the same subscription, and disables it. -/
theorem C39_shared_violated :
    ((run demoWorld demo).items 1).enabled = true ∧
    ((run demoWorld (demo ++ [.setEnabled 0 false])).items 1).enabled = false ∧
    Spec.Idle (run demoWorld (demo ++ [.setEnabled 0 false])) 1 := by
  refine ⟨?_, ?_, ?_⟩ <;> (try unfold Spec.Idle) <;> decide +kernel

/-- If the argument object is destroyed, the subscription goes on without an argument. -/
theorem C39_destroyed_violated :
    ((run demoWorld (demo ++ [.argumentGone 5])).items 0).argument = none ∧
    ((run demoWorld (demo ++ [.argumentGone 5])).items 0).stream = some 0 ∧
    ((run demoWorld (demo ++ [.argumentGone 5])).streams 0).running = true := by decide +kernel

end QtPb.Quick
