import Verif.Races
/-
C91: data races on the members of a client.
-/
namespace QtPb.Races

/-! ### Specification -/

/-- The thread of an entry. -/
def Item.thread : Item → Nat
  | .access t _ _ => t
  | .signal t _ => t
  | .wait t _ => t

/-- Entry `i` happens before entry `j`, as in the C++ standard: order within a thread, a signal before the wait for it, and what follows
from these. -/
inductive Before (r : List Item) : Nat → Nat → Prop
  | order {i j : Nat} {a b : Item} : i < j → r[i]? = some a → r[j]? = some b → a.thread = b.thread → Before r i j
  | sync {i j : Nat} {t t' : Nat} {m : Token} : i < j → r[i]? = some (.signal t m) → r[j]? = some (.wait t' m) → Before r i j
  | trans {i j k : Nat} : Before r i j → Before r j k → Before r i k

/-- A data race: two threads access the same location, one of them writes, and neither access happens before the other. -/
def Race (r : List Item) (l : Loc) : Prop := ∃ i j t t' w w', i < j ∧ r[i]? = some (.access t l w) ∧ r[j]? = some (.access t' l w') ∧
  t ≠ t' ∧ (w = true ∨ w' = true) ∧ ¬ Before r i j

/-- `attachChannel` is called in the thread of the client only. -/
def AttachAtHome (es : List Ev) : Prop := ∀ t, Ev.attach t ∈ es → t = 0

/-! ### Entries of the record -/

/-- What can be added to the record in one step. -/
theorem step_record (w : World) (e : Ev) : ∃ add, (w.step e).record = w.record ++ add ∧
    (∀ t wr, .access t .streams wr ∈ add → t = 0 ∨ e = .attach t) ∧
    (∀ t, .access t .channel true ∈ add → e = .attach t) := by
  have nil : ∃ add, w.record = w.record ++ add ∧ (∀ t wr, Item.access t .streams wr ∈ add → t = 0 ∨ e = .attach t) ∧
      (∀ t, Item.access t .channel true ∈ add → e = .attach t) :=
    ⟨[], by simp, fun _ _ h => (by cases h), fun _ h => (by cases h)⟩
  have hin : ∀ op t wr, Item.access t .streams wr ∈ inside op → t = 0 := fun op t wr h => by
    cases op <;> simp [inside] at h <;> rcases h with h | h <;> exact h.1
  have hin' : ∀ op t, Item.access t .channel true ∉ inside op := fun op t h => by cases op <;> simp [inside] at h
  cases e with
  | spawn t =>
    simp only [World.step]
    split
    · exact nil
    · exact ⟨_, rfl, fun _ _ h => (by simp at h), fun _ h => (by simp at h)⟩
  | use t op =>
    simp only [World.step]
    split
    · split
      · refine ⟨_, rfl, fun s wr h => ?_, fun s h => ?_⟩
        · cases op <;> simp [before, after, serializer, inside] at h <;> exact .inl (by rcases h with h | h <;> exact h.1)
        · cases op <;> simp [before, after, serializer, inside] at h
      · refine ⟨_, rfl, fun s wr h => ?_, fun s h => ?_⟩
        · simp [before, serializer] at h
        · simp [before, serializer] at h
    · exact nil
  | handle =>
    simp only [World.step]
    split
    · exact nil
    · rename_i t k op rest hp
      refine ⟨_, rfl, fun s wr h => ?_, fun s h => ?_⟩
      · simp at h; exact .inl (hin op s wr h)
      · simp at h; exact absurd h (hin' op s)
  | resume =>
    simp only [World.step]
    split
    · exact nil
    · rename_i t k op rest hp
      refine ⟨_, rfl, fun s wr h => ?_, fun s h => ?_⟩
      · cases op <;> simp [after, serializer] at h
      · cases op <;> simp [after, serializer] at h
  | read t =>
    simp only [World.step]
    split
    · exact ⟨_, rfl, fun s wr h => (by simp [serializer] at h), fun s h => (by simp [serializer] at h)⟩
    · exact nil
  | attach t =>
    simp only [World.step]
    split
    · refine ⟨_, rfl, fun s wr h => ?_, fun s h => ?_⟩
      · simp [attach] at h; exact .inr (by rw [h.1])
      · simp [attach] at h; rw [h]
    · exact nil
  | streamEnd =>
    refine ⟨_, rfl, fun s wr h => ?_, fun s h => ?_⟩
    · simp [closed] at h; exact .inl (by rcases h with h | h <;> exact h.1)
    · simp [closed] at h

theorem streams_home {es : List Ev} (h : AttachAtHome es) (w : World)
    (hw : ∀ t wr, Item.access t .streams wr ∈ w.record → t = 0) :
    ∀ t wr, Item.access t .streams wr ∈ (w.run es).record → t = 0 := by
  induction es generalizing w with
  | nil => exact hw
  | cons e es ih =>
    refine ih (fun t ht => h t (List.mem_cons_of_mem _ ht)) (w.step e) fun t wr ht => ?_
    obtain ⟨add, hadd, h1, _⟩ := step_record w e
    rw [hadd] at ht
    rcases List.mem_append.1 ht with ht | ht
    · exact hw t wr ht
    · rcases h1 t wr ht with h1 | h1
      · exact h1
      · exact h t (by rw [h1]; exact List.mem_cons_self)

/-! ### C91 -/

/-- The table of streams is free of data races in every history in which channels are attached in the thread of the client. -/
theorem C91_streams {es : List Ev} (h : AttachAtHome es) : ¬ Race (start.run es).record .streams := by
  rintro ⟨i, j, t, t', w, w', _, hi, hj, hne, _⟩
  have h1 := streams_home h start (fun _ _ h => by cases h) t w (List.mem_of_getElem? hi)
  have h2 := streams_home h start (fun _ _ h => by cases h) t' w' (List.mem_of_getElem? hj)
  exact hne (h1.trans h2.symm)

/-- Facts about the record and the threads: an entry of another thread comes after the start of this thread; threads that do something
were started; the record only grows. -/
structure Inv (w : World) : Prop where
  spawned : ∀ (j : Nat) (a : Item), w.record[j]? = some a → a.thread ≠ 0 →
    ∃ s, s < j + 1 ∧ w.record[s]? = some (.wait a.thread (.started a.thread)) ∧
      ∃ s', s' < s ∧ w.record[s']? = some (.signal 0 (.started a.thread))
  started : ∀ t ∈ w.started, ∃ s : Nat, w.record[s]? = some (.wait t (.started t)) ∧
      ∃ s' : Nat, s' < s ∧ w.record[s']? = some (.signal 0 (.started t))
  waiting : ∀ p ∈ w.posted ++ w.handled, p.1 ∈ w.started

theorem Inv.grow {w w' : World} {add : List Item} (h : Inv w) (hr : w'.record = w.record ++ add)
    (hst : w'.started = w.started) (hadd : ∀ a ∈ add, a.thread = 0 ∨ a.thread ∈ w.started)
    (hp : ∀ p ∈ w'.posted ++ w'.handled, p.1 ∈ w.started) : Inv w' := by
  have old : ∀ (i : Nat) (a : Item), w.record[i]? = some a → w'.record[i]? = some a := fun i a hi => by
    rw [hr, List.getElem?_append_left (List.getElem?_eq_some_iff.1 hi).1]; exact hi
  refine ⟨fun j a hj hne => ?_, fun t ht => ?_, fun p hp' => hst ▸ hp p hp'⟩
  · by_cases hlt : j < w.record.length
    · rw [hr, List.getElem?_append_left hlt] at hj
      obtain ⟨s, h1, h2, s', h3, h4⟩ := h.spawned j a hj hne
      exact ⟨s, h1, old _ _ h2, s', h3, old _ _ h4⟩
    · have hge := Nat.le_of_not_lt hlt
      rw [hr, List.getElem?_append_right hge] at hj
      rcases hadd a (List.mem_of_getElem? hj) with h0 | h0
      · exact absurd h0 hne
      · obtain ⟨s, h2, s', h3, h4⟩ := h.started _ h0
        have := (List.getElem?_eq_some_iff.1 h2).1
        exact ⟨s, by omega, old _ _ h2, s', h3, old _ _ h4⟩
  · obtain ⟨s, h2, s', h3, h4⟩ := h.started t (hst ▸ ht)
    exact ⟨s, old _ _ h2, s', h3, old _ _ h4⟩

theorem ready_started {w : World} {t : Nat} (h : w.ready t = true) : t = 0 ∨ t ∈ w.started := by
  simp only [World.ready, Bool.and_eq_true, Bool.or_eq_true, beq_iff_eq, List.contains_iff_mem] at h
  exact h.1

theorem Inv.step {w : World} (h : Inv w) (e : Ev) : Inv (w.step e) := by
  cases e with
  | spawn t =>
    simp only [World.step]
    split
    · exact h
    · rename_i hn
      have old : ∀ (i : Nat) (a : Item), w.record[i]? = some a →
          (w.record ++ [.signal 0 (.started t), .wait t (.started t)])[i]? = some a := fun i a hi => by
        rw [List.getElem?_append_left (List.getElem?_eq_some_iff.1 hi).1]; exact hi
      have new0 : (w.record ++ [Item.signal 0 (.started t), .wait t (.started t)])[w.record.length]? = some (.signal 0 (.started t)) := by
        rw [List.getElem?_append_right (Nat.le_refl _)]; simp
      have new1 : (w.record ++ [Item.signal 0 (.started t), .wait t (.started t)])[w.record.length + 1]? =
          some (.wait t (.started t)) := by
        rw [List.getElem?_append_right (Nat.le_succ _)]; simp
      refine ⟨fun j a hj hne => ?_, fun s hs => ?_, fun p hp => List.mem_cons_of_mem _ (h.waiting p hp)⟩
      · by_cases hlt : j < w.record.length
        · rw [List.getElem?_append_left hlt] at hj
          obtain ⟨s, h1, h2, s', h3, h4⟩ := h.spawned j a hj hne
          exact ⟨s, h1, old _ _ h2, s', h3, old _ _ h4⟩
        · have hge := Nat.le_of_not_lt hlt
          rw [List.getElem?_append_right hge] at hj
          cases hd : j - w.record.length with
          | zero =>
            rw [hd] at hj; simp at hj; subst hj; exact absurd rfl hne
          | succ n =>
            cases n with
            | zero =>
              rw [hd] at hj; simp at hj; subst hj
              exact ⟨w.record.length + 1, by omega, new1, w.record.length, by omega, new0⟩
            | succ n => rw [hd] at hj; simp at hj
      · rcases List.mem_cons.1 hs with rfl | hs
        · exact ⟨w.record.length + 1, new1, w.record.length, by omega, new0⟩
        · obtain ⟨s, h2, s', h3, h4⟩ := h.started _ hs
          exact ⟨s, old _ _ h2, s', h3, old _ _ h4⟩
  | use t op =>
    simp only [World.step]
    split
    · rename_i hr
      split
      · refine h.grow rfl rfl (fun a ha => .inl ?_) h.waiting
        cases op <;> simp [before, inside, after, serializer] at ha
        · subst ha; rfl
        · subst ha; rfl
        · rcases ha with h | h | h | h <;> subst h <;> rfl
      · rename_i hne
        have hs : t ∈ w.started := (ready_started hr).resolve_left hne
        refine h.grow rfl rfl (fun a ha => .inr ?_) (fun p hp => ?_)
        · simp [before, serializer] at ha
          rcases ha with rfl | rfl <;> exact hs
        · simp only [List.mem_append, List.mem_singleton] at hp
          rcases hp with (hp | hp) | hp
          · exact h.waiting p (List.mem_append_left _ hp)
          · rw [hp]; exact hs
          · exact h.waiting p (List.mem_append_right _ hp)
    · exact h
  | handle =>
    simp only [World.step]
    split
    · exact h
    · rename_i t k op rest hp
      refine h.grow rfl rfl (fun a ha => .inl ?_) (fun p hq => h.waiting p ?_)
      · cases op <;> simp [inside] at ha
        · rcases ha with h | h | h <;> subst h <;> rfl
        · rcases ha with h | h | h <;> subst h <;> rfl
        · rcases ha with h | h | h | h | h | h <;> subst h <;> rfl
      · rw [hp]
        simp only [List.mem_append, List.mem_cons, List.not_mem_nil, or_false] at hq ⊢
        rcases hq with hq | hq | hq
        · exact .inl (.inr hq)
        · exact .inr hq
        · exact .inl (.inl hq)
  | resume =>
    simp only [World.step]
    split
    · exact h
    · rename_i t k op rest hp
      have hs : t ∈ w.started := h.waiting (t, k, op) (by rw [hp]; simp)
      refine h.grow rfl rfl (fun a ha => .inr ?_) (fun p hq => h.waiting p ?_)
      · cases op <;> simp [after, serializer] at ha
        · rcases ha with rfl | rfl <;> exact hs
        · subst ha; exact hs
        · subst ha; exact hs
      · rw [hp]
        simp only [List.mem_append, List.mem_cons] at hq ⊢
        rcases hq with hq | hq
        · exact .inl hq
        · exact .inr (.inr hq)
  | read t =>
    simp only [World.step]
    split
    · rename_i hr
      refine h.grow rfl rfl (fun a ha => ?_) h.waiting
      simp [serializer] at ha; subst ha; exact ready_started hr
    · exact h
  | attach t =>
    simp only [World.step]
    split
    · rename_i hr
      refine h.grow rfl rfl (fun a ha => ?_) h.waiting
      simp [attach] at ha
      rcases ha with rfl | rfl | rfl <;> exact ready_started hr
    · exact h
  | streamEnd =>
    refine h.grow rfl rfl (fun a ha => .inl ?_) h.waiting
    simp [closed] at ha
    rcases ha with rfl | rfl <;> rfl

theorem Inv.run {w : World} (h : Inv w) (es : List Ev) : Inv (w.run es) := by
  induction es generalizing w with
  | nil => exact h
  | cons e es ih => exact ih (h.step e)

theorem Inv.new : Inv start := ⟨fun _ _ h => (by cases h), fun _ h => (by cases h), fun _ h => (by cases h)⟩

theorem record_prefix (w : World) (es : List Ev) : ∃ add, (w.run es).record = w.record ++ add := by
  induction es generalizing w with
  | nil => exact ⟨[], by simp [World.run]⟩
  | cons e es ih =>
    obtain ⟨a, ha, _⟩ := step_record w e
    obtain ⟨b, hb⟩ := ih (w.step e)
    exact ⟨a ++ b, by show ((w.step e).run es).record = _; rw [hb, ha, List.append_assoc]⟩

theorem no_writes {es : List Ev} (h : ∀ t, Ev.attach t ∉ es) (w : World) :
    ∃ add, (w.run es).record = w.record ++ add ∧ ∀ t, Item.access t .channel true ∉ add := by
  induction es generalizing w with
  | nil => exact ⟨[], by simp [World.run], fun _ h => by cases h⟩
  | cons e es ih =>
    obtain ⟨a, ha, _, h2⟩ := step_record w e
    obtain ⟨b, hb, h3⟩ := ih (fun t ht => h t (List.mem_cons_of_mem _ ht)) (w.step e)
    refine ⟨a ++ b, by show ((w.step e).run es).record = _; rw [hb, ha, List.append_assoc], fun t ht => ?_⟩
    rcases List.mem_append.1 ht with ht | ht
    · exact h t (by rw [h2 t ht]; exact List.mem_cons_self)
    · exact h3 t ht

/-- Without `spawn` no thread is started. -/
theorem no_starts : ∀ es : List Ev, (∀ t, Ev.spawn t ∉ es) → ∀ x : World, (∀ m, Item.signal 0 (.started m) ∉ x.record) →
    ∀ m, Item.signal 0 (.started m) ∉ (x.run es).record := by
  intro es
  induction es with
  | nil => exact fun _ _ hx => hx
  | cons e es ih =>
    intro hsp x hx
    refine ih (fun t ht => hsp t (List.mem_cons_of_mem _ ht)) (x.step e) fun m hm => ?_
    cases e with
    | spawn t => exact hsp t List.mem_cons_self
    | use t op =>
      simp only [World.step] at hm
      split at hm
      · split at hm
        · rcases List.mem_append.1 hm with hm | hm
          · exact hx m hm
          · cases op <;> simp [before, inside, after, serializer] at hm
        · rcases List.mem_append.1 hm with hm | hm
          · exact hx m hm
          · simp [before, serializer] at hm
      · exact hx m hm
    | handle =>
      simp only [World.step] at hm
      split at hm
      · exact hx m hm
      · rename_i t k op rest hp
        rcases List.mem_append.1 hm with hm | hm
        · exact hx m hm
        · cases op <;> simp [inside] at hm
    | resume =>
      simp only [World.step] at hm
      split at hm
      · exact hx m hm
      · rename_i t k op rest hp
        rcases List.mem_append.1 hm with hm | hm
        · exact hx m hm
        · cases op <;> simp [after, serializer] at hm
    | read t =>
      simp only [World.step] at hm
      split at hm
      · rcases List.mem_append.1 hm with hm | hm
        · exact hx m hm
        · simp [serializer] at hm
      · exact hx m hm
    | attach t =>
      simp only [World.step] at hm
      split at hm
      · rcases List.mem_append.1 hm with hm | hm
        · exact hx m hm
        · simp [attach] at hm
      · exact hx m hm
    | streamEnd =>
      rcases List.mem_append.1 hm with hm | hm
      · exact hx m hm
      · simp [closed] at hm

theorem run_append (w : World) (a b : List Ev) : w.run (a ++ b) = (w.run a).run b := List.foldl_append

/-- **C91, what holds.** If the channel is attached before other threads are started, and not replaced afterwards, then no interleaving of
any number of threads that make calls, open streams and read replies has a data race.

What is missing: programs that attach a channel while other threads use the client (`C91_attach_violated`). -/
theorem C91_partial {es es' : List Ev} (h : ∀ t, Ev.spawn t ∉ es) (h' : ∀ t, Ev.attach t ∉ es') (l : Loc) :
    ¬ Race (start.run (es ++ es')).record l := by
  rintro ⟨i, j, t, t', w, w', hij, hi, hj, hne, hw, hb⟩
  have inv := Inv.new.run (es ++ es')
  have inv1 := Inv.new.run es
  -- before the threads are started there is only the thread of the client
  have hzero : ∀ (k : Nat) (a : Item), (start.run es).record[k]? = some a → a.thread = 0 := fun k a hk => by
    cases hz : decide (a.thread = 0) with
    | true => exact of_decide_eq_true hz
    | false =>
      obtain ⟨s, _, hs, s', hlt, hs'⟩ := inv1.spawned k a hk (of_decide_eq_false hz)
      exfalso
      exact no_starts es h start (fun _ hm => by cases hm) _ (List.mem_of_getElem? hs')
  rw [run_append] at hi hj hb
  obtain ⟨add, hadd, hno⟩ := no_writes h' (start.run es)
  cases l with
  | streams =>
    -- accessed by the thread of the client only
    have hhome : ∀ (x : World), (∀ t wr, Item.access t .streams wr ∈ x.record → t = 0) →
        ∀ t wr, Item.access t .streams wr ∈ (x.run es').record → t = 0 :=
      fun x hx => streams_home (fun t ht => absurd ht (h' t)) x hx
    have hfirst : ∀ t wr, Item.access t .streams wr ∈ (start.run es).record → t = 0 := fun t wr ht => by
      obtain ⟨k, hk⟩ := List.mem_iff_getElem?.1 ht
      exact hzero k _ hk
    have h1 := hhome _ hfirst t w (List.mem_of_getElem? hi)
    have h2 := hhome _ hfirst t' w' (List.mem_of_getElem? hj)
    exact hne (h1.trans h2.symm)
  | channel =>
    rw [hadd] at hi hj
    have hin : ∀ (k : Nat) (s : Nat), ((start.run es).record ++ add)[k]? = some (.access s .channel true) →
        k < (start.run es).record.length := fun k s hk => by
      by_cases hlt : k < (start.run es).record.length
      · exact hlt
      · rw [List.getElem?_append_right (Nat.le_of_not_lt hlt)] at hk
        exact absurd (List.mem_of_getElem? hk) (hno s)
    have hil : i < (start.run es).record.length := by
      rcases hw with rfl | rfl
      · exact hin i t hi
      · have := hin j t' hj; omega
    have hi0 : t = 0 := by
      rw [List.getElem?_append_left hil] at hi
      exact hzero i _ hi
    -- the second access is one of a thread that was started afterwards
    have ht' : t' ≠ 0 := fun h => hne (hi0.trans h.symm)
    rw [run_append] at inv
    obtain ⟨s, hsj, hs, s', hlt, hs'⟩ := inv.spawned j (.access t' .channel w') (by rw [hadd]; exact hj) ht'
    rw [hadd] at hs hs'
    have his : i < s' := by
      by_cases hlt' : s' < (start.run es).record.length
      · rw [List.getElem?_append_left hlt'] at hs'
        exact absurd (List.mem_of_getElem? hs') (no_starts es h start (fun _ hm => by cases hm) _)
      · omega
    apply hb
    rw [hadd]
    have hjs : s ≠ j := fun h => by rw [h, hj] at hs; cases hs
    exact .trans (.order his hi hs' (by rw [hi0]; rfl)) (.trans (.sync hlt hs' hs) (.order (by omega) hs hj rfl))

/-- Two other threads and the thread of the client make calls and open streams; replies are read in the threads. -/
example : (start.run ([.attach 0] ++ [.spawn 1, .spawn 2, .use 1 .call, .use 2 .stream, .use 0 .async, .handle, .read 0, .handle, .resume,
    .resume, .read 2, .streamEnd])).record.length = 31 ∧ (∀ t, Ev.spawn t ∉ [Ev.attach 0]) ∧
    AttachAtHome [.attach 0, .spawn 1, .use 1 .stream, .attach 0] :=
  ⟨by decide, fun _ h => by simp at h, fun _ h => by simpa using h⟩

/-- One step of `Before`, computed. -/
def edge (r : List Item) (i j : Nat) : Bool :=
  decide (i < j) && match r[i]?, r[j]? with
    | some a, some b => a.thread == b.thread || match a, b with
      | .signal _ m, .wait _ m' => m == m'
      | _, _ => false
    | _, _ => false

theorem not_before {r : List Item} {i j : Nat} (S : List Nat)
    (hS : ∀ a ∈ S, ∀ b < r.length, edge r a b = true → b ∈ S) (hi : i ∈ S) (hj : j ∉ S) : ¬ Before r i j := by
  intro h
  have : ∀ a b, Before r a b → a ∈ S → b ∈ S := by
    intro a b h
    induction h with
    | @order a b x y hlt ha hb ht =>
      exact fun hm => hS a hm b (List.getElem?_eq_some_iff.1 hb).1 (by simp [edge, hlt, ha, hb, ht])
    | @sync a b t t' m hlt ha hb =>
      exact fun hm => hS a hm b (List.getElem?_eq_some_iff.1 hb).1 (by simp [edge, hlt, ha, hb])
    | trans _ _ h1 h2 => exact fun hm => h2 (h1 hm)
  exact hj (this i j h hi)

/-- **C91 fails when the channel is replaced.** The thread of the client attaches a second channel, as documented, while another thread
begins a call: the member that holds the channel, a `std::shared_ptr`, is read and written at the same time. -/
theorem C91_attach_violated : ∃ es, AttachAtHome es ∧ Race (start.run es).record .channel :=
  ⟨[.attach 0, .spawn 1, .use 1 .call, .attach 0], fun _ h => by simpa using h, 5, 8, 1, 0, false, true, by decide, by rfl, by rfl,
    by decide, .inr rfl, not_before [5, 6] (by decide) (by decide) (by decide)⟩

/-- **C91 fails for the same reason when a reply is read in another thread.** -/
theorem C91_read_violated : ∃ es, AttachAtHome es ∧ (∀ t op, Ev.use t op ∉ es) ∧ Race (start.run es).record .channel :=
  ⟨[.attach 0, .spawn 1, .read 1, .attach 0], fun _ h => by simpa using h, fun _ _ h => by simp at h, 5, 7, 1, 0, false, true, by decide,
    by rfl, by rfl, by decide, .inr rfl, not_before [5] (by decide) (by decide) (by decide)⟩

/-- **C91 fails for the table of streams when a channel is attached in another thread.** `attachChannel` accepts this if the channel
was created in that thread: it compares the thread of the channel, not that of the client, with the current one. -/
theorem C91_elsewhere_violated : ∃ es, Race (start.run es).record .streams :=
  ⟨[.attach 0, .spawn 1, .attach 1, .use 0 .stream], 5, 12, 1, 0, false, true, by decide, by rfl, by rfl, by decide, .inr rfl,
    not_before [5, 6, 7] (by decide) (by decide) (by decide)⟩

end QtPb.Races
