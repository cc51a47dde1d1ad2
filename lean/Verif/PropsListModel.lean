import Verif.SpecListModel
/-
C111: the list model of the examples.
-/
namespace QtPb.ListModel
open Spec

/-! ### Views -/

theorem release_same : ∀ {l : List Shared} {s s' : State}, release l s = .ok s' → ∃ d, s' = { s with deleted := s.deleted ++ d }
  | [], s, s', h => by
    simp only [release, Res.ok.injEq] at h
    exact ⟨[], by rw [← h]; simp⟩
  | none :: rs, s, s', h => release_same (l := rs) (by simpa only [release] using h)
  | some r :: rs, s, s', h => by
    simp only [release] at h
    split at h
    · exact release_same h
    · split at h
      · simp at h
      · obtain ⟨d, rfl⟩ := release_same h
        exact ⟨r.obj :: d, by simp⟩

theorem hears_append (v : View) (a b : List (Note × List Shared)) : v.hears (a ++ b) = (v.hears a).bind (·.hears b) := by
  induction a generalizing v with
  | nil => rfl
  | cons x a ih =>
    obtain ⟨n, rows⟩ := x
    simp only [List.cons_append, View.hears]
    cases v.hear n rows with
    | none => rfl
    | some w => simp [ih]

theorem step_view {s s' : State} {o : Op} (ha : Announced s o) (h : step s o = .ok s') :
    ∃ l, s'.log = s.log ++ l ∧ (viewOf s.rows).hears l = some (viewOf s'.rows) := by
  cases o with
  | append v =>
    simp only [step, append, Res.ok.injEq] at h
    subst h
    split
    · exact ⟨[], by simp, rfl⟩
    · refine ⟨_, by simp [emit, List.append_assoc]; rfl, ?_⟩
      simp [View.hears, View.hear, viewOf, emit]
  | prepend v =>
    simp only [step, prepend, Res.ok.injEq] at h
    subst h
    split
    · exact ⟨[], by simp, rfl⟩
    · refine ⟨_, by simp [emit, List.append_assoc]; rfl, ?_⟩
      simp [View.hears, View.hear, viewOf, emit]
  | removePtr v =>
    have : s.rows.findIdx? (ptr · == v) = none := by
      rw [List.findIdx?_eq_none_iff]
      intro r hr
      simpa using ha r hr
    simp only [step, removePtr, this, Res.ok.injEq] at h
    subst h
    exact ⟨[], by simp, rfl⟩
  | removeAt i =>
    simp only [step, removeAt] at h
    split at h
    · rename_i hi
      simp only [Res.bind_eq, Res.bind_eq_ok, Res.ok.injEq] at h
      obtain ⟨t, ht, rfl⟩ := h
      obtain ⟨d, rfl⟩ := release_same ht
      have hl : i.toNat < s.rows.length := by have : i < (s.rows.length : Int) := ha; omega
      refine ⟨_, by simp [emit, List.append_assoc]; rfl, ?_⟩
      simp [View.hears, View.hear, viewOf, emit, hl, List.eraseIdx_eq_take_drop_succ]
    · simp only [Res.ok.injEq] at h
      subst h
      exact ⟨[], by simp, rfl⟩
  | reset c =>
    simp only [step, reset, clear, Res.bind_eq, Res.bind_eq_ok, Res.ok.injEq] at h
    obtain ⟨t, ⟨u, hu, rfl⟩, rfl⟩ := h
    obtain ⟨d, rfl⟩ := release_same hu
    refine ⟨_, by simp [emit, List.append_assoc]; rfl, ?_⟩
    simp [View.hears, View.hear, viewOf, emit]
  | hold r =>
    simp only [step, Res.ok.injEq] at h
    subst h
    exact ⟨[], by simp, rfl⟩
  | drop i =>
    obtain ⟨d, rfl⟩ := release_same h
    exact ⟨[], by simp, rfl⟩
  | make o =>
    simp only [step, Res.ok.injEq] at h
    subst h
    exact ⟨[], by simp, rfl⟩

/-- **C111, views.** A view that shows the rows of the model at some time, and a label that shows their number, show them after every history in which objects are appended, prepended, removed by the
numbers of their rows or replaced all together, and in which the application holds and lets go of shared pointers as it likes. At no time is the view told something that makes no sense. -/
theorem C111_view_partial : ∀ (ops : List Op) {s s' : State}, All Announced s ops → run s ops = .ok s' →
    ∃ l, s'.log = s.log ++ l ∧ (viewOf s.rows).hears l = some (viewOf s'.rows)
  | [], s, s', _, h => by
    simp only [run, Res.ok.injEq] at h
    subst h
    exact ⟨[], by simp, rfl⟩
  | o :: os, s, s', ha, h => by
    simp only [run, Res.bind_eq, Res.bind_eq_ok] at h
    obtain ⟨t, ht, h⟩ := h
    obtain ⟨l1, e1, v1⟩ := step_view ha.1 ht
    obtain ⟨l2, e2, v2⟩ := C111_view_partial os (ha.2 t ht) h
    exact ⟨l1 ++ l2, by rw [e2, e1, List.append_assoc], by rw [hears_append, v1]; exact v2⟩

/-! ### Lifetimes -/

/-- `Sound` of a list of references. -/
structure SoundR (refs : List Ref) (next : Nat) (deleted : List Nat) : Prop where
  same : ∀ a ∈ refs, ∀ b ∈ refs, a.block = b.block ↔ a.obj = b.obj
  known : ∀ a ∈ refs, a.block < next
  alive : ∀ a ∈ refs, a.obj ∉ deleted
  once : deleted.Nodup

theorem sound_iff {s : State} : Sound s ↔ SoundR (refs s) s.next s.deleted :=
  ⟨fun h => ⟨h.same, h.known, h.alive, h.once⟩, fun h => ⟨h.same, h.known, h.alive, h.once⟩⟩

theorem SoundR.mono {r r' : List Ref} {n n' : Nat} {d : List Nat} (h : SoundR r n d) (hr : ∀ a ∈ r', a ∈ r) (hn : n ≤ n') : SoundR r' n' d where
  same a ha b hb := h.same a (hr a ha) b (hr b hb)
  known a ha := by have := h.known a (hr a ha); omega
  alive a ha := h.alive a (hr a ha)
  once := h.once

theorem SoundR.new {r : List Ref} {n : Nat} {d : List Nat} (h : SoundR r n d) {o : Nat} (ho : o ∉ d) (hr : ∀ a ∈ r, a.obj ≠ o) : SoundR (⟨o, n⟩ :: r) (n + 1) d where
  same a ha b hb := by
    simp only [List.mem_cons] at ha hb
    rcases ha with rfl | ha <;> rcases hb with rfl | hb
    · simp
    · have := h.known b hb
      have := hr b hb
      constructor
      · intro e; simp only at e; omega
      · intro e; exact absurd e.symm this
    · have := h.known a ha
      have := hr a ha
      constructor
      · intro e; simp only at e; omega
      · intro e; exact absurd e this
    · exact h.same a ha b hb
  known a ha := by
    simp only [List.mem_cons] at ha
    rcases ha with rfl | ha
    · simp
    · have := h.known a ha; omega
  alive a ha := by
    simp only [List.mem_cons] at ha
    rcases ha with rfl | ha
    · exact ho
    · exact h.alive a ha
  once := h.once

/-- Destroying shared pointers is defined and deletes exactly the objects that no other one owns. -/
theorem release_sound : ∀ (l : List Shared) (s : State), SoundR (l.filterMap id ++ refs s) s.next s.deleted →
    ∃ d, release l s = .ok { s with deleted := s.deleted ++ d } ∧ SoundR (refs s) s.next (s.deleted ++ d) ∧
      ∀ o, o ∈ d ↔ (∃ r ∈ l.filterMap id, r.obj = o) ∧ ∀ r ∈ refs s, r.obj ≠ o
  | [], s, h => ⟨[], by simp [release], by simpa using h, by simp⟩
  | none :: rs, s, h => by
    simpa only [release, List.filterMap_cons, id] using release_sound rs s (by simpa using h)
  | some r :: rs, s, h => by
    simp only [List.filterMap_cons, id, List.cons_append] at h
    have hm : SoundR (rs.filterMap id ++ refs s) s.next s.deleted := h.mono (fun a ha => List.mem_cons_of_mem _ ha) (Nat.le_refl _)
    have hsame : ∀ a ∈ rs.filterMap id ++ refs s, a.block = r.block ↔ a.obj = r.obj := fun a ha => h.same a (List.mem_cons_of_mem _ ha) r (List.mem_cons_self ..)
    simp only [release]
    by_cases hc : (rs.filterMap id ++ s.rows.filterMap id ++ s.held).any (·.block == r.block) = true
    · rw [if_pos hc]
      obtain ⟨d, e, hs, hd⟩ := release_sound rs s hm
      refine ⟨d, e, hs, fun o => ?_⟩
      rw [hd]
      simp only [List.filterMap_cons, id, List.mem_cons]
      refine and_congr_left fun hn => ⟨fun ⟨x, hx, e⟩ => ⟨x, .inr hx, e⟩, ?_⟩
      rintro ⟨x, rfl | hx, rfl⟩
      · simp only [List.append_assoc, List.any_eq_true, beq_iff_eq] at hc
        obtain ⟨y, hy, he⟩ := hc
        have ho := (hsame y hy).1 he
        rcases List.mem_append.1 hy with hy | hy
        · exact ⟨y, hy, ho⟩
        · exact absurd ho (hn y hy)
      · exact ⟨x, hx, rfl⟩
    · rw [if_neg hc]
      have hna : r.obj ∉ s.deleted := h.alive r (List.mem_cons_self ..)
      rw [if_neg (by simpa using hna)]
      have hno : ∀ a ∈ rs.filterMap id ++ refs s, a.obj ≠ r.obj := by
        intro a ha e
        apply hc
        simp only [List.append_assoc, List.any_eq_true, beq_iff_eq]
        exact ⟨a, ha, (hsame a ha).2 e⟩
      obtain ⟨d, e, hs, hd⟩ := release_sound rs { s with deleted := s.deleted ++ [r.obj] } ⟨hm.same, hm.known, fun a ha => by
          simp only [List.mem_append, List.mem_singleton, not_or]
          exact ⟨hm.alive a ha, hno a ha⟩, by
          simp only [List.nodup_append, List.nodup_cons, List.not_mem_nil, not_false_eq_true, List.nodup_nil, and_self, List.mem_singleton, true_and]
          exact ⟨hm.once, fun a ha b hb e => hna (by rw [← hb, ← e]; exact ha)⟩⟩
      refine ⟨r.obj :: d, by rw [e]; simp, by simpa [refs] using hs, fun o => ?_⟩
      simp only [List.mem_cons, List.filterMap_cons, id]
      rw [hd]
      constructor
      · rintro (rfl | ⟨⟨x, hx, rfl⟩, hn⟩)
        · exact ⟨⟨r, .inl rfl, rfl⟩, fun a ha => hno a (List.mem_append_right _ ha)⟩
        · exact ⟨⟨x, .inr hx, rfl⟩, hn⟩
      · rintro ⟨⟨x, rfl | hx, rfl⟩, hn⟩
        · exact .inl rfl
        · exact .inr ⟨⟨x, hx, rfl⟩, hn⟩

/-- An object that was handed over: it is owned or deleted. -/
def Known (s : State) (x : Nat) : Prop := x ∈ s.deleted ∨ ∃ r ∈ refs s, r.obj = x

/-- Shared pointers `l` are destroyed, after that the shared pointers are those of `s`. -/
theorem release_step {l : List Shared} {s : State} {old : State} (h : Sound old) (hd : old.deleted = s.deleted) (hn : old.next = s.next)
    (hr : ∀ a, a ∈ refs old ↔ a ∈ l.filterMap id ++ refs s) :
    ∃ d, release l s = .ok { s with deleted := s.deleted ++ d } ∧ Sound { s with deleted := s.deleted ++ d } ∧
      ∀ x, Known old x → Known { s with deleted := s.deleted ++ d } x := by
  have h' := sound_iff.1 h
  rw [hd, hn] at h'
  obtain ⟨d, e, hs, hx⟩ := release_sound l s (h'.mono (fun a ha => (hr a).2 ha) (Nat.le_refl _))
  refine ⟨d, e, sound_iff.2 hs, fun x hk => ?_⟩
  rcases hk with hk | ⟨r, hm, rfl⟩
  · exact .inl (List.mem_append_left _ (hd ▸ hk))
  · by_cases hf : ∃ a ∈ refs s, a.obj = r.obj
    · exact .inr hf
    · refine .inl (List.mem_append_right _ ((hx _).2 ⟨?_, fun a ha e => hf ⟨a, ha, e⟩⟩))
      rcases List.mem_append.1 ((hr r).1 hm) with hm | hm
      · exact ⟨r, hm, rfl⟩
      · exact absurd ⟨r, hm, rfl⟩ hf

theorem mem_filterMap_id {l : List Shared} {a : Ref} : a ∈ l.filterMap id ↔ some a ∈ l := by simp

theorem mem_erase {α : Type} {l : List α} {i : Nat} {a : α} : a ∈ l ↔ a ∈ l[i]?.toList ∨ a ∈ l.eraseIdx i := by
  by_cases hi : i < l.length
  · rw [List.eraseIdx_eq_take_drop_succ]
    conv => lhs; rw [← List.take_append_drop i l, List.drop_eq_getElem_cons hi]
    simp only [List.mem_append, List.mem_cons, List.getElem?_eq_getElem hi, Option.toList_some, List.mem_singleton, List.not_mem_nil, or_false]
    constructor
    · rintro (h | h | h)
      · exact .inr (.inl h)
      · exact .inl h
      · exact .inr (.inr h)
    · rintro (h | h | h)
      · exact .inr (.inl h)
      · exact .inl h
      · exact .inr (.inr h)
  · rw [List.eraseIdx_of_length_le (by omega), List.getElem?_eq_none (by omega)]
    simp

theorem sound_congr {s t : State} (hr : ∀ a, a ∈ refs s ↔ a ∈ refs t) (hd : s.deleted = t.deleted) (hn : s.next ≤ t.next) (h : Sound s) : Sound t := by
  have := (sound_iff.1 h).mono (r' := refs t) (fun a ha => (hr a).2 ha) hn
  rw [hd] at this
  exact sound_iff.2 this

theorem step_sound {s : State} {o : Op} (h : Sound s) (hc : Careful s o) :
    ∃ s', step s o = .ok s' ∧ Sound s' ∧ (∀ x, Known s x → Known s' x) ∧ ∀ x ∈ handedOver [o], Known s' x := by
  have new : ∀ (x : Nat) (t : State), x ∉ s.deleted → (∀ r ∈ refs s, r.obj ≠ x) → t.deleted = s.deleted → t.next = s.next + 1 →
      (∀ a, a ∈ refs t ↔ a = ⟨x, s.next⟩ ∨ a ∈ refs s) → Sound t ∧ (∀ y, Known s y → Known t y) ∧ ∀ y ∈ [x], Known t y := by
    intro x t hx hr hd hn hm
    refine ⟨?_, ?_, ?_⟩
    · have := ((sound_iff.1 h).new hx hr).mono (r' := refs t) (fun a ha => List.mem_cons.2 ((hm a).1 ha)) (Nat.le_refl _)
      rw [← hd, ← hn] at this
      exact sound_iff.2 this
    · rintro y (hy | ⟨r, hr, rfl⟩)
      · exact .inl (hd ▸ hy)
      · exact .inr ⟨r, (hm r).2 (.inr hr), rfl⟩
    · simp only [List.mem_singleton, forall_eq]
      exact .inr ⟨⟨x, s.next⟩, (hm _).2 (.inl rfl), rfl⟩
  have same : ∀ (t : State), t.deleted = s.deleted → s.next ≤ t.next → (∀ a, a ∈ refs t ↔ a ∈ refs s) → Sound t ∧ ∀ y, Known s y → Known t y := by
    intro t hd hn hm
    refine ⟨sound_congr (fun a => (hm a).symm) hd.symm hn h, ?_⟩
    rintro y (hy | ⟨r, hr, rfl⟩)
    · exact .inl (hd ▸ hy)
    · exact .inr ⟨r, (hm r).2 hr, rfl⟩
  have there : ∀ {v : Option Nat}, s.rows.any (ptr · == v) = true → ∀ x, v = some x → Known s x := by
    intro v ha x hx
    subst hx
    simp only [List.any_eq_true, beq_iff_eq] at ha
    obtain ⟨r, hr, e⟩ := ha
    cases r with
    | none => simp [ptr] at e
    | some r => exact .inr ⟨r, List.mem_append_left _ (mem_filterMap_id.2 hr), by simpa [ptr] using e⟩
  have fresh : ∀ {x : Nat}, ¬ s.rows.any (ptr · == some x) = true → ((∃ r ∈ s.rows, ptr r = some x) ∨ (x ∉ s.deleted ∧ ∀ r ∈ refs s, r.obj ≠ x)) → x ∉ s.deleted ∧ ∀ r ∈ refs s, r.obj ≠ x := by
    rintro x hn (⟨r, hr, e⟩ | hx)
    · exact absurd (List.any_eq_true.2 ⟨r, hr, by simpa using e⟩) hn
    · exact hx
  cases o with
  | append v =>
    refine ⟨_, rfl, ?_⟩
    simp only [append]
    by_cases ha : s.rows.any (ptr · == v) = true
    · rw [if_pos ha]
      refine ⟨h, fun _ => id, fun x hx => ?_⟩
      cases v with
      | none => simp [handedOver] at hx
      | some o => exact there ha x (by simp [handedOver] at hx; rw [hx])
    · rw [if_neg ha]
      cases v with
      | none =>
        have := same (emit .endInsert (emit .countChanged { emit (.beginInsert s.rows.length s.rows.length) s with rows := s.rows ++ [wrap none s.next], next := s.next + 1 })) rfl
          (by simp [emit]) (by simp [emit, refs, wrap])
        exact ⟨this.1, this.2, by simp [handedOver]⟩
      | some o =>
        have hf := fresh ha hc
        exact new o _ hf.1 hf.2 rfl rfl (by simp [emit, refs, wrap, or_left_comm])
  | prepend v =>
    refine ⟨_, rfl, ?_⟩
    simp only [prepend]
    by_cases ha : s.rows.any (ptr · == v) = true
    · rw [if_pos ha]
      refine ⟨h, fun _ => id, fun x hx => ?_⟩
      cases v with
      | none => simp [handedOver] at hx
      | some o => exact there ha x (by simp [handedOver] at hx; rw [hx])
    · rw [if_neg ha]
      cases v with
      | none =>
        have := same (emit .endInsert (emit .countChanged { emit (.beginInsert 0 0) s with rows := wrap none s.next :: s.rows, next := s.next + 1 })) rfl
          (by simp [emit]) (by simp [emit, refs, wrap])
        exact ⟨this.1, this.2, by simp [handedOver]⟩
      | some o =>
        have hf := fresh ha hc
        exact new o _ hf.1 hf.2 rfl rfl (by simp [emit, refs, wrap])
  | removePtr v =>
    simp only [step, removePtr]
    cases hi : s.rows.findIdx? (ptr · == v) with
    | none => exact ⟨s, rfl, h, fun _ => id, by simp [handedOver]⟩
    | some i =>
      obtain ⟨d, e, hs, hk⟩ := release_step (l := s.rows[i]?.toList) (s := { s with rows := s.rows.eraseIdx i }) h rfl rfl (by
        intro a
        simp only [refs, List.mem_append, mem_filterMap_id]
        rw [mem_erase (i := i), or_assoc])
      exact ⟨_, e, hs, hk, by simp [handedOver]⟩
  | removeAt i =>
    simp only [step, removeAt]
    split
    · obtain ⟨d, e, hs, hk⟩ := release_step (l := s.rows[i.toNat]?.toList) (s := { emit (.beginRemove i.toNat i.toNat) s with rows := s.rows.eraseIdx i.toNat }) h rfl rfl (by
        intro a
        simp only [refs, emit, List.mem_append, mem_filterMap_id]
        rw [mem_erase (i := i.toNat), or_assoc])
      refine ⟨_, by simp only [Res.bind_eq, emit] at e ⊢; rw [e]; rfl, ?_, fun x hx => ?_, by simp [handedOver]⟩
      · exact ⟨hs.same, hs.known, hs.alive, hs.once⟩
      · exact hk x hx
    · exact ⟨s, rfl, h, fun _ => id, by simp [handedOver]⟩
  | reset c =>
    have hc : ∀ r ∈ c, ∀ x, r = some x → x ∈ refs s := hc
    have hc' : ∀ a, some a ∈ c → a ∈ refs s := fun a ha => hc _ ha a rfl
    simp only [step, reset, clear]
    obtain ⟨d, e, hs, hk⟩ := release_step (l := s.rows) (s := { emit .beginReset { s with held := s.held ++ c.filterMap id } with rows := [] }) h rfl rfl (by
        intro a
        simp only [refs, emit, List.mem_append, mem_filterMap_id, List.filterMap_nil, List.not_mem_nil, false_or]
        have := hc' a
        simp only [refs, List.mem_append, mem_filterMap_id] at this
        constructor
        · rintro (h | h)
          · exact .inl h
          · exact .inr (.inl h)
        · rintro (h | h | h)
          · exact .inl h
          · exact .inr h
          · exact this h)
    refine ⟨_, by simp only [Res.bind_eq, emit] at e ⊢; rw [e]; rfl, ?_, fun x hx => ?_, by simp [handedOver]⟩
    · have hm : ∀ a, a ∈ c.filterMap id ++ s.held → a ∈ s.held ++ c.filterMap id := fun a ha => by
        rcases List.mem_append.1 ha with ha | ha
        · exact List.mem_append_right _ ha
        · exact List.mem_append_left _ ha
      exact sound_iff.2 ((sound_iff.1 hs).mono hm (Nat.le_refl _))
    · rcases hk x hx with hx | ⟨r, hr, rfl⟩
      · exact .inl hx
      · refine .inr ⟨r, ?_, rfl⟩
        simp only [refs, emit, List.mem_append, mem_filterMap_id, List.filterMap_nil, List.not_mem_nil, false_or] at hr ⊢
        exact hr.symm
  | hold r =>
    refine ⟨_, rfl, ?_⟩
    have hm : ∀ a, a ∈ (s.rows[r]?.join).toList → some a ∈ s.rows := by
      intro a ha
      simp only [Option.mem_toList, Option.join_eq_some_iff] at ha
      exact List.mem_of_getElem? ha
    have := same { s with held := s.held ++ (s.rows[r]?.join).toList } rfl (Nat.le_refl _) (by
      intro a
      simp only [refs, List.mem_append, mem_filterMap_id]
      have := hm a
      constructor
      · rintro (h | h | h)
        · exact .inl h
        · exact .inr h
        · exact .inl (this h)
      · rintro (h | h)
        · exact .inl h
        · exact .inr (.inl h))
    exact ⟨this.1, this.2, by simp [handedOver]⟩
  | drop i =>
    obtain ⟨d, e, hs, hk⟩ := release_step (l := (s.held[i]?).toList.map some) (s := { s with held := s.held.eraseIdx i }) h rfl rfl (by
        intro a
        have e : some a ∈ List.map some s.held[i]?.toList ↔ a ∈ s.held[i]?.toList := by simp
        simp only [refs, List.mem_append, mem_filterMap_id]
        rw [mem_erase (l := s.held) (i := i), e]
        constructor
        · rintro (h | h | h)
          · exact .inr (.inl h)
          · exact .inl h
          · exact .inr (.inr h)
        · rintro (h | h | h)
          · exact .inr (.inl h)
          · exact .inl h
          · exact .inr (.inr h))
    exact ⟨_, e, hs, hk, by simp [handedOver]⟩
  | make o =>
    refine ⟨_, rfl, ?_⟩
    exact new o _ hc.1 hc.2 rfl rfl (by simp [refs, or_assoc, or_comm, or_left_comm])

theorem handedOver_cons (o : Op) (os : List Op) : handedOver (o :: os) = handedOver [o] ++ handedOver os := by
  cases o with
  | append v => cases v <;> simp [handedOver]
  | prepend v => cases v <;> simp [handedOver]
  | _ => simp [handedOver]

theorem run_sound : ∀ (ops : List Op) {s : State}, Sound s → All Careful s ops →
    ∃ s', run s ops = .ok s' ∧ Sound s' ∧ (∀ x, Known s x → Known s' x) ∧ ∀ x ∈ handedOver ops, Known s' x
  | [], s, h, _ => ⟨s, rfl, h, fun _ => id, by simp [handedOver]⟩
  | o :: os, s, h, hc => by
    obtain ⟨t, ht, hs, k1, k2⟩ := step_sound h hc.1
    obtain ⟨u, hu, hs', k3, k4⟩ := run_sound os hs (hc.2 t ht)
    refine ⟨u, by simp only [run, Res.bind_eq, ht, Res.bind, hu], hs', fun x hx => k3 x (k1 x hx), fun x hx => ?_⟩
    rw [handedOver_cons, List.mem_append] at hx
    exact hx.elim (fun hx => k3 x (k2 x hx)) (k4 x)

/-- **C111, lifetimes.** As long as the application keeps the rules of shared pointers, every history is defined: no object is deleted twice, none is deleted that a row or the application still has,
and one that was handed over is deleted as soon as neither a row nor the application has it. -/
theorem C111_lifetime (ops : List Op) {s : State} (h : Sound s) (hc : All Careful s ops) :
    ∃ s', run s ops = .ok s' ∧ s'.deleted.Nodup ∧ (∀ r ∈ s'.rows, ∀ x, r = some x → x.obj ∉ s'.deleted) ∧ (∀ r ∈ s'.held, r.obj ∉ s'.deleted) ∧
      ∀ x ∈ handedOver ops, x ∈ s'.deleted ↔ (∀ r ∈ s'.rows, ptr r ≠ some x) ∧ ∀ r ∈ s'.held, r.obj ≠ x := by
  obtain ⟨s', hr, hs, -, hk⟩ := run_sound ops h hc
  have hrow : ∀ r ∈ s'.rows, ∀ x, r = some x → x.obj ∉ s'.deleted := by
    rintro r hr x rfl
    exact hs.alive x (List.mem_append_left _ (mem_filterMap_id.2 hr))
  have hheld : ∀ r ∈ s'.held, r.obj ∉ s'.deleted := fun r hr => hs.alive r (List.mem_append_right _ hr)
  refine ⟨s', hr, hs.once, hrow, hheld, fun x hx => ⟨fun hd => ⟨fun r hr e => ?_, fun r hr e => hheld r hr (e ▸ hd)⟩, fun ⟨h1, h2⟩ => ?_⟩⟩
  · cases r with
    | none => simp [ptr] at e
    | some r => exact hrow _ hr r rfl (by simp only [ptr, Option.map_some, Option.some.injEq] at e; rw [e]; exact hd)
  · rcases hk x hx with hd | ⟨r, hm, rfl⟩
    · exact hd
    · rcases List.mem_append.1 hm with hm | hm
      · exact absurd rfl (h1 _ (mem_filterMap_id.1 hm))
      · exact absurd rfl (h2 r hm)

/-- **C111, adding.** An object that no row has is added at the end or at the beginning, and the number of its row is returned; for one that a row has, nothing happens and -1 is returned. -/
theorem C111_add (v : Option Nat) (s : State) :
    ((∃ r ∈ s.rows, ptr r = v) → append v s = (s, -1) ∧ prepend v s = (s, -1)) ∧
    ((∀ r ∈ s.rows, ptr r ≠ v) →
      (append v s).1.rows.map ptr = s.rows.map ptr ++ [v] ∧ (append v s).2 = s.rows.length ∧
      (prepend v s).1.rows.map ptr = v :: s.rows.map ptr ∧ (prepend v s).2 = 0) := by
  constructor
  · rintro ⟨r, hr, e⟩
    have : s.rows.any (ptr · == v) = true := List.any_eq_true.2 ⟨r, hr, by simpa using e⟩
    simp [append, prepend, this]
  · intro h
    have : ¬ s.rows.any (ptr · == v) = true := by
      simp only [List.any_eq_true, beq_iff_eq, not_exists, not_and]
      exact h
    have hw : ptr (wrap v s.next) = v := by cases v <;> simp [ptr, wrap]
    simp [append, prepend, this, emit, hw]

/-- **C111, no object twice.** Appending, prepending and removing never make two rows of one object. -/
theorem C111_distinct {s s' : State} {o : Op} (ho : ∀ c, o ≠ .reset c) (hn : (s.rows.map ptr).Nodup) (h : step s o = .ok s') : (s'.rows.map ptr).Nodup := by
  have erase : ∀ i, ((s.rows.eraseIdx i).map ptr).Nodup := fun i => by
    have : List.Sublist ((s.rows.eraseIdx i).map ptr) (s.rows.map ptr) := (List.eraseIdx_sublist ..).map _
    exact hn.sublist this
  have add : ∀ v, (append v s).1.rows.map ptr |>.Nodup := fun v => by
    by_cases hv : ∃ r ∈ s.rows, ptr r = v
    · rw [((C111_add v s).1 hv).1]; exact hn
    · have hv : ∀ r ∈ s.rows, ptr r ≠ v := fun r hr e => hv ⟨r, hr, e⟩
      rw [((C111_add v s).2 hv).1]
      simp only [List.nodup_append, List.nodup_cons, List.not_mem_nil, not_false_eq_true, List.nodup_nil, and_self, List.mem_singleton, List.mem_map, true_and]
      refine ⟨hn, ?_⟩
      rintro a ⟨r, hr, rfl⟩ b rfl
      exact hv r hr
  have pre : ∀ v, (prepend v s).1.rows.map ptr |>.Nodup := fun v => by
    by_cases hv : ∃ r ∈ s.rows, ptr r = v
    · rw [((C111_add v s).1 hv).2]; exact hn
    · have hv : ∀ r ∈ s.rows, ptr r ≠ v := fun r hr e => hv ⟨r, hr, e⟩
      rw [((C111_add v s).2 hv).2.2.1]
      simp only [List.nodup_cons, List.mem_map, not_exists, not_and]
      exact ⟨hv, hn⟩
  cases o with
  | append v => simp only [step, Res.ok.injEq] at h; subst h; exact add v
  | prepend v => simp only [step, Res.ok.injEq] at h; subst h; exact pre v
  | removePtr v =>
    simp only [step, removePtr] at h
    split at h
    · obtain ⟨d, rfl⟩ := release_same h
      exact erase _
    · simp only [Res.ok.injEq] at h; subst h; exact hn
  | removeAt i =>
    simp only [step, removeAt] at h
    split at h
    · simp only [Res.bind_eq, Res.bind_eq_ok, Res.ok.injEq] at h
      obtain ⟨t, ht, rfl⟩ := h
      obtain ⟨d, rfl⟩ := release_same ht
      exact erase _
    · simp only [Res.ok.injEq] at h; subst h; exact hn
  | reset c => exact absurd rfl (ho c)
  | hold r => simp only [step, Res.ok.injEq] at h; subst h; exact hn
  | drop i => obtain ⟨d, rfl⟩ := release_same h; exact hn
  | make o => simp only [step, Res.ok.injEq] at h; subst h; exact hn

/-- **C111, removing.** `remove` of a row and `remove` of an object take out exactly that row, `reset` takes the rows of the list. -/
theorem C111_rows {s s' : State} :
    (∀ i : Nat, step s (.removeAt i) = .ok s' → s'.rows = s.rows.eraseIdx i) ∧
    (∀ i : Int, i < 0 → step s (.removeAt i) = .ok s' → s' = s) ∧
    (∀ v, step s (.removePtr v) = .ok s' → (∃ a r b, s.rows = a ++ r :: b ∧ ptr r = v ∧ (∀ x ∈ a, ptr x ≠ v) ∧ s'.rows = a ++ b) ∨ ((∀ r ∈ s.rows, ptr r ≠ v) ∧ s' = s)) ∧
    (∀ c, step s (.reset c) = .ok s' → s'.rows = c) := by
  refine ⟨fun i h => ?_, fun i hi h => ?_, fun v h => ?_, fun c h => ?_⟩
  · simp only [step, removeAt, Res.bind_eq] at h
    rw [if_pos (by omega)] at h
    simp only [Res.bind_eq_ok, Res.ok.injEq] at h
    obtain ⟨t, ht, rfl⟩ := h
    obtain ⟨d, rfl⟩ := release_same ht
    rfl
  · simp only [step, removeAt] at h
    rw [if_neg (by omega)] at h
    simpa using h.symm
  · simp only [step, removePtr] at h
    cases hi : s.rows.findIdx? (ptr · == v) with
    | none =>
      rw [hi] at h
      simp only [Res.ok.injEq] at h
      rw [List.findIdx?_eq_none_iff] at hi
      exact .inr ⟨fun r hr => by simpa using hi r hr, h.symm⟩
    | some i =>
      rw [hi] at h
      dsimp only at h
      obtain ⟨d, rfl⟩ := release_same h
      rw [List.findIdx?_eq_some_iff_getElem] at hi
      obtain ⟨hl, he, hb⟩ := hi
      refine .inl ⟨s.rows.take i, s.rows[i], s.rows.drop (i + 1), ?_, by simpa using he, ?_, List.eraseIdx_eq_take_drop_succ ..⟩
      · rw [← List.drop_eq_getElem_cons hl, List.take_append_drop]
      · intro x hx
        obtain ⟨j, hj, rfl⟩ := List.mem_iff_getElem.1 hx
        simp only [List.length_take] at hj
        simpa using hb j (by omega)
  · simp only [step, reset, clear, Res.bind_eq, Res.bind_eq_ok, Res.ok.injEq] at h
    obtain ⟨t, ⟨u, hu, rfl⟩, rfl⟩ := h
    rfl

/-! ### Roles -/

theorem find_names (l : List String) (n i : Nat) (hi : 1 ≤ i) (hl : n ≤ l.length) :
    (((List.range n).filterMap fun j => if j = 0 then none else l[j]?.map fun n => (256 + j, n)).reverse.find? (·.1 == 256 + i)) = if i < n then (l[i]?.map fun x => (256 + i, x)) else none := by
  induction n with
  | zero => simp
  | succ n ih =>
    rw [List.range_succ, List.filterMap_append, List.reverse_append]
    by_cases h0 : n = 0
    · subst h0
      simp
      omega
    · have hs : ([n].filterMap fun j => if j = 0 then none else l[j]?.map fun n => (256 + j, n)) = [(256 + n, l[n]'(by omega))] := by
        simp [h0, List.getElem?_eq_getElem (show n < l.length by omega)]
      rw [hs, List.reverse_singleton, List.singleton_append, List.find?_cons]
      by_cases he : n = i
      · subst he
        simp [List.getElem?_eq_getElem (show n < l.length by omega)]
      · have : ((256 + n, l[n]'(by omega)).1 == 256 + i) = false := by simp; omega
        rw [this, ih (by omega)]
        by_cases hlt : i < n
        · rw [if_pos hlt, if_pos (by omega)]
        · rw [if_neg hlt, if_neg (by omega)]

/-- **C111, roles.** For a class with at most 256 properties, of which none is called `modelData`: once `roleNames` was called, the roles are those of the properties, and in every row that has an object the
role of a property shows the property of the object, the role of `modelData` the object itself. A row that does not exist or has no object shows nothing. -/
theorem C111_data {V : Type} (property : Nat → String → Option V) (properties : List String) (hl : properties.length ≤ 256) (hm : "modelData" ∉ properties) (rows : List Shared) :
    (∀ (row i : Nat) (r : Ref) (name : String), rows[row]? = some (some r) → 1 ≤ i → properties[i]? = some name →
      data property (roleNames properties) rows row (256 + i) = match property r.obj name with | some v => .property v | none => .invalid) ∧
    (∀ (row : Nat) (r : Ref), rows[row]? = some (some r) → data property (roleNames properties) rows row properties.length = .object r.obj) ∧
    (∀ (row : Int) (role : Nat) (names : List (Nat × String)), (row < 0 ∨ (rows.length : Int) ≤ row ∨ rows[row.toNat]? = some none) → data property names rows row role = .invalid) := by
  have hrow : ∀ {row : Nat} {r : Ref}, rows[row]? = some (some r) → ¬ ((row : Int) < 0 ∨ (rows.length : Int) ≤ row) := by
    intro row r h
    have := (List.getElem?_eq_some_iff.1 h).1
    omega
  refine ⟨fun row i r name h hi hn => ?_, fun row r h => ?_, fun row role names h => ?_⟩
  · have hlt : i < properties.length := (List.getElem?_eq_some_iff.1 hn).1
    have hv : value (roleNames properties) (256 + i) = name := by
      unfold value roleNames
      rw [List.reverse_append, List.reverse_singleton, List.singleton_append, List.find?_cons]
      have : ((properties.length, "modelData").1 == 256 + i) = false := by simp; omega
      rw [this, find_names properties _ i hi (Nat.le_refl _), if_pos hlt, hn]
      rfl
    have hne : name ≠ "modelData" := fun e => hm (e ▸ List.mem_of_getElem? hn)
    unfold data
    rw [if_neg (hrow h)]
    simp only [Int.toNat_natCast, h, Option.join_some, hv, if_neg hne]
    cases property r.obj name <;> rfl
  · have hv : value (roleNames properties) properties.length = "modelData" := by
      unfold value roleNames
      rw [List.reverse_append, List.reverse_singleton, List.singleton_append, List.find?_cons]
      simp
    unfold data
    rw [if_neg (hrow h)]
    simp only [Int.toNat_natCast, h, Option.join_some, hv, if_true]
  · unfold data
    by_cases hr : row < 0 ∨ (rows.length : Int) ≤ row
    · rw [if_pos hr]
    · rw [if_neg hr]
      have h : rows[row.toNat]? = some none := by
        rcases h with h | h | h
        · exact absurd (.inl h) hr
        · exact absurd (.inr h) hr
        · exact h
      simp [h]

/-- **C111, finding.** If no row is without an object, `findByProperty` gives the first row whose property has the value, and a null pointer if there is none. -/
theorem C111_find_partial {V : Type} [DecidableEq V] (property : Nat → String → Option V) (name : String) (v : Option V) (rows : List Ref) :
    findByProperty property name v (rows.map some) = .ok (rows.find? fun r => property r.obj name = v) := by
  induction rows with
  | nil => rfl
  | cons r rs ih =>
    simp only [List.map_cons, findByProperty, List.find?_cons]
    by_cases h : property r.obj name = v
    · simp [h]
    · simp [h, ih]

/-! ### Examples -/

/-- A model with two rows; the application holds the object of the second one. -/
def start : State := ⟨[some ⟨10, 0⟩, some ⟨11, 1⟩], [⟨11, 1⟩], 2, [], []⟩

theorem start_sound : Sound start := ⟨by decide, by decide, by decide, by decide⟩

/-- An object is appended, one is prepended, the one at the end is removed, the application takes the first one and replaces the rows. -/
def history : List Op := [.append (some 12), .prepend (some 13), .append (some 10), .removeAt 1, .hold 0, .make 14, .reset [some ⟨11, 1⟩, some ⟨14, 4⟩], .drop 0]

theorem all_cons {P : State → Op → Prop} {s t : State} {o : Op} {os : List Op} (hp : P s o) (h : step s o = .ok t) (hr : All P t os) : All P s (o :: os) :=
  ⟨hp, fun s' h' => by rw [h] at h'; cases h'; exact hr⟩

theorem history_ok : All Announced start history ∧ All Careful start history := by
  refine ⟨all_cons ?_ rfl (all_cons ?_ rfl (all_cons ?_ rfl (all_cons ?_ rfl (all_cons ?_ rfl (all_cons ?_ rfl (all_cons ?_ rfl (all_cons ?_ rfl trivial))))))),
    all_cons ?_ rfl (all_cons ?_ rfl (all_cons ?_ rfl (all_cons ?_ rfl (all_cons ?_ rfl (all_cons ?_ rfl (all_cons ?_ rfl (all_cons ?_ rfl trivial)))))))⟩ <;>
    first
    | trivial
    | (unfold Announced; decide)
    | (unfold Careful; decide)
    | (intro r hr x e
       subst e
       simp only [List.mem_cons, Option.some.injEq, List.not_mem_nil, or_false] at hr
       rcases hr with rfl | rfl <;> decide)

example : ∃ s', run start history = .ok s' ∧ (∃ l, s'.log = start.log ++ l ∧ (viewOf start.rows).hears l = some (viewOf s'.rows)) ∧
    s'.rows.map ptr = [some 11, some 14] ∧ s'.deleted = [10, 12] ∧ s'.held.map Ref.obj = [13, 14] := by
  obtain ⟨s', h, -⟩ := C111_lifetime history start_sound history_ok.2
  refine ⟨s', h, C111_view_partial history history_ok.1 h, ?_⟩
  have : run start history = .ok ⟨[some ⟨11, 1⟩, some ⟨14, 4⟩], [⟨13, 3⟩, ⟨14, 4⟩], 5, [10, 12], (match run start history with | .ok s => s.log | _ => [])⟩ := by rfl
  rw [this] at h
  cases h
  exact ⟨rfl, rfl, rfl⟩

example : data (fun o n => if n = "name" then some o else none) (roleNames ["objectName", "id", "name"]) start.rows 1 258 = .property 11 := by decide

/-! ### What is missing -/

/-- **C111, negation.** `remove` of an object is announced to nobody: a view goes on showing the row, and asking for it gives the row that came after it. -/
theorem C111_silent_violated : ∃ s', run start [.removePtr (some 10)] = .ok s' ∧ s'.rows.map ptr = [some 11] ∧ s'.log = [] ∧
    (viewOf start.rows).hears s'.log = some (viewOf start.rows) ∧ viewOf start.rows ≠ viewOf s'.rows := ⟨_, rfl, by decide, rfl, rfl, by decide⟩

/-- **C111, negation.** `remove` of a row that does not exist, which QML may call with any number, tells the views to remove a row that they do not have. -/
theorem C111_beyond_violated : ∃ s', run start [.removeAt 2] = .ok s' ∧ s'.rows = start.rows ∧ (viewOf start.rows).hears s'.log = none := ⟨_, rfl, rfl, by decide⟩

/-- **C111, negation.** An object that the application owns by a shared pointer of its own and hands over as a plain pointer is deleted twice. -/
theorem C111_twice_violated : run start [.removeAt 0, .make 12, .append (some 12), .removeAt 1, .drop 1] = .ub := rfl

/-- **C111, negation.** Before somebody has called `roleNames`, no role shows anything. -/
theorem C111_early_violated : ∀ role, data (fun o n => if n = "name" then some o else none) [] start.rows 0 role = .invalid := by
  intro role
  simp [data, start, value]

/-- **C111, negation.** Looking for a property in a list with a null pointer is undefined. -/
theorem C111_null_violated : findByProperty (fun o n => if n = "name" then some o else none) "name" (some 11) [none, some ⟨11, 1⟩] = .ub := rfl

end QtPb.ListModel
