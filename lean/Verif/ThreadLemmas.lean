import Verif.Threads
/-
Invariant of the calls from several threads.
-/
namespace QtPb.Threads

theorem upd_apply {α : Type} (f : Nat → α) (i j : Nat) (v : α) : upd f i v j = if j = i then v else f j := rfl
@[simp] theorem upd_self {α : Type} (f : Nat → α) (i : Nat) (v : α) : upd f i v i = v := by simp [upd]
theorem upd_ne {α : Type} {f : Nat → α} {i j : Nat} {v : α} (h : j ≠ i) : upd f i v j = f j := by simp [upd, h]

/-- Where an outstanding call is. -/
structure Inv (w : World) : Prop where
  top : ∀ th f, f ∈ (w.stack th).tail → ∃ k, f = .wait k
  wait : ∀ th k, .wait k ∈ w.stack th → ∃ c, w.calls[k]? = some c ∧ c.home = th ∧ c.quick = false ∧
    k ∉ w.returned.map (·.1) ∧ k ∉ w.queue th ∧ (c.caller ≠ th → .blocked k ∈ w.stack c.caller)
  blocked : ∀ th k, .blocked k ∈ w.stack th → ∃ c, w.calls[k]? = some c ∧ c.caller = th ∧ c.home ≠ th ∧
    k ∉ w.returned.map (·.1) ∧ (k ∈ w.queue c.home ∨ .wait k ∈ w.stack c.home)
  queue : ∀ th k, k ∈ w.queue th → ∃ c, w.calls[k]? = some c ∧ c.home = th ∧ c.caller ≠ th ∧
    k ∉ w.returned.map (·.1) ∧ .blocked k ∈ w.stack c.caller ∧ .wait k ∉ w.stack th
  stackNodup : ∀ th, (w.stack th).Nodup
  queueNodup : ∀ th, (w.queue th).Nodup
  cover : ∀ (k : Nat) c, w.calls[k]? = some c → k ∉ w.returned.map (·.1) →
    if c.caller = c.home then Frame.wait k ∈ w.stack c.home else Frame.blocked k ∈ w.stack c.caller
  result : ∀ k r, (k, r) ∈ w.returned → ∃ c, w.calls[k]? = some c ∧
    (c.quick = true ∧ r = none ∨ c.quick = false ∧ ∃ d, r = some d ∧ w.answers k = some d)
  once : (w.returned.map (·.1)).Nodup
  fresh : ∀ k, w.calls.length ≤ k → w.answers k = none

theorem Inv.start : Inv start := by
  constructor <;> simp [Threads.start]

/-- A blocked thread is blocked in its innermost call. -/
theorem Inv.blocked_top {w : World} (h : Inv w) {th k : Nat} (hb : Frame.blocked k ∈ w.stack th) :
    w.stack th = .blocked k :: (w.stack th).tail := by
  cases hs : w.stack th with
  | nil => rw [hs] at hb; cases hb
  | cons f fs =>
    rw [hs] at hb
    rcases List.mem_cons.mp hb with rfl | hb
    · rfl
    · obtain ⟨j, hj⟩ := h.top th (.blocked k) (by rw [hs]; exact hb)
      cases hj

theorem free_stack {w : World} {th : Nat} (h : w.free th = true) : ∀ k fs, w.stack th ≠ .blocked k :: fs := by
  intro k fs hs
  simp [World.free, hs] at h

theorem Inv.free_wait {w : World} (h : Inv w) {th : Nat} (hf : w.free th = true) (f : Frame) (hm : f ∈ w.stack th) :
    ∃ k, f = .wait k := by
  cases hs : w.stack th with
  | nil => rw [hs] at hm; cases hm
  | cons g fs =>
    rw [hs] at hm
    rcases List.mem_cons.mp hm with rfl | hm
    · cases f with
      | wait k => exact ⟨k, rfl⟩
      | blocked k => exact absurd hs (free_stack hf k fs)
    · exact h.top th f (by rw [hs]; exact hm)

theorem getElem?_lt {α : Type} {l : List α} {k : Nat} {c : α} (h : l[k]? = some c) : k < l.length := by
  obtain ⟨h, _⟩ := List.getElem?_eq_some_iff.mp h; exact h

theorem getElem?_snoc {α : Type} {l : List α} {k : Nat} {c x : α} (h : l[k]? = some c) : (l ++ [x])[k]? = some c := by
  rw [List.getElem?_append_left (getElem?_lt h)]; exact h

theorem getElem?_snoc_inv {α : Type} {l : List α} {k : Nat} {c x : α} (h : (l ++ [x])[k]? = some c) :
    l[k]? = some c ∨ k = l.length ∧ c = x := by
  by_cases hk : k < l.length
  · left; rw [List.getElem?_append_left hk] at h; exact h
  · right
    have := getElem?_lt h
    simp at this
    have hk : k = l.length := by omega
    subst hk
    simp at h
    exact ⟨rfl, h.symm⟩

theorem Inv.answer {w : World} (h : Inv w) {k : Nat} {d : Bytes} (hk : k < w.calls.length) (hn : w.answers k = none) :
    Inv { w with answers := upd w.answers k (some d) } := by
  obtain ⟨h1, h2, h3, h4, h5, h6, h7, h8, h9, h10⟩ := h
  refine ⟨h1, h2, h3, h4, h5, h6, h7, ?_, h9, ?_⟩
  · intro j r hj
    obtain ⟨c, hc, hr⟩ := h8 j r hj
    refine ⟨c, hc, hr.imp id ?_⟩
    rintro ⟨hq, e, he, ha⟩
    refine ⟨hq, e, he, ?_⟩
    simp only [upd_apply]
    rw [if_neg]
    · exact ha
    · rintro rfl; rw [hn] at ha; cases ha
  · intro j hj
    have : j ≠ k := by simp only at hj; omega
    simp only [upd_ne this]
    exact h10 j hj

/-- No frame and no posted call refers to a call that has not been made. -/
theorem Inv.frame_lt {w : World} (h : Inv w) {th k : Nat} (hk : .wait k ∈ w.stack th ∨ .blocked k ∈ w.stack th) :
    k < w.calls.length := by
  rcases hk with hk | hk
  · obtain ⟨c, hc, _⟩ := h.wait th k hk; exact getElem?_lt hc
  · obtain ⟨c, hc, _⟩ := h.blocked th k hk; exact getElem?_lt hc

theorem Inv.queue_lt {w : World} (h : Inv w) {th k : Nat} (hk : k ∈ w.queue th) : k < w.calls.length := by
  obtain ⟨c, hc, _⟩ := h.queue th k hk; exact getElem?_lt hc

theorem Inv.returned_lt {w : World} (h : Inv w) {k : Nat} (hk : k ∈ w.returned.map (·.1)) : k < w.calls.length := by
  obtain ⟨⟨j, r⟩, hj, rfl⟩ := List.mem_map.mp hk
  obtain ⟨c, hc, _⟩ := h.result j r hj; exact getElem?_lt hc

theorem mem_push {st : Nat → List Frame} {x th : Nat} {f g : Frame} :
    g ∈ upd st x (f :: st x) th ↔ g ∈ st th ∨ th = x ∧ g = f := by
  by_cases h : th = x
  · subst h; simp [or_comm]
  · simp [upd_ne h, h]

theorem nodup_push {st : Nat → List Frame} {x : Nat} {f : Frame} (h : ∀ th, (st th).Nodup) (hf : f ∉ st x) (th : Nat) :
    (upd st x (f :: st x) th).Nodup := by
  by_cases he : th = x
  · subst he; simp [hf, h th]
  · simp [upd_ne he, h th]

theorem Inv.makeCall {w : World} (h : Inv w) {caller home : Nat} {quick : Bool} (hf : w.free caller = true) :
    Inv (w.makeCall caller home quick) := by
  have hfw := h.free_wait hf
  have hfr : ∀ th k, .wait k ∈ w.stack th ∨ .blocked k ∈ w.stack th → k ≠ w.calls.length := fun th k hk =>
    Nat.ne_of_lt (h.frame_lt hk)
  have hqr : ∀ th k, k ∈ w.queue th → k ≠ w.calls.length := fun th k hk => Nat.ne_of_lt (h.queue_lt hk)
  have hrr : w.calls.length ∉ w.returned.map (·.1) := fun hk => Nat.lt_irrefl _ (h.returned_lt hk)
  have hlast : (w.calls ++ [⟨caller, home, quick⟩])[w.calls.length]? = some ⟨caller, home, quick⟩ := by simp
  unfold World.makeCall
  by_cases hch : caller = home
  · subst hch
    cases quick with
    | true =>
      simp only [if_true]
      refine ⟨h.top, ?_, ?_, ?_, h.stackNodup, h.queueNodup, ?_, ?_, ?_, ?_⟩
      · intro th k hk
        obtain ⟨c, h1, h2, h3, h4, h5, h6⟩ := h.wait th k hk
        exact ⟨c, getElem?_snoc h1, h2, h3, by simp [hfr th k (.inl hk)]; simpa using h4, h5, h6⟩
      · intro th k hk
        obtain ⟨c, h1, h2, h3, h4, h5⟩ := h.blocked th k hk
        exact ⟨c, getElem?_snoc h1, h2, h3, by simp [hfr th k (.inr hk)]; simpa using h4, h5⟩
      · intro th k hk
        obtain ⟨c, h1, h2, h3, h4, h5⟩ := h.queue th k hk
        exact ⟨c, getElem?_snoc h1, h2, h3, by simp [hqr th k hk]; simpa using h4, h5⟩
      · intro k c hk hr
        simp only [List.map_append, List.map_cons, List.map_nil, List.mem_append, List.mem_singleton, not_or] at hr
        rcases getElem?_snoc_inv hk with hk | ⟨hk, _⟩
        · exact h.cover k c hk hr.1
        · exact absurd hk hr.2
      · intro k r hk
        rcases List.mem_append.mp hk with hk | hk
        · obtain ⟨c, hc, hr⟩ := h.result k r hk
          exact ⟨c, getElem?_snoc hc, hr⟩
        · simp only [List.mem_singleton, Prod.mk.injEq] at hk
          obtain ⟨rfl, rfl⟩ := hk
          exact ⟨_, hlast, .inl ⟨rfl, rfl⟩⟩
      · simp only [List.map_append, List.map_cons, List.map_nil]
        rw [List.nodup_append]
        exact ⟨h.once, by simp, by intro a ha b hb; simp only [List.mem_singleton] at hb; subst hb; rintro rfl; exact hrr ha⟩
      · intro k hk
        simp only [List.length_append, List.length_singleton] at hk
        exact h.fresh k (by omega)
    | false =>
      simp only [if_true, Bool.false_eq_true, if_false]
      have hmem : ∀ th g, g ∈ upd w.stack caller (.wait w.calls.length :: w.stack caller) th ↔
          g ∈ w.stack th ∨ th = caller ∧ g = .wait w.calls.length := fun th g => mem_push
      refine ⟨?_, ?_, ?_, ?_, ?_, h.queueNodup, ?_, ?_, h.once, ?_⟩
      · intro th f hm
        by_cases he : th = caller
        · subst he; simp only [upd_self, List.tail_cons] at hm; exact hfw f hm
        · simp only [upd_ne he] at hm; exact h.top th f hm
      · intro th k hk
        simp only [hmem] at hk ⊢
        rcases hk with hk | ⟨rfl, hk⟩
        · obtain ⟨c, h1, h2, h3, h4, h5, h6⟩ := h.wait th k hk
          exact ⟨c, getElem?_snoc h1, h2, h3, h4, h5, fun hn => .inl (h6 hn)⟩
        · cases hk
          exact ⟨_, hlast, rfl, rfl, hrr, fun hq => hqr _ _ hq rfl, fun hn => absurd rfl hn⟩
      · intro th k hk
        simp only [hmem] at hk ⊢
        rcases hk with hk | ⟨_, hk⟩
        · obtain ⟨c, h1, h2, h3, h4, h5⟩ := h.blocked th k hk
          exact ⟨c, getElem?_snoc h1, h2, h3, h4, h5.imp id .inl⟩
        · cases hk
      · intro th k hk
        simp only [hmem]
        obtain ⟨c, h1, h2, h3, h4, h5, h6⟩ := h.queue th k hk
        refine ⟨c, getElem?_snoc h1, h2, h3, h4, .inl h5, ?_⟩
        rintro (hm | ⟨_, hm⟩)
        · exact h6 hm
        · cases hm; exact hqr _ _ hk rfl
      · exact nodup_push h.stackNodup (fun hm => hfr _ _ (.inl hm) rfl)
      · intro k c hk hr
        simp only [hmem]
        rcases getElem?_snoc_inv hk with hk | ⟨rfl, rfl⟩
        · have := h.cover k c hk hr
          split at this
          · rename_i he; rw [if_pos he]; exact .inl this
          · rename_i he; rw [if_neg he]; exact .inl this
        · simp
      · intro k r hk
        obtain ⟨c, hc, hr⟩ := h.result k r hk
        exact ⟨c, getElem?_snoc hc, hr⟩
      · intro k hk
        simp only [List.length_append, List.length_singleton] at hk
        exact h.fresh k (by omega)
  · simp only [hch, if_false]
    have hmem : ∀ th g, g ∈ upd w.stack caller (.blocked w.calls.length :: w.stack caller) th ↔
        g ∈ w.stack th ∨ th = caller ∧ g = .blocked w.calls.length := fun th g => mem_push
    have hqm : ∀ th k, k ∈ upd w.queue home (w.queue home ++ [w.calls.length]) th ↔
        k ∈ w.queue th ∨ th = home ∧ k = w.calls.length := by
      intro th k
      by_cases he : th = home
      · subst he; simp
      · simp [upd_ne he, he]
    refine ⟨?_, ?_, ?_, ?_, ?_, ?_, ?_, ?_, h.once, ?_⟩
    · intro th f hm
      by_cases he : th = caller
      · subst he; simp only [upd_self, List.tail_cons] at hm; exact hfw f hm
      · simp only [upd_ne he] at hm; exact h.top th f hm
    · intro th k hk
      simp only [hmem, hqm] at hk ⊢
      rcases hk with hk | ⟨_, hk⟩
      · obtain ⟨c, h1, h2, h3, h4, h5, h6⟩ := h.wait th k hk
        refine ⟨c, getElem?_snoc h1, h2, h3, h4, ?_, fun hn => .inl (h6 hn)⟩
        rintro (hq | ⟨_, hq⟩)
        · exact h5 hq
        · exact hfr th k (.inl hk) hq
      · cases hk
    · intro th k hk
      simp only [hmem, hqm] at hk ⊢
      rcases hk with hk | ⟨rfl, hk⟩
      · obtain ⟨c, h1, h2, h3, h4, h5⟩ := h.blocked th k hk
        exact ⟨c, getElem?_snoc h1, h2, h3, h4, h5.imp .inl .inl⟩
      · cases hk
        exact ⟨_, hlast, rfl, fun he => hch he.symm, hrr, .inl (.inr ⟨rfl, rfl⟩)⟩
    · intro th k hk
      simp only [hmem, hqm] at hk ⊢
      rcases hk with hk | ⟨rfl, rfl⟩
      · obtain ⟨c, h1, h2, h3, h4, h5, h6⟩ := h.queue th k hk
        refine ⟨c, getElem?_snoc h1, h2, h3, h4, .inl h5, ?_⟩
        rintro (hm | ⟨_, hm⟩)
        · exact h6 hm
        · cases hm
      · refine ⟨_, hlast, rfl, hch, hrr, .inr ⟨rfl, rfl⟩, ?_⟩
        rintro (hm | ⟨_, hm⟩)
        · exact hfr _ _ (.inl hm) rfl
        · cases hm
    · exact nodup_push h.stackNodup (fun hm => hfr _ _ (.inr hm) rfl)
    · intro th
      by_cases he : th = home
      · subst he
        simp only [upd_self]
        rw [List.nodup_append]
        exact ⟨h.queueNodup _, by simp, by
          intro a ha b hb; simp only [List.mem_singleton] at hb; subst hb; rintro rfl; exact hqr _ _ ha rfl⟩
      · simp only [upd_ne he]; exact h.queueNodup th
    · intro k c hk hr
      simp only [hmem]
      rcases getElem?_snoc_inv hk with hk | ⟨rfl, rfl⟩
      · have := h.cover k c hk hr
        split at this
        · rename_i he; rw [if_pos he]; exact .inl this
        · rename_i he; rw [if_neg he]; exact .inl this
      · simp [hch]
    · intro k r hk
      obtain ⟨c, hc, hr⟩ := h.result k r hk
      exact ⟨c, getElem?_snoc hc, hr⟩
    · intro k hk
      simp only [List.length_append, List.length_singleton] at hk
      exact h.fresh k (by omega)

/-- Both halves of a return: call `k` leaves the stacks `home` (if it is there) and `caller` and is recorded. -/
structure Done (w w' : World) (k : Nat) (r : Option Bytes) : Prop where
  calls : w'.calls = w.calls
  answers : w'.answers = w.answers
  queue : ∀ th j, j ∈ w'.queue th ↔ j ∈ w.queue th ∧ j ≠ k
  queueNodup : ∀ th, (w'.queue th).Nodup
  mem : ∀ th f, f ∈ w'.stack th ↔ f ∈ w.stack th ∧ f ≠ .wait k ∧ f ≠ .blocked k
  tail : ∀ th f, f ∈ (w'.stack th).tail → f ∈ (w.stack th).tail
  nodup : ∀ th, (w'.stack th).Nodup
  returned : w'.returned = w.returned ++ [(k, r)]

theorem Inv.done {w w' : World} (h : Inv w) {k : Nat} {r : Option Bytes} {c : Call} (hc : w.calls[k]? = some c)
    (hnr : k ∉ w.returned.map (·.1))
    (hr : c.quick = true ∧ r = none ∨ c.quick = false ∧ ∃ d, r = some d ∧ w.answers k = some d) (hd : Done w w' k r) : Inv w' := by
  obtain ⟨d1, d2, d3, d4, d5, d6, d7, d8⟩ := hd
  have hret : ∀ j, j ∉ w.returned.map (·.1) → j ≠ k → j ∉ w'.returned.map (·.1) := by
    intro j hj hn
    rw [d8]
    simp only [List.map_append, List.map_cons, List.map_nil, List.mem_append, List.mem_singleton, not_or]
    exact ⟨hj, hn⟩
  refine ⟨?_, ?_, ?_, ?_, d7, d4, ?_, ?_, ?_, ?_⟩
  · intro th f hf; exact h.top th f (d6 th f hf)
  · intro th j hj
    obtain ⟨hj, hn, _⟩ := (d5 th _).mp hj
    have hne : j ≠ k := fun e => hn (e ▸ rfl)
    obtain ⟨c', h1, h2, h3, h4, h5, h6⟩ := h.wait th j hj
    refine ⟨c', by rw [d1]; exact h1, h2, h3, hret j h4 hne, fun hq => h5 ((d3 th j).mp hq).1, fun hn => ?_⟩
    exact (d5 _ _).mpr ⟨h6 hn, by simp, by simpa using hne⟩
  · intro th j hj
    obtain ⟨hj, _, hn⟩ := (d5 th _).mp hj
    have hne : j ≠ k := fun e => hn (e ▸ rfl)
    obtain ⟨c', h1, h2, h3, h4, h5⟩ := h.blocked th j hj
    refine ⟨c', by rw [d1]; exact h1, h2, h3, hret j h4 hne, h5.imp ?_ ?_⟩
    · intro hq; exact (d3 _ _).mpr ⟨hq, hne⟩
    · intro hq; exact (d5 _ _).mpr ⟨hq, by simpa using hne, by simp⟩
  · intro th j hj
    obtain ⟨hj, hne⟩ := (d3 th j).mp hj
    obtain ⟨c', h1, h2, h3, h4, h5, h6⟩ := h.queue th j hj
    refine ⟨c', by rw [d1]; exact h1, h2, h3, hret j h4 hne, (d5 _ _).mpr ⟨h5, by simp, by simpa using hne⟩, fun hm => ?_⟩
    exact h6 ((d5 _ _).mp hm).1
  · intro j c' hj hjr
    rw [d1] at hj
    rw [d8] at hjr
    simp only [List.map_append, List.map_cons, List.map_nil, List.mem_append, List.mem_singleton, not_or] at hjr
    have := h.cover j c' hj hjr.1
    split at this
    · rename_i he; rw [if_pos he]; exact (d5 _ _).mpr ⟨this, by simpa using hjr.2, by simp⟩
    · rename_i he; rw [if_neg he]; exact (d5 _ _).mpr ⟨this, by simp, by simpa using hjr.2⟩
  · intro j q hj
    rw [d8] at hj
    rw [d1, d2]
    rcases List.mem_append.mp hj with hj | hj
    · exact h.result j q hj
    · simp only [List.mem_singleton, Prod.mk.injEq] at hj
      obtain ⟨rfl, rfl⟩ := hj
      exact ⟨c, hc, hr⟩
  · rw [d8]
    simp only [List.map_append, List.map_cons, List.map_nil]
    rw [List.nodup_append]
    exact ⟨h.once, by simp, by intro a ha b hb; simp only [List.mem_singleton] at hb; subst hb; rintro rfl; exact hnr ha⟩
  · intro j hj; rw [d1] at hj; rw [d2]; exact h.fresh j hj

/-- Removing the innermost frame of a thread. -/
theorem mem_pop {l : List Frame} {f g : Frame} {fs : List Frame} (hl : l = f :: fs) (hn : l.Nodup) :
    g ∈ fs ↔ g ∈ l ∧ g ≠ f := by
  subst hl
  simp only [List.nodup_cons] at hn
  constructor
  · intro hg; exact ⟨List.mem_cons_of_mem _ hg, fun e => hn.1 (e ▸ hg)⟩
  · rintro ⟨hg, hne⟩
    rcases List.mem_cons.mp hg with rfl | hg
    · exact absurd rfl hne
    · exact hg

theorem Inv.wait_home {w : World} (h : Inv w) {k th : Nat} {c : Call} (hc : w.calls[k]? = some c)
    (hw : .wait k ∈ w.stack th) : th = c.home ∧ c.quick = false := by
  obtain ⟨c', h1, h2, h3, _⟩ := h.wait th k hw
  rw [hc] at h1; cases h1; exact ⟨h2.symm, h3⟩

theorem Inv.blocked_caller {w : World} (h : Inv w) {k th : Nat} {c : Call} (hc : w.calls[k]? = some c)
    (hw : .blocked k ∈ w.stack th) : th = c.caller ∧ c.home ≠ c.caller := by
  obtain ⟨c', h1, h2, h3, _⟩ := h.blocked th k hw
  rw [hc] at h1; cases h1; exact ⟨h2.symm, by rw [h2]; exact h3⟩

theorem Inv.queue_home {w : World} (h : Inv w) {k th : Nat} {c : Call} (hc : w.calls[k]? = some c)
    (hw : k ∈ w.queue th) : th = c.home ∧ c.caller ≠ c.home := by
  obtain ⟨c', h1, h2, h3, _⟩ := h.queue th k hw
  rw [hc] at h1; cases h1; exact ⟨h2.symm, by rw [h2]; exact h3⟩

theorem tail_tail {l : List Frame} {f : Frame} (h : f ∈ l.tail.tail) : f ∈ l.tail := List.mem_of_mem_tail h

/-- A call that does not wait is carried out. -/
theorem Inv.doneQuick {w : World} (h : Inv w) {th k : Nat} {rest : List Nat} {c : Call} (hq : w.queue th = k :: rest)
    (hc : w.calls[k]? = some c) (hqk : c.quick = true) :
    Done w (World.release { w with queue := upd w.queue th rest } c.caller k none) k none := by
  have hk : k ∈ w.queue th := by rw [hq]; exact List.mem_cons_self
  obtain ⟨c', h1, h2, h3, h4, h5, h6⟩ := h.queue th k hk
  rw [hc] at h1; cases h1
  have hnd := h.queueNodup th
  rw [hq, List.nodup_cons] at hnd
  have htop := h.blocked_top h5
  have hm : ∀ x f, f ∈ upd w.stack c.caller (w.stack c.caller).tail x ↔ f ∈ w.stack x ∧ f ≠ .wait k ∧ f ≠ .blocked k := by
    intro x f
    by_cases hx : x = c.caller
    · subst hx
      rw [upd_self, mem_pop htop (h.stackNodup _)]
      refine ⟨fun ⟨a, b⟩ => ⟨a, ?_, b⟩, fun ⟨a, _, b⟩ => ⟨a, b⟩⟩
      rintro rfl
      have := (h.wait_home hc a).2
      rw [hqk] at this; cases this
    · rw [upd_ne hx]
      refine ⟨fun a => ⟨a, ?_, ?_⟩, fun a => a.1⟩
      · rintro rfl
        have := (h.wait_home hc a).2
        rw [hqk] at this; cases this
      · rintro rfl
        exact hx (h.blocked_caller hc a).1
  refine ⟨rfl, rfl, ?_, ?_, hm, ?_, ?_, rfl⟩
  · intro x j
    simp only [World.release]
    by_cases hx : x = th
    · subst hx
      rw [upd_self, hq, List.mem_cons]
      refine ⟨fun hj => ⟨.inr hj, fun e => hnd.1 (e ▸ hj)⟩, fun ⟨hj, hn⟩ => hj.resolve_left hn⟩
    · rw [upd_ne hx]
      refine ⟨fun hj => ⟨hj, ?_⟩, fun hj => hj.1⟩
      rintro rfl
      have := (h.queue_home hc hj).1
      exact hx (this.trans h2)
  · intro x
    simp only [World.release]
    by_cases hx : x = th
    · subst hx; rw [upd_self]; exact hnd.2
    · rw [upd_ne hx]; exact h.queueNodup x
  · intro x f hf
    simp only [World.release] at hf
    by_cases hx : x = c.caller
    · subst hx; rw [upd_self] at hf; exact tail_tail hf
    · rw [upd_ne hx] at hf; exact hf
  · intro x
    simp only [World.release]
    by_cases hx : x = c.caller
    · subst hx; rw [upd_self]; exact (h.stackNodup _).tail
    · rw [upd_ne hx]; exact h.stackNodup x

/-- A posted call begins to wait. -/
theorem Inv.begin {w : World} (h : Inv w) {th k : Nat} {rest : List Nat} {c : Call} (hq : w.queue th = k :: rest)
    (hf : w.free th = true) (hc : w.calls[k]? = some c) (hqk : c.quick = false) :
    Inv { w with queue := upd w.queue th rest, stack := upd w.stack th (.wait k :: w.stack th) } := by
  have hk : k ∈ w.queue th := by rw [hq]; exact List.mem_cons_self
  obtain ⟨c', h1, h2, h3, h4, h5, h6⟩ := h.queue th k hk
  rw [hc] at h1; cases h1
  have hnd := h.queueNodup th
  rw [hq, List.nodup_cons] at hnd
  have hmem : ∀ x g, g ∈ upd w.stack th (.wait k :: w.stack th) x ↔ g ∈ w.stack x ∨ x = th ∧ g = .wait k :=
    fun x g => mem_push
  have hqm : ∀ x j, j ∈ upd w.queue th rest x ↔ j ∈ w.queue x ∧ j ≠ k := by
    intro x j
    by_cases hx : x = th
    · subst hx
      rw [upd_self, hq, List.mem_cons]
      refine ⟨fun hj => ⟨.inr hj, fun e => hnd.1 (e ▸ hj)⟩, fun ⟨hj, hn⟩ => hj.resolve_left hn⟩
    · rw [upd_ne hx]
      refine ⟨fun hj => ⟨hj, ?_⟩, fun hj => hj.1⟩
      rintro rfl
      have := (h.queue_home hc hj).1
      exact hx (this.trans h2)
  refine ⟨?_, ?_, ?_, ?_, nodup_push h.stackNodup h6, ?_, ?_, h.result, h.once, h.fresh⟩
  · intro x f hm
    by_cases hx : x = th
    · subst hx; simp only [upd_self, List.tail_cons] at hm; exact h.free_wait hf f hm
    · simp only [upd_ne hx] at hm; exact h.top x f hm
  · intro x j hj
    simp only [hmem, hqm] at hj ⊢
    rcases hj with hj | ⟨rfl, hj⟩
    · obtain ⟨c', g1, g2, g3, g4, g5, g6⟩ := h.wait x j hj
      exact ⟨c', g1, g2, g3, g4, fun e => g5 e.1, fun hn => .inl (g6 hn)⟩
    · cases hj
      exact ⟨c, hc, h2, hqk, h4, fun e => e.2 rfl, fun _ => .inl h5⟩
  · intro x j hj
    simp only [hmem, hqm] at hj ⊢
    rcases hj with hj | ⟨_, hj⟩
    · obtain ⟨c', g1, g2, g3, g4, g5⟩ := h.blocked x j hj
      refine ⟨c', g1, g2, g3, g4, ?_⟩
      rcases g5 with g5 | g5
      · by_cases he : j = k
        · subst he
          rw [hc] at g1; cases g1
          exact .inr (.inr ⟨h2, rfl⟩)
        · exact .inl ⟨g5, he⟩
      · exact .inr (.inl g5)
    · cases hj
  · intro x j hj
    simp only [hmem, hqm] at hj ⊢
    obtain ⟨c', g1, g2, g3, g4, g5, g6⟩ := h.queue x j hj.1
    refine ⟨c', g1, g2, g3, g4, .inl g5, ?_⟩
    rintro (hm | ⟨_, hm⟩)
    · exact g6 hm
    · cases hm; exact hj.2 rfl
  · intro x
    by_cases hx : x = th
    · subst hx; simp only [upd_self]; exact hnd.2
    · simp only [upd_ne hx]; exact h.queueNodup x
  · intro j c' hj hr
    simp only [hmem]
    have := h.cover j c' hj hr
    split at this
    · rename_i he; rw [if_pos he]; exact .inl this
    · rename_i he; rw [if_neg he]; exact .inl this

/-- A synchronous call of a client of the same thread returns. -/
theorem Inv.doneOwn {w : World} (h : Inv w) {th k : Nat} {rest : List Frame} {c : Call} {d : Bytes}
    (hs : w.stack th = .wait k :: rest) (hc : w.calls[k]? = some c) (hcal : c.caller = th) :
    Done w { w with stack := upd w.stack th rest, returned := w.returned ++ [(k, some d)] } k (some d) := by
  have hk : .wait k ∈ w.stack th := by rw [hs]; exact List.mem_cons_self
  obtain ⟨c', h1, h2, h3, h4, h5, h6⟩ := h.wait th k hk
  rw [hc] at h1; cases h1
  have hnb : ∀ x, .blocked k ∉ w.stack x := fun x hx => (h.blocked_caller hc hx).2 (h2.trans hcal.symm)
  refine ⟨rfl, rfl, ?_, h.queueNodup, ?_, ?_, ?_, rfl⟩
  · intro x j
    refine ⟨fun hj => ⟨hj, ?_⟩, fun hj => hj.1⟩
    rintro rfl
    exact (h.queue_home hc hj).2 (hcal.trans h2.symm)
  · intro x f
    by_cases hx : x = th
    · subst hx
      simp only [upd_self]
      rw [mem_pop hs (h.stackNodup _)]
      exact ⟨fun ⟨a, b⟩ => ⟨a, b, fun e => hnb _ (e ▸ a)⟩, fun ⟨a, b, _⟩ => ⟨a, b⟩⟩
    · simp only [upd_ne hx]
      refine ⟨fun a => ⟨a, ?_, fun e => hnb _ (e ▸ a)⟩, fun a => a.1⟩
      rintro rfl
      exact hx ((h.wait_home hc a).1.trans h2)
  · intro x f hf
    by_cases hx : x = th
    · subst hx; simp only [upd_self] at hf; rw [hs]; exact List.mem_of_mem_tail hf
    · simp only [upd_ne hx] at hf; exact hf
  · intro x
    by_cases hx : x = th
    · subst hx; simp only [upd_self]; have := h.stackNodup x; rw [hs] at this; exact (List.nodup_cons.mp this).2
    · simp only [upd_ne hx]; exact h.stackNodup x

/-- A synchronous call for another thread returns. -/
theorem Inv.doneOther {w : World} (h : Inv w) {th k : Nat} {rest : List Frame} {c : Call} {d : Bytes}
    (hs : w.stack th = .wait k :: rest) (hc : w.calls[k]? = some c) (hcal : c.caller ≠ th) :
    Done w (World.release { w with stack := upd w.stack th rest } c.caller k (some d)) k (some d) := by
  have hk : .wait k ∈ w.stack th := by rw [hs]; exact List.mem_cons_self
  obtain ⟨c', h1, h2, h3, h4, h5, h6⟩ := h.wait th k hk
  rw [hc] at h1; cases h1
  have hb := h6 hcal
  have htop := h.blocked_top hb
  have hst : ∀ x, (World.release { w with stack := upd w.stack th rest } c.caller k (some d)).stack x =
      if x = c.caller then (w.stack c.caller).tail else if x = th then rest else w.stack x := by
    intro x
    simp only [World.release, upd_apply, if_neg hcal]
  refine ⟨rfl, rfl, ?_, h.queueNodup, ?_, ?_, ?_, rfl⟩
  · intro x j
    refine ⟨fun hj => ⟨hj, ?_⟩, fun hj => hj.1⟩
    rintro rfl
    have := (h.queue_home hc hj).1
    exact h5 (by rw [← h2, ← this]; exact hj)
  · intro x f
    rw [hst]
    by_cases hx : x = c.caller
    · subst hx
      rw [if_pos rfl, mem_pop htop (h.stackNodup _)]
      refine ⟨fun ⟨a, b⟩ => ⟨a, ?_, b⟩, fun ⟨a, _, b⟩ => ⟨a, b⟩⟩
      rintro rfl
      exact hcal ((h.wait_home hc a).1.trans h2)
    · rw [if_neg hx]
      have hnb : .blocked k ∉ w.stack x := fun hm => hx (h.blocked_caller hc hm).1
      by_cases hx' : x = th
      · subst hx'
        rw [if_pos rfl, mem_pop hs (h.stackNodup _)]
        exact ⟨fun ⟨a, b⟩ => ⟨a, b, fun e => hnb (e ▸ a)⟩, fun ⟨a, b, _⟩ => ⟨a, b⟩⟩
      · rw [if_neg hx']
        refine ⟨fun a => ⟨a, ?_, fun e => hnb (e ▸ a)⟩, fun a => a.1⟩
        rintro rfl
        exact hx' ((h.wait_home hc a).1.trans h2)
  · intro x f hf
    rw [hst] at hf
    split at hf
    · rename_i hx; subst hx; exact tail_tail hf
    · split at hf
      · rename_i hx; subst hx; rw [hs]; exact List.mem_of_mem_tail hf
      · exact hf
  · intro x
    rw [hst]
    split
    · exact (h.stackNodup _).tail
    · split
      · have := h.stackNodup th; rw [hs] at this; exact (List.nodup_cons.mp this).2
      · exact h.stackNodup x

theorem Inv.step {w : World} (h : Inv w) (e : Ev) : Inv (w.step e) := by
  cases e with
  | call caller home quick =>
    simp only [World.step]
    by_cases hf : w.free caller = true
    · rw [if_pos hf]; exact h.makeCall hf
    · rw [if_neg hf]; exact h
  | answer k d =>
    simp only [World.step]
    split
    · rename_i c hc
      split
      · rename_i hw; exact h.answer (getElem?_lt hc) hw.2
      · exact h
    · exact h
  | dispatch th =>
    simp only [World.step]
    by_cases hf : w.free th = true
    · rw [if_pos hf]
      split
      · exact h
      · rename_i k rest hq
        have hk : k ∈ w.queue th := by rw [hq]; exact List.mem_cons_self
        obtain ⟨c, hc, -, -, hnr, -, -⟩ := h.queue th k hk
        simp only [hc]
        cases hqk : c.quick with
        | true => exact h.done hc hnr (.inl ⟨hqk, rfl⟩) (h.doneQuick hq hc hqk)
        | false => exact h.begin hq hf hc hqk
    · rw [if_neg hf]; exact h
  | ret th =>
    simp only [World.step]
    split
    · rename_i k rest hs
      have hk : .wait k ∈ w.stack th := by rw [hs]; exact List.mem_cons_self
      obtain ⟨c, hc, -, hqk, hnr, -, -⟩ := h.wait th k hk
      simp only [hc]
      split
      · rename_i d hd
        split
        · rename_i hcal; exact h.done hc hnr (.inr ⟨hqk, d, rfl, hd⟩) (h.doneOwn hs hc hcal)
        · rename_i hcal; exact h.done hc hnr (.inr ⟨hqk, d, rfl, hd⟩) (h.doneOther hs hc hcal)
      · exact h
    · exact h

theorem Inv.run {w : World} (h : Inv w) (es : List Ev) : Inv (w.run es) := by
  induction es generalizing w with
  | nil => exact h
  | cons e es ih => exact ih (h.step e)

end QtPb.Threads
