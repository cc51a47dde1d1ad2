import Verif.StreamBytesLemmas
/-
The invariant of overlapping streams over HTTP/2.
-/
namespace QtPb.StreamBytes
open Http2 Stream Stream.Spec Spec

theorem started_of {c : Client} {o : List Obs} (hr : Rel c o) {a : Nat} (ha : a < c.nAttempts) :
    Obs.started a (c.attempts a).stream (c.attempts a).kind ∈ o := by
  have := (hr.owner a ha).1
  unfold view at this
  rcases owner_started o View.new a _ _ this with h | h
  · cases h
  · exact h

theorem over_of {c : Client} {o : List Obs} (hr : Rel c o) {a : Nat} (h : (view o).over a = true) : (c.attempts a).connected = false := by
  by_cases ha : a < c.nAttempts
  · have := (hr.owner a ha).2.2
    rw [h] at this
    simpa using this.symm
  · exact (hr.freshAttempt a (by omega)).1

/-- Two attempts that are connected have different entries. -/
theorem one_entry {c : Client} {entry : Nat → Nat} {t : List Seen} (hr : Rel c (obsOf t)) (hA : Apart entry t) {a b : Nat}
    (ha : (c.attempts a).connected = true) (hb : (c.attempts b).connected = true) (he : entry a = entry b) : a = b := by
  have lt : ∀ x, (c.attempts x).connected = true → x < c.nAttempts := by
    intro x hx
    by_cases h : x < c.nAttempts
    · exact h
    · rw [(hr.freshAttempt x (by omega)).1] at hx; cases hx
  by_cases hab : a = b
  · exact hab
  have sa := mem_obsOf.1 (started_of hr (lt a ha))
  have sb := mem_obsOf.1 (started_of hr (lt b hb))
  obtain ⟨pre, post, e⟩ := List.append_of_mem sb
  rw [e] at sa
  have key : ∀ (x y : Nat) (p q : List Seen), t = p ++ .obs (.started y (c.attempts y).stream (c.attempts y).kind) :: q → x ≠ y → entry x = entry y →
      Seen.obs (.started x (c.attempts x).stream (c.attempts x).kind) ∈ p → (c.attempts x).connected = false := by
    intro x y p q e hxy hx hm
    have ho := hA p q y _ _ e x hxy hx ⟨_, _, mem_obsOf.2 hm⟩
    refine over_of hr ?_
    rw [e, obsOf_append]
    exact over_append _ ho
  rcases List.mem_append.1 sa with sa | sa
  · rw [key a b pre post e hab he sa] at ha; cases ha
  · rcases List.mem_cons.1 sa with sa | sa
    · cases sa; exact absurd rfl hab
    · obtain ⟨p1, p2, e2⟩ := List.append_of_mem sa
      rw [e2] at e
      have e3 : t = (pre ++ .obs (.started b (c.attempts b).stream (c.attempts b).kind) :: p1) ++ .obs (.started a (c.attempts a).stream (c.attempts a).kind) :: p2 := by rw [e]; simp
      rw [key b a _ p2 e3 (Ne.symm hab) he.symm (by simp)] at hb
      cases hb

structure Inv (n : Nat) (entry : Nat → Nat) (s : Session) (t : List Seen) : Prop where
  rel : Rel s.client (obsOf t)
  reads : ∀ a, readFrom a t ≠ [] → a < s.client.nAttempts ∧ (s.client.attempts a).kind = .http2
  free : ∀ x, (∀ b, entry b = x → readFrom b t ≠ [] → Obs.closed b ∈ obsOf t) → s.records x = none
  own : ∀ a, a < s.client.nAttempts → (s.client.attempts a).kind = .http2 → Unsoiled entry t a →
    ∃ r, receive n none (readFrom a t) = .ok (passedOn a (obsOf t), r) ∧ ((s.client.attempts a).connected = true → s.records (entry a) = r)

theorem Inv.new (n : Nat) (entry : Nat → Nat) (th : Nat) : Inv n entry (Session.new th) [] :=
  ⟨Rel.new th, fun a h => absurd rfl h, fun _ _ => rfl, fun a h => by simp [Session.new, Client.new] at h⟩

theorem listens_iff {c : Client} {a : Nat} (h : listens c a = true) :
    a < c.nAttempts ∧ (c.attempts a).kind = .http2 ∧ (c.attempts a).connected = true ∧ (c.streams (c.attempts a).stream).deleted = false := by
  simp only [listens, Bool.and_eq_true, decide_eq_true_eq, Bool.not_eq_true'] at h
  exact ⟨h.1.1.1, h.1.1.2, h.1.2, h.2⟩

theorem Inv.chunk {n : Nat} {entry : Nat → Nat} {s : Session} {t : List Seen} (h : Inv n entry s t) (hA : Apart entry t) {a : Nat} {data : Bytes}
    (hl : listens s.client a = true) {q : List Bytes × Option ExpectedData} (hq : readyRead n false (s.records (entry a)) data = .ok q) :
    Inv n entry ⟨(pass s.client a q.1).1, update s.records (entry a) q.2⟩ (t ++ .read a data :: (pass s.client a q.1).2.map .obs) := by
  obtain ⟨ha, hk, hc, -⟩ := listens_iff hl
  obtain ⟨k1, k2, k3, k4, k5, k6, -, -, -⟩ := pass_facts q.1 s.client h.rel hl
  have eo : obsOf (t ++ .read a data :: (pass s.client a q.1).2.map .obs) = obsOf t ++ (pass s.client a q.1).2 := by rw [obsOf_append, obsOf_read, obsOf_map]
  have er : ∀ b, readFrom b (t ++ .read a data :: (pass s.client a q.1).2.map .obs) = if a = b then readFrom b t ++ [data] else readFrom b t := by
    intro b
    rw [readFrom_append, readFrom_read, readFrom_map]
    split <;> simp
  refine ⟨by rw [eo]; exact k1, fun b hb => ?_, fun x hx => ?_, fun b hb hkb hU => ?_⟩
  · rw [er] at hb
    dsimp only
    rw [k2, k3]
    split at hb
    · rename_i e; subst e; exact ⟨ha, hk⟩
    · exact h.reads b hb
  · dsimp only
    rw [update_apply]
    split
    · rename_i e
      have := hx a e.symm (by rw [er, if_pos rfl]; simp)
      rw [eo, List.mem_append] at this
      rcases this with this | this
      · rw [over_of h.rel (over_of_closed this)] at hc; cases hc
      · exact absurd this (k6 a)
    · rename_i e
      refine h.free x fun b hb hrb => ?_
      have := hx b hb (by rw [er]; split <;> simp [hrb])
      rw [eo, List.mem_append] at this
      exact this.resolve_right (k6 b)
  · dsimp only at hb hkb ⊢
    rw [k2] at hb
    rw [k3] at hkb ⊢
    have hU' : Unsoiled entry t b := (unsoiled_init hU)
    obtain ⟨r, e1, e2⟩ := h.own b hb hkb hU'
    rw [er, eo, passedOn_append, k5]
    by_cases hab : a = b
    · subst hab
      rw [if_pos rfl, if_pos rfl]
      have := receive_snoc n _ data e1
      rw [← e2 hc, hq] at this
      exact ⟨q.2, this, fun _ => by simp [update]⟩
    · rw [if_neg hab, if_neg (Ne.symm hab), List.append_nil]
      refine ⟨r, e1, fun hcb => ?_⟩
      rw [update_ne (fun e => hab (one_entry h.rel hA hc hcb e.symm))]
      exact e2 hcb

theorem Inv.other {n : Nat} {entry : Nat → Nat} {s : Session} {t : List Seen} (h : Inv n entry s t) (hA : Apart entry t) {e : Ev} {c' : Client} {o : List Obs}
    (hb0 : isBytes s.client e = false) (hs : s.client.step e = some (c', o)) :
    Inv n entry ⟨c', match erases s.client e with | some a => update s.records (entry a) none | none => s.records⟩ (t ++ o.map .obs) := by
  have f := Facts.step h.rel hs hb0
  have hr' := h.rel.step hs
  have eo : obsOf (t ++ o.map .obs) = obsOf t ++ o := by rw [obsOf_append, obsOf_map]
  have er : ∀ b, readFrom b (t ++ o.map .obs) = readFrom b t := by
    intro b
    rw [readFrom_append, readFrom_map, List.append_nil]
  have hfree : ∀ x, (∀ b, entry b = x → readFrom b t ≠ [] → Obs.closed b ∈ obsOf t ++ o) →
      (match erases s.client e with | some a => update s.records (entry a) none | none => s.records) x = none := by
    intro x hx
    have hold : (∀ b, erases s.client e = some b → entry b ≠ x) → s.records x = none := by
      intro hne
      refine h.free x fun b hb hrb => ?_
      rcases List.mem_append.1 (hx b hb hrb) with hm | hm
      · exact hm
      · exact absurd hb (hne b (f.closed b hm (h.reads b hrb).2))
    cases hE : erases s.client e with
    | none => exact hold (by rw [hE]; intro b hb; cases hb)
    | some a =>
      dsimp only
      rw [update_apply]
      split
      · rfl
      · rename_i hne
        exact hold (by rw [hE]; intro b hb; cases hb; exact Ne.symm hne)
  refine ⟨by rw [eo]; exact hr', fun b hb => ?_, fun x hx => ?_, fun b hb hkb hU => ?_⟩
  · rw [er] at hb
    obtain ⟨b1, b2⟩ := h.reads b hb
    exact ⟨Nat.lt_of_lt_of_le b1 f.more, (f.kind b b1).trans b2⟩
  · refine hfree x fun b hb hrb => ?_
    have := hx b hb (by rw [er]; exact hrb)
    rw [eo] at this
    exact this
  · dsimp only at hb hkb ⊢
    rw [er, eo, passedOn_append]
    by_cases hold : b < s.client.nAttempts
    · have hk0 : (s.client.attempts b).kind = .http2 := (f.kind b hold).symm.trans hkb
      obtain ⟨r, e1, e2⟩ := h.own b hold hk0 (unsoiled_init hU)
      have hp : passedOn b o = [] := by
        cases hp : passedOn b o with
        | nil => rfl
        | cons d l =>
          have : d ∈ passedOn b o := by rw [hp]; exact List.mem_cons_self
          simp only [passedOn, List.mem_filterMap] at this
          obtain ⟨x, hx, hd⟩ := this
          cases x with
          | recv a' d' =>
            dsimp only at hd
            split at hd
            · rename_i hab
              cases hd
              subst hab
              have := (f.recv a' _ hx).2 hk0
              subst this
              simp [isBytes, hk0] at hb0
            · cases hd
          | _ => cases hd
      rw [hp, List.append_nil]
      refine ⟨r, e1, fun hc => ?_⟩
      have hc0 : (s.client.attempts b).connected = true := by
        cases hc0 : (s.client.attempts b).connected with
        | true => rfl
        | false =>
          have := (h.rel.owner b hold).2.2
          rw [hc0] at this
          rw [over_of hr' (over_append o this)] at hc
          cases hc
      cases hE : erases s.client e with
      | none => exact e2 hc0
      | some a =>
        dsimp only
        have hcl := f.erased a hE
        have hlis : listens s.client a = true := by
          unfold erases at hE
          split at hE
          · split at hE
            · cases hE; assumption
            · cases hE
          · cases hE
        rw [update_ne]
        · exact e2 hc0
        · intro he
          have := one_entry h.rel hA hc0 (listens_iff hlis).2.2.1 he
          subst this
          rw [over_of hr' (over_of_closed (List.mem_append_right _ hcl))] at hc
          cases hc
    · have hn : readFrom b t = [] := by
        cases hn : readFrom b t with
        | nil => rfl
        | cons d l => exact absurd (h.reads b (by rw [hn]; simp)).1 hold
      have hp : passedOn b (obsOf t) ++ passedOn b o = [] := by
        rw [← passedOn_append, (hr'.queueHttp2 b hkb).2, arrived_append, (h.rel.freshAttempt b (by omega)).2.2.2.2, List.nil_append]
        cases hp : arrived b o with
        | nil => rfl
        | cons d l =>
          have hpo : passedOn b o = arrived b o := by
            have := (hr'.queueHttp2 b hkb).2
            rw [passedOn_append, arrived_append, (h.rel.freshAttempt b (by omega)).2.2.2.2] at this
            have hpre := h.rel.queuePrefix b
            rw [(h.rel.freshAttempt b (by omega)).2.2.2.2] at hpre
            rw [List.prefix_nil.1 hpre] at this
            exact this
          have : d ∈ passedOn b o := by rw [hpo, hp]; exact List.mem_cons_self
          simp only [passedOn, List.mem_filterMap] at this
          obtain ⟨x, hx, hd⟩ := this
          cases x with
          | recv a' d' =>
            dsimp only at hd
            split at hd
            · rename_i hab
              cases hd
              subst hab
              exact absurd (f.recv a' _ hx).1 hold
            · cases hd
          | _ => cases hd
      rw [hn, hp]
      refine ⟨none, rfl, fun _ => ?_⟩
      obtain ⟨pre, post, e1⟩ := List.append_of_mem (mem_obsOf.1 (by rw [eo]; exact started_of hr' hb : Obs.started b _ _ ∈ obsOf (t ++ o.map .obs)))
      refine hfree _ fun b' hb' hrb => ?_
      have hne : b' ≠ b := fun e => hrb (e ▸ hn)
      have hpre : readFrom b' pre ≠ [] := by
        rcases List.append_eq_append_iff.1 e1 with ⟨l, e2, -⟩ | ⟨l, e2, e3⟩
        · rw [e2, readFrom_append]
          intro hnil
          exact hrb (List.append_eq_nil_iff.1 hnil).1
        · cases l with
          | nil =>
            rw [List.append_nil] at e2
            rw [← e2]
            exact hrb
          | cons x l =>
            cases e3
            refine absurd (h.rel.freshAttempt b (by omega)).2.2.1 (owner_of_started (s := (c'.attempts b).stream) (k := (c'.attempts b).kind) (mem_obsOf.2 ?_))
            rw [e2]
            simp
      have := hU pre post _ _ e1 b' hne hb' hpre
      rw [← eo, e1, obsOf_append]
      exact List.mem_append_left _ this

end QtPb.StreamBytes
