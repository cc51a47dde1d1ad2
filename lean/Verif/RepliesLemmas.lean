import Verif.SpecReplies
/-
Auxiliary lemmas for C68 and C69.
-/
namespace QtPb.Replies
open Http2

/-- What one event does to an existing reply. -/
def Next (i : Nat) (r r' : Reply) : Ev → Prop
  | .finish j d k =>
      if j = i ∧ r.alive = true then
        Reply.release { r with
          data := d, client := false,
          user := if r.sub = true ∧ r.method = .callback ∧ k = true then r.user + 1 else r.user } = .ok r'
      else r' = r
  | .fail j _ =>
      if j = i ∧ r.alive = true then
        Reply.release { r with data := [], client := false } = .ok r' else r' = r
  | .abort j =>
      if j = i then r.alive = true ∧
        Reply.release { r with data := [], client := false } = .ok r' else r' = r
  | .copy j => if j = i then r' = { r with user := r.user + 1 } else r' = r
  | .drop j => if j = i then Reply.release { r with user := r.user - 1 } = .ok r' else r' = r
  | .destroyContext j =>
      if j = i ∧ r.sub = true then Reply.release { r with sub := false } = .ok r' else r' = r
  | .loop => r' = if r.pending then { r with alive := false, pending := false, client := false, sub := false } else r
  | .destroyClient => r' = { r with alive := false, pending := false, client := false, sub := false }
  | .call _ => r' = r
  | .read _ => r' = r

/-- What one event adds to the callbacks of an existing reply. -/
def said (i : Nat) (r : Reply) : Ev → List Obs
  | .finish j d _ => if j = i ∧ r.alive = true ∧ r.sub = true then [.callback i d] else []
  | .fail j c => if j = i ∧ r.alive = true ∧ r.sub = true ∧ r.method = .qml then [.errorCallback i c] else []
  | .abort j => if j = i ∧ r.alive = true ∧ r.sub = true ∧ r.method = .qml then
      [.errorCallback i Status.Aborted] else []
  | _ => []

theorem callbacksOf_append (i : Nat) (a b : List Obs) :
    callbacksOf i (a ++ b) = callbacksOf i a ++ callbacksOf i b := by
  induction a with
  | nil => rfl
  | cons x a ih =>
    cases x <;> simp only [List.cons_append, callbacksOf, ih]
    all_goals split <;> rfl

theorem getElem?_put {w : World} {i j : Nat} {r q : Reply} (h : w.replies[i]? = some r) :
    (w.put j q).replies[i]? = if j = i then some q else some r := by
  have hi : i < w.replies.length := by
    rcases Nat.lt_or_ge i w.replies.length with h1 | h1
    · exact h1
    · rw [List.getElem?_eq_none h1] at h; cases h
  unfold World.put
  simp only [List.getElem?_set]
  by_cases hj : j = i
  · subst hj; simp [hi]
  · simp [hj, h]

theorem bind_ok {α β} {x : Res α} {f : α → Res β} {b : β} (h : (do let a ← x; f a) = Res.ok b) :
    ∃ a, x = .ok a ∧ f a = .ok b := by
  cases x with
  | ok a => exact ⟨a, rfl, h⟩
  | ub => cases h
  | throw e => cases h
  | fuel => cases h


theorem finished_ok {w w' : World} {j : Nat} {q : Reply} {d : Bytes} {k : Bool}
    (h : finished w j q d k = .ok w') :
    ∃ q', Reply.release { q with
          data := d, client := false,
          user := if q.sub = true ∧ q.method = .callback ∧ k = true then q.user + 1 else q.user } = .ok q' ∧
      w' = { w.put j q' with log := w.log ++ (if q.sub = true then [.callback j d] else []) } := by
  unfold finished at h
  by_cases hs : q.sub = true
  · simp only [hs, if_true] at h
    obtain ⟨q', hq, hw⟩ := bind_ok h
    refine ⟨q', ?_, ?_⟩
    · rw [← hq]
      by_cases hm : q.method = .callback ∧ k = true
      · simp [hs, hm]
      · simp [hs, hm]
    · cases hw; simp [hs]
  · simp only [hs] at h
    obtain ⟨q', hq, hw⟩ := bind_ok h
    refine ⟨q', ?_, ?_⟩
    · rw [← hq]; simp [hs]
    · cases hw; simp [hs, World.put]

theorem failed_ok {w w' : World} {j : Nat} {q : Reply} {c : StatusCode}
    (h : failed w j q c = .ok w') :
    ∃ q', Reply.release { q with data := [], client := false } = .ok q' ∧
      w' = { w.put j q' with log := w.log ++ (if q.client = true then [Obs.clientError c] else []) ++
        (if q.sub = true ∧ q.method = .qml then [Obs.errorCallback j c] else []) } := by
  unfold failed at h
  obtain ⟨q', hq, hw⟩ := bind_ok h
  exact ⟨q', hq, by cases hw; rfl⟩

/-- What one event does to an existing reply, and what it says about it. -/
theorem step_at {w w' : World} {e : Ev} {i : Nat} {r : Reply} (hs : step w e = .ok w')
    (hr : w.replies[i]? = some r) :
    ∃ r', w'.replies[i]? = some r' ∧ Next i r r' e ∧
      callbacksOf i w'.log = callbacksOf i w.log ++ said i r e := by
  have hi : i < w.replies.length := by
    rcases Nat.lt_or_ge i w.replies.length with h1 | h1
    · exact h1
    · rw [List.getElem?_eq_none h1] at hr; cases hr
  cases e with
  | call m =>
    simp only [step] at hs
    by_cases h1 : w.clientAlive = true
    · by_cases h2 : w.channel = true
      · simp only [h1, h2, if_true, not_true, if_false, Res.ok.injEq] at hs
        subst hs
        exact ⟨r, by simp [List.getElem?_append_left hi, hr], rfl, by simp [said]⟩
      · by_cases h3 : m = .qml
        · simp [h1, h2, h3] at hs
        · simp [h1, h2, h3] at hs
          subst hs
          exact ⟨r, hr, rfl, by simp [said, callbacksOf_append, callbacksOf]⟩
    · simp [h1] at hs
  | finish j d k =>
    simp only [step] at hs
    cases hj : w.replies[j]? with
    | none =>
      rw [hj] at hs; cases hs
      have : j ≠ i := by rintro rfl; rw [hr] at hj; cases hj
      exact ⟨r, hr, by simp [Next, this], by simp [said, this]⟩
    | some q =>
      rw [hj] at hs
      simp only at hs
      by_cases ha : q.alive = true
      · rw [if_pos ha] at hs
        obtain ⟨q', hq, hw⟩ := finished_ok hs
        subst hw
        by_cases hji : j = i
        · subst hji
          rw [hr] at hj; cases hj
          refine ⟨q', by simp [getElem?_put hr], by dsimp only [Next]; rw [if_pos ⟨rfl, ha⟩]; exact hq, ?_⟩
          simp only [callbacksOf_append, said, ha, true_and]
          by_cases hsub : r.sub = true <;> simp [hsub, callbacksOf]
        · refine ⟨r, by simp [getElem?_put hr, hji], by simp [Next, hji], ?_⟩
          simp only [callbacksOf_append, said, hji, false_and, if_false, List.append_nil]
          by_cases hsub : q.sub = true <;> simp [hsub, callbacksOf, hji]
      · rw [if_neg ha] at hs; cases hs
        have : ¬ (j = i ∧ r.alive = true) := by
          rintro ⟨rfl, h⟩; rw [hr] at hj; cases hj; exact ha h
        refine ⟨r, hr, by simp [Next, this], ?_⟩
        simp only [said]
        rw [if_neg fun h => this ⟨h.1, h.2.1⟩]; simp
  | fail j c =>
    simp only [step] at hs
    cases hj : w.replies[j]? with
    | none =>
      rw [hj] at hs; cases hs
      have : j ≠ i := by rintro rfl; rw [hr] at hj; cases hj
      exact ⟨r, hr, by simp [Next, this], by simp [said, this]⟩
    | some q =>
      rw [hj] at hs
      simp only at hs
      by_cases ha : q.alive = true
      · rw [if_pos ha] at hs
        obtain ⟨q', hq, hw⟩ := failed_ok hs
        subst hw
        by_cases hji : j = i
        · subst hji
          rw [hr] at hj; cases hj
          refine ⟨q', by simp [getElem?_put hr], by dsimp only [Next]; rw [if_pos ⟨rfl, ha⟩]; exact hq, ?_⟩
          simp only [callbacksOf_append, said, ha, true_and]
          by_cases hcl : r.client = true <;> by_cases hsub : r.sub = true ∧ r.method = .qml <;>
            simp [hsub, hcl, callbacksOf]
        · refine ⟨r, by simp [getElem?_put hr, hji], by simp [Next, hji], ?_⟩
          simp only [callbacksOf_append, said, hji, false_and, if_false, List.append_nil]
          by_cases hcl : q.client = true <;> by_cases hsub : q.sub = true ∧ q.method = .qml <;>
            simp [hsub, hcl, callbacksOf, hji]
      · rw [if_neg ha] at hs; cases hs
        have : ¬ (j = i ∧ r.alive = true) := by
          rintro ⟨rfl, h⟩; rw [hr] at hj; cases hj; exact ha h
        refine ⟨r, hr, by simp [Next, this], ?_⟩
        simp only [said]
        rw [if_neg fun h => this ⟨h.1, h.2.1⟩]; simp
  | abort j =>
    simp only [step] at hs
    cases hj : w.replies[j]? with
    | none =>
      rw [hj] at hs; cases hs
      have : j ≠ i := by rintro rfl; rw [hr] at hj; cases hj
      exact ⟨r, hr, by simp [Next, this], by simp [said, this]⟩
    | some q =>
      rw [hj] at hs
      simp only at hs
      by_cases ha : q.alive = true
      · rw [if_pos ha] at hs
        obtain ⟨q', hq, hw⟩ := failed_ok hs
        subst hw
        by_cases hji : j = i
        · subst hji
          rw [hr] at hj; cases hj
          refine ⟨q', by simp [getElem?_put hr], by dsimp only [Next]; rw [if_pos rfl]; exact ⟨ha, hq⟩, ?_⟩
          simp only [callbacksOf_append, said, ha, true_and]
          by_cases hcl : r.client = true <;> by_cases hsub : r.sub = true ∧ r.method = .qml <;>
            simp [hsub, hcl, callbacksOf]
        · refine ⟨r, by simp [getElem?_put hr, hji], by simp [Next, hji], ?_⟩
          simp only [callbacksOf_append, said, hji, false_and, if_false, List.append_nil]
          by_cases hcl : q.client = true <;> by_cases hsub : q.sub = true ∧ q.method = .qml <;>
            simp [hsub, hcl, callbacksOf, hji]
      · rw [if_neg ha] at hs; cases hs
  | copy j =>
    simp only [step] at hs
    cases hj : w.replies[j]? with
    | none =>
      rw [hj] at hs; cases hs
      have : j ≠ i := by rintro rfl; rw [hr] at hj; cases hj
      exact ⟨r, hr, by simp [Next, this], by simp [said]⟩
    | some q =>
      rw [hj] at hs; cases hs
      by_cases hji : j = i
      · subst hji
        rw [hr] at hj; cases hj
        exact ⟨_, by simp [getElem?_put hr]; rfl, by simp [Next], by simp [said, World.put]⟩
      · exact ⟨r, by simp [getElem?_put hr, hji], by simp [Next, hji], by simp [said, World.put]⟩
  | drop j =>
    simp only [step] at hs
    cases hj : w.replies[j]? with
    | none =>
      rw [hj] at hs; cases hs
      have : j ≠ i := by rintro rfl; rw [hr] at hj; cases hj
      exact ⟨r, hr, by simp [Next, this], by simp [said]⟩
    | some q =>
      rw [hj] at hs
      obtain ⟨q', hq, hw⟩ := bind_ok hs
      cases hw
      by_cases hji : j = i
      · subst hji
        rw [hr] at hj; cases hj
        exact ⟨q', by simp [getElem?_put hr], by simp only [Next, if_true]; exact hq, by simp [said, World.put]⟩
      · exact ⟨r, by simp [getElem?_put hr, hji], by simp [Next, hji], by simp [said, World.put]⟩
  | read j =>
    simp only [step] at hs
    have : w' = w := by
      cases hj : w.replies[j]? with
      | none => rw [hj] at hs; cases hs; rfl
      | some q =>
        rw [hj] at hs
        simp only at hs
        by_cases ha : q.alive = true
        · rw [if_pos ha] at hs; cases hs; rfl
        · rw [if_neg ha] at hs; cases hs
    subst this
    exact ⟨r, hr, rfl, by simp [said]⟩
  | destroyContext j =>
    simp only [step] at hs
    cases hj : w.replies[j]? with
    | none =>
      rw [hj] at hs; cases hs
      have : j ≠ i := by rintro rfl; rw [hr] at hj; cases hj
      exact ⟨r, hr, by simp [Next, this], by simp [said]⟩
    | some q =>
      rw [hj] at hs
      simp only at hs
      by_cases hsub : q.sub = true
      · rw [if_pos hsub] at hs
        obtain ⟨q', hq, hw⟩ := bind_ok hs
        cases hw
        by_cases hji : j = i
        · subst hji
          rw [hr] at hj; cases hj
          exact ⟨q', by simp [getElem?_put hr], by simp only [Next, hsub, and_self, if_true]; exact hq, by simp [said, World.put]⟩
        · exact ⟨r, by simp [getElem?_put hr, hji], by simp [Next, hji], by simp [said, World.put]⟩
      · rw [if_neg hsub] at hs; cases hs
        have : ¬ (j = i ∧ r.sub = true) := by
          rintro ⟨rfl, h⟩; rw [hr] at hj; cases hj; exact hsub h
        exact ⟨r, hr, by simp [Next, this], by simp [said]⟩
  | loop =>
    simp only [step, Res.ok.injEq] at hs
    subst hs
    exact ⟨_, by simp only [List.getElem?_map, hr]; rfl, rfl, by simp [said]⟩
  | destroyClient =>
    simp only [step] at hs
    by_cases h1 : w.clientAlive = true
    · rw [if_pos h1] at hs
      cases hs
      exact ⟨_, by simp only [List.getElem?_map, hr]; rfl, rfl, by simp [said]⟩
    · rw [if_neg h1] at hs; cases hs

/-- A reply that appears is the one of a call. -/
theorem step_new {w w' : World} {e : Ev} {i : Nat} {r : Reply} (hs : step w e = .ok w')
    (hn : w.replies[i]? = none) (hr : w'.replies[i]? = some r) :
    ∃ m, e = .call m ∧ w.channel = true ∧
      r = ⟨m, true, false, if m = .async then 1 else 0, true, m ≠ .async, []⟩ := by
  have hlen : ∀ {v : World}, v.replies.length = w.replies.length → v.replies[i]? = none := by
    intro v hv
    rw [List.getElem?_eq_none_iff] at hn ⊢
    omega
  have hput : ∀ j q, (w.put j q).replies[i]? = none := by
    intro j q; exact hlen (by simp [World.put])
  cases e with
  | call m =>
    simp only [step] at hs
    by_cases h1 : w.clientAlive = true
    · by_cases h2 : w.channel = true
      · simp only [h1, h2, if_true, not_true, if_false, Res.ok.injEq] at hs
        subst hs
        refine ⟨m, rfl, h2, ?_⟩
        rw [List.getElem?_eq_none_iff] at hn
        simp only [List.getElem?_append_right hn] at hr
        cases hk : i - w.replies.length with
        | zero => rw [hk] at hr; simpa using hr.symm
        | succ k => rw [hk] at hr; simp at hr
      · by_cases h3 : m = .qml
        · simp [h1, h2, h3] at hs
        · simp [h1, h2, h3] at hs
          subst hs
          rw [show World.replies { w with log := _ } = w.replies from rfl, hn] at hr
          cases hr
    · simp [h1] at hs
  | finish j d k =>
    simp only [step] at hs
    cases hj : w.replies[j]? with
    | none => rw [hj] at hs; cases hs; rw [hn] at hr; cases hr
    | some q =>
      rw [hj] at hs; simp only at hs
      by_cases ha : q.alive = true
      · rw [if_pos ha] at hs
        obtain ⟨q', hq, hw⟩ := finished_ok hs
        subst hw
        rw [show World.replies { w.put j q' with log := _ } = (w.put j q').replies from rfl, hput] at hr
        cases hr
      · rw [if_neg ha] at hs; cases hs; rw [hn] at hr; cases hr
  | fail j c =>
    simp only [step] at hs
    cases hj : w.replies[j]? with
    | none => rw [hj] at hs; cases hs; rw [hn] at hr; cases hr
    | some q =>
      rw [hj] at hs; simp only at hs
      by_cases ha : q.alive = true
      · rw [if_pos ha] at hs
        obtain ⟨q', hq, hw⟩ := failed_ok hs
        subst hw
        rw [show World.replies { w.put j q' with log := _ } = (w.put j q').replies from rfl, hput] at hr
        cases hr
      · rw [if_neg ha] at hs; cases hs; rw [hn] at hr; cases hr
  | abort j =>
    simp only [step] at hs
    cases hj : w.replies[j]? with
    | none => rw [hj] at hs; cases hs; rw [hn] at hr; cases hr
    | some q =>
      rw [hj] at hs; simp only at hs
      by_cases ha : q.alive = true
      · rw [if_pos ha] at hs
        obtain ⟨q', hq, hw⟩ := failed_ok hs
        subst hw
        rw [show World.replies { w.put j q' with log := _ } = (w.put j q').replies from rfl, hput] at hr
        cases hr
      · rw [if_neg ha] at hs; cases hs
  | copy j =>
    simp only [step] at hs
    cases hj : w.replies[j]? with
    | none => rw [hj] at hs; cases hs; rw [hn] at hr; cases hr
    | some q => rw [hj] at hs; cases hs; rw [hput] at hr; cases hr
  | drop j =>
    simp only [step] at hs
    cases hj : w.replies[j]? with
    | none => rw [hj] at hs; cases hs; rw [hn] at hr; cases hr
    | some q =>
      rw [hj] at hs
      obtain ⟨q', hq, hw⟩ := bind_ok hs
      cases hw; rw [hput] at hr; cases hr
  | read j =>
    simp only [step] at hs
    cases hj : w.replies[j]? with
    | none => rw [hj] at hs; cases hs; rw [hn] at hr; cases hr
    | some q =>
      rw [hj] at hs; simp only at hs
      by_cases ha : q.alive = true
      · rw [if_pos ha] at hs; cases hs; rw [hn] at hr; cases hr
      · rw [if_neg ha] at hs; cases hs
  | destroyContext j =>
    simp only [step] at hs
    cases hj : w.replies[j]? with
    | none => rw [hj] at hs; cases hs; rw [hn] at hr; cases hr
    | some q =>
      rw [hj] at hs; simp only at hs
      by_cases hsub : q.sub = true
      · rw [if_pos hsub] at hs
        obtain ⟨q', hq, hw⟩ := bind_ok hs
        cases hw; rw [hput] at hr; cases hr
      · rw [if_neg hsub] at hs; cases hs; rw [hn] at hr; cases hr
  | loop =>
    simp only [step, Res.ok.injEq] at hs
    subst hs
    simp only [List.getElem?_map, hn] at hr; cases hr
  | destroyClient =>
    simp only [step] at hs
    by_cases h1 : w.clientAlive = true
    · rw [if_pos h1] at hs; cases hs
      simp only [List.getElem?_map, hn] at hr; cases hr
    · rw [if_neg h1] at hs; cases hs

/-- The result of dropping a pointer. -/
theorem release_ok {r r' : Reply} (h : r.release = .ok r') :
    (r.refs = 0 ∧ r.alive = true ∧ r' = { r with pending := true }) ∨ (r.refs ≠ 0 ∧ r' = r) := by
  unfold Reply.release at h
  by_cases h0 : r.refs = 0
  · rw [if_pos h0] at h
    by_cases ha : r.alive = true
    · rw [if_pos ha] at h; cases h; exact .inl ⟨h0, ha, rfl⟩
    · rw [if_neg ha] at h; cases h
  · rw [if_neg h0] at h; cases h; exact .inr ⟨h0, rfl⟩

/-- Fields that dropping a pointer does not change. -/
theorem release_fields {r r' : Reply} (h : r.release = .ok r') :
    r'.method = r.method ∧ r'.alive = r.alive ∧ r'.user = r.user ∧ r'.client = r.client ∧ r'.sub = r.sub ∧
      r'.data = r.data ∧ (r'.refs = 0 → r'.pending = true) ∧
      (r'.pending = true → r'.refs = 0 ∨ r.pending = true) := by
  rcases release_ok h with ⟨h0, _, rfl⟩ | ⟨h0, rfl⟩
  · exact ⟨rfl, rfl, rfl, rfl, rfl, rfl, fun _ => rfl, fun _ => .inl h0⟩
  · exact ⟨rfl, rfl, rfl, rfl, rfl, rfl, fun h => absurd h h0, fun h => .inr h⟩


theorem release_alive {r : Reply} (h : r.alive = true) : ∃ r', r.release = .ok r' := by
  unfold Reply.release
  by_cases h0 : r.refs = 0
  · rw [if_pos h0, if_pos h]; exact ⟨_, rfl⟩
  · rw [if_neg h0]; exact ⟨_, rfl⟩

theorem refs_zero {r : Reply} : r.refs = 0 ↔ r.user = 0 ∧ r.client = false ∧ r.sub = false := by
  unfold Reply.refs
  cases r.client <;> cases r.sub <;> simp <;> omega

/-- Deferred deletion and shared pointers of a reply. -/
structure Good (r : Reply) : Prop where
  dead : r.alive = false → r.refs = 0
  pend : r.pending = true → r.refs = 0
  free : r.alive = true → r.refs = 0 → r.pending = true

theorem good_release {r r' : Reply} (h : r.release = .ok r') (ha : r.alive = true)
    (hp : r.pending = true → r.refs = 0) : Good r' := by
  rcases release_ok h with ⟨h0, _, rfl⟩ | ⟨h0, rfl⟩
  · exact ⟨fun h => (by rw [show Reply.alive { r with pending := true } = r.alive from rfl, ha] at h; cases h),
      fun _ => h0, fun _ _ => rfl⟩
  · exact ⟨fun h => (by rw [ha] at h; cases h), hp, fun _ h => absurd h h0⟩

theorem good_new (m : Method) : Good ⟨m, true, false, if m = .async then 1 else 0, true, m ≠ .async, []⟩ := by
  refine ⟨(nomatch ·), (nomatch ·), fun _ h => ?_⟩
  rw [refs_zero] at h
  exact absurd h.2.1 (by simp)

/-- The conditions on one event are enough to keep replies good. -/
theorem good_step {w w' : World} {e : Ev} (hs : step w e = .ok w') (hc : CanDo w e) (hl : ClientLast w e)
    (hg : ∀ i r, isReply w i r → Good r) : ∀ i r, isReply w' i r → Good r := by
  intro i r' hr'
  cases hr : w.replies[i]? with
  | none =>
    obtain ⟨m, _, _, rfl⟩ := step_new hs hr hr'
    exact good_new m
  | some r =>
    obtain ⟨r1, h1, hn, _⟩ := step_at hs hr
    rw [show w'.replies[i]? = some r' from hr'] at h1
    cases h1
    have g := hg i r hr
    cases e with
    | call m => rw [show r' = r from hn]; exact g
    | read j => rw [show r' = r from hn]; exact g
    | finish j d k =>
      dsimp only [Next] at hn
      by_cases h : j = i ∧ r.alive = true
      · rw [if_pos h] at hn
        refine good_release hn h.2 fun hp => ?_
        have h0 := refs_zero.1 (g.pend hp)
        rw [refs_zero]
        simp [h0.1, h0.2.2]
      · rw [if_neg h] at hn; subst hn; exact g
    | fail j c =>
      dsimp only [Next] at hn
      by_cases h : j = i ∧ r.alive = true
      · rw [if_pos h] at hn
        refine good_release hn h.2 fun hp => ?_
        have h0 := refs_zero.1 (g.pend hp)
        rw [refs_zero]
        simp [h0.1, h0.2.2]
      · rw [if_neg h] at hn; subst hn; exact g
    | abort j =>
      dsimp only [Next] at hn
      by_cases h : j = i
      · rw [if_pos h] at hn
        refine good_release hn.2 hn.1 fun hp => ?_
        have h0 := refs_zero.1 (g.pend hp)
        rw [refs_zero]
        simp [h0.1, h0.2.2]
      · rw [if_neg h] at hn; subst hn; exact g
    | copy j =>
      dsimp only [Next] at hn
      by_cases h : j = i
      · rw [if_pos h] at hn; subst hn
        subst h
        obtain ⟨q, hq, hpos⟩ := hc
        rw [show w.replies[j]? = some q from hq] at hr; cases hr
        have hne : r.refs ≠ 0 := fun h0 => by have := (refs_zero.1 h0).1; omega
        refine ⟨fun ha => absurd (g.dead ha) hne, fun hp => absurd (g.pend hp) hne, fun _ h0 => ?_⟩
        have := (refs_zero.1 h0).1
        exact absurd this (by simp)
      · rw [if_neg h] at hn; subst hn; exact g
    | drop j =>
      dsimp only [Next] at hn
      by_cases h : j = i
      · rw [if_pos h] at hn
        subst h
        obtain ⟨q, hq, hpos⟩ := hc
        rw [show w.replies[j]? = some q from hq] at hr; cases hr
        have hne : r.refs ≠ 0 := fun h0 => by have := (refs_zero.1 h0).1; omega
        have ha : r.alive = true := by
          cases ha : r.alive with
          | true => rfl
          | false => exact absurd (g.dead ha) hne
        exact good_release hn ha fun hp => absurd (g.pend hp) hne
      · rw [if_neg h] at hn; subst hn; exact g
    | destroyContext j =>
      dsimp only [Next] at hn
      by_cases h : j = i ∧ r.sub = true
      · rw [if_pos h] at hn
        have hne : r.refs ≠ 0 := fun h0 => by have := (refs_zero.1 h0).2.2; rw [h.2] at this; cases this
        have ha : r.alive = true := by
          cases ha : r.alive with
          | true => rfl
          | false => exact absurd (g.dead ha) hne
        exact good_release hn ha fun hp => absurd (g.pend hp) hne
      · rw [if_neg h] at hn; subst hn; exact g
    | loop =>
      dsimp only [Next] at hn
      by_cases hp : r.pending = true
      · rw [if_pos hp] at hn; subst hn
        have h0 := refs_zero.1 (g.pend hp)
        exact ⟨fun _ => by rw [refs_zero]; simp [h0.1], (nomatch ·), (nomatch ·)⟩
      · rw [if_neg hp] at hn; subst hn; exact g
    | destroyClient =>
      dsimp only [Next] at hn
      subst hn
      have h0 := hl rfl i r hr
      exact ⟨fun _ => by rw [refs_zero]; simp [h0], (nomatch ·), (nomatch ·)⟩

/-- With these conditions an event has a defined outcome. -/
theorem good_progress {w : World} {e : Ev} (hc : CanDo w e) (hq : QmlNeedsChannel w e)
    (hg : ∀ i r, isReply w i r → Good r) : ∃ w', step w e = .ok w' := by
  have held : ∀ {i r}, isReply w i r → 0 < r.user → r.alive = true := by
    intro i r hr hp
    cases ha : r.alive with
    | true => rfl
    | false =>
      have := (refs_zero.1 ((hg i r hr).dead ha)).1
      omega
  have fin : ∀ i r d k, r.alive = true → ∃ w', finished w i r d k = .ok w' := by
    intro i r d k ha
    unfold finished
    by_cases hsub : r.sub = true
    · simp only [hsub, if_true]
      by_cases hm : r.method = .callback ∧ k = true
      · obtain ⟨q, hq⟩ := release_alive (r := { r with data := d, client := false, user := r.user + 1 }) ha
        simp only [hsub] at hq
        rw [if_pos hm, hq]; exact ⟨_, rfl⟩
      · obtain ⟨q, hq⟩ := release_alive (r := { r with data := d, client := false }) ha
        simp only [hsub] at hq
        rw [if_neg hm, hq]; exact ⟨_, rfl⟩
    · obtain ⟨q, hq⟩ := release_alive (r := { r with data := d, client := false }) ha
      simp only [hsub]
      simp only [hsub] at hq
      rw [hq]; exact ⟨_, rfl⟩
  have flr : ∀ i r c, r.alive = true → ∃ w', failed w i r c = .ok w' := by
    intro i r c ha
    unfold failed
    obtain ⟨q, hq⟩ := release_alive (r := { r with data := [], client := false }) ha
    rw [hq]; exact ⟨_, rfl⟩
  cases e with
  | call m =>
    have hca : w.clientAlive = true := hc
    simp only [step]
    by_cases h2 : w.channel = true
    · simp [hca, h2]
    · have : m ≠ .qml := by rintro rfl; exact h2 (hq rfl)
      simp [hca, h2, this]
  | finish i d k =>
    simp only [step]
    cases hr : w.replies[i]? with
    | none => exact ⟨_, rfl⟩
    | some r =>
      by_cases ha : r.alive = true
      · simp only [ha, if_true]; exact fin i r d k ha
      · simp only [ha]; exact ⟨_, rfl⟩
  | fail i c =>
    simp only [step]
    cases hr : w.replies[i]? with
    | none => exact ⟨_, rfl⟩
    | some r =>
      by_cases ha : r.alive = true
      · simp only [ha, if_true]; exact flr i r c ha
      · simp only [ha]; exact ⟨_, rfl⟩
  | abort i =>
    obtain ⟨r, hr, hp⟩ := hc
    have ha := held hr hp
    simp only [step, show w.replies[i]? = some r from hr, ha, if_true]
    exact flr i r _ ha
  | read i =>
    obtain ⟨r, hr, hp⟩ := hc
    have ha := held hr hp
    simp only [step, show w.replies[i]? = some r from hr, ha, if_true]
    exact ⟨_, rfl⟩
  | copy i =>
    obtain ⟨r, hr, hp⟩ := hc
    simp only [step, show w.replies[i]? = some r from hr]
    exact ⟨_, rfl⟩
  | drop i =>
    obtain ⟨r, hr, hp⟩ := hc
    have ha := held hr hp
    simp only [step, show w.replies[i]? = some r from hr]
    obtain ⟨q, hq⟩ := release_alive (r := { r with user := r.user - 1 }) ha
    rw [hq]; exact ⟨_, rfl⟩
  | destroyContext i =>
    simp only [step]
    cases hr : w.replies[i]? with
    | none => exact ⟨_, rfl⟩
    | some r =>
      by_cases hsub : r.sub = true
      · have ha : r.alive = true := by
          cases ha : r.alive with
          | true => rfl
          | false =>
            have := (refs_zero.1 ((hg i r hr).dead ha)).2.2
            rw [hsub] at this; cases this
        obtain ⟨q, hq⟩ := release_alive (r := { r with sub := false }) ha
        simp only [hsub, if_true]
        rw [hq]; exact ⟨_, rfl⟩
      · simp only [hsub]; exact ⟨_, rfl⟩
  | loop => exact ⟨_, rfl⟩
  | destroyClient =>
    have hca : w.clientAlive = true := hc
    simp [step, hca]

theorem run_cons {w w' : World} {e : Ev} {es : List Ev} (h : run w (e :: es) = .ok w') :
    ∃ v, step w e = .ok v ∧ run v es = .ok w' := bind_ok h

theorem run_append (w : World) (a b : List Ev) :
    run w (a ++ b) = (do let v ← run w a; run v b) := by
  induction a generalizing w with
  | nil => rfl
  | cons e a ih =>
    show (do let v ← step w e; run v (a ++ b)) = (do let v ← (do let v ← step w e; run v a); run v b)
    cases step w e with
    | ok v => exact ih v
    | ub => rfl
    | throw x => rfl
    | fuel => rfl

/-- A property of each reply kept by every event holds after every history. -/
theorem run_inv (P : Reply → Prop)
    (hnew : ∀ m : Method, P ⟨m, true, false, if m = .async then 1 else 0, true, m ≠ .async, []⟩)
    (hstep : ∀ i r r' e, Next i r r' e → P r → P r') :
    ∀ es (w w' : World), (∀ i r, isReply w i r → P r) → run w es = .ok w' → ∀ i r, isReply w' i r → P r := by
  intro es
  induction es with
  | nil => intro w w' hw h; cases h; exact hw
  | cons e es ih =>
    intro w w' hw h
    obtain ⟨v, hv, hrest⟩ := run_cons h
    refine ih v w' ?_ hrest
    intro i r' hr'
    cases hr : w.replies[i]? with
    | none =>
      obtain ⟨m, _, _, rfl⟩ := step_new hv hr hr'
      exact hnew m
    | some r =>
      obtain ⟨r1, h1, hn, _⟩ := step_at hv hr
      rw [show v.replies[i]? = some r' from hr'] at h1
      cases h1
      exact hstep i r r' e hn (hw i r hr)

end QtPb.Replies
