import Verif.StreamBytesInv
/-
What the handlers of overlapping streams hear.
-/
namespace QtPb.StreamBytes
open Http2 Stream Stream.Spec Spec

/-- Messages are passed on after the attempt was started, and an attempt belongs to one stream. -/
structure Ordered (c : Client) (t : List Obs) : Prop where
  after : ∀ pre a d post, t = pre ++ .recv a d :: post → ∃ s k, Obs.started a s k ∈ pre
  one : ∀ a s k, Obs.started a s k ∈ t → a < c.nAttempts ∧ (c.attempts a).stream = s ∧ (c.attempts a).kind = k

theorem Ordered.append {c c' : Client} {t o : List Obs} (hr : Rel c t) (h : Ordered c t) (more : c.nAttempts ≤ c'.nAttempts)
    (kind : ∀ a, a < c.nAttempts → (c'.attempts a).kind = (c.attempts a).kind) (stream : ∀ a, a < c.nAttempts → (c'.attempts a).stream = (c.attempts a).stream)
    (recv : ∀ a d, Obs.recv a d ∈ o → a < c.nAttempts)
    (started : ∀ a s k, Obs.started a s k ∈ o → a < c'.nAttempts ∧ (c'.attempts a).stream = s ∧ (c'.attempts a).kind = k) : Ordered c' (t ++ o) := by
  refine ⟨fun pre a d post e => ?_, fun a s k hm => ?_⟩
  · rcases List.append_eq_append_iff.1 e with ⟨l, e2, e3⟩ | ⟨l, e2, e3⟩
    · have := started_of hr (recv a d (by rw [e3]; simp))
      exact ⟨_, _, by rw [e2]; exact List.mem_append_left _ this⟩
    · cases l with
      | nil =>
        rw [List.append_nil] at e2
        have := started_of hr (recv a d (by rw [List.nil_append] at e3; rw [← e3]; simp))
        exact ⟨_, _, e2 ▸ this⟩
      | cons x l =>
        cases e3
        exact h.after pre a d l e2
  · rcases List.mem_append.1 hm with hm | hm
    · obtain ⟨h1, h2, h3⟩ := h.one a s k hm
      exact ⟨Nat.lt_of_lt_of_le h1 more, (stream a h1).trans h2, (kind a h1).trans h3⟩
    · exact started a s k hm

/-- What is known of an attempt when it passes on a message is what is known at the end. -/
theorem Ordered.owner {c : Client} {t : List Obs} (hr : Rel c t) (h : Ordered c t) {pre post : List Obs} {a : Nat} {d : Bytes} (e : t = pre ++ .recv a d :: post) :
    (view pre).owner a = (view t).owner a := by
  obtain ⟨s, k, hm⟩ := h.after pre a d post e
  have h1 := owner_of_started hm
  obtain ⟨p, hp⟩ := Option.ne_none_iff_exists'.1 h1
  have : Obs.started a p.1 p.2 ∈ pre := by
    rcases owner_started pre View.new a p.1 p.2 hp with h | h
    · cases h
    · exact h
  obtain ⟨k1, k2, k3⟩ := h.one a _ _ (by rw [e]; exact List.mem_append_left _ this)
  rw [hp, (hr.owner a k1).1, k2, k3]

def heardIn (h : Nat) (cs : List (Nat × Nat × Bytes)) : List Bytes := cs.filterMap fun x => if x.2.1 = h then some x.2.2 else none

theorem heard_calls (h : Nat) : ∀ t : List Obs, heard h t = heardIn h (calls t)
  | [] => rfl
  | o :: t => by
    have ih := heard_calls h t
    cases o with
    | handled s g d =>
      simp only [heard, heardIn, calls, List.filterMap_cons] at ih ⊢
      rw [ih]
    | _ => exact ih

theorem heardIn_due (h : Nat) (d : Bytes) (s : Nat) : ∀ l : List Nat, heardIn h (l.map fun g => (s, g, d)) = (l.filter (· = h)).map fun _ => d
  | [] => rfl
  | g :: l => by
    have ih := heardIn_due h d s l
    simp only [heardIn, List.map_cons, List.filterMap_cons, List.filter_cons] at ih ⊢
    by_cases hg : g = h
    · simp [hg, ih]
    · simp [hg, ih]

theorem heard_due (h : Nat) (P : Nat → Prop) [DecidablePred P] (own : Nat → Option (Nat × Kind)) : ∀ (l : List Obs) (v : View),
    (∀ x, (v.subscribers x).filter (· = h) = if P x then [h] else []) → (∀ m arg s, Obs.subscribed m arg (some h) s ∉ l) →
    (∀ q a d r, l = q ++ .recv a d :: r → (q.foldl View.see v).owner a = own a) →
    heardIn h (dueCalls v l) = l.filterMap fun | .recv a d => (own a).bind fun p => if P p.1 then some d else none | _ => none
  | [], v, _, _, _ => rfl
  | o :: l, v, hv, hs, ho => by
    have hs' : ∀ m arg s, Obs.subscribed m arg (some h) s ∉ l := fun m arg s hm => hs m arg s (List.mem_cons_of_mem _ hm)
    have ho' : ∀ q a d r, l = q ++ .recv a d :: r → (q.foldl View.see (v.see o)).owner a = own a := fun q a d r e => ho (o :: q) a d r (by rw [e]; rfl)
    have hv' : ∀ x, ((v.see o).subscribers x).filter (· = h) = if P x then [h] else [] := by
      intro x
      cases o with
      | subscribed m arg y s =>
        cases y with
        | none => exact hv x
        | some g =>
          have hg : g ≠ h := fun e => hs m arg s (by rw [e]; exact List.mem_cons_self)
          simp only [View.see]
          split
          · rw [List.filter_append, hv x]
            simp [hg]
          · exact hv x
      | _ => exact hv x
    have ih := heard_due h P own l (v.see o) hv' hs' ho'
    cases o with
    | recv a d =>
      have hown := ho [] a d l rfl
      simp only [List.foldl_nil] at hown
      have hsame : v.see (.recv a d) = v := rfl
      rw [hsame] at ih
      simp only [dueCalls, List.filterMap_cons]
      have happ : ∀ x y, heardIn h (x ++ y) = heardIn h x ++ heardIn h y := by intro x y; simp [heardIn]
      rw [happ, ih]
      unfold View.due
      rw [hown]
      cases own a with
      | none => rfl
      | some p =>
        dsimp only [Option.bind]
        rw [heardIn_due, hv]
        split <;> rfl
    | _ => exact ih

/-- Who subscribes once to a stream hears exactly the messages that are passed on for this stream from then on, in order. -/
theorem heard_eq {c : Client} {t : List Obs} (hr : Rel c t) (ho : Ordered c t) {pre post : List Obs} {m : String} {arg : Bytes} {h s : Nat}
    (e : t = pre ++ .subscribed m arg (some h) s :: post) (h1 : ∀ m' arg' s', Obs.subscribed m' arg' (some h) s' ∉ pre)
    (h2 : ∀ m' arg' s', Obs.subscribed m' arg' (some h) s' ∉ post) : heard h t = passedTo s t post := by
  have happ : ∀ x y, heardIn h (x ++ y) = heardIn h x ++ heardIn h y := by intro x y; simp [heardIn]
  have hsub : ∀ (l : List Obs) (v : View) (x : Nat), h ∉ v.subscribers x → (∀ m' arg' s', Obs.subscribed m' arg' (some h) s' ∉ l) → h ∉ (l.foldl View.see v).subscribers x := by
    intro l
    induction l with
    | nil => exact fun _ _ h _ => h
    | cons o l ih =>
      intro v x hv hl
      refine ih _ x ?_ fun m' arg' s' hm => hl m' arg' s' (List.mem_cons_of_mem _ hm)
      cases o with
      | subscribed m arg y s =>
        cases y with
        | none => exact hv
        | some g =>
          have hg : h ≠ g := fun e => hl m arg s (by rw [e]; exact List.mem_cons_self)
          simp only [View.see]
          split
          · simp [hv, hg]
          · exact hv
      | _ => exact hv
  have hfil : ∀ l : List Nat, h ∉ l → l.filter (· = h) = [] := by
    intro l hl
    rw [List.filter_eq_nil_iff]
    intro a ha
    simp only [decide_eq_true_eq]
    exact fun e => hl (e ▸ ha)
  rw [heard_calls, hr.callsDue, e, dueCalls_append, happ]
  have hpre := heard_due h (fun _ => False) (fun a => (view t).owner a) pre View.new (by intro x; simp [View.new]) h1 (by
    intro q a d r e'
    exact ho.owner hr (pre := q) (post := r ++ .subscribed m arg (some h) s :: post) (d := d) (by rw [e, e']; simp))
  rw [hpre]
  have hnil : (pre.filterMap fun | .recv a d => ((view t).owner a).bind fun p => if False then some d else none | _ => none) = ([] : List Bytes) := by
    rw [List.filterMap_eq_nil_iff]
    intro o _
    cases o with
    | recv a d => cases (view t).owner a <;> simp
    | _ => rfl
  rw [hnil, List.nil_append]
  have hpost := heard_due h (fun x => x = s) (fun a => (view t).owner a) post ((view pre).see (.subscribed m arg (some h) s)) (by
    intro x
    have : h ∉ (view pre).subscribers x := hsub pre View.new x (by simp [View.new]) h1
    simp only [View.see]
    split
    · rename_i hx
      rw [List.filter_append, hfil _ this]
      simp
    · rename_i hx
      rw [hfil _ this]) h2 (by
    intro q a d r e'
    have hvq : q.foldl View.see ((view pre).see (.subscribed m arg (some h) s)) = view (pre ++ .subscribed m arg (some h) s :: q) := by
      rw [view_append]; rfl
    rw [hvq]
    exact ho.owner hr (post := r) (d := d) (by rw [e, e']; simp))
  have hd : dueCalls (pre.foldl View.see View.new) (.subscribed m arg (some h) s :: post) = dueCalls ((view pre).see (.subscribed m arg (some h) s)) post := rfl
  rw [hd, hpost, e.symm]
  unfold passedTo
  congr 1
  funext o
  cases o with
  | recv a d =>
    dsimp only
    cases (view t).owner a with
    | none => simp
    | some p => simp
  | _ => rfl

end QtPb.StreamBytes
