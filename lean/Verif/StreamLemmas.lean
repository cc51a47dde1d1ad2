import Verif.SpecStream
/-
Invariant of the stream model: it ties the state of the client to what was observed.
-/
namespace QtPb.Stream
open Spec

@[simp] theorem update_self {α : Type} (f : Nat → α) (i : Nat) (v : α) : update f i v i = v := by simp [update]
theorem update_ne {α : Type} {f : Nat → α} {i j : Nat} {v : α} (h : j ≠ i) : update f i v j = f j := by
  simp [update, h]
theorem update_apply {α : Type} (f : Nat → α) (i j : Nat) (v : α) :
    update f i v j = if j = i then v else f j := rfl

theorem view_append (t u : List Obs) : view (t ++ u) = u.foldl View.see (view t) := by
  simp [view, List.foldl_append]

theorem dueCalls_append (v : View) (t u : List Obs) :
    dueCalls v (t ++ u) = dueCalls v t ++ dueCalls (t.foldl View.see v) u := by
  induction t generalizing v with
  | nil => simp [dueCalls]
  | cons o t ih =>
    cases o <;> simp [dueCalls, ih, View.see, List.append_assoc]

theorem calls_append (t u : List Obs) : calls (t ++ u) = calls t ++ calls u := by
  induction t with
  | nil => simp [calls]
  | cons o t ih => cases o <;> simp [calls, ih]

theorem arrived_append (a : Nat) (t u : List Obs) : arrived a (t ++ u) = arrived a t ++ arrived a u := by
  simp [arrived]

theorem passedOn_append (a : Nat) (t u : List Obs) : passedOn a (t ++ u) = passedOn a t ++ passedOn a u := by
  simp [passedOn]

/-- The messages among the posted signals. -/
def Item.datas (q : List Item) : List Bytes :=
  q.filterMap fun i => match i with | .data d => some d | _ => none

structure Rel (c : Client) (t : List Obs) : Prop where
  activeNodup : c.active.Nodup
  activeIff : ∀ s, s ∈ c.active ↔ (c.streams s).connected = true
  distinct : ∀ s s', s ∈ c.active → s' ∈ c.active → c.same s s' = true → s = s'
  fresh : ∀ s, c.nStreams ≤ s → (c.streams s).connected = false ∧ (c.streams s).held = 0 ∧ s ∉ c.timers ∧
    ((view t).subscribers s = [] ∧ (view t).gone s = false) ∧ Obs.finished s ∉ t ∧ (∀ m a h, Obs.subscribed m a h s ∉ t)
  freshAttempt : ∀ a, c.nAttempts ≤ a → (c.attempts a).connected = false ∧ (c.attempts a).queue = [] ∧
    (view t).owner a = none ∧ (view t).over a = false ∧ arrived a t = []
  owner : ∀ a, a < c.nAttempts → (view t).owner a = some ((c.attempts a).stream, (c.attempts a).kind) ∧
    (c.attempts a).stream < c.nStreams ∧ (view t).over a = !(c.attempts a).connected
  subscribers : ∀ s, s < c.nStreams → (view t).subscribers s = (c.streams s).handlers
  gone : ∀ s, s < c.nStreams → (view t).gone s = (c.streams s).deleted
  single : ∀ a b, (c.attempts a).connected = true → (c.attempts b).connected = true →
    (c.attempts a).stream = (c.attempts b).stream → a = b
  noTimer : ∀ a, (c.attempts a).connected = true → (c.attempts a).stream ∉ c.timers
  timersNodup : c.timers.Nodup
  finished : ∀ s, s < c.nStreams → ((c.streams s).connected = true ↔ Obs.finished s ∉ t)
  subscribed : ∀ s, s < c.nStreams → ∃ h, Obs.subscribed (c.streams s).method (c.streams s).arg h s ∈ t
  key : ∀ m a h s, Obs.subscribed m a h s ∈ t → (c.streams s).method = m ∧ (c.streams s).arg = a
  deleted : ∀ s, s < c.nStreams → (c.streams s).deleted = true → c.alive s = false
  channel : c.channel = none → c.nStreams = 0
  queueHttp2 : ∀ a, (c.attempts a).kind = .http2 → (c.attempts a).queue = [] ∧ passedOn a t = arrived a t
  queuePrefix : ∀ a, passedOn a t <+: arrived a t
  queueNative : ∀ a, (c.streams (c.attempts a).stream).deleted = false →
    arrived a t = passedOn a t ++ Item.datas (c.attempts a).queue
  callsDue : calls t = dueCalls View.new t

theorem Rel.new (th : Nat) : Rel (Client.new th) [] := by
  constructor <;> simp [Client.new, view, View.new, arrived, passedOn, calls, dueCalls, Item.datas]

/-- Observations that concern nothing the invariant speaks of. -/
def quiet : Obs → Bool
  | .failed .. | .clientFailed _ | .threw | .refused | .notified _ => true
  | _ => false

/-- Observations that leave the view alone, and changes of the queues. -/
theorem Rel.extend {c : Client} {t : List Obs} (h : Rel c t) (o : List Obs) (q : Nat → List Item)
    (hv : o.foldl View.see (view t) = view t)
    (hf : ∀ s, Obs.finished s ∉ o) (hsub : ∀ m a hh s, Obs.subscribed m a hh s ∉ o)
    (hfr : ∀ a, c.nAttempts ≤ a → q a = [] ∧ arrived a o = [])
    (hh : ∀ a, (c.attempts a).kind = .http2 → q a = [] ∧ passedOn a o = arrived a o)
    (hp : ∀ a, passedOn a (t ++ o) <+: arrived a (t ++ o))
    (hn : ∀ a, (c.streams (c.attempts a).stream).deleted = false →
      arrived a (t ++ o) = passedOn a (t ++ o) ++ Item.datas (q a))
    (hc : calls o = dueCalls (view t) o) :
    Rel { c with attempts := fun a => { c.attempts a with queue := q a } } (t ++ o) := by
  have hv' : view (t ++ o) = view t := by rw [view_append, hv]
  have hf' : ∀ s, Obs.finished s ∈ t ++ o ↔ Obs.finished s ∈ t := by intro s; simp [hf s]
  have hs' : ∀ m a x s, Obs.subscribed m a x s ∈ t ++ o ↔ Obs.subscribed m a x s ∈ t := by
    intro m a x s; simp [hsub]
  have hc' : calls (t ++ o) = dueCalls View.new (t ++ o) := by
    rw [calls_append, dueCalls_append, h.callsDue, hc]; rfl
  have hh' : ∀ a, (c.attempts a).kind = .http2 → q a = [] ∧ passedOn a (t ++ o) = arrived a (t ++ o) := by
    intro a hk
    rw [passedOn_append, arrived_append, (hh a hk).2, (h.queueHttp2 a hk).2]
    exact ⟨(hh a hk).1, rfl⟩
  have hfr' : ∀ a, c.nAttempts ≤ a → (c.attempts a).connected = false ∧ q a = [] ∧
    (view t).owner a = none ∧ (view t).over a = false ∧ arrived a (t ++ o) = [] := by
    intro a ha
    obtain ⟨x1, _, x3, x4, x5⟩ := h.freshAttempt a ha
    rw [arrived_append, x5, (hfr a ha).2]
    exact ⟨x1, (hfr a ha).1, x3, x4, rfl⟩
  obtain ⟨h1,h2,h3,h4,h5,h6,h7,h8,h9,h10,h11,h12,h13,h14,h15,h16,h17,h18,h19,h20⟩ := h
  constructor <;> (try simp only [hv', hf', hs']) <;> assumption

theorem Rel.quiet {c : Client} {t : List Obs} (h : Rel c t) (o : Obs) (ho : quiet o = true) : Rel c (t ++ [o]) := by
  have ha : ∀ a, arrived a [o] = [] := by intro a; cases o <;> simp_all [Stream.quiet, arrived]
  have hp : ∀ a, passedOn a [o] = [] := by intro a; cases o <;> simp_all [Stream.quiet, passedOn]
  refine h.extend [o] (fun a => (c.attempts a).queue) ?_ ?_ ?_ ?_ ?_ ?_ ?_ ?_
  · cases o <;> simp_all [Stream.quiet, View.see]
  · intro s; cases o <;> simp_all [Stream.quiet]
  · intro m a x s; cases o <;> simp_all [Stream.quiet]
  · intro a h'; exact ⟨(h.freshAttempt a h').2.1, ha a⟩
  · intro a h'; exact ⟨(h.queueHttp2 a h').1, by rw [ha, hp]⟩
  · intro a; rw [arrived_append, passedOn_append, ha, hp]; simpa using h.queuePrefix a
  · intro a h'; rw [arrived_append, passedOn_append, ha, hp]; simpa using h.queueNative a h'
  · cases o <;> simp_all [Stream.quiet, calls, dueCalls]

/-- The invariant does not depend on the last message stored in a stream. -/
theorem Rel.setData {c : Client} {t : List Obs} (h : Rel c t) (s : Nat) (d : Bytes) :
    Rel { c with streams := update c.streams s { c.streams s with data := d } } t := by
  have hm : ∀ x, (update c.streams s { c.streams s with data := d } x).method = (c.streams x).method := by
    intro x; by_cases hx : x = s <;> simp [update, hx]
  have harg : ∀ x, (update c.streams s { c.streams s with data := d } x).arg = (c.streams x).arg := by
    intro x; by_cases hx : x = s <;> simp [update, hx]
  have hh : ∀ x, (update c.streams s { c.streams s with data := d } x).handlers = (c.streams x).handlers := by
    intro x; by_cases hx : x = s <;> simp [update, hx]
  have hco : ∀ x, (update c.streams s { c.streams s with data := d } x).connected = (c.streams x).connected := by
    intro x; by_cases hx : x = s <;> simp [update, hx]
  have hhe : ∀ x, (update c.streams s { c.streams s with data := d } x).held = (c.streams x).held := by
    intro x; by_cases hx : x = s <;> simp [update, hx]
  have hde : ∀ x, (update c.streams s { c.streams s with data := d } x).deleted = (c.streams x).deleted := by
    intro x; by_cases hx : x = s <;> simp [update, hx]
  obtain ⟨h1,h2,h3,h4,h5,h6,h7,h8,h9,h10,h11,h12,h13,h14,h15,h16,h17,h18,h19,h20⟩ := h
  constructor <;> simp only [hm, harg, hh, hco, hhe, hde, Client.same, Client.alive] at * <;> assumption

/-! #### Effects of observations on the view -/

theorem calls_handled (s : Nat) (d : Bytes) (l : List Nat) :
    calls (l.map (fun h => Obs.handled s h d) ++ [.notified s]) = l.map fun h => (s, h, d) := by
  induction l with
  | nil => simp [calls]
  | cons h l ih => simpa [calls] using ih

theorem dueCalls_handled (v : View) (s : Nat) (d : Bytes) (l : List Nat) :
    dueCalls v (l.map (fun h => Obs.handled s h d) ++ [.notified s]) = [] := by
  induction l with
  | nil => simp [dueCalls]
  | cons h l ih => simpa [dueCalls, View.see] using ih

theorem see_handled (v : View) (s : Nat) (d : Bytes) (l : List Nat) :
    (l.map (fun h => Obs.handled s h d) ++ [Obs.notified s]).foldl View.see v = v := by
  induction l with
  | nil => simp [View.see]
  | cons h l ih => simpa [View.see] using ih

theorem arrived_handled (a s : Nat) (d : Bytes) (l : List Nat) :
    arrived a (l.map (fun h => Obs.handled s h d) ++ [.notified s]) = [] := by
  simp [arrived]

theorem passedOn_handled (a s : Nat) (d : Bytes) (l : List Nat) :
    passedOn a (l.map (fun h => Obs.handled s h d) ++ [.notified s]) = [] := by
  simp [passedOn]

theorem handled_not_finished (s : Nat) (d : Bytes) (l : List Nat) (x : Nat) :
    Obs.finished x ∉ l.map (fun h => Obs.handled s h d) ++ [Obs.notified s] := by simp

theorem handled_not_subscribed (s : Nat) (d : Bytes) (l : List Nat) (m : String) (a : Bytes) (hh : Option Nat) (x : Nat) :
    Obs.subscribed m a hh x ∉ l.map (fun h => Obs.handled s h d) ++ [Obs.notified s] := by simp

/-- The handlers of attempt `a`'s stream are those the view knows. -/
theorem Rel.due {c : Client} {t : List Obs} {a : Nat} (h : Rel c t) (ha : a < c.nAttempts) (d : Bytes) :
    (view t).due a d = ((c.streams (c.attempts a).stream).handlers).map fun x => ((c.attempts a).stream, x, d) := by
  obtain ⟨h1, h2, _⟩ := h.owner a ha
  rw [View.due, h1]
  simp only
  rw [h.subscribers _ h2]

/-- A message arrives at an HTTP/2 attempt and all handlers are called. -/
theorem Rel.recvHttp2 {c : Client} {t : List Obs} {a : Nat} (ha : a < c.nAttempts) (d : Bytes) (h : Rel c t)
    (hk : (c.attempts a).kind = .http2) :
    Rel (c.handler (c.attempts a).stream d).1
      (t ++ .emitted a d :: .recv a d :: (c.handler (c.attempts a).stream d).2) := by
  refine Rel.setData ?_ _ _
  simp only [Client.handler]
  generalize hs : (c.attempts a).stream = s
  generalize hl : (c.streams s).handlers = l
  have hA : ∀ b, arrived b (.emitted a d :: .recv a d :: (l.map (fun x => .handled s x d) ++ [.notified s])) =
      if a = b then [d] else [] := by
    intro b; by_cases hb : a = b <;> simp [arrived, hb]
  have hP : ∀ b, passedOn b (.emitted a d :: .recv a d :: (l.map (fun x => .handled s x d) ++ [.notified s])) =
      if a = b then [d] else [] := by
    intro b; by_cases hb : a = b <;> simp [passedOn, hb]
  refine h.extend _ (fun a => (c.attempts a).queue) ?_ ?_ ?_ ?_ ?_ ?_ ?_ ?_
  · simp only [List.foldl_cons, View.see, see_handled]
  · intro x; simp
  · intro m b y x; simp
  · intro b hb
    refine ⟨(h.freshAttempt b hb).2.1, ?_⟩
    rw [hA, if_neg (by omega)]
  · intro b hb; exact ⟨(h.queueHttp2 b hb).1, by rw [hA, hP]⟩
  · intro b
    rw [arrived_append, passedOn_append, hA, hP]
    by_cases hb : a = b
    · subst hb; rw [(h.queueHttp2 a hk).2]; exact List.prefix_refl _
    · simpa [hb] using h.queuePrefix b
  · intro b hb
    rw [arrived_append, passedOn_append, hA, hP]
    by_cases hb' : a = b
    · subst hb'
      rw [(h.queueHttp2 a hk).2, (h.queueHttp2 a hk).1]; simp [Item.datas]
    · simpa [hb'] using h.queueNative b hb
  · simp only [calls, dueCalls, calls_handled, View.see, dueCalls_handled, h.due ha d, hs, hl, List.append_nil]

/-- A posted message is delivered. -/
theorem Rel.recvNative {c : Client} {t : List Obs} {a : Nat} (ha : a < c.nAttempts) (d : Bytes) (rest : List Item)
    (h : Rel c t) (hk : (c.attempts a).kind = .native) (hq : (c.attempts a).queue = .data d :: rest)
    (hdel : (c.streams (c.attempts a).stream).deleted = false) :
    Rel ({ c with attempts := update c.attempts a { c.attempts a with queue := rest } }.handler (c.attempts a).stream d : Client × List Obs).1
      (t ++ .recv a d :: (({ c with attempts := update c.attempts a { c.attempts a with queue := rest } } : Client).handler (c.attempts a).stream d).2) := by
  refine Rel.setData ?_ _ _
  simp only [Client.handler]
  have hupd : update c.attempts a { c.attempts a with queue := rest } =
      fun b => { c.attempts b with queue := if b = a then rest else (c.attempts b).queue } := by
    funext b; by_cases hb : b = a <;> simp [update, hb]
  rw [hupd]
  generalize hs : (c.attempts a).stream = s
  generalize hl : (c.streams s).handlers = l
  have hA : ∀ b, arrived b (.recv a d :: (l.map (fun x => .handled s x d) ++ [.notified s])) = [] := by
    intro b; simp [arrived]
  have hP : ∀ b, passedOn b (.recv a d :: (l.map (fun x => .handled s x d) ++ [.notified s])) =
      if a = b then [d] else [] := by
    intro b; by_cases hb : a = b <;> simp [passedOn, hb]
  have hqn := h.queueNative a hdel
  rw [hq] at hqn
  simp only [Item.datas, List.filterMap_cons] at hqn
  refine h.extend _ _ ?_ ?_ ?_ ?_ ?_ ?_ ?_ ?_
  · simp only [List.foldl_cons, View.see, see_handled]
  · intro x; simp
  · intro m b y x; simp
  · intro b hb
    have : b ≠ a := by omega
    simp only [if_neg this, hA, and_true]
    exact (h.freshAttempt b hb).2.1
  · intro b hb
    have : b ≠ a := by intro e; subst e; rw [hk] at hb; cases hb
    have h' : a ≠ b := fun e => this e.symm
    simp only [if_neg this, hA, hP, if_neg h', and_true]
    exact (h.queueHttp2 b hb).1
  · intro b
    rw [arrived_append, passedOn_append, hA, hP]
    by_cases hb : a = b
    · subst hb; rw [hqn]; simp
    · simpa [hb] using h.queuePrefix b
  · intro b hb
    rw [arrived_append, passedOn_append, hA, hP]
    by_cases hb' : a = b
    · subst hb'; rw [hqn]; simp [Item.datas]
    · have h' : b ≠ a := fun e => hb' e.symm
      simpa [hb', h'] using h.queueNative b hb
  · simp only [calls, dueCalls, calls_handled, dueCalls_handled, h.due ha d, hs, hl, List.append_nil]

/-- Changes of a queue without any call. -/
theorem Rel.setQueue {c : Client} {t : List Obs} {a : Nat} (ha : a < c.nAttempts) (h : Rel c t)
    (hk : (c.attempts a).kind = .native) (o : List Obs) (ho : o = [] ∨ ∃ d, o = [.emitted a d]) (q' : List Item)
    (hq : (c.streams (c.attempts a).stream).deleted = false →
      Item.datas q' = Item.datas (c.attempts a).queue ++ arrived a o) :
    Rel { c with attempts := update c.attempts a { c.attempts a with queue := q' } } (t ++ o) := by
  have hupd : update c.attempts a { c.attempts a with queue := q' } =
      fun b => { c.attempts b with queue := if b = a then q' else (c.attempts b).queue } := by
    funext b; by_cases hb : b = a <;> simp [update, hb]
  rw [hupd]
  have hP : ∀ b, passedOn b o = [] := by
    intro b; rcases ho with rfl | ⟨d, rfl⟩ <;> simp [passedOn]
  have hA : ∀ b, b ≠ a → arrived b o = [] := by
    intro b hb
    have hb : a ≠ b := fun e => hb e.symm
    rcases ho with rfl | ⟨d, rfl⟩ <;> simp [arrived, hb]
  refine h.extend _ _ ?_ ?_ ?_ ?_ ?_ ?_ ?_ ?_
  · rcases ho with rfl | ⟨d, rfl⟩ <;> simp [View.see]
  · rcases ho with rfl | ⟨d, rfl⟩ <;> simp
  · rcases ho with rfl | ⟨d, rfl⟩ <;> simp
  · intro b hb
    have : b ≠ a := by omega
    simp only [if_neg this, hA b this, and_true]
    exact (h.freshAttempt b hb).2.1
  · intro b hb
    have : b ≠ a := by intro e; subst e; rw [hk] at hb; cases hb
    simp only [if_neg this, hA b this, hP, and_true]
    exact (h.queueHttp2 b hb).1
  · intro b
    rw [arrived_append, passedOn_append, hP, List.append_nil]
    exact (h.queuePrefix b).trans (List.prefix_append _ _)
  · intro b hb
    rw [arrived_append, passedOn_append, hP, List.append_nil]
    by_cases hb' : b = a
    · subst hb'
      rw [h.queueNative b hb]
      simp [hq hb]
    · simp only [if_neg hb', hA b hb', List.append_nil]
      exact h.queueNative b hb
  · rcases ho with rfl | ⟨d, rfl⟩ <;> simp [calls, dueCalls]

/-! #### Changes of the client -/

/-- The attempts in `l` end or are cancelled. -/
theorem Rel.disconnect {c : Client} {t : List Obs} (h : Rel c t) (o : List Obs) (l : List Nat)
    (ho : o = l.map .cancelled ∨ ∃ a, l = [a] ∧ o = [.closed a]) (hl : ∀ a ∈ l, a < c.nAttempts) :
    Rel { c with attempts := fun a => { c.attempts a with connected := (c.attempts a).connected && decide (a ∉ l) } }
      (t ++ o) := by
  have hv : ∀ v : View, o.foldl View.see v = { v with over := fun a => v.over a || decide (a ∈ l) } := by
    rcases ho with rfl | ⟨a, rfl, rfl⟩
    · intro v
      clear hl
      induction l generalizing v with
      | nil => simp
      | cons b l ih =>
        simp only [List.map_cons, List.foldl_cons, ih, View.see, View.mk.injEq, true_and, and_true]
        funext x
        by_cases hx : x = b <;> simp [hx]
    · intro v
      simp only [List.foldl_cons, List.foldl_nil, View.see, View.mk.injEq, true_and, and_true]
      funext x
      by_cases hx : x = a <;> simp [hx]
  have hv' : view (t ++ o) = { view t with over := fun a => (view t).over a || decide (a ∈ l) } := by
    rw [view_append, hv]
  have hA : ∀ b, arrived b (t ++ o) = arrived b t := by
    intro b; rw [arrived_append]; rcases ho with rfl | ⟨a, rfl, rfl⟩ <;> simp [arrived]
  have hP : ∀ b, passedOn b (t ++ o) = passedOn b t := by
    intro b; rw [passedOn_append]; rcases ho with rfl | ⟨a, rfl, rfl⟩ <;> simp [passedOn]
  have hf' : ∀ s, Obs.finished s ∈ t ++ o ↔ Obs.finished s ∈ t := by
    intro s; rcases ho with rfl | ⟨a, rfl, rfl⟩ <;> simp
  have hs' : ∀ m a x s, Obs.subscribed m a x s ∈ t ++ o ↔ Obs.subscribed m a x s ∈ t := by
    intro m a x s; rcases ho with rfl | ⟨a, rfl, rfl⟩ <;> simp
  have hcal : ∀ l : List Nat, calls (l.map .cancelled) = [] := by
    intro l; induction l with | nil => rfl | cons a l ih => simpa [calls] using ih
  have hdue : ∀ (l : List Nat) v, dueCalls v (l.map .cancelled) = [] := by
    intro l; induction l with | nil => intro v; rfl | cons a l ih => intro v; simpa [dueCalls] using ih _
  have hc' : calls (t ++ o) = dueCalls View.new (t ++ o) := by
    rw [calls_append, dueCalls_append, h.callsDue]
    rcases ho with rfl | ⟨a, rfl, rfl⟩
    · rw [hcal, hdue]
    · simp [calls, dueCalls]
  have hfr : ∀ a, c.nAttempts ≤ a → ((c.attempts a).connected && decide (a ∉ l)) = false ∧ (c.attempts a).queue = [] ∧
    (view t).owner a = none ∧ ((view t).over a || decide (a ∈ l)) = false ∧ arrived a t = [] := by
    intro a ha
    obtain ⟨x1, x2, x3, x4, x5⟩ := h.freshAttempt a ha
    have : a ∉ l := fun hm => absurd (hl a hm) (by omega)
    simp [x1, x2, x3, x4, x5, this]
  have hown : ∀ a, a < c.nAttempts → (view t).owner a = some ((c.attempts a).stream, (c.attempts a).kind) ∧
    (c.attempts a).stream < c.nStreams ∧
      ((view t).over a || decide (a ∈ l)) = !((c.attempts a).connected && decide (a ∉ l)) := by
    intro a ha
    obtain ⟨x1, x2, x3⟩ := h.owner a ha
    refine ⟨x1, x2, ?_⟩
    rw [x3]
    by_cases hm : a ∈ l <;> simp [hm]
  obtain ⟨h1,h2,h3,h4,h5,h6,h7,h8,h9,h10,h11,h12,h13,h14,h15,h16,h17,h18,h19,h20⟩ := h
  constructor
  case single =>
    intro a b ha hb
    exact h9 a b (by revert ha; simp; intro x _; exact x) (by revert hb; simp; intro x _; exact x)
  case noTimer =>
    intro a ha
    exact h10 a (by revert ha; simp; intro x _; exact x)
  all_goals (try simp only [hv', hf', hs', hA, hP]) <;> assumption

/-- A new attempt for a stream that has none and no timer either. -/
theorem Rel.start {c : Client} {t : List Obs} (h : Rel c t) {s : Nat} (k : Kind) (hs : s < c.nStreams)
    (hn : ∀ a, (c.attempts a).connected = true → (c.attempts a).stream ≠ s) (ht : s ∉ c.timers) :
    Rel (c.start s k).1 (t ++ (c.start s k).2) := by
  simp only [Client.start]
  have hv' : view (t ++ [.started c.nAttempts s k]) =
      { view t with owner := fun b => if b = c.nAttempts then some (s, k) else (view t).owner b } := by
    rw [view_append]; rfl
  have hA : ∀ b, arrived b (t ++ [.started c.nAttempts s k]) = arrived b t := by
    intro b; rw [arrived_append]; simp [arrived]
  have hP : ∀ b, passedOn b (t ++ [.started c.nAttempts s k]) = passedOn b t := by
    intro b; rw [passedOn_append]; simp [passedOn]
  have hf' : ∀ x, Obs.finished x ∈ t ++ [.started c.nAttempts s k] ↔ Obs.finished x ∈ t := by
    intro s; simp
  have hs' : ∀ m a x y, Obs.subscribed m a x y ∈ t ++ [.started c.nAttempts s k] ↔ Obs.subscribed m a x y ∈ t := by
    intro m a x s; simp
  have hc' : calls (t ++ [.started c.nAttempts s k]) = dueCalls View.new (t ++ [.started c.nAttempts s k]) := by
    rw [calls_append, dueCalls_append, h.callsDue]; simp [calls, dueCalls]
  have hfresh := h.freshAttempt c.nAttempts (Nat.le_refl _)
  have hpass : passedOn c.nAttempts t = [] := by
    have := h.queuePrefix c.nAttempts
    rw [hfresh.2.2.2.2] at this
    exact List.prefix_nil.mp this
  obtain ⟨h1,h2,h3,h4,h5,h6,h7,h8,h9,h10,h11,h12,h13,h14,h15,h16,h17,h18,h19,h20⟩ := h
  constructor
  case freshAttempt =>
    intro a ha
    simp only at ha
    have : a ≠ c.nAttempts := by omega
    simp only [hv', hA, update_ne this, if_neg this]
    exact h5 a (by omega)
  case owner =>
    intro a ha
    simp only at ha
    simp only [hv']
    by_cases he : a = c.nAttempts
    · subst he; simp only [update_self, if_true, Bool.not_true]; exact ⟨trivial, hs, hfresh.2.2.2.1⟩
    · simp only [update_ne he, if_neg he]; exact h6 a (by omega)
  case single =>
    intro a b
    simp only
    by_cases ha : a = c.nAttempts <;> by_cases hb : b = c.nAttempts
    · intros; omega
    · subst ha; rw [update_self, update_ne hb]
      intro _ h' e; exact absurd e.symm (hn b h')
    · subst hb; rw [update_self, update_ne ha]
      intro h' _ e; exact absurd e (hn a h')
    · rw [update_ne ha, update_ne hb]; exact h9 a b
  case noTimer =>
    intro a
    simp only
    by_cases ha : a = c.nAttempts
    · subst ha; rw [update_self]; intro _; exact ht
    · rw [update_ne ha]; exact h10 a
  case queueHttp2 =>
    intro a
    simp only [hP, hA]
    by_cases ha : a = c.nAttempts
    · subst ha; rw [update_self, hpass, hfresh.2.2.2.2]; simp
    · rw [update_ne ha]; exact h17 a
  case queueNative =>
    intro a
    simp only [hP, hA]
    by_cases ha : a = c.nAttempts
    · subst ha; rw [update_self, hpass, hfresh.2.2.2.2]; simp [Item.datas]
    · rw [update_ne ha]; exact h19 a
  all_goals (try simp only [hv', hf', hs', hA, hP]) <;> assumption

theorem eraseP_same {c : Client} {t : List Obs} (h : Rel c t) {s : Nat} (hs : s ∈ c.active) :
    c.active.eraseP (fun x => c.same x s) = c.active.erase s := by
  rw [List.erase_eq_eraseP]
  have : ∀ l : List Nat, (∀ x ∈ l, x ∈ c.active) →
      l.eraseP (fun x => c.same x s) = l.eraseP (fun x => s == x) := by
    intro l
    induction l with
    | nil => intro _; rfl
    | cons x l ih =>
      intro hl
      have hx := hl x (by simp)
      by_cases he : s = x
      · subst he; simp [Client.same]
      · have : c.same x s = false := by
          cases hh : c.same x s with
          | false => rfl
          | true => exact absurd (h.distinct x s hx hs hh).symm he
        simp only [List.eraseP_cons, this, cond_false, beq_false_of_ne he]
        rw [ih (fun y hy => hl y (by simp [hy]))]
  exact this _ (fun _ h => h)

/-- The client forgets a stream that has finished. -/
theorem Rel.finishObs {c : Client} {t : List Obs} (h : Rel c t) {s : Nat} (hs : s < c.nStreams) :
    Rel (c.onFinished s) (t ++ [.finished s]) := by
  have hv' : view (t ++ [.finished s]) = view t := by rw [view_append]; rfl
  have hA : ∀ b, arrived b (t ++ [.finished s]) = arrived b t := by
    intro b; rw [arrived_append]; simp [arrived]
  have hP : ∀ b, passedOn b (t ++ [.finished s]) = passedOn b t := by
    intro b; rw [passedOn_append]; simp [passedOn]
  have hf' : ∀ x, Obs.finished x ∈ t ++ [.finished s] ↔ Obs.finished x ∈ t ∨ x = s := by
    intro x; simp
  have hs' : ∀ m a x y, Obs.subscribed m a x y ∈ t ++ [.finished s] ↔ Obs.subscribed m a x y ∈ t := by
    intro m a x y; simp
  have hc' : calls (t ++ [.finished s]) = dueCalls View.new (t ++ [.finished s]) := by
    rw [calls_append, dueCalls_append, h.callsDue]; simp [calls, dueCalls]
  unfold Client.onFinished
  by_cases hcon : (c.streams s).connected = true
  · rw [if_pos hcon]
    have hmem := (h.activeIff s).mpr hcon
    have her := eraseP_same h hmem
    have hm : ∀ x, (update c.streams s { c.streams s with connected := false } x).method = (c.streams x).method := by
      intro x; by_cases hx : x = s <;> simp [update, hx]
    have harg : ∀ x, (update c.streams s { c.streams s with connected := false } x).arg = (c.streams x).arg := by
      intro x; by_cases hx : x = s <;> simp [update, hx]
    have hh : ∀ x, (update c.streams s { c.streams s with connected := false } x).handlers = (c.streams x).handlers := by
      intro x; by_cases hx : x = s <;> simp [update, hx]
    have hhe : ∀ x, (update c.streams s { c.streams s with connected := false } x).held = (c.streams x).held := by
      intro x; by_cases hx : x = s <;> simp [update, hx]
    have hde : ∀ x, (update c.streams s { c.streams s with connected := false } x).deleted = (c.streams x).deleted := by
      intro x; by_cases hx : x = s <;> simp [update, hx]
    have hco : ∀ x, (update c.streams s { c.streams s with connected := false } x).connected =
        ((c.streams x).connected && decide (x ≠ s)) := by
      intro x; by_cases hx : x = s <;> simp [update, hx]
    obtain ⟨h1,h2,h3,h4,h5,h6,h7,h8,h9,h10,h11,h12,h13,h14,h15,h16,h17,h18,h19,h20⟩ := h
    constructor
    case activeNodup => rw [her]; exact h1.erase s
    case activeIff =>
      intro x
      simp only [her, hco, h1.mem_erase_iff, h2 x]
      simp [and_comm]
    case distinct =>
      intro x y hx hy hxy
      simp only [her] at hx hy
      simp only [Client.same, hm, harg] at hxy
      exact h3 x y (List.mem_of_mem_erase hx) (List.mem_of_mem_erase hy) hxy
    case fresh =>
      intro x hx
      simp only at hx
      obtain ⟨y1, y2, y3, y4, y5, y6⟩ := h4 x hx
      simp only [hco, hhe, hv', hf', hs', y1, y2, y3, y4, y5, y6]
      simp
      omega
    case finished =>
      intro x hx
      simp only [hco, hf']
      have := h12 x hx
      by_cases hxs : x = s
      · simp [hxs]
      · simp [hxs, this]
    case deleted =>
      intro x hx hd
      simp only [hde] at hd
      have := h15 x hx hd
      simp only [Client.alive, hco, hhe] at this ⊢
      revert this
      cases (c.streams x).connected <;> simp
    all_goals (try simp only [hv', hs', hA, hP, hm, harg, hh, hde]) <;> assumption
  · rw [if_neg hcon]
    have hfin : Obs.finished s ∈ t := by
      by_cases hx : Obs.finished s ∈ t
      · exact hx
      · exact absurd ((h.finished s hs).mpr hx) hcon
    have hf'' : ∀ x, Obs.finished x ∈ t ++ [.finished s] ↔ Obs.finished x ∈ t := by
      intro x; rw [hf']
      constructor
      · rintro (hx | rfl)
        · exact hx
        · exact hfin
      · exact Or.inl
    obtain ⟨h1,h2,h3,h4,h5,h6,h7,h8,h9,h10,h11,h12,h13,h14,h15,h16,h17,h18,h19,h20⟩ := h
    constructor <;> (try simp only [hv', hf'', hs', hA, hP]) <;> assumption

theorem onFinished_attempts (c : Client) (s : Nat) : (c.onFinished s).attempts = c.attempts := by
  unfold Client.onFinished; split <;> rfl
theorem onFinished_nAttempts (c : Client) (s : Nat) : (c.onFinished s).nAttempts = c.nAttempts := by
  unfold Client.onFinished; split <;> rfl

theorem Rel.emitFinished {c : Client} {t : List Obs} (h : Rel c t) {s : Nat} (hs : s < c.nStreams) :
    Rel (c.emitFinished s).1 (t ++ (c.emitFinished s).2) := by
  have h1 := (h.finishObs hs).disconnect ((c.liveOf s).map .cancelled) (c.liveOf s) (.inl rfl) (by
    intro a ha
    rw [onFinished_nAttempts]
    simp only [Client.liveOf, List.mem_filter, List.mem_range] at ha
    exact ha.1)
  have he : (c.emitFinished s).1 = { (c.onFinished s) with attempts := fun a =>
      { (c.onFinished s).attempts a with
        connected := ((c.onFinished s).attempts a).connected && decide (a ∉ c.liveOf s) } } := by
    simp only [Client.emitFinished, Client.onAbort]
    congr 1
    funext a
    rw [onFinished_attempts]
    have hm : a ∈ c.liveOf s ↔ (c.attempts a).connected = true ∧ (c.attempts a).stream = s := by
      simp only [Client.liveOf, List.mem_filter, List.mem_range, Bool.and_eq_true, beq_iff_eq]
      constructor
      · exact fun h => h.2
      · intro hh
        refine ⟨?_, hh⟩
        by_cases hlt : a < c.nAttempts
        · exact hlt
        · have := (h.freshAttempt a (by omega)).1
          rw [this] at hh; cases hh.1
    by_cases hst : (c.attempts a).stream = s
    · rw [if_pos hst]
      cases hcn : (c.attempts a).connected
      · simp
      · have : a ∈ c.liveOf s := hm.mpr ⟨hcn, hst⟩
        simp [this]
    · rw [if_neg hst]
      have : a ∉ c.liveOf s := fun hx => hst (hm.mp hx).2
      simp [this]
  rw [he]
  simp only [Client.emitFinished]
  have e2 : t ++ Obs.finished s :: (c.liveOf s).map Obs.cancelled = (t ++ [Obs.finished s]) ++ (c.liveOf s).map Obs.cancelled := by
    simp
  rw [e2]
  exact h1

theorem Rel.pushTimer {c : Client} {t : List Obs} (h : Rel c t) {s : Nat} (hs : s < c.nStreams)
    (hn : ∀ a, (c.attempts a).connected = true → (c.attempts a).stream ≠ s) (ht : s ∉ c.timers) :
    Rel { c with timers := c.timers ++ [s] } t := by
  obtain ⟨h1,h2,h3,h4,h5,h6,h7,h8,h9,h10,h11,h12,h13,h14,h15,h16,h17,h18,h19,h20⟩ := h
  constructor
  case fresh =>
    intro x hx
    obtain ⟨y1, y2, y3, y4⟩ := h4 x hx
    refine ⟨y1, y2, ?_, y4⟩
    simp only at hx
    simp [y3]; omega
  case noTimer =>
    intro a ha
    simp only [List.mem_append, List.mem_singleton, not_or]
    exact ⟨h10 a ha, hn a ha⟩
  case timersNodup =>
    rw [List.nodup_append]
    exact ⟨h11, by simp, by intro x hx y hy; simp at hy; subst hy; intro e; subst e; exact ht hx⟩
  all_goals assumption

theorem Rel.eraseTimer {c : Client} {t : List Obs} (h : Rel c t) (s : Nat) :
    Rel { c with timers := c.timers.erase s } t := by
  obtain ⟨h1,h2,h3,h4,h5,h6,h7,h8,h9,h10,h11,h12,h13,h14,h15,h16,h17,h18,h19,h20⟩ := h
  constructor
  case fresh =>
    intro x hx
    obtain ⟨y1, y2, y3, y4⟩ := h4 x hx
    exact ⟨y1, y2, fun hm => y3 (List.mem_of_mem_erase hm), y4⟩
  case noTimer =>
    intro a ha hm
    exact h10 a ha (List.mem_of_mem_erase hm)
  case timersNodup => exact h11.erase s
  all_goals assumption

theorem Rel.emitError {c : Client} {t : List Obs} (h : Rel c t) {s : Nat} (code : Http2.StatusCode) (hs : s < c.nStreams)
    (hn : ∀ a, (c.attempts a).connected = true → (c.attempts a).stream ≠ s) (ht : s ∉ c.timers) :
    Rel (c.emitError s code).1 (t ++ (c.emitError s code).2) := by
  unfold Client.emitError
  split
  · have := ((h.pushTimer hs hn ht).quiet (.failed s code) rfl).quiet (.clientFailed code) rfl
    simpa using this
  · exact h.quiet _ rfl

theorem Rel.close {c : Client} {t : List Obs} (h : Rel c t) {a : Nat} (cause : Close) (ha : a < c.nAttempts)
    (hcon : (c.attempts a).connected = true) :
    Rel (c.close a cause).1 (t ++ (c.close a cause).2) := by
  obtain ⟨_, hs, _⟩ := h.owner a ha
  have hd := h.disconnect [.closed a] [a] (.inr ⟨a, rfl, rfl⟩) (by simp [ha])
  have he : ({ c with attempts := fun b => { c.attempts b with
        connected := (c.attempts b).connected && decide (b ∉ [a]) } } : Client) =
      { c with attempts := update c.attempts a { c.attempts a with connected := false } } := by
    congr 1
    funext b
    by_cases hb : b = a
    · subst hb; simp [update]
    · simp [update, hb]
  rw [he] at hd
  have hn : ∀ b, (update c.attempts a { c.attempts a with connected := false } b).connected = true →
      (update c.attempts a { c.attempts a with connected := false } b).stream ≠ (c.attempts a).stream := by
    intro b
    by_cases hb : b = a
    · subst hb; simp
    · rw [update_ne hb]; intro h1 h2; exact hb (h.single b a h1 hcon h2)
  have ht := h.noTimer a hcon
  simp only [Client.close]
  have e2 : ∀ o : List Obs, t ++ Obs.closed a :: o = (t ++ [Obs.closed a]) ++ o := by intro o; simp
  rw [e2]
  split
  · exact hd.start _ hs hn ht
  · exact hd.emitError _ hs hn ht
  · split
    · exact hd.emitFinished hs
    · exact hd.emitError _ hs hn ht
  · split
    · simpa using hd
    · exact hd.emitError _ hs hn ht
  · simpa using hd

theorem Rel.setChannel {c : Client} {t : List Obs} (h : Rel c t) (k : Kind) :
    Rel { c with channel := some k } t := by
  obtain ⟨h1,h2,h3,h4,h5,h6,h7,h8,h9,h10,h11,h12,h13,h14,h15,h16,h17,h18,h19,h20⟩ := h
  constructor
  case channel => intro hx; cases hx
  all_goals assumption

/-- The user gives up a reference. -/
theorem Rel.drop {c : Client} {t : List Obs} (h : Rel c t) (s : Nat) :
    Rel { c with streams := update c.streams s { c.streams s with held := (c.streams s).held - 1 } } t := by
  have hm : ∀ x, (update c.streams s { c.streams s with held := (c.streams s).held - 1 } x).method = (c.streams x).method := by
    intro x; by_cases hx : x = s <;> simp [update, hx]
  have harg : ∀ x, (update c.streams s { c.streams s with held := (c.streams s).held - 1 } x).arg = (c.streams x).arg := by
    intro x; by_cases hx : x = s <;> simp [update, hx]
  have hh : ∀ x, (update c.streams s { c.streams s with held := (c.streams s).held - 1 } x).handlers = (c.streams x).handlers := by
    intro x; by_cases hx : x = s <;> simp [update, hx]
  have hco : ∀ x, (update c.streams s { c.streams s with held := (c.streams s).held - 1 } x).connected = (c.streams x).connected := by
    intro x; by_cases hx : x = s <;> simp [update, hx]
  have hhe : ∀ x, (update c.streams s { c.streams s with held := (c.streams s).held - 1 } x).held ≤ (c.streams x).held := by
    intro x; by_cases hx : x = s <;> simp [update, hx]
  have hde : ∀ x, (update c.streams s { c.streams s with held := (c.streams s).held - 1 } x).deleted = (c.streams x).deleted := by
    intro x; by_cases hx : x = s <;> simp [update, hx]
  obtain ⟨h1,h2,h3,h4,h5,h6,h7,h8,h9,h10,h11,h12,h13,h14,h15,h16,h17,h18,h19,h20⟩ := h
  constructor
  case fresh =>
    intro x hx
    obtain ⟨y1, y2, y3⟩ := h4 x hx
    have := hhe x
    rw [y2] at this
    exact ⟨by simpa [hco] using y1, Nat.le_zero.mp this, y3⟩
  case deleted =>
    intro x hx hd
    simp only [hde] at hd
    have := h15 x hx hd
    have hl := hhe x
    simp only [Client.alive, hco] at this ⊢
    revert this
    cases (c.streams x).connected <;> simp
    intro h0
    exact Nat.le_zero.mp (h0 ▸ hl)
  all_goals simp only [hm, harg, hh, hco, hde, Client.same] at * <;> assumption

/-- A stream without references is deleted. -/
theorem Rel.reap {c : Client} {t : List Obs} (h : Rel c t) (s : Nat) (hs : s < c.nStreams) (ha : c.alive s = false) :
    Rel { c with streams := update c.streams s { c.streams s with deleted := true } } (t ++ [.deleted s]) := by
  have hv' : view (t ++ [.deleted s]) =
      { view t with gone := fun x => if x = s then true else (view t).gone x } := by rw [view_append]; rfl
  have hA : ∀ b, arrived b (t ++ [.deleted s]) = arrived b t := by
    intro b; rw [arrived_append]; simp [arrived]
  have hP : ∀ b, passedOn b (t ++ [.deleted s]) = passedOn b t := by
    intro b; rw [passedOn_append]; simp [passedOn]
  have hf' : ∀ x, Obs.finished x ∈ t ++ [.deleted s] ↔ Obs.finished x ∈ t := by
    intro x; simp
  have hs' : ∀ m a x y, Obs.subscribed m a x y ∈ t ++ [.deleted s] ↔ Obs.subscribed m a x y ∈ t := by
    intro m a x y; simp
  have hc' : calls (t ++ [.deleted s]) = dueCalls View.new (t ++ [.deleted s]) := by
    rw [calls_append, dueCalls_append, h.callsDue]; simp [calls, dueCalls]
  have hm : ∀ x, (update c.streams s { c.streams s with deleted := true } x).method = (c.streams x).method := by
    intro x; by_cases hx : x = s <;> simp [update, hx]
  have harg : ∀ x, (update c.streams s { c.streams s with deleted := true } x).arg = (c.streams x).arg := by
    intro x; by_cases hx : x = s <;> simp [update, hx]
  have hh : ∀ x, (update c.streams s { c.streams s with deleted := true } x).handlers = (c.streams x).handlers := by
    intro x; by_cases hx : x = s <;> simp [update, hx]
  have hco : ∀ x, (update c.streams s { c.streams s with deleted := true } x).connected = (c.streams x).connected := by
    intro x; by_cases hx : x = s <;> simp [update, hx]
  have hhe : ∀ x, (update c.streams s { c.streams s with deleted := true } x).held = (c.streams x).held := by
    intro x; by_cases hx : x = s <;> simp [update, hx]
  have hde : ∀ x, (update c.streams s { c.streams s with deleted := true } x).deleted =
      if x = s then true else (c.streams x).deleted := by
    intro x; by_cases hx : x = s <;> simp [update, hx]
  obtain ⟨h1,h2,h3,h4,h5,h6,h7,h8,h9,h10,h11,h12,h13,h14,h15,h16,h17,h18,h19,h20⟩ := h
  constructor
  case fresh =>
    intro x hx
    simp only at hx
    obtain ⟨y1, y2, y3, y4, y5, y6⟩ := h4 x hx
    simp only [hv', hf', hs', hco, hhe]
    rw [if_neg (by omega : x ≠ s)]
    exact ⟨y1, y2, y3, y4, y5, y6⟩
  case gone =>
    intro x hx
    simp only [hv', hde]
    rw [h8 x hx]
  case deleted =>
    intro x hx hd
    simp only [hde] at hd
    simp only [Client.alive, hco, hhe]
    by_cases hxs : x = s
    · subst hxs; exact ha
    · rw [if_neg hxs] at hd; exact h15 x hx hd
  case queueNative =>
    intro a hd
    simp only [hde] at hd
    simp only [hA, hP]
    apply h19 a
    by_cases hxs : (c.attempts a).stream = s
    · rw [if_pos hxs] at hd; cases hd
    · rw [if_neg hxs] at hd; exact hd
  all_goals (try simp only [hv', hf', hs', hA, hP, hm, harg, hh, hco, hhe, Client.same] at *) <;> assumption

/-- A further subscription to an active stream. -/
theorem Rel.addHandler {c : Client} {t : List Obs} (h : Rel c t) {s : Nat} (hs : s ∈ c.active) (x : Option Nat) :
    Rel { c with streams := update c.streams s { c.streams s with
            handlers := addHandler (c.streams s).handlers x, held := (c.streams s).held + 1 } }
      (t ++ [.subscribed (c.streams s).method (c.streams s).arg x s]) := by
  have hcon := (h.activeIff s).mp hs
  have hlt : s < c.nStreams := by
    by_cases hx : s < c.nStreams
    · exact hx
    · have := (h.fresh s (by omega)).1
      rw [hcon] at this; cases this
  generalize ho : Obs.subscribed (c.streams s).method (c.streams s).arg x s = o
  have hv' : view (t ++ [o]) =
      { view t with subscribers := fun y => if y = s then Stream.addHandler ((view t).subscribers y) x else (view t).subscribers y } := by
    subst ho
    rw [view_append]
    cases x with
    | none =>
      simp [View.see, Stream.addHandler]
    | some x => rfl
  have hA : ∀ b, arrived b (t ++ [o]) = arrived b t := by
    intro b; rw [arrived_append]; subst ho; simp [arrived]
  have hP : ∀ b, passedOn b (t ++ [o]) = passedOn b t := by
    intro b; rw [passedOn_append]; subst ho; simp [passedOn]
  have hf' : ∀ y, Obs.finished y ∈ t ++ [o] ↔ Obs.finished y ∈ t := by
    intro y; subst ho; simp
  have hc' : calls (t ++ [o]) = dueCalls View.new (t ++ [o]) := by
    rw [calls_append, dueCalls_append, h.callsDue]; subst ho; simp [calls, dueCalls]
  generalize hn : ({ c.streams s with
            handlers := Stream.addHandler (c.streams s).handlers x, held := (c.streams s).held + 1 } : Obj) = new
  have hm : ∀ y, (update c.streams s new y).method = (c.streams y).method := by
    intro y; subst hn; by_cases hx : y = s <;> simp [update, hx]
  have harg : ∀ y, (update c.streams s new y).arg = (c.streams y).arg := by
    intro y; subst hn; by_cases hx : y = s <;> simp [update, hx]
  have hco : ∀ y, (update c.streams s new y).connected = (c.streams y).connected := by
    intro y; subst hn; by_cases hx : y = s <;> simp [update, hx]
  have hde : ∀ y, (update c.streams s new y).deleted = (c.streams y).deleted := by
    intro y; subst hn; by_cases hx : y = s <;> simp [update, hx]
  obtain ⟨h1,h2,h3,h4,h5,h6,h7,h8,h9,h10,h11,h12,h13,h14,h15,h16,h17,h18,h19,h20⟩ := h
  constructor
  case fresh =>
    intro y hy
    simp only at hy
    have hne : y ≠ s := by omega
    obtain ⟨y1, y2, y3, y4, y5, y6⟩ := h4 y hy
    simp only [update_ne hne, hv', if_neg hne, hf']
    refine ⟨y1, y2, y3, y4, y5, ?_⟩
    intro m a z hmem
    subst ho
    rcases List.mem_append.mp hmem with hmem | hmem
    · exact y6 m a z hmem
    · simp at hmem; exact hne hmem.2.2.2
  case subscribers =>
    intro y hy
    simp only [hv']
    by_cases hys : y = s
    · subst hys; rw [if_pos rfl, update_self, h7 y hy, ← hn]
    · rw [if_neg hys, update_ne hys]; exact h7 y hy
  case subscribed =>
    intro y hy
    obtain ⟨z, hz⟩ := h13 y hy
    refine ⟨z, ?_⟩
    simp only [hm, harg]
    exact List.mem_append_left _ hz
  case key =>
    intro m a z y hmem
    simp only [hm, harg]
    rcases List.mem_append.mp hmem with hmem | hmem
    · exact h14 m a z y hmem
    · subst ho; simp at hmem; obtain ⟨rfl, rfl, rfl, rfl⟩ := hmem; exact ⟨rfl, rfl⟩
  case deleted =>
    intro y hy hd
    simp only [hde] at hd
    have := h15 y hy hd
    by_cases hys : y = s
    · subst hys; simp [Client.alive, hcon] at this
    · simp only [Client.alive, update_ne hys] at this ⊢; exact this
  all_goals (try simp only [hv', hf', hA, hP, hm, harg, hco, hde, Client.same] at *) <;> assumption

/-- A new stream, before it is started. -/
theorem Rel.newStream {c : Client} {t : List Obs} (h : Rel c t) (m : String) (arg : Bytes) (x : Option Nat)
    (hnone : ∀ s ∈ c.active, ¬ ((c.streams s).method = m ∧ (c.streams s).arg = arg)) (hch : c.channel ≠ none) :
    Rel { c with streams := update c.streams c.nStreams ⟨m, arg, Stream.addHandler [] x, [], true, 1, false⟩
                 nStreams := c.nStreams + 1, active := c.active ++ [c.nStreams] }
      (t ++ [.subscribed m arg x c.nStreams]) := by
  obtain ⟨f1, f2, f3, f4, f5, f6⟩ := h.fresh c.nStreams (Nat.le_refl _)
  have hnact : c.nStreams ∉ c.active := by
    intro hx; rw [h.activeIff, f1] at hx; cases hx
  generalize hs : c.nStreams = s at *
  generalize ho : Obs.subscribed m arg x s = o
  have hv' : view (t ++ [o]) =
      { view t with subscribers := fun y => if y = s then Stream.addHandler ((view t).subscribers y) x else (view t).subscribers y } := by
    subst ho
    rw [view_append]
    cases x with
    | none =>
      simp [View.see, Stream.addHandler]
    | some x => rfl
  have hA : ∀ b, arrived b (t ++ [o]) = arrived b t := by
    intro b; rw [arrived_append]; subst ho; simp [arrived]
  have hP : ∀ b, passedOn b (t ++ [o]) = passedOn b t := by
    intro b; rw [passedOn_append]; subst ho; simp [passedOn]
  have hf' : ∀ y, Obs.finished y ∈ t ++ [o] ↔ Obs.finished y ∈ t := by
    intro y; subst ho; simp
  have hc' : calls (t ++ [o]) = dueCalls View.new (t ++ [o]) := by
    rw [calls_append, dueCalls_append, h.callsDue]; subst ho; simp [calls, dueCalls]
  have hact : ∀ y, y ∈ c.active → y ≠ s := fun y hy e => hnact (e ▸ hy)
  have hsown : ∀ a, a < c.nAttempts → (c.attempts a).stream ≠ s := by
    intro a ha; have := (h.owner a ha).2.1; omega
  obtain ⟨h1,h2,h3,h4,h5,h6,h7,h8,h9,h10,h11,h12,h13,h14,h15,h16,h17,h18,h19,h20⟩ := h
  constructor
  case activeNodup =>
    rw [List.nodup_append]
    exact ⟨h1, by simp, by intro a ha b hb; simp at hb; subst hb; exact hact a ha⟩
  case activeIff =>
    intro y
    simp only [List.mem_append, List.mem_singleton]
    by_cases hys : y = s
    · subst hys; simp
    · simp [hys, update_ne hys, h2 y]
  case distinct =>
    intro y z hy hz
    simp only [List.mem_append, List.mem_singleton] at hy hz
    simp only [Client.same, Bool.and_eq_true, beq_iff_eq]
    rcases hy with hy | rfl <;> rcases hz with hz | rfl
    · rw [update_ne (hact y hy), update_ne (hact z hz)]
      intro hh
      exact h3 y z hy hz (by simpa [Client.same] using hh)
    · rw [update_ne (hact y hy), update_self]
      intro hh; exact absurd hh (hnone y hy)
    · rw [update_ne (hact z hz), update_self]
      intro hh; exact absurd ⟨hh.1.symm, hh.2.symm⟩ (hnone z hz)
    · intro _; rfl
  case fresh =>
    intro y hy
    simp only at hy
    have hne : y ≠ s := by omega
    obtain ⟨y1, y2, y3, y4, y5, y6⟩ := h4 y (by omega)
    simp only [update_ne hne, hv', if_neg hne, hf']
    refine ⟨y1, y2, y3, y4, y5, ?_⟩
    intro m a z hmem
    subst ho
    rcases List.mem_append.mp hmem with hmem | hmem
    · exact y6 m a z hmem
    · simp at hmem; exact hne hmem.2.2.2
  case owner =>
    intro a ha
    obtain ⟨z1, z2, z3⟩ := h6 a ha
    simp only [hv']
    exact ⟨z1, by omega, z3⟩
  case subscribers =>
    intro y hy
    simp only at hy
    simp only [hv']
    by_cases hys : y = s
    · subst hys; rw [if_pos rfl, update_self, f4.1]
    · rw [if_neg hys, update_ne hys]; exact h7 y (by omega)
  case gone =>
    intro y hy
    simp only at hy
    simp only [hv']
    by_cases hys : y = s
    · subst hys; rw [update_self]; exact f4.2
    · rw [update_ne hys]; exact h8 y (by omega)
  case finished =>
    intro y hy
    simp only at hy
    simp only [hf']
    by_cases hys : y = s
    · subst hys; rw [update_self]; simp [f5]
    · rw [update_ne hys]; exact h12 y (by omega)
  case subscribed =>
    intro y hy
    simp only at hy ⊢
    by_cases hys : y = s
    · subst hys; rw [update_self]; exact ⟨x, by simp [ho]⟩
    · rw [update_ne hys]
      obtain ⟨z, hz⟩ := h13 y (by omega)
      exact ⟨z, List.mem_append_left _ hz⟩
  case key =>
    intro m' a' z y hmem
    simp only
    rcases List.mem_append.mp hmem with hmem | hmem
    · have hys : y ≠ s := by intro e; subst e; exact f6 _ _ _ hmem
      rw [update_ne hys]
      exact h14 m' a' z y hmem
    · subst ho; simp at hmem; obtain ⟨rfl, rfl, rfl, rfl⟩ := hmem; simp
  case deleted =>
    intro y hy
    simp only at hy
    simp only [Client.alive]
    by_cases hys : y = s
    · subst hys; simp only [update_self]; intro hd; cases hd
    · simp only [update_ne hys]; exact h15 y (by omega)
  case channel => intro hx; exact absurd hx hch
  case queueNative =>
    intro a
    simp only [hA, hP]
    by_cases ha : a < c.nAttempts
    · rw [update_ne (hsown a ha)]; exact h19 a
    · obtain ⟨_, q2, _, _, q5⟩ := h5 a (by omega)
      intro _
      have := h18 a
      rw [q5] at this
      rw [q5, List.prefix_nil.mp this, q2]; rfl
  all_goals (try simp only [hv', hf', hA, hP] at *) <;> assumption

theorem Rel.subscribe {c : Client} {t : List Obs} (h : Rel c t) (m : String) (arg : Bytes) (x : Option Nat) :
    Rel (c.subscribe m arg x).1 (t ++ (c.subscribe m arg x).2) := by
  unfold Client.subscribe
  split
  · have := (h.quiet (.clientFailed Http2.Status.Unknown) rfl).quiet .refused rfl
    simpa using this
  · rename_i k hk
    split
    · rename_i s hf
      have hs := List.mem_of_find?_eq_some hf
      have hp := List.find?_some hf
      simp only [Bool.and_eq_true, beq_iff_eq] at hp
      have := h.addHandler hs x
      rw [hp.1, hp.2] at this
      exact this
    · rename_i hf
      rw [List.find?_eq_none] at hf
      have h1 := h.newStream m arg x (by
        intro s hs hx
        exact hf s hs (by simp [hx.1, hx.2])) (by rw [hk]; simp)
      have h2 := h1.start (s := c.nStreams) k (by simp) (by
        intro a ha
        simp only at ha ⊢
        by_cases hlt : a < c.nAttempts
        · have := (h.owner a hlt).2.1; omega
        · rw [(h.freshAttempt a (by omega)).1] at ha; cases ha) (h.fresh c.nStreams (Nat.le_refl _)).2.2.1
      have e2 : ∀ o o' : Obs, t ++ (o :: [o']) = (t ++ [o]) ++ [o'] := by intro o o'; simp
      simp only [Client.start] at h2 ⊢
      rw [e2]
      exact h2

theorem Rel.net {c : Client} {t : List Obs} (h : Rel c t) {a : Nat} (ha : a < c.nAttempts) (i : Item) :
    Rel (c.net a i).1 (t ++ (c.net a i).2) := by
  unfold Client.net
  simp only
  split
  · rename_i d hk
    split
    · exact h.recvHttp2 ha d hk
    · simpa using h
  · rename_i hk
    split
    · rename_i hc
      simp only [Bool.and_eq_true] at hc
      exact h.close _ ha hc.1
    · simpa using h
  · rename_i d hk
    split
    · exact h.setQueue ha hk [.emitted a d] (.inr ⟨d, rfl⟩) _ (by intro _; simp [Item.datas, arrived])
    · simpa using h
  · rename_i hk
    exact h.setQueue ha hk [] (.inl rfl) _ (by intro _; simp [Item.datas, arrived])

theorem Rel.loop {c : Client} {t : List Obs} (h : Rel c t) {a : Nat} (ha : a < c.nAttempts) :
    Rel (c.loop a).1 (t ++ (c.loop a).2) := by
  have hkind : ∀ i rest, (c.attempts a).queue = i :: rest → (c.attempts a).kind = .native := by
    intro i rest hq
    cases hk : (c.attempts a).kind with
    | native => rfl
    | http2 => rw [(h.queueHttp2 a hk).1] at hq; cases hq
  unfold Client.loop
  simp only
  split
  · simpa using h
  · rename_i i rest hq
    split
    · rename_i d
      split
      · rename_i hd
        exact h.recvNative ha d rest (hkind _ _ hq) hq (by simpa using hd)
      · rename_i hd
        exact h.setQueue ha (hkind _ _ hq) [] (.inl rfl) rest (by
          intro hx; rw [hx] at hd; simp at hd)
    · rename_i cause
      have h1 : Rel { c with attempts := update c.attempts a { c.attempts a with queue := rest } } t := by
        have := h.setQueue ha (hkind _ _ hq) [] (.inl rfl) rest (by
          intro _; rw [hq]; simp [Item.datas, arrived])
        simpa using this
      split
      · rename_i hc
        simp only [Bool.and_eq_true] at hc
        exact h1.close cause ha (by simpa using hc.1)
      · simpa using h1

theorem Rel.fire {c c' : Client} {t o : List Obs} (h : Rel c t) {s : Nat} (hf : c.fire s = some (c', o)) :
    Rel c' (t ++ o) := by
  unfold Client.fire at hf
  split at hf
  · rename_i hm
    have hlt : s < c.nStreams := by
      by_cases hx : s < c.nStreams
      · exact hx
      · exact absurd hm (h.fresh s (by omega)).2.2.1
    simp only at hf
    split at hf
    · split at hf
      · cases hf
      · rename_i k hk
        cases hf
        exact (h.eraseTimer s).start k hlt (fun a ha e => h.noTimer a ha (e ▸ hm)) (by
          simp only
          rw [h.timersNodup.mem_erase_iff]
          simp)
    · cases hf; simpa using h.eraseTimer s
  · cases hf; simpa using h

theorem Rel.abortAll {c c' : Client} {t o : List Obs} (h : Rel c t) (it n : Nat)
    (hf : c.abortAll it n = some (c', o)) : Rel c' (t ++ o) := by
  induction n generalizing c t o it with
  | zero => simp only [Client.abortAll] at hf; cases hf; simpa using h
  | succ n ih =>
    simp only [Client.abortAll] at hf
    split at hf
    · cases hf
    · rename_i s hs
      have hmem : s ∈ c.active := List.mem_of_getElem? hs
      have hlt : s < c.nStreams := by
        by_cases hx : s < c.nStreams
        · exact hx
        · have := (h.fresh s (by omega)).1
          rw [(h.activeIff s).mp hmem] at this; cases this
      simp only [Option.map_eq_some_iff] at hf
      obtain ⟨⟨c2, o2⟩, h2, he⟩ := hf
      cases he
      rw [← List.append_assoc]
      exact ih (h.emitFinished hlt) _ h2

theorem Rel.attach {c c' : Client} {t o : List Obs} (h : Rel c t) {k : Kind} {ct cur : Nat}
    (hf : c.attachChannel k ct cur = some (c', o)) : Rel c' (t ++ o) := by
  unfold Client.attachChannel at hf
  split at hf
  · cases hf; exact h.quiet _ rfl
  · simp only [Option.bind_eq_some_iff, Option.map_eq_some_iff] at hf
    obtain ⟨⟨c1, o1⟩, h1, ⟨c2, o2⟩, h2, he⟩ := hf
    cases he
    rw [← List.append_assoc]
    exact ((h.abortAll 0 _ h1).setChannel k).abortAll 0 _ h2

theorem Rel.held {c : Client} {t : List Obs} (h : Rel c t) {s : Nat} (hs : 0 < (c.streams s).held) : s < c.nStreams := by
  by_cases hx : s < c.nStreams
  · exact hx
  · have := (h.fresh s (by omega)).2.1
    omega

theorem Rel.step {c c' : Client} {t o : List Obs} (h : Rel c t) {e : Ev} (hf : c.step e = some (c', o)) :
    Rel c' (t ++ o) := by
  cases e with
  | attach k ct cur => exact h.attach hf
  | subscribe m a x => 
    simp only [Client.step, Option.some.injEq] at hf
    have := h.subscribe m a x
    rw [hf] at this; exact this
  | net a i =>
    simp only [Client.step] at hf
    split at hf
    · have := h.net (by assumption) i
      rw [Option.some.inj hf] at this; exact this
    · cases hf; simpa using h
  | loop a =>
    simp only [Client.step] at hf
    split at hf
    · have := h.loop (a := a) (by assumption)
      rw [Option.some.inj hf] at this; exact this
    · cases hf; simpa using h
  | timer s => exact h.fire hf
  | abort s =>
    simp only [Client.step] at hf
    split at hf
    · cases hf; exact h.emitFinished (h.held (by assumption))
    · cases hf; simpa using h
  | drop s =>
    simp only [Client.step] at hf
    split at hf
    · cases hf; simpa using h.drop s
    · cases hf; simpa using h
  | reap s =>
    simp only [Client.step] at hf
    split at hf
    · rename_i hc; cases hf; exact h.reap s hc.1 hc.2.1
    · cases hf; simpa using h

theorem Rel.run {c c' : Client} {t o : List Obs} (h : Rel c t) {es : List Ev} (hf : c.run es = some (c', o)) :
    Rel c' (t ++ o) := by
  induction es generalizing c t o with
  | nil => simp only [Client.run] at hf; cases hf; simpa using h
  | cons e es ih =>
    simp only [Client.run, Option.bind_eq_some_iff, Option.map_eq_some_iff] at hf
    obtain ⟨⟨c1, o1⟩, h1, ⟨c2, o2⟩, h2, he⟩ := hf
    cases he
    rw [← List.append_assoc]
    exact ih (h.step h1) h2

theorem Rel.reach {th : Nat} {c : Client} {t : List Obs} {es : List Ev} (hf : (Client.new th).run es = some (c, t)) :
    Rel c t := by simpa using (Rel.new th).run hf

end QtPb.Stream
