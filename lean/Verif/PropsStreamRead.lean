import Verif.StreamRead
/-
C90: messages of a stream as handlers and readers get them.
-/
namespace QtPb.StreamRead

/-! ### Specification -/

/-- The messages that were received, in order. -/
def Messages : List Ev → List Bytes
  | [] => []
  | .message d :: es => d :: Messages es
  | _ :: es => Messages es

/-- Before the event at each place of the history, the state satisfies a condition that depends on the event. -/
def Before (P : World → Ev → Prop) (es : List Ev) : Prop := ∀ es1 e es2, es = es1 ++ e :: es2 → P (run start es1) e

/-- No message is received while handlers of another one are running. -/
def Unnested (es : List Ev) : Prop := Before (fun w e => ∀ d, e = .message d → w.inside = 0) es

/-- No message is received while a signal waits for the other thread. -/
def Unhurried (es : List Ev) : Prop := Before (fun w e => ∀ d, e = .message d → w.queued = 0) es

/-! ### Invariants -/

theorem messages_append (a b : List Ev) : Messages (a ++ b) = Messages a ++ Messages b := by
  induction a with
  | nil => rfl
  | cons e a ih => cases e <;> simp [Messages, ih]

theorem run_snoc (es : List Ev) (e : Ev) : run start (es ++ [e]) = step (run start es) e := by
  unfold run; rw [List.foldl_append]; rfl

/-- Induction on histories from the end. -/
theorem snoc_induction {P : List Ev → Prop} (h0 : P []) (hs : ∀ es e, P es → P (es ++ [e])) (es : List Ev) : P es := by
  have : ∀ l : List Ev, P l.reverse := fun l => by
    induction l with
    | nil => exact h0
    | cons e l ih => rw [List.reverse_cons]; exact hs _ _ ih
  have h := this es.reverse
  rwa [List.reverse_reverse] at h

theorem Before.init {P : World → Ev → Prop} {es : List Ev} {e : Ev} (h : Before P (es ++ [e])) : Before P es ∧ P (run start es) e :=
  ⟨fun a x b hab => h a x (b ++ [e]) (by rw [hab]; simp), h es e [] rfl⟩

/-! ### C90 -/

/-- Handlers are called with every message once, in the order of arrival, whatever the handlers do meanwhile. -/
theorem C90_handlers (es : List Ev) : (run start es).handled = Messages es := by
  induction es using snoc_induction with
  | h0 => rfl
  | hs es e ih =>
    rw [run_snoc, messages_append]
    cases e with
    | message d => simp [step, Messages, ih]
    | emit => simp only [step, Messages, List.append_nil]; split <;> exact ih
    | deliver => simp only [step, Messages, List.append_nil]; split <;> exact ih

/-- Readers are notified of every message once. -/
theorem C90_notified (es : List Ev) :
    (run start es).own.length + (run start es).inside = (Messages es).length ∧
      (run start es).other.length + (run start es).queued = (run start es).own.length := by
  induction es using snoc_induction with
  | h0 => exact ⟨rfl, rfl⟩
  | hs es e ih =>
    rw [run_snoc, messages_append]
    obtain ⟨h1, h2⟩ := ih
    cases e with
    | message d => simp [step, Messages]; omega
    | emit =>
      simp only [step, Messages, List.append_nil]
      split
      · exact ⟨h1, h2⟩
      · rename_i n hn; simp; omega
    | deliver =>
      simp only [step, Messages, List.append_nil]
      split
      · exact ⟨h1, h2⟩
      · rename_i n hn; simp; omega

/-- The stored data are those of the last message. -/
theorem data_last (es : List Ev) : (run start es).data = (Messages es).getLastD [] := by
  induction es using snoc_induction with
  | h0 => rfl
  | hs es e ih =>
    rw [run_snoc, messages_append]
    cases e with
    | message d => simp [step, Messages]
    | emit => simp only [step, Messages, List.append_nil]; split <;> exact ih
    | deliver => simp only [step, Messages, List.append_nil]; split <;> exact ih

/-- When nothing is left to be done, the last thing every reader has read is the last message. -/
theorem C90_last (es : List Ev) :
    ((run start es).inside = 0 → (run start es).own.getLastD [] = (Messages es).getLastD []) ∧
      ((run start es).inside = 0 → (run start es).queued = 0 → (run start es).other.getLastD [] = (Messages es).getLastD []) := by
  induction es using snoc_induction with
  | h0 => exact ⟨fun _ => rfl, fun _ _ => rfl⟩
  | hs es e ih =>
    have hd := data_last es
    rw [run_snoc, messages_append]
    obtain ⟨h1, h2⟩ := ih
    cases e with
    | message d => simp [step]
    | emit =>
      simp only [step, Messages, List.append_nil]
      split
      · exact ⟨h1, h2⟩
      · simp [World.read, hd]
    | deliver =>
      simp only [step, Messages, List.append_nil]
      split
      · exact ⟨h1, h2⟩
      · refine ⟨h1, fun _ _ => ?_⟩
        simp [World.read, hd]

theorem emit_zero {w : World} (h : w.inside = 0) : step w .emit = w := by simp only [step]; rw [h]
theorem emit_succ {w : World} {n : Nat} (h : w.inside = n + 1) :
    step w .emit = { w with inside := n, own := w.own ++ [w.data], queued := w.queued + 1 } := by simp only [step]; rw [h]; rfl
theorem deliver_zero {w : World} (h : w.queued = 0) : step w .deliver = w := by simp only [step]; rw [h]
theorem deliver_succ {w : World} {n : Nat} (h : w.queued = n + 1) :
    step w .deliver = { w with queued := n, other := w.other ++ [w.data] } := by simp only [step]; rw [h]; rfl

/-- **C90, what holds for readers in the thread of the stream.** If no message is received while handlers run, the reader reads every
message once, in order.

What is missing: handlers that start an event loop (`C90_nested_violated`). -/
theorem C90_own_partial {es : List Ev} (h : Unnested es) :
    (run start es).own ++ (if (run start es).inside = 0 then [] else [(run start es).data]) = Messages es ∧
      (run start es).inside ≤ 1 := by
  induction es using snoc_induction with
  | h0 => exact ⟨rfl, Nat.zero_le _⟩
  | hs es e ih =>
    obtain ⟨hu, he⟩ := Before.init h
    obtain ⟨h1, h2⟩ := ih hu
    rw [run_snoc, messages_append]
    cases e with
    | message d =>
      have h0 := he d rfl
      rw [h0] at h1
      simp only [if_true, List.append_nil] at h1
      simp [step, Messages, h0, h1]
    | emit =>
      simp only [Messages, List.append_nil]
      cases hn : (run start es).inside with
      | zero => rw [emit_zero hn]; exact ⟨h1, h2⟩
      | succ n =>
        rw [emit_succ hn]
        rw [hn] at h1 h2
        have hn0 : n = 0 := by omega
        subst hn0
        simp only [Nat.reduceAdd, Nat.succ_ne_zero, if_false] at h1
        simp [h1]
    | deliver =>
      simp only [Messages, List.append_nil]
      cases hn : (run start es).queued with
      | zero => rw [deliver_zero hn]; exact ⟨h1, h2⟩
      | succ n => rw [deliver_succ hn]; exact ⟨h1, h2⟩

/-- **C90, what holds for readers in other threads.** If in addition every notification is handled before the next message is received,
the reader in the other thread reads every message once, in order.

What is missing: messages that arrive faster than the other thread handles them (`C90_skipped_violated`). -/
theorem C90_other_partial {es : List Ev} (h : Unnested es) (hq : Unhurried es) :
    (run start es).other ++ (if (run start es).inside + (run start es).queued = 0 then [] else [(run start es).data]) = Messages es ∧
      (run start es).inside + (run start es).queued ≤ 1 := by
  induction es using snoc_induction with
  | h0 => exact ⟨rfl, Nat.zero_le _⟩
  | hs es e ih =>
    obtain ⟨hu, he⟩ := Before.init h
    obtain ⟨hv, hf⟩ := Before.init hq
    obtain ⟨h1, h2⟩ := ih hu hv
    rw [run_snoc, messages_append]
    cases e with
    | message d =>
      have h0 := he d rfl
      have h3 := hf d rfl
      rw [h0, h3] at h1
      simp only [Nat.add_zero, if_true, List.append_nil] at h1
      simp [step, Messages, h0, h3, h1]
    | emit =>
      simp only [Messages, List.append_nil]
      cases hn : (run start es).inside with
      | zero => rw [emit_zero hn]; exact ⟨h1, h2⟩
      | succ n =>
        rw [emit_succ hn]
        rw [hn] at h1 h2
        have hn0 : n = 0 := by omega
        have hq0 : (run start es).queued = 0 := by omega
        subst hn0
        rw [hq0] at h1
        simp only [Nat.reduceAdd, Nat.succ_ne_zero, if_false] at h1
        simp [hq0, h1]
    | deliver =>
      simp only [Messages, List.append_nil]
      cases hn : (run start es).queued with
      | zero => rw [deliver_zero hn]; exact ⟨h1, h2⟩
      | succ n =>
        rw [deliver_succ hn]
        rw [hn] at h1 h2
        have hn0 : n = 0 := by omega
        have hi0 : (run start es).inside = 0 := by omega
        subst hn0
        rw [hi0] at h1
        simp only [Nat.reduceAdd, Nat.succ_ne_zero, if_false] at h1
        simp [hi0, h1]

/-- C90 is violated for readers in other threads: of two messages that arrive before the other thread gets to its event loop, the first
one is never read, and the second one is read twice, in every such case. -/
theorem C90_skipped_violated (a b : Bytes) :
    (run start [.message a, .emit, .message b, .emit, .deliver, .deliver]).other = [b, b] ∧
      Messages [.message a, .emit, .message b, .emit, .deliver, .deliver] = [a, b] := ⟨rfl, rfl⟩

/-- C90 is violated in the thread of the stream as well: if a message arrives while a handler of the one before waits in an event loop,
for example in a synchronous call, the first one is never read and the second one is read twice. -/
theorem C90_nested_violated (a b : Bytes) :
    (run start [.message a, .message b, .emit, .emit]).own = [b, b] ∧
      Messages [.message a, .message b, .emit, .emit] = [a, b] := ⟨rfl, rfl⟩

theorem before_of_index {P : World → Ev → Prop} {es : List Ev}
    (h : ∀ i, (hi : i < es.length) → P (run start (es.take i)) es[i]) : Before P es := by
  intro es1 e es2 he
  subst he
  have := h es1.length (by simp)
  simpa using this

/-- A history that satisfies the hypotheses, with three messages. -/
example : Unnested [.message [1], .emit, .deliver, .message [2, 3], .emit, .deliver, .message []] ∧
    Unhurried [.message [1], .emit, .deliver, .message [2, 3], .emit, .deliver, .message []] := by
  constructor <;> refine before_of_index fun i hi => ?_ <;>
  · simp only [List.length_cons, List.length_nil] at hi
    have : i = 0 ∨ i = 1 ∨ i = 2 ∨ i = 3 ∨ i = 4 ∨ i = 5 ∨ i = 6 := by omega
    rcases this with rfl | rfl | rfl | rfl | rfl | rfl | rfl <;> simp <;> rfl

end QtPb.StreamRead
