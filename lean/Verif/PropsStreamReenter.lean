import Verif.SpecStreamReenter
import Verif.Http2Lemmas
/-
Property theorems: C113, handlers of streams that abort or wait while they are called.
-/
namespace QtPb.StreamReenter
open Http2 Http2.Spec Spec

theorem during_noWait : ∀ (subs : List Sub) (k : Nat) (s : Reader) (script : Script), (∀ x ∈ subs, x = .abort) → subs.length < k →
    during k s subs script = .ok ({ s with finished := s.finished || !subs.isEmpty }, [], script)
  | [], k + 1, s, script, _, _ => by simp [during]
  | x :: subs, k + 1, s, script, h, hk => by
    have hx := h x List.mem_cons_self
    subst hx
    rw [during, during_noWait subs k _ script (fun y hy => h y (List.mem_cons_of_mem _ hy)) (by simpa using hk)]
    simp

theorem handler_noWait {B k : Nat} {s : Reader} {m : Bytes} {script : Script} (hq : NoWait script) (hB : ∀ subs ∈ script, subs.length ≤ B) (hk : B + 2 ≤ k) :
    handler k s m script = .ok ({ s with finished := s.finished || !(script.headD []).isEmpty }, [m], script.tail) := by
  obtain ⟨k, rfl⟩ : ∃ j, k = j + 1 := ⟨k - 1, by omega⟩
  cases script with
  | nil => simp [handler]
  | cons subs script =>
    have := hB subs List.mem_cons_self
    rw [handler, during_noWait subs k s script (hq subs List.mem_cons_self) (by omega)]
    rfl

theorem upToAbort_cons (m : Bytes) (ms : List Bytes) (script : Script) :
    upToAbort (m :: ms) script = if script.headD [] = [] then (m :: (upToAbort ms script.tail).1, (upToAbort ms script.tail).2) else ([m], true) := by
  cases script with
  | nil =>
    have : upToAbort ms [] = (ms, false) := by cases ms <;> rfl
    simp [upToAbort, this]
  | cons subs script => simp [upToAbort]

/-- What is left of the record at the end. -/
def left (next id : Nat) (aborted : Bool) (d : ExpectedData) : Reader :=
  if aborted then ⟨none, next, true⟩ else ⟨if d.container.length < 5 then none else some (id, d), next, false⟩

theorem proceed_noWait {B : Nat} {id next : Nat} : ∀ (n : Nat) (d : ExpectedData) (script : Script) {ms : List Bytes} {d' : ExpectedData}, messageLoop false n d = .ok (ms, d') →
    NoWait script → (∀ subs ∈ script, subs.length ≤ B) →
    ∃ script', proceed (n + B + 2) ⟨some (id, d), next, false⟩ id script = .ok (left next id (upToAbort ms script).2 d', (upToAbort ms script).1, script')
  | 0, d, script, ms, d', h, _, _ => by rw [messageLoop] at h; cases h
  | n + 1, d, script, ms, d', h, hq, hB => by
    rw [messageLoop] at h
    have e : n + 1 + B + 2 = (n + B + 2) + 1 := by omega
    rw [e, proceed]
    simp only [ne_eq, not_true_eq_false, if_false]
    by_cases hc : (d.container.length : Int) ≥ d.expectedSize
    · rw [if_pos ⟨hc, rfl⟩] at h
      rw [if_pos ⟨hc, trivial⟩]
      have h' : ((if (removeFront d.container d.expectedSize).length > 5 then getExpectedDataSize (removeFront d.container d.expectedSize) else .ok d.expectedSize).bind fun size =>
          (messageLoop false n ⟨size, removeFront d.container d.expectedSize⟩).bind fun q => .ok (mid d.container 5 (d.expectedSize - 5) :: q.1, q.2)) = Res.ok (ms, d') := by
        rw [← h]
        by_cases h5 : (removeFront d.container d.expectedSize).length > 5 <;> simp [h5]
      obtain ⟨size, h1, h'⟩ := Res.bind_eq_ok.1 h'
      obtain ⟨⟨ms', d''⟩, h2, h'⟩ := Res.bind_eq_ok.1 h'
      cases h'
      rw [handler_noWait hq hB (by omega)]
      simp only [Res.bind, h1, ne_eq, not_true_eq_false, if_false, Bool.false_or]
      rw [upToAbort_cons]
      by_cases hh : script.headD [] = []
      · obtain ⟨script', ih⟩ := proceed_noWait n _ script.tail h2 (fun subs hs => hq subs (List.mem_of_mem_tail hs)) (fun subs hs => hB subs (List.mem_of_mem_tail hs))
        refine ⟨script', ?_⟩
        rw [hh, List.isEmpty_nil, Bool.not_true, ih]
        simp
      · refine ⟨script.tail, ?_⟩
        have hne : (!(script.headD []).isEmpty) = true := by
          cases hd : script.headD [] with
          | nil => exact absurd hd hh
          | cons x l => rfl
        rw [hne, if_neg hh]
        have e2 : n + B + 2 = (n + B + 1) + 1 := by omega
        rw [e2, proceed]
        simp [left]
    · rw [if_neg (fun hc' => hc hc'.1)] at h
      rw [if_neg (fun hc' => hc hc'.1)]
      cases h
      refine ⟨script, ?_⟩
      have : upToAbort [] script = ([], false) := by cases script <;> rfl
      rw [this]
      unfold left
      by_cases h5 : d.container.length < 5 <;> simp [h5]

/-- **C113**: handlers that do nothing or abort their stream while they are called. If bytes arrive from which the messages `ms` are completed, the stream is passed exactly those up to the first
one whose handler aborts, and all if none does; after an abort nothing of the stream is left in the channel's table, otherwise exactly what is left without such handlers. -/
theorem C113_abort {n : Nat} {record : Option ExpectedData} {data : Bytes} {ms : List Bytes} {record' : Option ExpectedData} (h : readyRead n false record data = .ok (ms, record'))
    (s : Reader) (hs : s.record.map (·.2) = record) (hf : s.finished = false) {script : Script} (hq : NoWait script) :
    ∃ N, ∀ k, N ≤ k → ∃ s' script', lambda k s data script = .ok (s', (upToAbort ms script).1, script') ∧ s'.finished = (upToAbort ms script).2 ∧
      s'.record.map (·.2) = if (upToAbort ms script).2 then none else record' := by
  obtain ⟨B, hB⟩ : ∃ B, ∀ subs ∈ script, subs.length ≤ B := by
    clear hq
    induction script with
    | nil => exact ⟨0, by simp⟩
    | cons x script ih =>
      obtain ⟨B, hB⟩ := ih
      refine ⟨B + x.length, fun subs hm => ?_⟩
      rcases List.mem_cons.1 hm with rfl | hm
      · omega
      · have := hB subs hm; omega
  obtain ⟨rec, next, fin⟩ := s
  dsimp only at hs hf
  subst hf
  have hleft : ∀ id (aborted : Bool) (d : ExpectedData), (left next id aborted d).finished = aborted ∧
      (left next id aborted d).record.map (·.2) = if aborted then none else if d.container.length < 5 then none else some d := by
    intro id aborted d
    unfold left
    cases aborted
    · by_cases h5 : d.container.length < 5 <;> simp [h5]
    · simp
  refine ⟨n + B + 3, fun k hk => ?_⟩
  obtain ⟨C, hC, rfl⟩ : ∃ C, B ≤ C ∧ k = (n + C + 2) + 1 := ⟨k - n - 3, by omega, by omega⟩
  have hB' : ∀ subs ∈ script, subs.length ≤ C := fun subs hm => Nat.le_trans (hB subs hm) hC
  cases rec with
  | none =>
    cases hs
    unfold readyRead at h
    simp only [Res.bind_eq] at h
    obtain ⟨size, h1, h⟩ := Res.bind_eq_ok.1 h
    rw [lambda]
    simp only [h1, Res.bind]
    by_cases hz : size = 0
    · rw [if_pos hz] at h ⊢
      cases h
      have h0 : ∀ l, upToAbort [] l = ([], false) := fun l => by cases l <;> rfl
      have h1 : upToAbort [[]] script = ([[]], !(script.headD []).isEmpty) := by
        rw [upToAbort_cons, h0]
        cases script.headD [] <;> simp
      rw [handler_noWait hq hB' (by omega), h1]
      refine ⟨_, _, rfl, by simp, ?_⟩
      split <;> rfl
    · rw [if_neg hz] at h ⊢
      unfold readyRead.proceed at h
      simp only [Res.bind_eq] at h
      obtain ⟨⟨ms', d'⟩, h2, h⟩ := Res.bind_eq_ok.1 h
      have hh : ms' = ms ∧ (if d'.container.length < 5 then none else some d') = record' := by
        dsimp only at h
        split at h
        · rename_i hc; cases h; refine ⟨rfl, ?_⟩; rw [if_pos (by simpa using hc)]
        · rename_i hc; cases h; refine ⟨rfl, ?_⟩; rw [if_neg (by simpa using hc)]
      obtain ⟨rfl, rfl⟩ := hh
      obtain ⟨script', hp⟩ := proceed_noWait (B := C) (id := next) (next := next + 1) n _ script h2 hq hB'
      refine ⟨_, script', hp, ?_⟩
      unfold left
      by_cases h5 : d'.container.length < 5 <;> cases (upToAbort ms' script).2 <;> simp [h5]
  | some p =>
    obtain ⟨id, d⟩ := p
    cases hs
    unfold readyRead at h
    unfold readyRead.proceed at h
    simp only [Res.bind_eq] at h
    obtain ⟨⟨ms', d'⟩, h2, h⟩ := Res.bind_eq_ok.1 h
    have hh : ms' = ms ∧ (if d'.container.length < 5 then none else some d') = record' := by
      dsimp only at h
      split at h
      · rename_i hc; cases h; refine ⟨rfl, ?_⟩; rw [if_pos (by simpa using hc)]
      · rename_i hc; cases h; refine ⟨rfl, ?_⟩; rw [if_neg (by simpa using hc)]
    obtain ⟨rfl, rfl⟩ := hh
    rw [lambda]
    obtain ⟨script', hp⟩ := proceed_noWait (B := C) (id := id) (next := next) n _ script h2 hq hB'
    exact ⟨_, script', hp, hleft id _ d'⟩

/-! ### Handlers that wait -/

/-- The message of a complete frame, with whatever is behind it. -/
theorem mid_frame {m f rest : Bytes} (hf : IsFrame m f) : mid (f ++ rest) 5 ((m.length : Int) + 5 - 5) = m := by
  obtain ⟨size, ⟨b0, b1, b2, b3, rfl, -⟩, rfl⟩ := hf
  unfold mid
  rw [if_neg (by omega)]
  have : ((m.length : Int) + 5 - 5).toNat = m.length := by omega
  rw [this]
  simp

theorem expected_frame {m f rest : Bytes} (hf : IsFrame m f) (hm : Small m) : getExpectedDataSize (f ++ rest) = .ok ((m.length : Int) + 5) :=
  expected_prefix (s := rest) (rest := []) hf hm (by simp) (by rw [List.length_append, frame_length hf]; omega)

/-- C113 is violated, for every message, and whatever follows: if bytes arrive while the handler of the first message runs an event loop, the stream is passed this message a second time (or something undefined
happens). -/
theorem C113_twice_violated {m f rest : Bytes} (hf : IsFrame m f) (hm : Small m) {k : Nat} {s : Reader} (hr : s.record = none) (hfin : s.finished = false) {x : Bytes} {subs : List Sub}
    {script : Script} {s' : Reader} {heard : List Bytes} {script' : Script} (h : lambda k s (f ++ rest) ((.chunk x :: subs) :: script) = .ok (s', heard, script')) :
    ∃ more, heard = m :: m :: more := by
  obtain ⟨record, next, fin⟩ := s
  cases hr
  cases hfin
  cases k with
  | zero => rw [lambda] at h; cases h
  | succ k =>
  rw [lambda] at h
  simp only [expected_frame hf hm, Res.bind] at h
  rw [if_neg (by omega)] at h
  cases k with
  | zero => rw [proceed] at h; cases h
  | succ k =>
  rw [proceed] at h
  have hl : (f ++ rest).length = m.length + 5 + rest.length := by rw [List.length_append, frame_length hf]
  simp only [ne_eq, not_true_eq_false, if_false] at h
  rw [if_pos ⟨by omega, trivial⟩, mid_frame hf] at h
  obtain ⟨r, h1, h2⟩ := Res.bind_eq_ok.1 h
  have hheard : ∃ l, heard = r.2.1 ++ l := by
    revert h2
    cases r.1.record with
    | none => intro h2; cases h2
    | some p =>
      dsimp only
      split
      · intro h2; cases h2
      · intro h2
        obtain ⟨z, -, h2⟩ := Res.bind_eq_ok.1 h2
        obtain ⟨q, -, h2⟩ := Res.bind_eq_ok.1 h2
        cases h2
        exact ⟨_, rfl⟩
  obtain ⟨l, rfl⟩ := hheard
  cases k with
  | zero => rw [handler] at h1; cases h1
  | succ k =>
  rw [handler] at h1
  obtain ⟨r', h3, h4⟩ := Res.bind_eq_ok.1 h1
  cases h4
  suffices hs : ∃ l, r'.2.1 = m :: l by
    obtain ⟨l', hl'⟩ := hs
    exact ⟨l' ++ l, by simp [hl']⟩
  cases k with
  | zero => rw [during] at h3; cases h3
  | succ k =>
  rw [during] at h3
  simp only [Bool.false_eq_true, if_false] at h3
  obtain ⟨r1, h5, h6⟩ := Res.bind_eq_ok.1 h3
  obtain ⟨r2, -, h6⟩ := Res.bind_eq_ok.1 h6
  cases h6
  suffices hs : ∃ l, r1.2.1 = m :: l by
    obtain ⟨l', hl'⟩ := hs
    exact ⟨l' ++ r2.2.1, by simp [hl']⟩
  cases k with
  | zero => rw [lambda] at h5; cases h5
  | succ k =>
  rw [lambda] at h5
  dsimp only at h5
  cases k with
  | zero => rw [proceed] at h5; cases h5
  | succ k =>
  rw [proceed] at h5
  simp only [ne_eq, not_true_eq_false, if_false] at h5
  rw [if_pos ⟨by rw [List.length_append, hl]; omega, trivial⟩, List.append_assoc, mid_frame hf] at h5
  obtain ⟨r3, h7, h8⟩ := Res.bind_eq_ok.1 h5
  have hr3 : ∃ l, r3.2.1 = m :: l := by
    cases k with
    | zero => rw [handler] at h7; cases h7
    | succ k =>
      cases script with
      | nil => rw [handler] at h7; cases h7; exact ⟨[], rfl⟩
      | cons a script =>
        rw [handler] at h7
        obtain ⟨q, -, h7⟩ := Res.bind_eq_ok.1 h7
        cases h7
        exact ⟨_, rfl⟩
  obtain ⟨l3, hl3⟩ := hr3
  revert h8
  cases r3.1.record with
  | none => intro h8; cases h8
  | some p =>
    dsimp only
    split
    · intro h8; cases h8
    · intro h8
      obtain ⟨z, -, h8⟩ := Res.bind_eq_ok.1 h8
      obtain ⟨q, -, h8⟩ := Res.bind_eq_ok.1 h8
      cases h8
      exact ⟨l3 ++ q.2.1, by simp [hl3]⟩

theorem total_sum : ∀ ms : List Bytes, total ms = (ms.map fun m => m.length + 5).sum
  | [] => rfl
  | m :: ms => by rw [total_cons, total_sum ms]; simp

/-- C113 is violated: if all that arrives while the handler of the first message waits are complete messages, the entry of the table is erased under the feet of the outer call: undefined behaviour, for
all messages. -/
theorem C113_wait_violated {m f rest x : Bytes} {ms : List Bytes} (hf : IsFrame m f) (hs : IsStream ms (rest ++ x)) (hm : Small m) (hsm : ∀ y ∈ ms, Small y)
    (hne : ∀ y ∈ m :: ms, y ≠ []) {s : Reader} (hr : s.record = none) (hfin : s.finished = false) :
    ∃ N, ∀ k, N ≤ k → lambda k s (f ++ rest) [[.chunk x]] = .ub := by
  obtain ⟨record, next, fin⟩ := s
  cases hr
  cases hfin
  have hS : IsStream (m :: ms) (f ++ (rest ++ x)) := .cons hf hs
  have hlen := stream_length hS
  have hl : (f ++ rest).length = m.length + 5 + rest.length := by rw [List.length_append, frame_length hf]
  have hfx : f ++ rest ++ x = f ++ (rest ++ x) := by simp
  obtain ⟨out, todo, buf, d, e1, e2, e3, e4, e5, e6⟩ := loop_ok (n := (f ++ (rest ++ x)).length + 1) hS (fun y hy => (List.mem_cons.1 hy).elim (fun e => e ▸ hm) (hsm y)) (B := f ++ (rest ++ x)) (rest := []) rfl (by simp)
    (by rw [List.length_append, frame_length hf]; omega)
    (by
      rintro b ⟨before, after, h1, rfl⟩ hb _
      rw [← total_sum]
      have ht : total (m :: ms) = total before + total after := by rw [h1, total_append]
      rw [hlen, ht]
      cases after with
      | nil => left; simp
      | cons y after =>
        right
        have : y ≠ [] := hne y (by rw [h1]; simp)
        have : 0 < y.length := List.length_pos_iff.2 this
        rw [total_cons]
        omega) (by omega)
  have hbuf : buf = [] := by
    rcases e6 with h | ⟨m', t, h1, h2, h3, -⟩
    · exact h
    · have := stream_length e3
      rw [List.append_nil, h1, total_cons] at this
      omega
  obtain ⟨script', hp⟩ := proceed_noWait (B := 0) (id := next) (next := next + 1) _ _ [] e1 (by intro _ h; cases h) (by intro _ h; cases h)
  have hu : upToAbort out [] = (out, false) := by cases out <;> rfl
  refine ⟨(f ++ (rest ++ x)).length + 8, fun k hk => ?_⟩
  obtain ⟨j, hj, rfl⟩ : ∃ j, (f ++ (rest ++ x)).length + 1 ≤ j ∧ k = j + 2 + 1 + 1 + 1 + 1 + 1 := ⟨k - 7, by omega, by omega⟩
  have hp' : ∃ script', proceed (j + 2) ⟨some (next, ⟨(m.length : Int) + 5, f ++ (rest ++ x)⟩), next + 1, false⟩ next [] = .ok (left (next + 1) next false d, out, script') := by
    obtain ⟨c, rfl⟩ : ∃ c, j = (f ++ (rest ++ x)).length + 1 + c := ⟨j - ((f ++ (rest ++ x)).length + 1), by omega⟩
    obtain ⟨script', hp⟩ := proceed_noWait (B := c) (id := next) (next := next + 1) _ _ [] e1 (by intro _ h; cases h) (by intro _ h; cases h)
    rw [hu] at hp
    exact ⟨script', hp⟩
  obtain ⟨script'', hp'⟩ := hp'
  rw [lambda]
  simp only [expected_frame hf hm, Res.bind]
  rw [if_neg (by omega), proceed]
  simp only [ne_eq, not_true_eq_false, if_false]
  rw [if_pos ⟨by omega, trivial⟩, mid_frame hf, handler, during]
  simp only [Bool.false_eq_true, if_false]
  rw [lambda]
  dsimp only
  rw [hfx, hp']
  simp only [Res.bind]
  rw [during]
  simp [left, e5, hbuf]

/-! ### Examples -/

/-- Two messages arrive at once; the handler of the first aborts. -/
example : ∃ N, ∀ k, N ≤ k → ∃ s' script', lambda k ⟨none, 0, false⟩ [0, 0, 0, 0, 1, 7, 0, 0, 0, 0, 1, 8] [[.abort]] = .ok (s', [[7]], script') ∧ s'.finished = true ∧
    s'.record.map (·.2) = none :=
  C113_abort (n := 20) (record := none) (ms := [[7], [8]]) (record' := none) rfl ⟨none, 0, false⟩ rfl rfl (script := [[.abort]]) (by
    intro subs h x hx
    simp at h
    subst h
    simpa using hx)

/-- The same bytes, without an abort. -/
example : ∃ N, ∀ k, N ≤ k → ∃ s' script', lambda k ⟨none, 0, false⟩ [0, 0, 0, 0, 1, 7, 0, 0, 0, 0, 1, 8] [[]] = .ok (s', [[7], [8]], script') ∧ s'.finished = false ∧
    s'.record.map (·.2) = none :=
  C113_abort (n := 20) (record := none) (ms := [[7], [8]]) (record' := none) rfl ⟨none, 0, false⟩ rfl rfl (script := [[]]) (by
    intro subs h x hx
    simp at h
    subst h
    cases hx)

/-- The handler of the message `[7]` waits, and the next message and a part of a third arrive: the stream is passed `[7]` twice. -/
example : ∃ r, lambda 30 ⟨none, 0, false⟩ [0, 0, 0, 0, 1, 7] [[.chunk [0, 0, 0, 0, 1, 8, 0, 0, 0, 0, 2, 1]]] = .ok r ∧ r.2.1 = [[7], [7], [8]] := ⟨_, rfl, by decide⟩

/-- The handler of `[7]` waits and the message `[8]` arrives. -/
example : ∃ N, ∀ k, N ≤ k → lambda k ⟨none, 0, false⟩ [0, 0, 0, 0, 1, 7] [[.chunk [0, 0, 0, 0, 1, 8]]] = .ub :=
  C113_wait_violated (m := [7]) (f := [0, 0, 0, 0, 1, 7]) (rest := []) (x := [0, 0, 0, 0, 1, 8]) (ms := [[8]]) ⟨[0, 0, 0, 1], ⟨0, 0, 0, 1, rfl, rfl⟩, rfl⟩
    (.cons (frame := [0, 0, 0, 0, 1, 8]) ⟨[0, 0, 0, 1], ⟨0, 0, 0, 1, rfl, rfl⟩, rfl⟩ .nil) (by unfold Small; decide) (by intro y hy; simp at hy; subst hy; unfold Small; decide)
    (by intro y hy; simp at hy; rcases hy with rfl | rfl <;> simp) rfl rfl

end QtPb.StreamReenter
