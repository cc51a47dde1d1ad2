import Verif.SpecChatServer
/-
Property theorems: C112, the server of the chat example.
-/
namespace QtPb.ChatServer
open Spec

/-! ### Who is let in -/

/-- What the loop makes of an entry. -/
def field (n : Nat) (e : Entry) : Bytes := resize n ((e.value ++ e.behind.getD []).takeWhile (· ≠ 0))

theorem keys_ne : userName ≠ userPassword := by decide

def lastOf (key : Bytes) (md : List Entry) : Option Entry := (md.filter fun e => e.key = key).getLast?

theorem lastOf_cons (key : Bytes) (e : Entry) (md : List Entry) :
    lastOf key (e :: md) = (lastOf key md).or (if e.key = key then some e else none) := by
  unfold lastOf
  by_cases h : e.key = key
  · rw [List.filter_cons_of_pos (by simpa using h), List.getLast?_cons, if_pos h]
    cases (List.filter (fun e => decide (e.key = key)) md).getLast? <;> rfl
  · rw [List.filter_cons_of_neg (by simpa using h), if_neg h]
    simp

theorem extract_eq : ∀ (md : List Entry) (c : Bytes × Bytes), Readable md →
    extract md c = .ok (((lastOf userName md).map (field 5)).getD c.1, ((lastOf userPassword md).map (field 32)).getD c.2)
  | [], c, _ => rfl
  | e :: md, c, h => by
    obtain ⟨rest, hr⟩ := Option.isSome_iff_exists.1 (h e List.mem_cons_self)
    have hc : cString e = .ok ((e.value ++ rest).takeWhile (· ≠ 0)) := by simp [cString, hr]
    have hf : ∀ n, field n e = resize n ((e.value ++ rest).takeWhile (· ≠ 0)) := fun n => by simp [field, hr]
    have ih := fun c => extract_eq md c fun x hx => h x (List.mem_cons_of_mem _ hx)
    rw [lastOf_cons, lastOf_cons]
    unfold extract
    by_cases h1 : e.key = userName
    · have h2 : e.key ≠ userPassword := by rw [h1]; exact keys_ne
      rw [if_pos h1, if_neg h2, hc]
      simp only [Res.bind, ih, ← hf, if_pos h1, if_neg h2]
      cases lastOf userName md <;> simp
    · rw [if_neg h1]
      by_cases h2 : e.key = userPassword
      · rw [if_pos h2, hc]
        simp only [Res.bind, ih, ← hf, if_pos h2, if_neg h1]
        cases lastOf userPassword md <;> simp
      · rw [if_neg h2]
        simp only [Res.bind, ih, if_neg h1, if_neg h2]
        simp

theorem takeWhile_append {v r : Bytes} (h : 0 ∉ v) : (v ++ r).takeWhile (· ≠ 0) = v ++ r.takeWhile (· ≠ 0) := by
  induction v with
  | nil => rfl
  | cons x v ih =>
    simp only [List.mem_cons, not_or] at h
    have hx : x ≠ 0 := fun e => h.1 e.symm
    rw [List.cons_append, List.takeWhile_cons_of_pos (by simpa using hx), ih h.2]
    rfl

theorem field_eq {n : Nat} {e : Entry} (h0 : 0 ∉ e.value) (hl : e.value.length = n) : field n e = e.value := by
  unfold field
  rw [takeWhile_append h0]
  unfold resize
  rw [← hl, List.take_left]
  simp

theorem extract_given {md : List Entry} {name hash : Bytes} (hr : Readable md) (hg : Gives md name hash) : extract md ([], []) = .ok (name, hash) := by
  obtain ⟨h1, h2, h3, h4, h5, h6⟩ := hg
  obtain ⟨e, he, rfl⟩ := Option.map_eq_some_iff.1 h1
  obtain ⟨f, hf, rfl⟩ := Option.map_eq_some_iff.1 h2
  rw [extract_eq md _ hr]
  unfold lastOf
  rw [he, hf]
  simp [field_eq h5 h3, field_eq h6 h4]

theorem check_iff {name hash : Bytes} : check name hash = true ↔ IsUser name hash := by
  unfold check IsUser
  rw [List.any_eq_true]
  constructor
  · rintro ⟨u, hu, h⟩
    simp only [Bool.and_eq_true, beq_iff_eq] at h
    rw [← h.1, ← h.2]
    exact hu
  · intro h
    exact ⟨_, h, by simp⟩

/-- **C112**, partial: a message of a user of the chat is stored, with the name of this user and otherwise as it was sent, whatever name it contains, and is written to
subscribers; that of anyone else is refused and changes nothing. Whatever is behind the values in memory.

Missing: names and hashes of other lengths, see `C112_longer_violated` and `C112_memory_violated`, and calls before the server is ready, see `C112_early_violated`. -/
theorem C112_send_partial {md : List Entry} {name hash : Bytes} (hr : Readable md) (hg : Gives md name hash) (s : Server) (hw : 0 < s.writers) (m : Msg) :
    (IsUser name hash → ∃ os, step s (.send md m) = .ok (⟨s.messages ++ [{ m with sender := name }], s.writers, s.waiting⟩, .added { m with sender := name } :: os)) ∧
    (¬ IsUser name hash → step s (.send md m) = .ok (s, [.refused])) := by
  unfold step
  simp only [extract_given hr hg, Res.bind]
  refine ⟨fun h => ?_, fun h => ?_⟩
  · rw [if_pos (check_iff.2 h), updateMessages, if_neg (by omega)]
    exact ⟨_, rfl⟩
  · rw [if_neg (fun h' => h (check_iff.1 h'))]

/-- **C112**, partial: a user of the chat that subscribes is shown the chat so far; anyone else is shown nothing and the stream is finished. -/
theorem C112_subscribe_partial {md : List Entry} {name hash : Bytes} (hr : Readable md) (hg : Gives md name hash) {s : Server} (hw : s.waiting = true) :
    (IsUser name hash → ∃ s', step s (.subscribe md) = .ok (s', [.shown (s.writers - 1) s.messages]) ∧ s'.messages = s.messages) ∧
    (¬ IsUser name hash → ∃ s', step s (.subscribe md) = .ok (s', [.finished (s.writers - 1)]) ∧ s'.messages = s.messages) := by
  unfold step
  simp only [extract_given hr hg, Res.bind, hw, if_true]
  refine ⟨fun h => ?_, fun h => ?_⟩
  · rw [if_pos (check_iff.2 h)]
    exact ⟨_, rfl, rfl⟩
  · rw [if_neg (fun h' => h (check_iff.1 h'))]
    exact ⟨_, rfl, rfl⟩

/-! ### What is stored -/

theorem run_cons {s : Server} {e : Ev} {es : List Ev} {s' : Server} {t : List Obs} (h : run s (e :: es) = .ok (s', t)) :
    ∃ s1 t1 t2, step s e = .ok (s1, t1) ∧ run s1 es = .ok (s', t2) ∧ t = t1 ++ t2 := by
  unfold run at h
  obtain ⟨⟨s1, t1⟩, h1, h2⟩ := Res.bind_eq_ok.1 h
  obtain ⟨⟨s2, t2⟩, h3, h4⟩ := Res.bind_eq_ok.1 h2
  cases h4
  exact ⟨s1, t1, t2, h1, h3, rfl⟩

/-- What one step does. -/
inductive Does (s : Server) : Ev → Server → List Obs → Prop
  | idle (e : Ev) : Does s e s []
  | handler : s.waiting = false → Does s .handler ⟨s.messages, s.writers + 1, true⟩ [.opened s.writers]
  | welcome (md : List Entry) : s.waiting = true → Does s (.subscribe md) ⟨s.messages, s.writers, false⟩ [.shown (s.writers - 1) s.messages]
  | finish (md : List Entry) : s.waiting = true → Does s (.subscribe md) ⟨s.messages, s.writers, false⟩ [.finished (s.writers - 1)]
  | refuse (md : List Entry) (m : Msg) : Does s (.send md m) s [.refused]
  | add (md : List Entry) (m : Msg) (name hash : Bytes) : IsUser name hash → 0 < s.writers →
      Does s (.send md m) ⟨s.messages ++ [{ m with sender := name }], s.writers, s.waiting⟩
        (.added { m with sender := name } :: (List.range (s.writers - 1)).map fun k => .shown k (s.messages ++ [{ m with sender := name }]))

theorem step_does {s : Server} {e : Ev} {s' : Server} {t : List Obs} (h : step s e = .ok (s', t)) : Does s e s' t := by
  cases e with
  | handler =>
    unfold step at h
    dsimp only at h
    cases hw : s.waiting with
    | true => rw [hw, if_pos rfl] at h; cases h; exact .idle _
    | false => rw [hw] at h; cases h; exact .handler hw
  | subscribe md =>
    unfold step at h
    dsimp only at h
    cases hw : s.waiting with
    | false => rw [hw] at h; cases h; exact .idle _
    | true =>
      rw [hw, if_pos rfl] at h
      obtain ⟨c, -, h⟩ := Res.bind_eq_ok.1 h
      by_cases hc : check c.1 c.2 = true
      · rw [if_pos hc] at h; cases h; exact .welcome md hw
      · rw [if_neg hc] at h; cases h; exact .finish md hw
  | send md m =>
    unfold step at h
    dsimp only at h
    obtain ⟨c, -, h⟩ := Res.bind_eq_ok.1 h
    by_cases hc : check c.1 c.2 = true
    · rw [if_pos hc] at h
      obtain ⟨os, h1, h2⟩ := Res.bind_eq_ok.1 h
      unfold updateMessages at h1
      by_cases hw : s.writers = 0
      · rw [if_pos hw] at h1; cases h1
      · rw [if_neg hw] at h1
        cases h1
        cases h2
        exact .add md m c.1 c.2 (check_iff.1 hc) (by omega)
    · rw [if_neg hc] at h; cases h; exact .refuse md m

theorem chat_append (t u : List Obs) : chat (t ++ u) = chat t ++ chat u := List.filterMap_append
theorem shownTo_append (k : Nat) (t u : List Obs) : shownTo k (t ++ u) = shownTo k t ++ shownTo k u := List.filterMap_append

theorem chat_map (ms : List Msg) (l : List Nat) : chat (l.map fun k => .shown k ms) = [] := by
  unfold chat
  rw [List.filterMap_map, List.filterMap_eq_nil_iff]
  intro _ _
  rfl

/-- C112: no message of anyone but a user is ever stored, every one is by its sender, and the rest of it is as it was sent. -/
theorem C112_sender : ∀ {es : List Ev} {s s' : Server} {t : List Obs}, run s es = .ok (s', t) → s'.messages = s.messages ++ chat t ∧
    ∀ m ∈ chat t, (∃ hash, IsUser m.sender hash) ∧ ∃ md m0, .send md m0 ∈ es ∧ m = { m0 with sender := m.sender }
  | [], s, s', t, h => by
    unfold run at h
    cases h
    exact ⟨by simp [chat], fun m hm => by simp [chat] at hm⟩
  | e :: es, s, s', t, h => by
    obtain ⟨s1, t1, t2, h1, h2, rfl⟩ := run_cons h
    obtain ⟨i1, i2⟩ := C112_sender h2
    have hd := step_does h1
    have key : s1.messages = s.messages ++ chat t1 ∧ ∀ m ∈ chat t1, (∃ hash, IsUser m.sender hash) ∧ ∃ md m0, .send md m0 ∈ e :: es ∧ m = { m0 with sender := m.sender } := by
      cases hd with
      | idle => exact ⟨by simp [chat], fun m hm => by simp [chat] at hm⟩
      | handler => exact ⟨by simp [chat], fun m hm => by simp [chat] at hm⟩
      | welcome => exact ⟨by simp [chat], fun m hm => by simp [chat] at hm⟩
      | finish => exact ⟨by simp [chat], fun m hm => by simp [chat] at hm⟩
      | refuse => exact ⟨by simp [chat], fun m hm => by simp [chat] at hm⟩
      | add md m name hash hu hw =>
        have hc : ∀ l : List Nat, chat (.added { m with sender := name } :: l.map fun k => .shown k (s.messages ++ [{ m with sender := name }])) = [{ m with sender := name }] := by
          intro l
          have := chat_map (s.messages ++ [{ m with sender := name }]) l
          simp only [chat, List.filterMap_cons] at this ⊢
          rw [this]
        rw [hc]
        refine ⟨rfl, fun m' hm' => ?_⟩
        rw [List.mem_singleton] at hm'
        subst hm'
        exact ⟨⟨hash, hu⟩, md, m, List.mem_cons_self, rfl⟩
    refine ⟨by rw [i1, key.1, chat_append, List.append_assoc], fun m hm => ?_⟩
    rw [chat_append, List.mem_append] at hm
    rcases hm with hm | hm
    · exact key.2 m hm
    · obtain ⟨a1, md, m0, a2, a3⟩ := i2 m hm
      exact ⟨a1, md, m0, List.mem_cons_of_mem _ a2, a3⟩

/-! ### What is shown -/

/-- What a stream is due, computed from the observations without those that are written to it after the first. -/
structure Due where
  chat : List Msg
  phase : Nat
  out : List (List Msg)

def Due.see (k : Nat) (d : Due) : Obs → Due
  | .added m => ⟨d.chat ++ [m], d.phase, if d.phase = 2 then d.out ++ [d.chat ++ [m]] else d.out⟩
  | .shown j _ => if j = k ∧ d.phase = 0 then ⟨d.chat, 1, d.out ++ [d.chat]⟩ else d
  | .finished j => if j = k ∧ d.phase = 0 then ⟨d.chat, 1, d.out⟩ else d
  | .opened j => if j = k + 1 ∧ d.phase = 1 then ⟨d.chat, 2, d.out⟩ else d
  | .refused => d

def due (k : Nat) (t : List Obs) : Due := t.foldl (Due.see k) ⟨[], 0, []⟩

theorem due_append (k : Nat) (t u : List Obs) : due k (t ++ u) = u.foldl (Due.see k) (due k t) := List.foldl_append

theorem see_shown (k : Nat) (ms : List Msg) (d : Due) (h : d.phase ≠ 0) : ∀ l : List Nat, (l.map fun j => Obs.shown j ms).foldl (Due.see k) d = d
  | [] => rfl
  | j :: l => by
    have : Due.see k d (.shown j ms) = d := by simp [Due.see, h]
    rw [List.map_cons, List.foldl_cons, this]
    exact see_shown k ms d h l

theorem see_others (k : Nat) (ms : List Msg) (d : Due) : ∀ l : List Nat, k ∉ l → (l.map fun j => Obs.shown j ms).foldl (Due.see k) d = d
  | [], _ => rfl
  | j :: l, h => by
    simp only [List.mem_cons, not_or] at h
    have : Due.see k d (.shown j ms) = d := by simp [Due.see, Ne.symm h.1]
    rw [List.map_cons, List.foldl_cons, this]
    exact see_others k ms d l h.2

theorem shownTo_range (k n : Nat) (ms : List Msg) : shownTo k ((List.range n).map fun j => Obs.shown j ms) = if k < n then [ms] else [] := by
  induction n with
  | zero => simp [shownTo]
  | succ n ih =>
    rw [List.range_succ, List.map_append, shownTo_append, ih]
    by_cases h1 : k < n
    · have : n ≠ k := by omega
      simp [shownTo, h1, this, Nat.lt_succ_of_lt h1]
    · by_cases h2 : n = k
      · subst h2; simp [shownTo]
      · have : ¬ k < n + 1 := by omega
        simp [shownTo, h1, h2, this]

/-- The invariant: how the state of the server is related to what was observed. -/
structure Inv (s : Server) (t : List Obs) : Prop where
  some : s.waiting = true → 0 < s.writers
  chat : ∀ k, (due k t).chat = s.messages
  out : ∀ k, (due k t).out = shownTo k t
  phase : ∀ k, (due k t).phase = if k + 1 < s.writers then 2 else if k + 1 = s.writers ∧ s.waiting = false then 1 else 0

theorem Inv.start : Inv .started [] := by
  constructor <;> simp [Server.started, due, shownTo]

theorem Inv.step {s : Server} {t : List Obs} {e : Ev} {s' : Server} {t' : List Obs} (h : Inv s t) (hd : Does s e s' t') : Inv s' (t ++ t') := by
  cases hd with
  | idle => simpa using h
  | handler hw =>
    have hp : ∀ k, due k (t ++ [.opened s.writers]) = if s.writers = k + 1 then ⟨s.messages, 2, shownTo k t⟩ else due k t := by
      intro k
      rw [due_append]
      simp only [List.foldl_cons, List.foldl_nil, Due.see, h.phase, hw]
      by_cases hk : s.writers = k + 1
      · rw [if_pos hk, if_pos, h.chat, h.out]
        refine ⟨hk, ?_⟩
        rw [if_neg (by omega), if_pos (by simp; omega)]
      · rw [if_neg hk, if_neg (fun hc => hk hc.1)]
    have hs : ∀ k, shownTo k (t ++ [Obs.opened s.writers]) = shownTo k t := fun k => by rw [shownTo_append]; simp [shownTo]
    refine ⟨fun _ => by simp, fun k => ?_, fun k => ?_, fun k => ?_⟩
    · rw [hp]; split
      · rfl
      · exact h.chat k
    · rw [hp, hs]; split
      · rfl
      · exact h.out k
    · rw [hp]; dsimp only; split
      · rename_i hk; rw [if_pos (by omega)]
      · rename_i hk
        rw [h.phase]
        by_cases h1 : k + 1 < s.writers
        · rw [if_pos h1, if_pos (by omega)]
        · rw [if_neg h1, if_neg (fun hc => hk hc.1.symm), if_neg (by omega)]
          simp
  | welcome md hw =>
    have hpos := h.some hw
    have hp : ∀ k, due k (t ++ [.shown (s.writers - 1) s.messages]) = if s.writers = k + 1 then ⟨s.messages, 1, shownTo k t ++ [s.messages]⟩ else due k t := by
      intro k
      rw [due_append]
      simp only [List.foldl_cons, List.foldl_nil, Due.see, h.phase, hw]
      by_cases hk : s.writers = k + 1
      · rw [if_pos hk, if_pos ⟨by omega, by rw [if_neg (by omega), if_neg (by simp)]⟩, h.chat, h.out]
      · rw [if_neg hk, if_neg (fun hc => hk (by omega))]
    have hs : ∀ k, shownTo k (t ++ [Obs.shown (s.writers - 1) s.messages]) = if s.writers = k + 1 then shownTo k t ++ [s.messages] else shownTo k t := by
      intro k
      rw [shownTo_append]
      by_cases hk : s.writers = k + 1
      · have : s.writers - 1 = k := by omega
        simp [shownTo, hk]
      · have : s.writers - 1 ≠ k := by omega
        simp [shownTo, hk, this]
    refine ⟨fun hc => (by cases hc), fun k => ?_, fun k => ?_, fun k => ?_⟩
    · rw [hp]; split
      · rfl
      · exact h.chat k
    · rw [hp, hs]; split
      · rfl
      · exact h.out k
    · rw [hp]; dsimp only; split
      · rename_i hk; rw [if_neg (by omega), if_pos ⟨by omega, rfl⟩]
      · rename_i hk
        rw [h.phase]
        by_cases h1 : k + 1 < s.writers
        · rw [if_pos h1, if_pos h1]
        · rw [if_neg h1, if_neg h1, if_neg (by simp [hw]), if_neg (fun hc => hk hc.1.symm)]
  | finish md hw =>
    have hpos := h.some hw
    have hp : ∀ k, due k (t ++ [.finished (s.writers - 1)]) = if s.writers = k + 1 then ⟨s.messages, 1, shownTo k t⟩ else due k t := by
      intro k
      rw [due_append]
      simp only [List.foldl_cons, List.foldl_nil, Due.see, h.phase, hw]
      by_cases hk : s.writers = k + 1
      · rw [if_pos hk, if_pos ⟨by omega, by rw [if_neg (by omega), if_neg (by simp)]⟩, h.chat, h.out]
      · rw [if_neg hk, if_neg (fun hc => hk (by omega))]
    have hs : ∀ k, shownTo k (t ++ [Obs.finished (s.writers - 1)]) = shownTo k t := fun k => by rw [shownTo_append]; simp [shownTo]
    refine ⟨fun hc => (by cases hc), fun k => ?_, fun k => ?_, fun k => ?_⟩
    · rw [hp]; split
      · rfl
      · exact h.chat k
    · rw [hp, hs]; split
      · rfl
      · exact h.out k
    · rw [hp]; dsimp only; split
      · rename_i hk; rw [if_neg (by omega), if_pos ⟨by omega, rfl⟩]
      · rename_i hk
        rw [h.phase]
        by_cases h1 : k + 1 < s.writers
        · rw [if_pos h1, if_pos h1]
        · rw [if_neg h1, if_neg h1, if_neg (by simp [hw]), if_neg (fun hc => hk hc.1.symm)]
  | refuse md m =>
    have hp : ∀ k, due k (t ++ [.refused]) = due k t := fun k => by rw [due_append]; rfl
    have hs : ∀ k, shownTo k (t ++ [Obs.refused]) = shownTo k t := fun k => by rw [shownTo_append]; simp [shownTo]
    exact ⟨h.some, fun k => by rw [hp]; exact h.chat k, fun k => by rw [hp, hs]; exact h.out k, fun k => by rw [hp]; exact h.phase k⟩
  | add md m name hash hu hw =>
    have hp : ∀ k (m' : Msg), due k (t ++ (.added m' :: (List.range (s.writers - 1)).map fun j => .shown j (s.messages ++ [m']))) =
        ⟨s.messages ++ [m'], (due k t).phase, if k + 1 < s.writers then shownTo k t ++ [s.messages ++ [m']] else shownTo k t⟩ := by
      intro k m'
      rw [due_append, List.foldl_cons]
      have e1 : Due.see k (due k t) (.added m') = ⟨s.messages ++ [m'], (due k t).phase, if k + 1 < s.writers then shownTo k t ++ [s.messages ++ [m']] else shownTo k t⟩ := by
        simp only [Due.see, h.chat, h.out]
        congr 1
        rw [h.phase]
        by_cases h1 : k + 1 < s.writers
        · simp [h1]
        · rw [if_neg h1, if_neg h1]
          split <;> simp_all
      rw [e1]
      by_cases h1 : k + 1 < s.writers
      · refine see_shown k _ _ ?_ _
        dsimp only
        rw [h.phase, if_pos h1]
        simp
      · exact see_others k _ _ _ (by simp; omega)
    have hs : ∀ k (m' : Msg), shownTo k (t ++ (.added m' :: (List.range (s.writers - 1)).map fun j => .shown j (s.messages ++ [m']))) =
        if k + 1 < s.writers then shownTo k t ++ [s.messages ++ [m']] else shownTo k t := by
      intro k m'
      rw [shownTo_append]
      have : ∀ u, shownTo k (.added m' :: u) = shownTo k u := fun u => rfl
      rw [this, shownTo_range]
      by_cases h1 : k + 1 < s.writers
      · rw [if_pos (by omega), if_pos h1]
      · rw [if_neg (by omega), if_neg h1]; simp
    exact ⟨h.some, fun k => by rw [hp], fun k => by rw [hp, hs], fun k => by rw [hp]; exact h.phase k⟩

theorem Inv.run : ∀ {es : List Ev} {s s' : Server} {t u : List Obs}, Inv s t → run s es = .ok (s', u) → Inv s' (t ++ u)
  | [], s, s', t, u, hi, h => by
    unfold ChatServer.run at h
    cases h
    simpa using hi
  | e :: es, s, s', t, u, hi, h => by
    obtain ⟨s1, t1, t2, h1, h2, rfl⟩ := run_cons h
    rw [← List.append_assoc]
    exact Inv.run (hi.step (step_does h1)) h2

theorem due_before {k : Nat} : ∀ {l : List Obs}, (∀ ms, .shown k ms ∉ l) → .finished k ∉ l → ∀ c, l.foldl (Due.see k) ⟨c, 0, []⟩ = ⟨c ++ chat l, 0, []⟩
  | [], _, _, c => by simp [chat]
  | o :: l, h1, h2, c => by
    have i1 : ∀ ms, .shown k ms ∉ l := fun ms hm => h1 ms (List.mem_cons_of_mem _ hm)
    have i2 : .finished k ∉ l := fun hm => h2 (List.mem_cons_of_mem _ hm)
    rw [List.foldl_cons]
    cases o with
    | added m =>
      have : Due.see k ⟨c, 0, []⟩ (.added m) = ⟨c ++ [m], 0, []⟩ := by simp [Due.see]
      rw [this, due_before i1 i2]
      simp [chat]
    | shown j ms =>
      have hj : j ≠ k := by rintro rfl; exact h1 ms List.mem_cons_self
      have : Due.see k ⟨c, 0, []⟩ (.shown j ms) = ⟨c, 0, []⟩ := by simp [Due.see, hj]
      rw [this, due_before i1 i2]
      rfl
    | finished j =>
      have hj : j ≠ k := by rintro rfl; exact h2 List.mem_cons_self
      have : Due.see k ⟨c, 0, []⟩ (.finished j) = ⟨c, 0, []⟩ := by simp [Due.see, hj]
      rw [this, due_before i1 i2]
      rfl
    | opened j =>
      have : Due.see k ⟨c, 0, []⟩ (.opened j) = ⟨c, 0, []⟩ := by simp [Due.see]
      rw [this, due_before i1 i2]
      rfl
    | refused => exact due_before i1 i2 c

theorem due_between {k : Nat} {o : List (List Msg)} : ∀ {l : List Obs}, .opened (k + 1) ∉ l → ∀ c, l.foldl (Due.see k) ⟨c, 1, o⟩ = ⟨c ++ chat l, 1, o⟩
  | [], _, c => by simp [chat]
  | x :: l, h, c => by
    have i : .opened (k + 1) ∉ l := fun hm => h (List.mem_cons_of_mem _ hm)
    rw [List.foldl_cons]
    cases x with
    | added m =>
      have : Due.see k ⟨c, 1, o⟩ (.added m) = ⟨c ++ [m], 1, o⟩ := by simp [Due.see]
      rw [this, due_between i]
      simp [chat]
    | shown j ms =>
      have : Due.see k ⟨c, 1, o⟩ (.shown j ms) = ⟨c, 1, o⟩ := by simp [Due.see]
      rw [this, due_between i]
      rfl
    | finished j =>
      have : Due.see k ⟨c, 1, o⟩ (.finished j) = ⟨c, 1, o⟩ := by simp [Due.see]
      rw [this, due_between i]
      rfl
    | opened j =>
      have hj : j ≠ k + 1 := by rintro rfl; exact h List.mem_cons_self
      have : Due.see k ⟨c, 1, o⟩ (.opened j) = ⟨c, 1, o⟩ := by simp [Due.see, hj]
      rw [this, due_between i]
      rfl
    | refused => exact due_between i c

theorem due_after {k : Nat} : ∀ (l : List Obs) (c : List Msg) (o : List (List Msg)), l.foldl (Due.see k) ⟨c, 2, o⟩ = ⟨c ++ chat l, 2, o ++ growing c (chat l)⟩
  | [], c, o => by simp [chat, growing]
  | x :: l, c, o => by
    rw [List.foldl_cons]
    cases x with
    | added m =>
      have : Due.see k ⟨c, 2, o⟩ (.added m) = ⟨c ++ [m], 2, o ++ [c ++ [m]]⟩ := by simp [Due.see]
      rw [this, due_after l]
      simp [chat, growing]
    | shown j ms =>
      have : Due.see k ⟨c, 2, o⟩ (.shown j ms) = ⟨c, 2, o⟩ := by simp [Due.see]
      rw [this, due_after l]
      rfl
    | finished j =>
      have : Due.see k ⟨c, 2, o⟩ (.finished j) = ⟨c, 2, o⟩ := by simp [Due.see]
      rw [this, due_after l]
      rfl
    | opened j =>
      have : Due.see k ⟨c, 2, o⟩ (.opened j) = ⟨c, 2, o⟩ := by simp [Due.see]
      rw [this, due_after l]
      rfl
    | refused => exact due_after l c o

theorem due_shown {es : List Ev} {s : Server} {t : List Obs} (h : run .started es = .ok (s, t)) {k : Nat} {pre post : List Obs} {first : List Msg} (e : t = pre ++ .shown k first :: post)
    (h1 : ∀ ms, .shown k ms ∉ pre) (h2 : .finished k ∉ pre) : shownTo k t = (post.foldl (Due.see k) ⟨chat pre, 1, [chat pre]⟩).out := by
  have hi := Inv.run Inv.start h
  rw [List.nil_append] at hi
  rw [← hi.out k, e, due_append]
  unfold due
  rw [due_before h1 h2, List.foldl_cons]
  simp [Due.see]

/-- **C112**, for all histories: a subscriber that is let in is shown the whole chat so far, at once. From the moment when the server takes the next stream it is shown the whole chat after
each further message, once, in order. -/
theorem C112_shown {es : List Ev} {s : Server} {t : List Obs} (h : run .started es = .ok (s, t)) {k : Nat} {pre mid post : List Obs} {first : List Msg}
    (h1 : ∀ ms, .shown k ms ∉ pre) (h2 : .finished k ∉ pre) (h3 : .opened (k + 1) ∉ mid) :
    (t = pre ++ .shown k first :: mid → shownTo k t = [chat pre]) ∧
    (t = pre ++ .shown k first :: (mid ++ .opened (k + 1) :: post) → shownTo k t = chat pre :: growing (chat (pre ++ mid)) (chat post)) := by
  refine ⟨fun e => ?_, fun e => ?_⟩
  · rw [due_shown h e h1 h2, due_between h3]
  · rw [due_shown h e h1 h2, List.foldl_append, due_between h3, List.foldl_cons]
    have : Due.see k ⟨chat pre ++ chat mid, 1, [chat pre]⟩ (.opened (k + 1)) = ⟨chat pre ++ chat mid, 2, [chat pre]⟩ := by simp [Due.see]
    rw [this, due_after, chat_append]
    rfl

theorem growing_last : ∀ (c ms : List Msg), (c :: growing c ms).getLast? = some (c ++ ms)
  | c, [] => by simp [growing]
  | c, m :: ms => by
    have := growing_last (c ++ [m]) ms
    rw [growing, List.getLast?_cons_cons, this]
    simp

/-- **C112**, partial: what a subscriber has been shown last is the chat, if no message came between its subscription and the moment when the server took the next stream.

Missing: messages that come in between, see `C112_missed_violated`. -/
theorem C112_current_partial {es : List Ev} {s : Server} {t : List Obs} (h : run .started es = .ok (s, t)) {k : Nat} {pre mid post : List Obs} {first : List Msg}
    (h1 : ∀ ms, .shown k ms ∉ pre) (h2 : .finished k ∉ pre) (h3 : .opened (k + 1) ∉ mid) (hq : chat mid = [])
    (he : t = pre ++ .shown k first :: mid ∨ t = pre ++ .shown k first :: (mid ++ .opened (k + 1) :: post)) : (shownTo k t).getLast? = some (chat t) ∧ s.messages = chat t := by
  refine ⟨?_, by simpa [Server.started] using (C112_sender h).1⟩
  rcases he with he | he
  · rw [(C112_shown (post := []) h h1 h2 h3).1 he, he, chat_append]
    have : chat (.shown k first :: mid) = chat mid := rfl
    rw [this, hq]
    simp
  · rw [(C112_shown h h1 h2 h3).2 he, he, chat_append, hq, List.append_nil, growing_last]
    have : chat (pre ++ .shown k first :: (mid ++ .opened (k + 1) :: post)) = chat pre ++ chat post := by
      rw [chat_append]
      have : chat (.shown k first :: (mid ++ .opened (k + 1) :: post)) = chat (mid ++ .opened (k + 1) :: post) := rfl
      rw [this, chat_append, hq]
      rfl
    rw [this]

/-- C112: if values can be read and the main thread has made its first handler before the first message, nothing undefined happens, whatever comes. -/
theorem C112_defined_partial : ∀ (es : List Ev) (s : Server), 0 < s.writers → (∀ md, .subscribe md ∈ es → Readable md) → (∀ md m, .send md m ∈ es → Readable md) →
    ∃ r, run s es = .ok r
  | [], s, _, _, _ => ⟨_, rfl⟩
  | e :: es, s, hw, h1, h2 => by
    have hs : ∃ s' t, step s e = .ok (s', t) := by
      cases e with
      | handler => unfold step; dsimp only; split <;> exact ⟨_, _, rfl⟩
      | subscribe md =>
        unfold step
        dsimp only
        split
        · rw [extract_eq md _ (h1 md List.mem_cons_self)]; exact ⟨_, _, rfl⟩
        · exact ⟨_, _, rfl⟩
      | send md m =>
        unfold step
        dsimp only
        rw [extract_eq md _ (h2 md m List.mem_cons_self)]
        simp only [Res.bind]
        split
        · rw [updateMessages, if_neg (by omega)]; exact ⟨_, _, rfl⟩
        · exact ⟨_, _, rfl⟩
    obtain ⟨s', t, hs⟩ := hs
    have hw' : 0 < s'.writers := by
      have := step_does hs
      cases this <;> first | exact hw | simp
    obtain ⟨r, hr⟩ := C112_defined_partial es s' hw' (fun md hm => h1 md (List.mem_cons_of_mem _ hm)) (fun md m hm => h2 md m (List.mem_cons_of_mem _ hm))
    refine ⟨(r.1, t ++ r.2), ?_⟩
    unfold run
    rw [hs]
    simp only [Res.bind]
    rw [hr]

/-! ### Violations and examples -/

def md1 : List Entry := [⟨userName, [117, 115, 101, 114, 49], some [13, 10]⟩, ⟨userPassword, password, some []⟩]
def md2 : List Entry := [⟨userName, [117, 115, 101, 114, 50], some [1]⟩, ⟨userPassword, password, some [7]⟩]
def nobody : List Entry := [⟨userName, [103, 117, 101, 115, 116], some []⟩, ⟨userPassword, password, some []⟩]
def hello : Msg := ⟨1, [104, 105], 1, [114, 111, 111, 116]⟩

def seen (r : Res (Server × List Obs)) : Option (List Obs) :=
  match r with
  | .ok r => some r.2
  | _ => none

/-- C112 is violated: a name that continues after that of a user, and a hash that continues after that of the password, are taken for these. No user is called so. -/
theorem C112_longer_violated : ∃ md, Readable md ∧ says userName md = some [117, 115, 101, 114, 49, 48] ∧ says userPassword md = some (password ++ [33]) ∧
    (∀ hash, ¬ IsUser [117, 115, 101, 114, 49, 48] hash) ∧ (∀ name, ¬ IsUser name (password ++ [33])) ∧
    step ⟨[], 1, true⟩ (.send md hello) = .ok (⟨[{ hello with sender := [117, 115, 101, 114, 49] }], 1, true⟩, [.added { hello with sender := [117, 115, 101, 114, 49] }]) := by
  refine ⟨[⟨userName, [117, 115, 101, 114, 49, 48], some []⟩, ⟨userPassword, password ++ [33], some []⟩], by intro e he; simp at he; rcases he with rfl | rfl <;> rfl, by decide, by decide, ?_, ?_, by decide⟩
  · intro hash h
    simp [IsUser, users] at h
  · intro name h
    simp [IsUser, users, password] at h

/-- C112 is violated: with a short name it depends on the bytes behind it in memory whether the caller is let in, and reading them may be undefined. -/
theorem C112_memory_violated :
    let caller (behind : Option Bytes) : List Entry := [⟨userName, [117, 115, 101, 114], behind⟩, ⟨userPassword, password, some []⟩]
    seen (step ⟨[], 1, true⟩ (.subscribe (caller (some [49])))) = some [.shown 0 []] ∧ seen (step ⟨[], 1, true⟩ (.subscribe (caller (some [])))) = some [.finished 0] ∧
      step ⟨[], 1, true⟩ (.subscribe (caller none)) = .ub := by decide

/-- C112 is violated: the server is started before its first handler is made. A message that comes in between makes it read beyond an empty vector. -/
theorem C112_early_violated : run .started [.send md1 hello] = .ub := by decide

/-- C112 is violated: a message that comes after a subscriber was shown the chat and before the next handler is made is not written to this subscriber; it is last shown an empty
chat. -/
theorem C112_missed_violated : ∃ t, seen (run .started [.handler, .subscribe md1, .send md2 hello, .handler]) = some t ∧
    shownTo 0 t = [[]] ∧ chat t = [{ hello with sender := [117, 115, 101, 114, 50] }] := ⟨_, rfl, by decide, by decide⟩

/-- C112 is violated: a subscriber that was not let in is written to after its stream was finished, with all messages of the chat. -/
theorem C112_finished_violated : ∃ t, seen (run .started [.handler, .subscribe nobody, .handler, .send md2 hello]) = some t ∧
    .finished 0 ∈ t ∧ shownTo 0 t = [[{ hello with sender := [117, 115, 101, 114, 50] }]] := ⟨_, rfl, by decide, by decide⟩

/-- The theorems apply: two users subscribe, both send. -/
def talk : List Ev := [.handler, .subscribe md1, .handler, .send md1 hello, .subscribe md2, .handler, .send nobody hello, .send md2 { hello with timestamp := 2 }]

example : ∃ s t, run .started talk = .ok (s, t) ∧ (shownTo 0 t).getLast? = some (chat t) ∧ (shownTo 1 t).getLast? = some (chat t) ∧ (chat t).length = 2 ∧
    Readable md1 ∧ Gives md1 [117, 115, 101, 114, 49] password ∧ IsUser [117, 115, 101, 114, 49] password ∧ Gives nobody [103, 117, 101, 115, 116] password := by
  have hr : ∃ r, run .started talk = .ok r := by
    obtain ⟨r, hr⟩ := C112_defined_partial (talk.drop 1) ⟨[], 1, true⟩ (by decide) (by
      intro md hm
      simp [talk] at hm
      rcases hm with rfl | rfl <;> intro e he <;> simp [md1, md2] at he <;> rcases he with rfl | rfl <;> rfl) (by
      intro md m hm
      simp [talk] at hm
      rcases hm with ⟨rfl, -⟩ | ⟨rfl, -⟩ | ⟨rfl, -⟩ <;> intro e he <;> simp [md1, md2, nobody] at he <;> rcases he with rfl | rfl <;> rfl)
    refine ⟨(r.1, .opened 0 :: r.2), ?_⟩
    have : talk = .handler :: talk.drop 1 := rfl
    rw [this, run]
    have e : step .started .handler = .ok (⟨[], 1, true⟩, [.opened 0]) := rfl
    rw [e]
    simp only [Res.bind]
    rw [hr]
    rfl
  obtain ⟨⟨s, t⟩, hr⟩ := hr
  have ht : seen (run .started talk) = some [.opened 0, .shown 0 [], .opened 1, .added { hello with sender := [117, 115, 101, 114, 49] }, .shown 0 [{ hello with sender := [117, 115, 101, 114, 49] }],
      .shown 1 [{ hello with sender := [117, 115, 101, 114, 49] }], .opened 2, .refused, .added { hello with timestamp := 2, sender := [117, 115, 101, 114, 50] },
      .shown 0 [{ hello with sender := [117, 115, 101, 114, 49] }, { hello with timestamp := 2, sender := [117, 115, 101, 114, 50] }],
      .shown 1 [{ hello with sender := [117, 115, 101, 114, 49] }, { hello with timestamp := 2, sender := [117, 115, 101, 114, 50] }]] := by decide +kernel
  rw [hr] at ht
  cases ht
  refine ⟨s, _, hr, ?_, ?_, rfl, by intro e he; simp [md1] at he; rcases he with rfl | rfl <;> rfl, by unfold Gives; decide, by unfold IsUser; decide, by unfold Gives; decide⟩
  · exact (C112_current_partial (k := 0) (pre := [.opened 0]) (mid := []) hr (by simp) (by simp) (by simp) rfl (.inr rfl)).1
  · exact (C112_current_partial (k := 1) (pre := [.opened 0, .shown 0 [], .opened 1, .added { hello with sender := [117, 115, 101, 114, 49] }, .shown 0 [{ hello with sender := [117, 115, 101, 114, 49] }]]) (mid := []) hr
      (by simp) (by simp) (by simp) rfl (.inr rfl)).1

end QtPb.ChatServer
