import Verif.Basic
/-
A board that is shown to streams which are taken one after the other: what each of them is shown. Used for the streams of contacts and of the status of the call of the address book
server, which are served alike.
-/
namespace QtPb.Board

inductive Obs (α : Type) where
  | opened (k : Nat)
  | shown (k : Nat) (a : α)
  | posted (a : α)
  | other

structure St (α : Type) where
  cur : α
  n : Nat
  waiting : Bool

/-- One step. -/
inductive Does {α : Type} (s : St α) : St α → List (Obs α) → Prop
  | others (n : Nat) : Does s s (List.replicate n .other)
  | opens : s.waiting = false → Does s ⟨s.cur, s.n + 1, true⟩ [.opened s.n]
  | accepts : s.waiting = true → Does s ⟨s.cur, s.n, false⟩ [.shown (s.n - 1) s.cur]
  | posts (a : α) : Does s ⟨a, s.n, s.waiting⟩ (.posted a :: (List.range (s.n - 1)).map fun k => .shown k a)

/-- A history from the start. -/
inductive Reach {α : Type} (c : α) : St α → List (Obs α) → Prop
  | start : Reach c ⟨c, 0, false⟩ []
  | step {s s' : St α} {t t' : List (Obs α)} : Reach c s t → Does s s' t' → Reach c s' (t ++ t')

def shownTo {α : Type} (k : Nat) (t : List (Obs α)) : List α := t.filterMap fun | .shown j a => if j = k then some a else none | _ => none

def posts {α : Type} (t : List (Obs α)) : List α := t.filterMap fun | .posted a => some a | _ => none

def current {α : Type} (c : α) (t : List (Obs α)) : α := (posts t).getLast?.getD c

variable {α : Type}

theorem shownTo_append (k : Nat) (t u : List (Obs α)) : shownTo k (t ++ u) = shownTo k t ++ shownTo k u := List.filterMap_append
theorem posts_append (t u : List (Obs α)) : posts (t ++ u) = posts t ++ posts u := List.filterMap_append

theorem current_append (c : α) (t u : List (Obs α)) : current c (t ++ u) = current (current c t) u := by
  unfold current
  rw [posts_append, List.getLast?_append]
  cases (posts u).getLast? <;> simp

/-- What a stream is due: 0 before it is shown anything, 1 until the next one is taken, then 2. -/
structure Due (α : Type) where
  cur : α
  phase : Nat
  out : List α

def Due.see (k : Nat) (d : Due α) : Obs α → Due α
  | .posted a => ⟨a, d.phase, if d.phase = 2 then d.out ++ [a] else d.out⟩
  | .shown j _ => if j = k ∧ d.phase = 0 then ⟨d.cur, 1, d.out ++ [d.cur]⟩ else d
  | .opened j => if j = k + 1 ∧ d.phase = 1 then ⟨d.cur, 2, d.out⟩ else d
  | .other => d

def due (c : α) (k : Nat) (t : List (Obs α)) : Due α := t.foldl (Due.see k) ⟨c, 0, []⟩

theorem due_append (c : α) (k : Nat) (t u : List (Obs α)) : due c k (t ++ u) = u.foldl (Due.see k) (due c k t) := List.foldl_append

theorem see_shown (k : Nat) (a : α) (d : Due α) (h : d.phase ≠ 0) : ∀ l : List Nat, (l.map fun j => Obs.shown j a).foldl (Due.see k) d = d
  | [] => rfl
  | j :: l => by
    have : Due.see k d (.shown j a) = d := by simp [Due.see, h]
    rw [List.map_cons, List.foldl_cons, this]
    exact see_shown k a d h l

theorem see_others (k : Nat) (a : α) (d : Due α) : ∀ l : List Nat, k ∉ l → (l.map fun j => Obs.shown j a).foldl (Due.see k) d = d
  | [], _ => rfl
  | j :: l, h => by
    simp only [List.mem_cons, not_or] at h
    have : Due.see k d (.shown j a) = d := by simp [Due.see, Ne.symm h.1]
    rw [List.map_cons, List.foldl_cons, this]
    exact see_others k a d l h.2

theorem see_replicate (k : Nat) (d : Due α) : ∀ n : Nat, (List.replicate n (Obs.other : Obs α)).foldl (Due.see k) d = d
  | 0 => rfl
  | n + 1 => by
    rw [List.replicate_succ, List.foldl_cons]
    exact see_replicate k d n

theorem shownTo_replicate (k n : Nat) : shownTo k (List.replicate n (Obs.other : Obs α)) = [] := by
  induction n with
  | zero => rfl
  | succ n ih => rw [List.replicate_succ]; exact ih

theorem posts_replicate (n : Nat) : posts (List.replicate n (Obs.other : Obs α)) = [] := by
  induction n with
  | zero => rfl
  | succ n ih => rw [List.replicate_succ]; exact ih

theorem shownTo_range (k n : Nat) (a : α) : shownTo k ((List.range n).map fun j => Obs.shown j a) = if k < n then [a] else [] := by
  induction n with
  | zero => simp [shownTo]
  | succ n ih =>
    rw [List.range_succ, List.map_append, shownTo_append, ih]
    by_cases h1 : k < n
    · have : n ≠ k := by omega
      simp [shownTo, h1, this, Nat.lt_succ_of_lt h1]
    · by_cases h2 : n = k
      · subst h2; simp [shownTo]
      · have : ¬ k < n + 1 := by omega
        simp [shownTo, h1, h2, this]

/-- How the state is related to what was observed. -/
structure Inv (c : α) (s : St α) (t : List (Obs α)) : Prop where
  some : s.waiting = true → 0 < s.n
  cur : ∀ k, (due c k t).cur = s.cur
  out : ∀ k, (due c k t).out = shownTo k t
  phase : ∀ k, (due c k t).phase = if k + 1 < s.n then 2 else if k + 1 = s.n ∧ s.waiting = false then 1 else 0

theorem Inv.start (c : α) : Inv c ⟨c, 0, false⟩ [] := by
  constructor <;> simp [due, shownTo]

theorem Inv.step {c : α} {s : St α} {t : List (Obs α)} {s' : St α} {t' : List (Obs α)} (h : Inv c s t) (hd : Does s s' t') : Inv c s' (t ++ t') := by
  cases hd with
  | others n =>
    have hp : ∀ k, due c k (t ++ List.replicate n .other) = due c k t := fun k => by rw [due_append, see_replicate]
    have hs : ∀ k, shownTo k (t ++ List.replicate n Obs.other) = shownTo k t := fun k => by rw [shownTo_append, shownTo_replicate, List.append_nil]
    exact ⟨h.some, fun k => by rw [hp]; exact h.cur k, fun k => by rw [hp, hs]; exact h.out k, fun k => by rw [hp]; exact h.phase k⟩
  | opens hw =>
    have hp : ∀ k, due c k (t ++ [.opened s.n]) = if s.n = k + 1 then ⟨s.cur, 2, shownTo k t⟩ else due c k t := by
      intro k
      rw [due_append]
      simp only [List.foldl_cons, List.foldl_nil, Due.see, h.phase, hw]
      by_cases hk : s.n = k + 1
      · rw [if_pos hk, if_pos, h.cur, h.out]
        refine ⟨hk, ?_⟩
        rw [if_neg (by omega), if_pos (by simp; omega)]
      · rw [if_neg hk, if_neg (fun hc => hk hc.1)]
    have hs : ∀ k, shownTo k (t ++ [Obs.opened s.n]) = shownTo k t := fun k => by rw [shownTo_append]; simp [shownTo]
    refine ⟨fun _ => by simp, fun k => ?_, fun k => ?_, fun k => ?_⟩
    · rw [hp]; split
      · rfl
      · exact h.cur k
    · rw [hp, hs]; split
      · rfl
      · exact h.out k
    · rw [hp]; dsimp only; split
      · rename_i hk; rw [if_pos (by omega)]
      · rename_i hk
        rw [h.phase]
        by_cases h1 : k + 1 < s.n
        · rw [if_pos h1, if_pos (by omega)]
        · rw [if_neg h1, if_neg (fun hc => hk hc.1.symm), if_neg (by omega)]
          simp
  | accepts hw =>
    have hpos := h.some hw
    have hp : ∀ k, due c k (t ++ [.shown (s.n - 1) s.cur]) = if s.n = k + 1 then ⟨s.cur, 1, shownTo k t ++ [s.cur]⟩ else due c k t := by
      intro k
      rw [due_append]
      simp only [List.foldl_cons, List.foldl_nil, Due.see, h.phase, hw]
      by_cases hk : s.n = k + 1
      · rw [if_pos hk, if_pos ⟨by omega, by rw [if_neg (by omega), if_neg (by simp)]⟩, h.cur, h.out]
      · rw [if_neg hk, if_neg (fun hc => hk (by omega))]
    have hs : ∀ k, shownTo k (t ++ [Obs.shown (s.n - 1) s.cur]) = if s.n = k + 1 then shownTo k t ++ [s.cur] else shownTo k t := by
      intro k
      rw [shownTo_append]
      by_cases hk : s.n = k + 1
      · have : s.n - 1 = k := by omega
        simp [shownTo, hk]
      · have : s.n - 1 ≠ k := by omega
        simp [shownTo, hk, this]
    refine ⟨fun hc => (by cases hc), fun k => ?_, fun k => ?_, fun k => ?_⟩
    · rw [hp]; split
      · rfl
      · exact h.cur k
    · rw [hp, hs]; split
      · rfl
      · exact h.out k
    · rw [hp]; dsimp only; split
      · rename_i hk; rw [if_neg (by omega), if_pos ⟨by omega, rfl⟩]
      · rename_i hk
        rw [h.phase]
        by_cases h1 : k + 1 < s.n
        · rw [if_pos h1, if_pos h1]
        · rw [if_neg h1, if_neg h1, if_neg (by simp [hw]), if_neg (fun hc => hk hc.1.symm)]
  | posts a =>
    have hp : ∀ k, due c k (t ++ (.posted a :: (List.range (s.n - 1)).map fun j => .shown j a)) =
        ⟨a, (due c k t).phase, if k + 1 < s.n then shownTo k t ++ [a] else shownTo k t⟩ := by
      intro k
      rw [due_append, List.foldl_cons]
      have e1 : Due.see k (due c k t) (.posted a) = ⟨a, (due c k t).phase, if k + 1 < s.n then shownTo k t ++ [a] else shownTo k t⟩ := by
        simp only [Due.see, h.out]
        congr 1
        rw [h.phase]
        by_cases h1 : k + 1 < s.n
        · simp [h1]
        · rw [if_neg h1, if_neg h1]
          split <;> simp_all
      rw [e1]
      by_cases h1 : k + 1 < s.n
      · refine see_shown k _ _ ?_ _
        dsimp only
        rw [h.phase, if_pos h1]
        simp
      · exact see_others k _ _ _ (by simp; omega)
    have hs : ∀ k, shownTo k (t ++ (.posted a :: (List.range (s.n - 1)).map fun j => .shown j a)) =
        if k + 1 < s.n then shownTo k t ++ [a] else shownTo k t := by
      intro k
      rw [shownTo_append]
      have : ∀ u, shownTo k (.posted a :: u) = shownTo k u := fun u => rfl
      rw [this, shownTo_range]
      by_cases h1 : k + 1 < s.n
      · rw [if_pos (by omega), if_pos h1]
      · rw [if_neg (by omega), if_neg h1]; simp
    exact ⟨h.some, fun k => by rw [hp], fun k => by rw [hp, hs], fun k => by rw [hp]; exact h.phase k⟩

theorem Reach.inv {c : α} {s : St α} {t : List (Obs α)} (h : Reach c s t) : Inv c s t := by
  induction h with
  | start => exact .start c
  | step _ hd ih => exact ih.step hd

theorem due_before {k : Nat} : ∀ {l : List (Obs α)}, (∀ a, .shown k a ∉ l) → ∀ c, l.foldl (Due.see k) ⟨c, 0, []⟩ = ⟨current c l, 0, []⟩
  | [], _, c => by simp [current, posts]
  | o :: l, h1, c => by
    have i1 : ∀ a, .shown k a ∉ l := fun a hm => h1 a (List.mem_cons_of_mem _ hm)
    rw [List.foldl_cons, ← List.singleton_append, current_append]
    cases o with
    | posted a =>
      have : Due.see k ⟨c, 0, []⟩ (.posted a) = ⟨a, 0, []⟩ := by simp [Due.see]
      rw [this, due_before i1]
      simp [current, posts]
    | shown j a =>
      have hj : j ≠ k := by rintro rfl; exact h1 a List.mem_cons_self
      have : Due.see k ⟨c, 0, []⟩ (.shown j a) = ⟨c, 0, []⟩ := by simp [Due.see, hj]
      rw [this, due_before i1]
      rfl
    | opened j =>
      have : Due.see k ⟨c, 0, []⟩ (.opened j) = ⟨c, 0, []⟩ := by simp [Due.see]
      rw [this, due_before i1]
      rfl
    | other => exact due_before i1 c

theorem due_between {k : Nat} {o : List α} : ∀ {l : List (Obs α)}, .opened (k + 1) ∉ l → ∀ c, l.foldl (Due.see k) ⟨c, 1, o⟩ = ⟨current c l, 1, o⟩
  | [], _, c => by simp [current, posts]
  | x :: l, h, c => by
    have i : .opened (k + 1) ∉ l := fun hm => h (List.mem_cons_of_mem _ hm)
    rw [List.foldl_cons, ← List.singleton_append, current_append]
    cases x with
    | posted a =>
      have : Due.see k ⟨c, 1, o⟩ (.posted a) = ⟨a, 1, o⟩ := by simp [Due.see]
      rw [this, due_between i]
      simp [current, posts]
    | shown j a =>
      have : Due.see k ⟨c, 1, o⟩ (.shown j a) = ⟨c, 1, o⟩ := by simp [Due.see]
      rw [this, due_between i]
      rfl
    | opened j =>
      have hj : j ≠ k + 1 := by rintro rfl; exact h List.mem_cons_self
      have : Due.see k ⟨c, 1, o⟩ (.opened j) = ⟨c, 1, o⟩ := by simp [Due.see, hj]
      rw [this, due_between i]
      rfl
    | other => exact due_between i c

theorem due_after {k : Nat} : ∀ (l : List (Obs α)) (c : α) (o : List α), (l.foldl (Due.see k) ⟨c, 2, o⟩).out = o ++ posts l
  | [], c, o => by simp [posts]
  | x :: l, c, o => by
    rw [List.foldl_cons]
    cases x with
    | posted a =>
      have : Due.see k ⟨c, 2, o⟩ (.posted a) = ⟨a, 2, o ++ [a]⟩ := by simp [Due.see]
      rw [this, due_after l]
      simp [posts]
    | shown j a =>
      have : Due.see k ⟨c, 2, o⟩ (.shown j a) = ⟨c, 2, o⟩ := by simp [Due.see]
      rw [this, due_after l]
      rfl
    | opened j =>
      have : Due.see k ⟨c, 2, o⟩ (.opened j) = ⟨c, 2, o⟩ := by simp [Due.see]
      rw [this, due_after l]
      rfl
    | other => exact due_after l c o

theorem Reach.shown {c : α} {s : St α} {t : List (Obs α)} (h : Reach c s t) {k : Nat} {pre mid post : List (Obs α)} {first : α}
    (h1 : ∀ a, .shown k a ∉ pre) (h3 : .opened (k + 1) ∉ mid) :
    (t = pre ++ .shown k first :: mid → shownTo k t = [current c pre]) ∧
    (t = pre ++ .shown k first :: (mid ++ .opened (k + 1) :: post) → shownTo k t = current c pre :: posts post) := by
  have hi := h.inv
  have hd : ∀ l, t = pre ++ .shown k first :: l → shownTo k t = (l.foldl (Due.see k) ⟨current c pre, 1, [current c pre]⟩).out := by
    intro l e
    rw [← hi.out k, e, due_append]
    unfold due
    rw [due_before h1, List.foldl_cons]
    simp [Due.see]
  refine ⟨fun e => ?_, fun e => ?_⟩
  · rw [hd _ e, due_between h3]
  · rw [hd _ e, List.foldl_append, due_between h3, List.foldl_cons]
    have : Due.see k ⟨current (current c pre) mid, 1, [current c pre]⟩ (.opened (k + 1)) = ⟨current (current c pre) mid, 2, [current c pre]⟩ := by simp [Due.see]
    rw [this, due_after]
    rfl

theorem Reach.cur {c : α} {s : St α} {t : List (Obs α)} (h : Reach c s t) : s.cur = current c t := by
  induction h with
  | start => rfl
  | @step s s' t t' hr hd ih =>
    rw [current_append, ← ih]
    cases hd with
    | others n => simp [current, posts_replicate]
    | opens => rfl
    | accepts => rfl
    | posts a =>
      have : posts ((List.range (s.n - 1)).map fun k => Obs.shown k a) = [] := by
        unfold posts
        rw [List.filterMap_map, List.filterMap_eq_nil_iff]
        intro _ _
        rfl
      have e : posts (Obs.posted a :: (List.range (s.n - 1)).map fun k => Obs.shown k a) = [a] := by
        have : ∀ u, posts (.posted a :: u) = a :: posts u := fun u => rfl
        rw [this, ‹posts _ = []›]
      simp [current, e]

end QtPb.Board
