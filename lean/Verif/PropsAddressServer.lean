import Verif.SpecAddressServer
import Verif.BoardLemmas
/-
Property theorems: C115, the server of the address book example.
-/
namespace QtPb.AddressServer
open Spec

/-! ### Who may add contacts -/

theorem checkLoop_eq : ∀ (md : Metadata) (u p : Bool),
    checkLoop md (u, p) = (u || decide ((userName, authorizedUser) ∈ md), p || decide ((userPassword, passwordHash) ∈ md))
  | [], u, p => by simp [checkLoop]
  | (key, value) :: md, u, p => by
    unfold checkLoop
    rw [checkLoop_eq md]
    have h : ∀ (k v : Bytes) (b : Bool), ((if key = k ∧ value = v then true else b) || decide ((k, v) ∈ md)) = (b || decide ((k, v) ∈ (key, value) :: md)) := by
      intro k v b
      by_cases h : key = k ∧ value = v
      · obtain ⟨rfl, rfl⟩ := h
        simp
      · rw [if_neg h]
        have : ¬ ((k, v) = (key, value)) := fun e => by cases e; exact h ⟨rfl, rfl⟩
        simp [List.mem_cons, this]
    rw [h, h]

theorem authorized_iff (md : Metadata) : (¬ (¬ (checkLoop md (false, false)).1 = true ∨ ¬ (checkLoop md (false, false)).2 = true)) ↔ Authorized md := by
  rw [checkLoop_eq]
  unfold Authorized
  simp

theorem butLast_ok {n : Nat} (h : 0 < n) : butLast n = .ok (List.range (n - 1)) := if_neg (by omega)

theorem callLoop_eq (p : Phone) : ∀ (is : List Nat) (r : Status × Status) (out : List Obs),
    callLoop p is r out = (if is = [] then r.1 else ⟨.active, some p⟩, if is = [] then r.2 else ⟨.active, some p⟩, out ++ is.map fun k => .told k ⟨.active, some p⟩)
  | [], (a, b), out => by simp [callLoop]
  | k :: is, r, out => by
    unfold callLoop
    rw [callLoop_eq p is]
    simp

/-- What one step does. -/
inductive Does (s : Server) : Ev → Server → List Obs → Prop
  | idle (e : Ev) : (e = .main → s.pc = .next) → Does s e s []
  | first : s.pc = .first → Does s .main { s with clients := s.clients + 1, pc := .second } [.opened s.clients]
  | second : s.pc = .second → Does s .main { s with callClients := s.callClients + 1, pc := .next } [.openedCalls s.callClients]
  | contacts : s.pc = .contacts → Does s .main { s with clients := s.clients + 1, pc := .next } [.opened s.clients]
  | calls : s.pc = .calls → Does s .main { s with callClients := s.callClients + 1, pc := .next } [.openedCalls s.callClients]
  | listen : s.pc = .next → Does s .listen { s with pc := .contacts } [.shown (s.clients - 1) s.contacts]
  | listenCalls : s.pc = .next → Does s .listenCalls { s with pc := .calls } [.told (s.callClients - 1) s.status]
  | refuse (md : Metadata) (c : Contact) : ¬ Authorized md → Does s (.addContact md c) s [.refused]
  | add (md : Metadata) (c : Contact) : Authorized md → 0 < s.clients → Does s (.addContact md c) { s with contacts := s.contacts ++ [c] }
      (.added c (s.contacts ++ [c]) :: (List.range (s.clients - 1)).map fun k => .shown k (s.contacts ++ [c]))
  | remove (c : Contact) : 0 < s.clients → Does s (.removeContact c) s (.notRemoved :: (List.range (s.clients - 1)).map fun k => .shown k s.contacts)
  | navigate (a : Address) : Does s (.navigateTo a) s [.notNavigated]
  | unheard (p : Phone) : s.callClients = 1 → Does s (.makeCall p) s [.called ⟨.invalid, none⟩]
  | call (p : Phone) : 1 < s.callClients → Does s (.makeCall p) { s with status := ⟨.active, some p⟩ }
      (.called ⟨.active, some p⟩ :: (List.range (s.callClients - 1)).map fun k => .told k ⟨.active, some p⟩)
  | noCall : s.status.status ≠ .active → Does s .endCall s [.noCall]
  | hangUp : s.status.status = .active → 0 < s.callClients → Does s .endCall { s with status := { s.status with status := .ended }, sleeping := s.sleeping + 1 }
      (.hungUp :: (List.range (s.callClients - 1)).map fun k => .told k { s.status with status := .ended })
  | wake : 0 < s.sleeping → 0 < s.callClients → Does s .wake { s with status := { s.status with status := .inactive }, sleeping := s.sleeping - 1 }
      (.hangingDone :: (List.range (s.callClients - 1)).map fun k => .told k { s.status with status := .inactive })

/-- When a step is undefined. -/
inductive Bad (s : Server) : Ev → Prop
  | add (md : Metadata) (c : Contact) : Authorized md → s.clients = 0 → Bad s (.addContact md c)
  | remove (c : Contact) : s.clients = 0 → Bad s (.removeContact c)
  | call (p : Phone) : s.callClients = 0 → Bad s (.makeCall p)
  | hangUp : s.status.status = .active → s.callClients = 0 → Bad s .endCall
  | wake : 0 < s.sleeping → s.callClients = 0 → Bad s .wake

theorem step_cases (s : Server) (e : Ev) : (∃ s' t, step s e = .ok (s', t) ∧ Does s e s' t) ∨ (step s e = .ub ∧ Bad s e) := by
  cases e with
  | main =>
    left
    cases h : s.pc with
    | first => exact ⟨_, _, by unfold step; rw [h]; rfl, .first h⟩
    | second => exact ⟨_, _, by unfold step; rw [h]; rfl, .second h⟩
    | next => exact ⟨_, _, by unfold step; rw [h], .idle _ fun _ => h⟩
    | contacts => exact ⟨_, _, by unfold step; rw [h]; rfl, .contacts h⟩
    | calls => exact ⟨_, _, by unfold step; rw [h]; rfl, .calls h⟩
  | listen =>
    left
    by_cases h : s.pc = .next
    · exact ⟨_, _, by unfold step; dsimp only; rw [if_pos h]; rfl, .listen h⟩
    · exact ⟨_, _, by unfold step; dsimp only; rw [if_neg h], .idle _ nofun⟩
  | listenCalls =>
    left
    by_cases h : s.pc = .next
    · exact ⟨_, _, by unfold step; dsimp only; rw [if_pos h]; rfl, .listenCalls h⟩
    · exact ⟨_, _, by unfold step; dsimp only; rw [if_neg h], .idle _ nofun⟩
  | addContact md c =>
    by_cases ha : Authorized md
    · have h1 := (authorized_iff md).2 ha
      by_cases hn : s.clients = 0
      · exact .inr ⟨by unfold step; dsimp only; rw [if_neg h1]; simp [updateContacts, butLast, hn, Res.bind], .add md c ha hn⟩
      · exact .inl ⟨_, _, by unfold step; dsimp only; rw [if_neg h1]; simp only [updateContacts, butLast_ok (Nat.pos_of_ne_zero hn), Res.bind], .add md c ha (Nat.pos_of_ne_zero hn)⟩
    · have h1 := Classical.not_not.1 (mt (authorized_iff md).1 ha)
      exact .inl ⟨_, _, by unfold step; dsimp only; rw [if_pos h1], .refuse md c ha⟩
  | removeContact c =>
    by_cases hn : s.clients = 0
    · exact .inr ⟨by unfold step; simp [updateContacts, butLast, hn, Res.bind], .remove c hn⟩
    · exact .inl ⟨_, _, by unfold step; simp only [updateContacts, butLast_ok (Nat.pos_of_ne_zero hn), Res.bind], .remove c (Nat.pos_of_ne_zero hn)⟩
  | navigateTo a => exact .inl ⟨_, _, rfl, .navigate a⟩
  | makeCall p =>
    by_cases hn : s.callClients = 0
    · exact .inr ⟨by unfold step; simp [butLast, hn, Res.bind], .call p hn⟩
    · left
      by_cases h1 : s.callClients = 1
      · refine ⟨_, _, ?_, .unheard p h1⟩
        unfold step
        have hr : List.range (s.callClients - 1) = [] := by rw [h1]; rfl
        simp only [butLast_ok (Nat.pos_of_ne_zero hn), Res.bind, callLoop_eq, hr, if_true, List.map_nil, List.append_nil]
      · refine ⟨_, _, ?_, .call p (by omega)⟩
        unfold step
        have : List.range (s.callClients - 1) ≠ [] := by simp; omega
        simp only [butLast_ok (Nat.pos_of_ne_zero hn), Res.bind, callLoop_eq, if_neg this, List.nil_append]
  | endCall =>
    by_cases ha : s.status.status = .active
    · by_cases hn : s.callClients = 0
      · exact .inr ⟨by unfold step; dsimp only; rw [if_neg (not_not_intro ha)]; simp [tellAll, butLast, hn, Res.bind], .hangUp ha hn⟩
      · exact .inl ⟨_, _, by unfold step; dsimp only; rw [if_neg (not_not_intro ha)]; simp only [tellAll, butLast_ok (Nat.pos_of_ne_zero hn), Res.bind], .hangUp ha (Nat.pos_of_ne_zero hn)⟩
    · exact .inl ⟨_, _, by unfold step; dsimp only; rw [if_pos ha], .noCall ha⟩
  | wake =>
    by_cases hs : s.sleeping = 0
    · exact .inl ⟨_, _, by unfold step; dsimp only; rw [if_pos hs], .idle _ nofun⟩
    · by_cases hn : s.callClients = 0
      · exact .inr ⟨by unfold step; dsimp only; rw [if_neg hs]; simp [tellAll, butLast, hn, Res.bind], .wake (Nat.pos_of_ne_zero hs) hn⟩
      · exact .inl ⟨_, _, by unfold step; dsimp only; rw [if_neg hs]; simp only [tellAll, butLast_ok (Nat.pos_of_ne_zero hn), Res.bind], .wake (Nat.pos_of_ne_zero hs) (Nat.pos_of_ne_zero hn)⟩

theorem step_does {s : Server} {e : Ev} {s' : Server} {t : List Obs} (h : step s e = .ok (s', t)) : Does s e s' t := by
  rcases step_cases s e with ⟨_, _, h', hd⟩ | ⟨h', -⟩
  · rw [h] at h'; cases h'; exact hd
  · rw [h] at h'; cases h'

theorem run_cons {s : Server} {e : Ev} {es : List Ev} {s' : Server} {t : List Obs} (h : run s (e :: es) = .ok (s', t)) :
    ∃ s1 t1 t2, step s e = .ok (s1, t1) ∧ run s1 es = .ok (s', t2) ∧ t = t1 ++ t2 := by
  unfold run at h
  obtain ⟨⟨s1, t1⟩, h1, h2⟩ := Res.bind_eq_ok.1 h
  obtain ⟨⟨s2, t2⟩, h3, h4⟩ := Res.bind_eq_ok.1 h2
  cases h4
  exact ⟨s1, t1, t2, h1, h3, rfl⟩

/-! ### What is stored -/

theorem additions_append (t u : List Obs) : additions (t ++ u) = additions t ++ additions u := List.filterMap_append

theorem additions_shown (cs : List Contact) (l : List Nat) : additions (l.map fun k => .shown k cs) = [] := by
  unfold additions
  rw [List.filterMap_map, List.filterMap_eq_nil_iff]
  intro _ _
  rfl

theorem additions_told (st : Status) (l : List Nat) : additions (l.map fun k => .told k st) = [] := by
  unfold additions
  rw [List.filterMap_map, List.filterMap_eq_nil_iff]
  intro _ _
  rfl

theorem additions_added (c : Contact) (r : List Contact) (t : List Obs) : additions (.added c r :: t) = c :: additions t := rfl

theorem Does.contacts_eq {s : Server} {e : Ev} {s' : Server} {t : List Obs} (h : Does s e s' t) : s'.contacts = s.contacts ++ additions t := by
  cases h with
  | add md c ha hn => rw [additions_added, additions_shown]
  | remove c hn =>
    have : additions (.notRemoved :: (List.range (s.clients - 1)).map fun k => .shown k s.contacts) = additions ((List.range (s.clients - 1)).map fun k => .shown k s.contacts) := rfl
    rw [this, additions_shown, List.append_nil]
  | call p hn =>
    have : additions (.called ⟨.active, some p⟩ :: (List.range (s.callClients - 1)).map fun k => .told k ⟨.active, some p⟩) = additions ((List.range (s.callClients - 1)).map fun k => .told k ⟨.active, some p⟩) := rfl
    rw [this, additions_told, List.append_nil]
  | hangUp ha hn =>
    have : additions (.hungUp :: (List.range (s.callClients - 1)).map fun k => .told k { s.status with status := .ended }) =
      additions ((List.range (s.callClients - 1)).map fun k => .told k { s.status with status := .ended }) := rfl
    rw [this, additions_told, List.append_nil]
  | wake hs hn =>
    have : additions (.hangingDone :: (List.range (s.callClients - 1)).map fun k => .told k { s.status with status := .inactive }) =
      additions ((List.range (s.callClients - 1)).map fun k => .told k { s.status with status := .inactive }) := rfl
    rw [this, additions_told, List.append_nil]
  | _ => simp [additions]

theorem run_contacts : ∀ {es : List Ev} {s s' : Server} {t : List Obs}, run s es = .ok (s', t) → s'.contacts = s.contacts ++ additions t
  | [], s, s', t, h => by
    unfold run at h
    cases h
    simp [additions]
  | e :: es, s, s', t, h => by
    obtain ⟨s1, t1, t2, h1, h2, rfl⟩ := run_cons h
    rw [run_contacts h2, (step_does h1).contacts_eq, additions_append, List.append_assoc]

theorem run_added : ∀ {es : List Ev} {s s' : Server} {t : List Obs}, run s es = .ok (s', t) → ∀ {pre post : List Obs} {c : Contact} {reply : List Contact},
    t = pre ++ .added c reply :: post → reply = s.contacts ++ additions pre ++ [c] ∧ ∃ md, .addContact md c ∈ es ∧ Authorized md
  | [], s, s', t, h, pre, post, c, reply, e => by
    unfold run at h
    cases h
    simp at e
  | ev :: es, s, s', t, h, pre, post, c, reply, e => by
    obtain ⟨s1, t1, t2, h1, h2, rfl⟩ := run_cons h
    have hd := step_does h1
    rcases List.append_eq_append_iff.1 e with ⟨l, rfl, hl⟩ | ⟨l, e1, e2⟩
    · obtain ⟨i1, md, i2, i3⟩ := run_added h2 hl
      refine ⟨?_, md, List.mem_cons_of_mem _ i2, i3⟩
      rw [i1, hd.contacts_eq, additions_append]
      simp
    · cases l with
      | nil =>
        rw [List.append_nil] at e1
        subst e1
        obtain ⟨i1, md, i2, i3⟩ := run_added h2 (pre := []) (by simpa using e2.symm)
        refine ⟨?_, md, List.mem_cons_of_mem _ i2, i3⟩
        rw [i1, hd.contacts_eq]
        simp [additions]
      | cons x l =>
        have hx : x = .added c reply := by
          rw [List.cons_append] at e2
          exact (List.cons.inj e2).1.symm
        subst hx
        cases hd with
        | add md c' ha hn =>
          have hp : pre = [] := by
            cases pre with
            | nil => rfl
            | cons y pre =>
              have := (List.cons.inj e1).2
              have hm : Obs.added c reply ∈ (List.range (s.clients - 1)).map fun k => Obs.shown k (s.contacts ++ [c']) := by rw [this]; simp
              simp at hm
          subst hp
          have e3 := (List.cons.inj e1).1
          cases e3
          exact ⟨by simp [additions], md, List.mem_cons_self, ha⟩
        | _ =>
          have hm := e1 ▸ List.mem_append_right pre (List.mem_cons_self (a := Obs.added c reply) (l := l))
          simp at hm

/-- **C115**, for all histories: the contacts are those the server started with and those that were added, in order. Every contact that is added was sent by the authorized user, and the
answer is the list of all contacts with this one at the end. -/
theorem C115_stored {es : List Ev} {s : Server} {t : List Obs} (h : run .started es = .ok (s, t)) : s.contacts = initial ++ additions t ∧
    ∀ {pre post : List Obs} {c : Contact} {reply : List Contact}, t = pre ++ .added c reply :: post → reply = initial ++ additions pre ++ [c] ∧ ∃ md, .addContact md c ∈ es ∧ Authorized md :=
  ⟨run_contacts h, fun e => run_added h e⟩

/-- **C115**, partial: a contact of the authorized user is added at the end, and the answer contains it; anyone else is refused, and nothing changes.

Missing: calls before the server is ready, see `C115_early_violated`. -/
theorem C115_add_partial (s : Server) (hn : 0 < s.clients) (md : Metadata) (c : Contact) :
    (Authorized md → ∃ os, step s (.addContact md c) = .ok ({ s with contacts := s.contacts ++ [c] }, .added c (s.contacts ++ [c]) :: os)) ∧
    (¬ Authorized md → step s (.addContact md c) = .ok (s, [.refused])) := by
  refine ⟨fun ha => ?_, fun ha => ?_⟩
  · have h1 := (authorized_iff md).2 ha
    unfold step
    dsimp only
    rw [if_neg h1]
    simp only [updateContacts, butLast_ok hn, Res.bind]
    exact ⟨_, rfl⟩
  · have h1 := Classical.not_not.1 (mt (authorized_iff md).1 ha)
    unfold step; dsimp only; rw [if_pos h1]

/-! ### What is shown -/

/-- Whether the last handler for contacts, or for the status, waits for a stream. -/
def Pc.waits : Pc → Bool
  | .first => false
  | .contacts => false
  | _ => true

def Pc.waitsCalls : Pc → Bool
  | .first => false
  | .second => false
  | .calls => false
  | _ => true

def board (s : Server) : Board.St (List Contact) := ⟨s.contacts, s.clients, s.pc.waits⟩
def callBoard (s : Server) : Board.St Status := ⟨s.status, s.callClients, s.pc.waitsCalls⟩

def proj (cs : List Contact) : List Obs → List (Board.Obs (List Contact))
  | [] => []
  | .opened k :: t => .opened k :: proj cs t
  | .shown k l :: t => .shown k l :: proj cs t
  | .added c _ :: t => .posted (cs ++ [c]) :: proj (cs ++ [c]) t
  | .notRemoved :: t => .posted cs :: proj cs t
  | _ :: t => .other :: proj cs t

def projCalls (st : Status) : List Obs → List (Board.Obs Status)
  | [] => []
  | .openedCalls k :: t => .opened k :: projCalls st t
  | .told k x :: t => .shown k x :: projCalls st t
  | .called reply :: t => if reply.status = .active then .posted reply :: projCalls reply t else .other :: projCalls st t
  | .hungUp :: t => .posted { st with status := .ended } :: projCalls { st with status := .ended } t
  | .hangingDone :: t => .posted { st with status := .inactive } :: projCalls { st with status := .inactive } t
  | _ :: t => .other :: projCalls st t

theorem proj_append : ∀ (cs : List Contact) (t u : List Obs), proj cs (t ++ u) = proj cs t ++ proj (cs ++ additions t) u
  | cs, [], u => by simp [proj, additions]
  | cs, o :: t, u => by
    rw [List.cons_append]
    cases o with
    | added c r =>
      simp only [proj, additions_added]
      rw [proj_append (cs ++ [c]) t u, List.append_assoc]
      rfl
    | _ => simp only [proj, proj_append cs t u, List.cons_append]; rfl

theorem statusAfter_cons_same {st : Status} {o : Obs} (h : ∀ t, statuses st (o :: t) = statuses st t) (t : List Obs) : statusAfter st (o :: t) = statusAfter st t := by
  unfold statusAfter; rw [h]

theorem statusAfter_cons {st x : Status} {o : Obs} {t : List Obs} (h : statuses st (o :: t) = x :: statuses x t) : statusAfter st (o :: t) = statusAfter x t := by
  unfold statusAfter
  rw [h, List.getLast?_cons]
  simp

theorem statusAfter_append : ∀ (st : Status) (t u : List Obs), statusAfter st (t ++ u) = statusAfter (statusAfter st t) u
  | st, [], u => rfl
  | st, o :: t, u => by
    rw [List.cons_append]
    cases o with
    | called r =>
      by_cases hr : r.status = .active
      · rw [statusAfter_cons (x := r) (by simp [statuses, hr]), statusAfter_cons (x := r) (by simp [statuses, hr]), statusAfter_append]
      · rw [statusAfter_cons_same (fun t => by simp [statuses, hr]), statusAfter_cons_same (fun t => by simp [statuses, hr]), statusAfter_append]
    | hungUp => rw [statusAfter_cons (x := { st with status := .ended }) rfl, statusAfter_cons (x := { st with status := .ended }) rfl, statusAfter_append]
    | hangingDone => rw [statusAfter_cons (x := { st with status := .inactive }) rfl, statusAfter_cons (x := { st with status := .inactive }) rfl, statusAfter_append]
    | _ => rw [statusAfter_cons_same (fun _ => rfl), statusAfter_cons_same (fun _ => rfl), statusAfter_append]

theorem projCalls_append : ∀ (st : Status) (t u : List Obs), projCalls st (t ++ u) = projCalls st t ++ projCalls (statusAfter st t) u
  | st, [], u => by simp [projCalls, statusAfter, statuses]
  | st, o :: t, u => by
    rw [List.cons_append]
    cases o with
    | called r =>
      by_cases hr : r.status = .active
      · simp only [projCalls, if_pos hr]
        rw [projCalls_append r t u, statusAfter_cons (x := r) (by simp [statuses, hr])]
        rfl
      · simp only [projCalls, if_neg hr]
        rw [projCalls_append st t u, statusAfter_cons_same (fun t => by simp [statuses, hr])]
        rfl
    | hungUp =>
      simp only [projCalls]
      rw [projCalls_append _ t u, statusAfter_cons (x := { st with status := .ended }) rfl]
      rfl
    | hangingDone =>
      simp only [projCalls]
      rw [projCalls_append _ t u, statusAfter_cons (x := { st with status := .inactive }) rfl]
      rfl
    | _ =>
      simp only [projCalls]
      rw [projCalls_append st t u, statusAfter_cons_same (fun _ => rfl)]
      rfl

theorem proj_told (cs : List Contact) (st : Status) : ∀ l : List Nat, proj cs (l.map fun k => .told k st) = List.replicate l.length .other
  | [] => rfl
  | k :: l => by rw [List.map_cons]; simp only [proj, proj_told cs st l, List.length_cons, List.replicate_succ, List.map_cons]

theorem proj_shown (cs x : List Contact) : ∀ l : List Nat, proj cs (l.map fun k => .shown k x) = l.map fun k => .shown k x
  | [] => rfl
  | k :: l => by rw [List.map_cons]; simp only [proj, proj_shown cs x l, List.length_cons, List.replicate_succ, List.map_cons]

theorem projCalls_shown (st : Status) (x : List Contact) : ∀ l : List Nat, projCalls st (l.map fun k => .shown k x) = List.replicate l.length .other
  | [] => rfl
  | k :: l => by rw [List.map_cons]; simp only [projCalls, projCalls_shown st x l, List.length_cons, List.replicate_succ, List.map_cons]

theorem projCalls_told (st x : Status) : ∀ l : List Nat, projCalls st (l.map fun k => .told k x) = l.map fun k => .shown k x
  | [] => rfl
  | k :: l => by rw [List.map_cons]; simp only [projCalls, projCalls_told st x l, List.length_cons, List.replicate_succ, List.map_cons]

theorem statuses_told (st x : Status) : ∀ l : List Nat, statuses st (l.map fun k => .told k x) = []
  | [] => rfl
  | k :: l => by rw [List.map_cons]; simp only [statuses, statuses_told st x l]

theorem statuses_shown (st : Status) (x : List Contact) : ∀ l : List Nat, statuses st (l.map fun k => .shown k x) = []
  | [] => rfl
  | k :: l => by rw [List.map_cons]; simp only [statuses, statuses_shown st x l]

theorem Does.status_eq {s : Server} {e : Ev} {s' : Server} {t : List Obs} (h : Does s e s' t) : s'.status = statusAfter s.status t := by
  cases h with
  | add md c ha hn => simp [statusAfter, statuses, statuses_shown]
  | remove c hn => simp [statusAfter, statuses, statuses_shown]
  | call p hn => simp [statusAfter, statuses, statuses_told]
  | hangUp ha hn => simp [statusAfter, statuses, statuses_told]
  | wake hs hn => simp [statusAfter, statuses, statuses_told]
  | unheard p hn => simp [statusAfter, statuses]
  | _ => rfl

theorem Does.board {s : Server} {e : Ev} {s' : Server} {t : List Obs} (h : Does s e s' t) : Board.Does (board s) (board s') (proj s.contacts t) := by
  cases h with
  | idle => exact .others 0
  | first hp => simpa [AddressServer.board, proj, Pc.waits] using Board.Does.opens (s := AddressServer.board s) (by simp [AddressServer.board, hp, Pc.waits])
  | contacts hp => simpa [AddressServer.board, proj, Pc.waits] using Board.Does.opens (s := AddressServer.board s) (by simp [AddressServer.board, hp, Pc.waits])
  | second hp => simpa [AddressServer.board, proj, Pc.waits, hp] using Board.Does.others (s := AddressServer.board s) 1
  | calls hp => simpa [AddressServer.board, proj, Pc.waits, hp] using Board.Does.others (s := AddressServer.board s) 1
  | listen hp => simpa [AddressServer.board, proj, Pc.waits, hp] using Board.Does.accepts (s := AddressServer.board s) (by simp [AddressServer.board, hp, Pc.waits])
  | listenCalls hp => simpa [AddressServer.board, proj, Pc.waits, hp] using Board.Does.others (s := AddressServer.board s) 1
  | refuse => exact Board.Does.others (s := AddressServer.board s) 1
  | add md c ha hn => simpa [AddressServer.board, proj, proj_shown] using Board.Does.posts (s := AddressServer.board s) (s.contacts ++ [c])
  | remove c hn => simpa [AddressServer.board, proj, proj_shown] using Board.Does.posts (s := AddressServer.board s) s.contacts
  | navigate => exact Board.Does.others (s := AddressServer.board s) 1
  | unheard => exact Board.Does.others (s := AddressServer.board s) 1
  | noCall => exact Board.Does.others (s := AddressServer.board s) 1
  | call p hn =>
    have := Board.Does.others (s := AddressServer.board s) (s.callClients - 1 + 1)
    simpa [AddressServer.board, proj, proj_told, List.replicate_succ] using this
  | hangUp ha hn =>
    have := Board.Does.others (s := AddressServer.board s) (s.callClients - 1 + 1)
    simpa [AddressServer.board, proj, proj_told, List.replicate_succ] using this
  | wake hs hn =>
    have := Board.Does.others (s := AddressServer.board s) (s.callClients - 1 + 1)
    simpa [AddressServer.board, proj, proj_told, List.replicate_succ] using this

theorem Does.callBoard {s : Server} {e : Ev} {s' : Server} {t : List Obs} (h : Does s e s' t) : Board.Does (callBoard s) (callBoard s') (projCalls s.status t) := by
  cases h with
  | idle => exact .others 0
  | second hp => simpa [AddressServer.callBoard, projCalls, Pc.waitsCalls] using Board.Does.opens (s := AddressServer.callBoard s) (by simp [AddressServer.callBoard, hp, Pc.waitsCalls])
  | calls hp => simpa [AddressServer.callBoard, projCalls, Pc.waitsCalls] using Board.Does.opens (s := AddressServer.callBoard s) (by simp [AddressServer.callBoard, hp, Pc.waitsCalls])
  | first hp => simpa [AddressServer.callBoard, projCalls, Pc.waitsCalls, hp] using Board.Does.others (s := AddressServer.callBoard s) 1
  | contacts hp => simpa [AddressServer.callBoard, projCalls, Pc.waitsCalls, hp] using Board.Does.others (s := AddressServer.callBoard s) 1
  | listenCalls hp => simpa [AddressServer.callBoard, projCalls, Pc.waitsCalls, hp] using Board.Does.accepts (s := AddressServer.callBoard s) (by simp [AddressServer.callBoard, hp, Pc.waitsCalls])
  | listen hp => simpa [AddressServer.callBoard, projCalls, Pc.waitsCalls, hp] using Board.Does.others (s := AddressServer.callBoard s) 1
  | refuse => exact Board.Does.others (s := AddressServer.callBoard s) 1
  | add md c ha hn =>
    have := Board.Does.others (s := AddressServer.callBoard s) (s.clients - 1 + 1)
    simpa [AddressServer.callBoard, projCalls, projCalls_shown, List.replicate_succ] using this
  | remove c hn =>
    have := Board.Does.others (s := AddressServer.callBoard s) (s.clients - 1 + 1)
    simpa [AddressServer.callBoard, projCalls, projCalls_shown, List.replicate_succ] using this
  | navigate => exact Board.Does.others (s := AddressServer.callBoard s) 1
  | unheard => exact Board.Does.others (s := AddressServer.callBoard s) 1
  | noCall => exact Board.Does.others (s := AddressServer.callBoard s) 1
  | call p hn => simpa [AddressServer.callBoard, projCalls, projCalls_told] using Board.Does.posts (s := AddressServer.callBoard s) ⟨.active, some p⟩
  | hangUp ha hn => simpa [AddressServer.callBoard, projCalls, projCalls_told] using Board.Does.posts (s := AddressServer.callBoard s) { s.status with status := .ended }
  | wake hs hn => simpa [AddressServer.callBoard, projCalls, projCalls_told] using Board.Does.posts (s := AddressServer.callBoard s) { s.status with status := .inactive }

theorem run_boards : ∀ {es : List Ev} {s s' : Server} {t u : List Obs}, Board.Reach initial (board s) (proj initial t) → Board.Reach quiet (callBoard s) (projCalls quiet t) →
    s.contacts = initial ++ additions t → s.status = statusAfter quiet t → run s es = .ok (s', u) →
    Board.Reach initial (board s') (proj initial (t ++ u)) ∧ Board.Reach quiet (callBoard s') (projCalls quiet (t ++ u))
  | [], s, s', t, u, h1, h2, h3, h4, h => by
    unfold run at h
    cases h
    simpa using ⟨h1, h2⟩
  | e :: es, s, s', t, u, h1, h2, h3, h4, h => by
    obtain ⟨s1, t1, t2, e1, e2, rfl⟩ := run_cons h
    have hd := step_does e1
    rw [← List.append_assoc]
    refine run_boards (t := t ++ t1) ?_ ?_ ?_ ?_ e2
    · rw [proj_append, ← h3]
      exact .step h1 hd.board
    · rw [projCalls_append, ← h4]
      exact .step h2 hd.callBoard
    · rw [hd.contacts_eq, h3, additions_append, List.append_assoc]
    · rw [hd.status_eq, h4, statusAfter_append]

theorem started_boards {es : List Ev} {s : Server} {t : List Obs} (h : run .started es = .ok (s, t)) :
    Board.Reach initial (board s) (proj initial t) ∧ Board.Reach quiet (callBoard s) (projCalls quiet t) := by
  have := run_boards (t := []) (s := .started) .start .start (by simp [additions, Server.started]) rfl h
  simpa using this

/-! The functions of the specification, from those of the board. -/

theorem shownTo_proj (k : Nat) : ∀ (cs : List Contact) (t : List Obs), Board.shownTo k (proj cs t) = shownTo k t
  | cs, [] => rfl
  | cs, o :: t => by
    cases o with
    | shown j x =>
      have ih := shownTo_proj k cs t
      simp only [Board.shownTo, shownTo, proj, List.filterMap_cons] at ih ⊢
      by_cases hj : j = k
      · simp only [hj, if_true, ih]
      · simp only [hj, if_false, ih]
    | added c r => exact shownTo_proj k (cs ++ [c]) t
    | _ => exact shownTo_proj k cs t

theorem posts_proj : ∀ (cs : List Contact) (t : List Obs), Board.posts (proj cs t) = lists cs t
  | cs, [] => rfl
  | cs, o :: t => by
    cases o with
    | added c r => exact congrArg _ (posts_proj (cs ++ [c]) t)
    | notRemoved => exact congrArg _ (posts_proj cs t)
    | _ => exact posts_proj cs t

theorem lists_last : ∀ (cs : List Contact) (t : List Obs), (lists cs t).getLast?.getD cs = cs ++ additions t
  | cs, [] => by simp [lists, additions]
  | cs, o :: t => by
    cases o with
    | added c r =>
      have ih := lists_last (cs ++ [c]) t
      rw [additions_added, lists, List.getLast?_cons, Option.getD_some, ih]
      simp
    | notRemoved =>
      have ih := lists_last cs t
      rw [lists, List.getLast?_cons, Option.getD_some, ih]
      rfl
    | _ => exact lists_last cs t

theorem current_proj (cs : List Contact) (t : List Obs) : Board.current cs (proj cs t) = cs ++ additions t := by
  unfold Board.current
  rw [posts_proj, lists_last]

theorem mem_proj_shown (k : Nat) (x : List Contact) : ∀ {cs : List Contact} {t : List Obs}, Board.Obs.shown k x ∈ proj cs t → Obs.shown k x ∈ t
  | cs, [], h => by simp [proj] at h
  | cs, o :: t, h => by
    cases o <;> simp only [proj, List.mem_cons, reduceCtorEq, false_or, Board.Obs.shown.injEq] at h <;> first
      | exact List.mem_cons_of_mem _ (mem_proj_shown k x h)
      | (rcases h with ⟨rfl, rfl⟩ | h
         · exact List.mem_cons_self
         · exact List.mem_cons_of_mem _ (mem_proj_shown k x h))

theorem mem_proj_opened (k : Nat) : ∀ {cs : List Contact} {t : List Obs}, Board.Obs.opened k ∈ proj cs t → Obs.opened k ∈ t
  | cs, [], h => by simp [proj] at h
  | cs, o :: t, h => by
    cases o <;> simp only [proj, List.mem_cons, reduceCtorEq, false_or, Board.Obs.opened.injEq] at h <;> first
      | exact List.mem_cons_of_mem _ (mem_proj_opened k h)
      | (rcases h with rfl | h
         · exact List.mem_cons_self
         · exact List.mem_cons_of_mem _ (mem_proj_opened k h))

theorem toldTo_proj (k : Nat) : ∀ (st : Status) (t : List Obs), Board.shownTo k (projCalls st t) = toldTo k t
  | st, [] => rfl
  | st, o :: t => by
    cases o with
    | told j x =>
      have ih := toldTo_proj k st t
      simp only [Board.shownTo, toldTo, projCalls, List.filterMap_cons] at ih ⊢
      by_cases hj : j = k
      · simp only [hj, if_true, ih]
      · simp only [hj, if_false, ih]
    | called r =>
      by_cases hr : r.status = .active
      · simp only [projCalls, if_pos hr]
        exact toldTo_proj k r t
      · simp only [projCalls, if_neg hr]
        exact toldTo_proj k st t
    | hungUp => exact toldTo_proj k _ t
    | hangingDone => exact toldTo_proj k _ t
    | _ => exact toldTo_proj k st t

theorem posts_projCalls : ∀ (st : Status) (t : List Obs), Board.posts (projCalls st t) = statuses st t
  | st, [] => rfl
  | st, o :: t => by
    cases o with
    | called r =>
      by_cases hr : r.status = .active
      · simp only [projCalls, statuses, if_pos hr]
        exact congrArg _ (posts_projCalls r t)
      · simp only [projCalls, statuses, if_neg hr]
        exact posts_projCalls st t
    | hungUp => exact congrArg _ (posts_projCalls _ t)
    | hangingDone => exact congrArg _ (posts_projCalls _ t)
    | _ => exact posts_projCalls st t

theorem current_projCalls (st : Status) (t : List Obs) : Board.current st (projCalls st t) = statusAfter st t := by
  unfold Board.current statusAfter
  rw [posts_projCalls]

theorem mem_projCalls_told (k : Nat) (x : Status) : ∀ {st : Status} {t : List Obs}, Board.Obs.shown k x ∈ projCalls st t → Obs.told k x ∈ t
  | st, [], h => by simp [projCalls] at h
  | st, o :: t, h => by
    cases o with
    | called r =>
      simp only [projCalls] at h
      split at h <;> simp only [List.mem_cons, reduceCtorEq, false_or] at h <;> exact List.mem_cons_of_mem _ (mem_projCalls_told k x h)
    | told j y =>
      simp only [projCalls, List.mem_cons, Board.Obs.shown.injEq] at h
      rcases h with ⟨rfl, rfl⟩ | h
      · exact List.mem_cons_self
      · exact List.mem_cons_of_mem _ (mem_projCalls_told k x h)
    | _ =>
      simp only [projCalls, List.mem_cons, reduceCtorEq, false_or] at h
      exact List.mem_cons_of_mem _ (mem_projCalls_told k x h)

theorem mem_projCalls_opened (k : Nat) : ∀ {st : Status} {t : List Obs}, Board.Obs.opened k ∈ projCalls st t → Obs.openedCalls k ∈ t
  | st, [], h => by simp [projCalls] at h
  | st, o :: t, h => by
    cases o with
    | called r =>
      simp only [projCalls] at h
      split at h <;> simp only [List.mem_cons, reduceCtorEq, false_or] at h <;> exact List.mem_cons_of_mem _ (mem_projCalls_opened k h)
    | openedCalls j =>
      simp only [projCalls, List.mem_cons, Board.Obs.opened.injEq] at h
      rcases h with rfl | h
      · exact List.mem_cons_self
      · exact List.mem_cons_of_mem _ (mem_projCalls_opened k h)
    | _ =>
      simp only [projCalls, List.mem_cons, reduceCtorEq, false_or] at h
      exact List.mem_cons_of_mem _ (mem_projCalls_opened k h)

/-- **C115**, for all histories: who listens to the contacts is shown the whole list at once. From the moment when the server takes the next stream they are shown the whole list again
after each call of `addContact` that is not refused and after each call of `removeContact`, once, in order, and nothing else. -/
theorem C115_shown {es : List Ev} {s : Server} {t : List Obs} (h : run .started es = .ok (s, t)) {k : Nat} {pre mid post : List Obs} {first : List Contact}
    (h1 : ∀ cs, .shown k cs ∉ pre) (h2 : .opened (k + 1) ∉ mid) :
    (t = pre ++ .shown k first :: mid → shownTo k t = [initial ++ additions pre]) ∧
    (t = pre ++ .shown k first :: (mid ++ .opened (k + 1) :: post) →
      shownTo k t = (initial ++ additions pre) :: lists (initial ++ additions (pre ++ mid)) post) := by
  have hb := (started_boards h).1
  have g1 : ∀ cs, .shown k cs ∉ proj initial pre := fun cs hm => h1 cs (mem_proj_shown k cs hm)
  have g2 : ∀ c0, .opened (k + 1) ∉ proj c0 mid := fun c0 hm => h2 (mem_proj_opened (k + 1) hm)
  refine ⟨fun e => ?_, fun e => ?_⟩
  · have := (hb.shown (k := k) (pre := proj initial pre) (mid := proj (initial ++ additions pre) mid) (post := []) (first := first) g1 (g2 _)).1
      (by rw [e, proj_append, proj])
    rw [shownTo_proj, current_proj] at this
    exact this
  · have := (hb.shown (k := k) (pre := proj initial pre) (mid := proj (initial ++ additions pre) mid) (post := proj (initial ++ additions (pre ++ mid)) post) (first := first) g1 (g2 _)).2
      (by rw [e, proj_append, proj, proj_append, proj, additions_append, List.append_assoc])
    rw [shownTo_proj, current_proj, posts_proj] at this
    exact this

/-- **C115**, for all histories: who listens to the status of the call is told it at once. From the moment when the server takes the next stream they are told every change of it, once,
in order, and nothing else. -/
theorem C115_told {es : List Ev} {s : Server} {t : List Obs} (h : run .started es = .ok (s, t)) {k : Nat} {pre mid post : List Obs} {first : Status}
    (h1 : ∀ st, .told k st ∉ pre) (h2 : .openedCalls (k + 1) ∉ mid) :
    (t = pre ++ .told k first :: mid → toldTo k t = [statusAfter quiet pre]) ∧
    (t = pre ++ .told k first :: (mid ++ .openedCalls (k + 1) :: post) →
      toldTo k t = statusAfter quiet pre :: statuses (statusAfter quiet (pre ++ mid)) post) := by
  have hb := (started_boards h).2
  have g1 : ∀ st, .shown k st ∉ projCalls quiet pre := fun st hm => h1 st (mem_projCalls_told k st hm)
  have g2 : ∀ c0, .opened (k + 1) ∉ projCalls c0 mid := fun c0 hm => h2 (mem_projCalls_opened (k + 1) hm)
  refine ⟨fun e => ?_, fun e => ?_⟩
  · have := (hb.shown (k := k) (pre := projCalls quiet pre) (mid := projCalls (statusAfter quiet pre) mid) (post := []) (first := first) g1 (g2 _)).1
      (by rw [e, projCalls_append, projCalls])
    rw [toldTo_proj, current_projCalls] at this
    exact this
  · have := (hb.shown (k := k) (pre := projCalls quiet pre) (mid := projCalls (statusAfter quiet pre) mid) (post := projCalls (statusAfter quiet (pre ++ mid)) post) (first := first) g1 (g2 _)).2
      (by rw [e, projCalls_append, projCalls, projCalls_append, projCalls, statusAfter_append])
    rw [toldTo_proj, current_projCalls, posts_projCalls] at this
    exact this

/-- **C115**, partial: what a listener was shown last is the list of contacts of the server, if none was added between its subscription and the moment when the server took the next stream.

Missing: contacts that are added in between, see `C115_missed_violated`. -/
theorem C115_current_partial {es : List Ev} {s : Server} {t : List Obs} (h : run .started es = .ok (s, t)) {k : Nat} {pre mid post : List Obs} {first : List Contact}
    (h1 : ∀ cs, .shown k cs ∉ pre) (h2 : .opened (k + 1) ∉ mid) (hq : additions mid = [])
    (he : t = pre ++ .shown k first :: mid ∨ t = pre ++ .shown k first :: (mid ++ .opened (k + 1) :: post)) : (shownTo k t).getLast? = some s.contacts := by
  rw [(C115_stored h).1]
  rcases he with he | he
  · rw [(C115_shown (post := []) h h1 h2).1 he, he, additions_append]
    have : additions (.shown k first :: mid) = additions mid := rfl
    rw [this, hq]
    simp
  · rw [(C115_shown h h1 h2).2 he, he, List.getLast?_cons, additions_append, hq, List.append_nil, lists_last, additions_append]
    have : additions (.shown k first :: (mid ++ .opened (k + 1) :: post)) = additions (mid ++ .opened (k + 1) :: post) := rfl
    rw [this, additions_append, hq]
    have : additions (.opened (k + 1) :: post) = additions post := rfl
    rw [this]
    simp

theorem run_status {es : List Ev} {s : Server} {t : List Obs} (h : run .started es = .ok (s, t)) : s.status = statusAfter quiet t := by
  have := (started_boards h).2.cur
  rw [current_projCalls] at this
  exact this

/-- **C115**, partial: what a listener was told last is the status of the call, if it did not change between its subscription and the moment when the server took the next stream.

Missing: changes in between, see `C115_missedStatus_violated`. -/
theorem C115_status_partial {es : List Ev} {s : Server} {t : List Obs} (h : run .started es = .ok (s, t)) {k : Nat} {pre mid post : List Obs} {first : Status}
    (h1 : ∀ st, .told k st ∉ pre) (h2 : .openedCalls (k + 1) ∉ mid) (hq : statusAfter quiet (pre ++ mid) = statusAfter quiet pre)
    (he : t = pre ++ .told k first :: mid ∨ t = pre ++ .told k first :: (mid ++ .openedCalls (k + 1) :: post)) : (toldTo k t).getLast? = some s.status := by
  rw [run_status h]
  have e1 : ∀ u, statusAfter quiet (pre ++ .told k first :: u) = statusAfter quiet (pre ++ u) := fun u => by
    rw [statusAfter_append, statusAfter_append, statusAfter_cons_same (fun _ => rfl)]
  rcases he with he | he
  · rw [(C115_told (post := []) h h1 h2).1 he, he, e1, hq]
    rfl
  · rw [(C115_told h h1 h2).2 he, he, e1, List.getLast?_cons, hq, ← List.append_assoc, statusAfter_append, hq, statusAfter_cons_same (fun _ => rfl)]
    rfl

/-! ### Nobody else is shown anything -/

theorem listens_cons (e : Ev) (es : List Ev) : listens (e :: es) = listens [e] + listens es := by
  unfold listens
  rw [← List.singleton_append, List.filter_append, List.length_append]

theorem callListens_cons (e : Ev) (es : List Ev) : callListens (e :: es) = callListens [e] + callListens es := by
  unfold callListens
  rw [← List.singleton_append, List.filter_append, List.length_append]

/-- How many streams were taken. -/
def taken (s : Server) : Nat := s.clients - (if s.pc.waits then 1 else 0)
def takenCalls (s : Server) : Nat := s.callClients - (if s.pc.waitsCalls then 1 else 0)

/-- A handler that waits was made. -/
def Made (s : Server) : Prop := (s.pc.waits = true → 0 < s.clients) ∧ (s.pc.waitsCalls = true → 0 < s.callClients)

theorem Does.taken {s : Server} {e : Ev} {s' : Server} {t : List Obs} (hm : Made s) (h : Does s e s' t) : Made s' ∧
    (AddressServer.taken s ≤ AddressServer.taken s' ∧ AddressServer.taken s' ≤ AddressServer.taken s + listens [e] ∧ ∀ k cs, .shown k cs ∈ t → k < AddressServer.taken s') ∧
    (takenCalls s ≤ takenCalls s' ∧ takenCalls s' ≤ takenCalls s + callListens [e] ∧ ∀ k st, .told k st ∈ t → k < takenCalls s') := by
  unfold Made at hm
  have hwc : AddressServer.taken s ≥ s.clients - 1 := by unfold AddressServer.taken; split <;> omega
  have hwk : takenCalls s ≥ s.callClients - 1 := by unfold takenCalls; split <;> omega
  cases h with
  | idle => exact ⟨hm, ⟨Nat.le_refl _, Nat.le_add_right _ _, by simp⟩, Nat.le_refl _, Nat.le_add_right _ _, by simp⟩
  | first hp => simp [Made, AddressServer.taken, takenCalls, Pc.waits, Pc.waitsCalls, hp]
  | second hp => rw [hp] at hm; simp [Made, AddressServer.taken, takenCalls, Pc.waits, Pc.waitsCalls, hp] at hm ⊢; omega
  | contacts hp => rw [hp] at hm; simp [Made, AddressServer.taken, takenCalls, Pc.waits, Pc.waitsCalls, hp] at hm ⊢; omega
  | calls hp => rw [hp] at hm; simp [Made, AddressServer.taken, takenCalls, Pc.waits, Pc.waitsCalls, hp] at hm ⊢; omega
  | listen hp =>
    rw [hp] at hm
    simp [Pc.waits, Pc.waitsCalls] at hm
    refine ⟨by simp [Made, Pc.waits, Pc.waitsCalls, hm], ⟨?_, ?_, ?_⟩, ?_, ?_, ?_⟩ <;> simp [AddressServer.taken, takenCalls, Pc.waits, Pc.waitsCalls, hp, listens] <;> omega
  | listenCalls hp =>
    rw [hp] at hm
    simp [Pc.waits, Pc.waitsCalls] at hm
    refine ⟨by simp [Made, Pc.waits, Pc.waitsCalls, hm], ⟨?_, ?_, ?_⟩, ?_, ?_, ?_⟩ <;> simp [AddressServer.taken, takenCalls, Pc.waits, Pc.waitsCalls, hp, callListens] <;> omega
  | add md c ha hn =>
    refine ⟨hm, ⟨Nat.le_refl _, Nat.le_add_right _ _, fun k cs hk => ?_⟩, Nat.le_refl _, Nat.le_add_right _ _, by simp⟩
    simp at hk
    obtain ⟨a, ha, rfl, -⟩ := hk
    exact Nat.lt_of_lt_of_le ha hwc
  | remove c hn =>
    refine ⟨hm, ⟨Nat.le_refl _, Nat.le_add_right _ _, fun k cs hk => ?_⟩, Nat.le_refl _, Nat.le_add_right _ _, by simp⟩
    simp at hk
    obtain ⟨a, ha, rfl, -⟩ := hk
    exact Nat.lt_of_lt_of_le ha hwc
  | call p hn =>
    refine ⟨hm, ⟨Nat.le_refl _, Nat.le_add_right _ _, by simp⟩, Nat.le_refl _, Nat.le_add_right _ _, fun k st hk => ?_⟩
    simp at hk
    obtain ⟨a, ha, rfl, -⟩ := hk
    exact Nat.lt_of_lt_of_le ha hwk
  | hangUp ha hn =>
    refine ⟨hm, ⟨Nat.le_refl _, Nat.le_add_right _ _, by simp⟩, Nat.le_refl _, Nat.le_add_right _ _, fun k st hk => ?_⟩
    simp at hk
    obtain ⟨a, ha, rfl, -⟩ := hk
    exact Nat.lt_of_lt_of_le ha hwk
  | wake hs hn =>
    refine ⟨hm, ⟨Nat.le_refl _, Nat.le_add_right _ _, by simp⟩, Nat.le_refl _, Nat.le_add_right _ _, fun k st hk => ?_⟩
    simp at hk
    obtain ⟨a, ha, rfl, -⟩ := hk
    exact Nat.lt_of_lt_of_le ha hwk
  | _ => exact ⟨hm, ⟨Nat.le_refl _, Nat.le_add_right _ _, by simp⟩, Nat.le_refl _, Nat.le_add_right _ _, by simp⟩

theorem run_taken : ∀ {es : List Ev} {s s' : Server} {t : List Obs}, Made s → run s es = .ok (s', t) →
    (taken s ≤ taken s' ∧ taken s' ≤ taken s + listens es ∧ ∀ k cs, .shown k cs ∈ t → k < taken s') ∧
    (takenCalls s ≤ takenCalls s' ∧ takenCalls s' ≤ takenCalls s + callListens es ∧ ∀ k st, .told k st ∈ t → k < takenCalls s')
  | [], s, s', t, hm, h => by
    unfold run at h
    cases h
    exact ⟨⟨Nat.le_refl _, Nat.le_add_right _ _, by simp⟩, Nat.le_refl _, Nat.le_add_right _ _, by simp⟩
  | e :: es, s, s', t, hm, h => by
    obtain ⟨s1, t1, t2, h1, h2, rfl⟩ := run_cons h
    obtain ⟨m1, ⟨a1, a2, a3⟩, b1, b2, b3⟩ := (step_does h1).taken hm
    obtain ⟨⟨c1, c2, c3⟩, d1, d2, d3⟩ := run_taken m1 h2
    rw [listens_cons, callListens_cons]
    refine ⟨⟨by omega, by omega, fun k cs hk => ?_⟩, by omega, by omega, fun k st hk => ?_⟩
    · rcases List.mem_append.1 hk with hk | hk
      · exact Nat.lt_of_lt_of_le (a3 k cs hk) c1
      · exact c3 k cs hk
    · rcases List.mem_append.1 hk with hk | hk
      · exact Nat.lt_of_lt_of_le (b3 k st hk) d1
      · exact d3 k st hk

/-- **C115**, for all histories: contacts and statuses are written to no more streams than there were calls of `contacts` and of `callStatus`; the handlers that wait for the next ones are
written nothing. -/
theorem C115_invited {es : List Ev} {s : Server} {t : List Obs} (h : run .started es = .ok (s, t)) :
    (∀ k cs, .shown k cs ∈ t → k < listens es) ∧ (∀ k st, .told k st ∈ t → k < callListens es) := by
  obtain ⟨⟨-, a, b⟩, -, c, d⟩ := run_taken (s := .started) (by simp [Made, Server.started, Pc.waits, Pc.waitsCalls]) h
  have e1 : taken .started = 0 := rfl
  have e2 : takenCalls .started = 0 := rfl
  exact ⟨fun k cs hk => by have := b k cs hk; omega, fun k st hk => by have := d k st hk; omega⟩

/-! ### When something undefined happens -/

/-- The invariant of reachable states, with the number of steps of the main thread. -/
structure Ready (s : Server) (n : Nat) : Prop where
  clients : s.clients = 0 ↔ n = 0
  callClients : s.callClients = 0 ↔ n ≤ 1
  first : s.pc = .first ↔ n = 0
  second : s.pc = .second ↔ n = 1
  active : s.status.status = .active → 0 < s.callClients
  sleeping : 0 < s.sleeping → 0 < s.callClients

theorem Does.ready {s : Server} {e : Ev} {s' : Server} {t : List Obs} {n : Nat} (hr : Ready s n) (h : Does s e s' t) : Ready s' (n + mains [e]) := by
  obtain ⟨r1, r2, r3, r4, r5, r6⟩ := hr
  have hm : ∀ e : Ev, e ≠ .main → mains [e] = 0 := by intro e he; cases e <;> first | rfl | exact absurd rfl he
  have h1 : mains [.main] = 1 := rfl
  cases h with
  | idle _ hi =>
    by_cases he : e = .main
    · subst he
      have hp := hi rfl
      have a1 : n ≠ 0 := fun c => by rw [r3.2 c] at hp; cases hp
      have a2 : n ≠ 1 := fun c => by rw [r4.2 c] at hp; cases hp
      rw [h1]
      exact ⟨by rw [r1]; omega, by rw [r2]; omega, by rw [r3]; omega, by rw [r4]; omega, r5, r6⟩
    · rw [hm e he]; exact ⟨r1, r2, r3, r4, r5, r6⟩
  | first hp => have := r3.1 hp; subst this; rw [h1]; exact ⟨by simp, by simpa using r2, by simp, by simp, r5, r6⟩
  | second hp => have := r4.1 hp; subst this; exact ⟨by simpa [h1] using r1, by simp [h1], by simp, by simp [h1], by simp, by simp⟩
  | contacts hp =>
    have a1 : n ≠ 0 := fun c => by rw [r3.2 c] at hp; cases hp
    have a2 : n ≠ 1 := fun c => by rw [r4.2 c] at hp; cases hp
    rw [h1]
    exact ⟨by simp, by rw [r2]; omega, by simp, by simp; omega, r5, r6⟩
  | calls hp =>
    have a1 : n ≠ 0 := fun c => by rw [r3.2 c] at hp; cases hp
    have a2 : n ≠ 1 := fun c => by rw [r4.2 c] at hp; cases hp
    rw [h1]
    exact ⟨by rw [r1]; omega, by simp; omega, by simp, by simp; omega, by simp, by simp⟩
  | listen hp =>
    have a1 : n ≠ 0 := fun c => by rw [r3.2 c] at hp; cases hp
    have a2 : n ≠ 1 := fun c => by rw [r4.2 c] at hp; cases hp
    exact ⟨r1, r2, by simp [hm, a1], by simp [hm, a2], r5, r6⟩
  | listenCalls hp =>
    have a1 : n ≠ 0 := fun c => by rw [r3.2 c] at hp; cases hp
    have a2 : n ≠ 1 := fun c => by rw [r4.2 c] at hp; cases hp
    exact ⟨r1, r2, by simp [hm, a1], by simp [hm, a2], r5, r6⟩
  | call p hn => exact ⟨r1, r2, r3, r4, fun _ => (by simp; omega), r6⟩
  | hangUp ha hn => exact ⟨r1, r2, r3, r4, fun _ => hn, fun _ => hn⟩
  | wake hs hn => exact ⟨r1, r2, r3, r4, fun _ => hn, fun _ => hn⟩
  | add => exact ⟨r1, r2, r3, r4, r5, r6⟩
  | _ => exact ⟨r1, r2, r3, r4, r5, r6⟩

theorem bad_iff {s : Server} {n : Nat} (hr : Ready s n) (e : Ev) : Bad s e ↔ EarlyAt n e := by
  constructor
  · intro h
    cases h with
    | add md c ha hn => exact .inl ⟨hr.clients.1 hn, .inr ⟨md, c, rfl, ha⟩⟩
    | remove c hn => exact .inl ⟨hr.clients.1 hn, .inl ⟨c, rfl⟩⟩
    | call p hn => exact .inr ⟨hr.callClients.1 hn, p, rfl⟩
    | hangUp ha hn => have := hr.active ha; omega
    | wake hs hn => have := hr.sleeping hs; omega
  · rintro (⟨hn, ⟨c, rfl⟩ | ⟨md, c, rfl, ha⟩⟩ | ⟨hn, p, rfl⟩)
    · exact .remove c (hr.clients.2 hn)
    · exact .add md c ha (hr.clients.2 hn)
    · exact .call p (hr.callClients.2 hn)

theorem bad_ub {s : Server} {e : Ev} (h : Bad s e) : step s e = .ub := by
  cases h with
  | add md c ha hn =>
    have h1 := (authorized_iff md).2 ha
    unfold step; dsimp only; rw [if_neg h1]; simp [updateContacts, butLast, hn, Res.bind]
  | remove c hn => unfold step; simp [updateContacts, butLast, hn, Res.bind]
  | call p hn => unfold step; simp [butLast, hn, Res.bind]
  | hangUp ha hn => unfold step; dsimp only; rw [if_neg (not_not_intro ha)]; simp [tellAll, butLast, hn, Res.bind]
  | wake hs hn => unfold step; dsimp only; rw [if_neg (by omega)]; simp [tellAll, butLast, hn, Res.bind]

theorem does_not_bad {s : Server} {e : Ev} {r : Server × List Obs} (h : step s e = .ok r) : ¬ Bad s e := by
  intro hb
  rw [bad_ub hb] at h
  cases h

theorem mains_cons (e : Ev) (es : List Ev) : mains (e :: es) = mains [e] + mains es := by
  unfold mains
  rw [← List.singleton_append, List.filter_append, List.length_append]

theorem run_defined : ∀ (es : List Ev) {s : Server} {n : Nat}, Ready s n →
    ((∃ pre e post, es = pre ++ e :: post ∧ EarlyAt (n + mains pre) e) ∧ run s es = .ub) ∨
    ((¬ ∃ pre e post, es = pre ++ e :: post ∧ EarlyAt (n + mains pre) e) ∧ ∃ r, run s es = .ok r)
  | [], s, n, _ => .inr ⟨by simp, _, rfl⟩
  | e :: es, s, n, hr => by
    rcases step_cases s e with ⟨s1, t1, h1, hd⟩ | ⟨h1, hb⟩
    · have he : ¬ EarlyAt n e := fun hc => does_not_bad h1 ((bad_iff hr e).2 hc)
      have hx : (∃ pre e' post, e :: es = pre ++ e' :: post ∧ EarlyAt (n + mains pre) e') ↔ ∃ pre e' post, es = pre ++ e' :: post ∧ EarlyAt (n + mains [e] + mains pre) e' := by
        constructor
        · rintro ⟨pre, e', post, h, hc⟩
          cases pre with
          | nil => cases h; exact absurd hc he
          | cons x pre =>
            cases h
            rw [mains_cons, ← Nat.add_assoc] at hc
            exact ⟨pre, e', post, rfl, hc⟩
        · rintro ⟨pre, e', post, rfl, hc⟩
          refine ⟨e :: pre, e', post, rfl, ?_⟩
          rw [mains_cons, ← Nat.add_assoc]
          exact hc
      rw [hx]
      rcases run_defined es (hd.ready hr) with ⟨h2, h3⟩ | ⟨h2, r, h3⟩
      · exact .inl ⟨h2, by unfold run; rw [h1]; simp only [Res.bind, h3]⟩
      · exact .inr ⟨h2, (r.1, t1 ++ r.2), by unfold run; rw [h1]; simp only [Res.bind, h3]⟩
    · exact .inl ⟨⟨[], e, es, rfl, by simpa [mains] using (bad_iff hr e).1 hb⟩, by unfold run; rw [h1]; rfl⟩

/-- **C115**, partial, exact condition: a history is undefined if and only if, before the main thread has made the handlers the calls need, a contact is added by the authorized user or
removed, or a call is made. All others have a result.

Missing: that histories with such calls are fine, see `C115_early_violated`. -/
theorem C115_defined_partial (es : List Ev) :
    (run .started es = .ub ↔ ∃ pre e post, es = pre ++ e :: post ∧ EarlyAt (mains pre) e) ∧ (run .started es ≠ .ub → ∃ r, run .started es = .ok r) := by
  have hr : Ready .started 0 := ⟨by simp [Server.started], by simp [Server.started], by simp [Server.started], by simp [Server.started], by simp [Server.started, quiet], by simp [Server.started]⟩
  rcases run_defined es hr with ⟨h2, h3⟩ | ⟨h2, r, h3⟩
  · simp only [Nat.zero_add] at h2
    exact ⟨⟨fun _ => h2, fun _ => h3⟩, fun h => absurd h3 h⟩
  · simp only [Nat.zero_add] at h2
    refine ⟨⟨fun h => ?_, fun h => absurd h h2⟩, fun _ => ⟨r, h3⟩⟩
    rw [h3] at h
    cases h

/-! ### Calls -/

theorem toldTo_append (k : Nat) (t u : List Obs) : toldTo k (t ++ u) = toldTo k t ++ toldTo k u := List.filterMap_append

theorem toldTo_range (k n : Nat) (st : Status) (h : k < n) : toldTo k ((List.range n).map fun j => Obs.told j st) = [st] := by
  have := Board.shownTo_range k n st
  rw [if_pos h, ← projCalls_told quiet st, toldTo_proj] at this
  exact this

/-- **C115**, partial: if someone listens, a call is answered with the number as active, and all who listen are told that it is active; when it is ended they are told that it has ended,
and then that there is none.

Missing: calls when nobody listens, see `C115_unheard_violated`, and calls that are made while another one is ended, see `C115_crossed_violated`. -/
theorem C115_call_partial (s : Server) (p : Phone) (hn : 1 < s.callClients) (hs : s.sleeping = 0) : ∃ t,
    run s [.makeCall p, .endCall, .wake] = .ok ({ s with status := ⟨.inactive, some p⟩ }, .called ⟨.active, some p⟩ :: t) ∧
    ∀ k < s.callClients - 1, toldTo k t = [⟨.active, some p⟩, ⟨.ended, some p⟩, ⟨.inactive, some p⟩] := by
  have hp : 0 < s.callClients := by omega
  have hl : List.range (s.callClients - 1) ≠ [] := by simp; omega
  have e1 : step s (.makeCall p) = .ok ({ s with status := ⟨.active, some p⟩ }, .called ⟨.active, some p⟩ :: (List.range (s.callClients - 1)).map fun k => .told k ⟨.active, some p⟩) := by
    unfold step
    simp only [butLast_ok hp, Res.bind, callLoop_eq, if_neg hl, List.nil_append]
  have e2 : step { s with status := ⟨.active, some p⟩ } .endCall = .ok ({ s with status := ⟨.ended, some p⟩, sleeping := s.sleeping + 1 },
      .hungUp :: (List.range (s.callClients - 1)).map fun k => .told k ⟨.ended, some p⟩) := by
    unfold step
    simp only [tellAll, butLast_ok hp, Res.bind]
    rfl
  have e3 : step { s with status := ⟨.ended, some p⟩, sleeping := s.sleeping + 1 } .wake = .ok ({ s with status := ⟨.inactive, some p⟩ },
      .hangingDone :: (List.range (s.callClients - 1)).map fun k => .told k ⟨.inactive, some p⟩) := by
    unfold step
    simp only [tellAll, butLast_ok hp, Res.bind]
    rw [if_neg (by omega)]
    rfl
  refine ⟨(List.range (s.callClients - 1)).map (fun k => Obs.told k ⟨.active, some p⟩) ++ (.hungUp :: (List.range (s.callClients - 1)).map (fun k => Obs.told k ⟨.ended, some p⟩) ++
    .hangingDone :: (List.range (s.callClients - 1)).map (fun k => Obs.told k ⟨.inactive, some p⟩)), ?_, fun k hk => ?_⟩
  · unfold run; rw [e1]; simp only [Res.bind]
    unfold run; rw [e2]; simp only [Res.bind]
    unfold run; rw [e3]; simp only [Res.bind]
    simp [run]
  · have c1 : ∀ u, toldTo k (.hungUp :: u) = toldTo k u := fun _ => rfl
    have c2 : ∀ u, toldTo k (.hangingDone :: u) = toldTo k u := fun _ => rfl
    rw [toldTo_append, List.cons_append, c1, toldTo_append, c2, toldTo_range k _ _ hk, toldTo_range k _ _ hk, toldTo_range k _ _ hk]
    rfl

/-- **C115**, partial: a call stays active, with its number, until it is ended or another one is made, if no other was being ended when it was made.

Missing: calls that are made while another one is ended, see `C115_crossed_violated`. -/
theorem C115_active_partial : ∀ {es : List Ev} {s s' : Server} {t : List Obs}, s.sleeping = 0 → (.endCall ∉ es) → (∀ p, .makeCall p ∉ es) → run s es = .ok (s', t) →
    s'.status = s.status ∧ s'.sleeping = 0
  | [], s, s', t, hs, _, _, h => by
    unfold run at h
    cases h
    exact ⟨rfl, hs⟩
  | e :: es, s, s', t, hs, h1, h2, h => by
    obtain ⟨s1, t1, t2, e1, e2, rfl⟩ := run_cons h
    have hd : s1.status = s.status ∧ s1.sleeping = 0 := by
      cases step_does e1 with
      | hangUp => exact absurd List.mem_cons_self h1
      | call p => exact absurd List.mem_cons_self (h2 p)
      | wake h0 => omega
      | _ => exact ⟨rfl, hs⟩
    obtain ⟨i1, i2⟩ := C115_active_partial hd.2 (fun hm => h1 (List.mem_cons_of_mem _ hm)) (fun p hm => h2 p (List.mem_cons_of_mem _ hm)) e2
    exact ⟨i1.trans hd.1, i2⟩

/-! ### The client of the example -/

/-- **C115**: the headers of every request of the client of the example are those of the authorized user if and only if the hash of its password is the one the server compares with. -/
theorem C115_client (config : Nat) (password : Bytes) : ∃ c, engineCredentials config password = some c ∧
    (Authorized (Cred.post c).1 ↔ Md5.md5Hex password = passwordHash) := by
  refine ⟨⟨fun _ => [(userName, .text (some authorizedUser)), (userPassword, .text (some (Md5.md5Hex password)))], 0, [(Cred.sslConfigCredential, .ssl config)]⟩, rfl, ?_⟩
  have e : (Cred.post ⟨fun _ => [(userName, .text (some authorizedUser)), (userPassword, .text (some (Md5.md5Hex password)))], 0, [(Cred.sslConfigCredential, .ssl config)]⟩).1 =
      Cred.setRawHeader (Cred.setRawHeader Cred.fixedHeaders userName (some authorizedUser)) userPassword (some (Md5.md5Hex password)) := rfl
  unfold Authorized
  rw [e]
  constructor
  · rintro ⟨-, h⟩
    unfold Cred.setRawHeader at h
    simp only [List.mem_append, List.mem_filter, List.mem_singleton] at h
    rcases h with ⟨-, h⟩ | h
    · simp at h
    · exact ((Prod.mk.injEq ..).mp h).2.symm
  · intro h
    rw [h]
    unfold Cred.setRawHeader
    refine ⟨List.mem_append_left _ (List.mem_filter.2 ⟨List.mem_append_right _ List.mem_cons_self, by decide⟩), List.mem_append_right _ List.mem_cons_self⟩

/-- **C115**: the client of the example may add contacts. -/
theorem C115_engine (config : Nat) : ∃ c, engineCredentials config test = some c ∧ Authorized (Cred.post c).1 := by
  obtain ⟨c, h1, h2⟩ := C115_client config test
  exact ⟨c, h1, h2.2 (by decide +kernel)⟩

/-! ### Violations and examples -/

def md1 : Metadata := [(userName, authorizedUser), (userPassword, passwordHash)]
def guest : Metadata := [(userName, [103]), (userPassword, passwordHash)]
def new1 : Contact := named "Ada" "Lovelace"
def p1 : Phone := ⟨49, 1⟩
def p2 : Phone := ⟨49, 2⟩

def seen (r : Res (Server × List Obs)) : Option (List Obs) :=
  match r with
  | .ok r => some r.2
  | _ => none

/-- C115 is violated: the server is started before its handlers are made. Contacts that are added, or calls that are made, in between make it read beyond an empty vector. -/
theorem C115_early_violated : run .started [.addContact md1 new1] = .ub ∧ run .started [.main, .makeCall p1] = .ub := by decide

/-- C115 is violated: a contact that is added after a listener was shown the list and before the next handler is made is not shown to this listener. -/
theorem C115_missed_violated : ∃ t, seen (run .started [.main, .main, .listen, .addContact md1 new1, .main]) = some t ∧ shownTo 0 t = [initial] ∧ additions t = [new1] :=
  ⟨_, rfl, by decide, by decide⟩

/-- C115 is violated: a listener is not told of a call that is made after it was told the status and before the next handler is made. -/
theorem C115_missedStatus_violated : ∃ t, seen (run .started [.main, .main, .listenCalls, .main, .listenCalls, .makeCall p1, .main]) = some t ∧
    toldTo 0 t = [quiet, ⟨.active, some p1⟩] ∧ toldTo 1 t = [quiet] := ⟨_, rfl, by decide, by decide⟩

/-- C115 is violated: a call that is made when nobody listens is answered with an invalid status, without a number, and the status of the call stays as it was: who listens later is told that
there is no call, and it cannot be ended. -/
theorem C115_unheard_violated : seen (run .started [.main, .main, .makeCall p1, .listenCalls, .endCall]) =
    some [.opened 0, .openedCalls 0, .called ⟨.invalid, none⟩, .told 0 quiet, .noCall] := by decide

/-- C115 is violated: a call that is made while another one is ended is over a moment later, though nobody ended it. -/
theorem C115_crossed_violated : ∃ t, seen (run .started [.main, .main, .listenCalls, .main, .makeCall p1, .endCall, .makeCall p2, .wake]) = some t ∧
    toldTo 0 t = [quiet, ⟨.active, some p1⟩, ⟨.ended, some p1⟩, ⟨.active, some p2⟩, ⟨.inactive, some p2⟩] := ⟨_, rfl, by decide⟩

/-- The theorems apply: two listen to the contacts, one to the calls; contacts are added and refused. -/
def day : List Ev := [.main, .main, .listen, .main, .listenCalls, .main, .addContact md1 new1, .listen, .main, .makeCall p1, .addContact guest new1, .removeContact new1, .endCall, .wake]

example : ∃ s t, run .started day = .ok (s, t) ∧ Authorized md1 ∧ ¬ Authorized guest ∧ shownTo 0 t = [initial, initial ++ [new1], initial ++ [new1]] ∧
    (shownTo 1 t).getLast? = some s.contacts ∧ (toldTo 0 t).getLast? = some s.status ∧ (∀ k cs, .shown k cs ∈ t → k < 2) := by
  have hr := (C115_defined_partial day).2 (by decide +kernel)
  obtain ⟨⟨s, t⟩, hr⟩ := hr
  have ht : seen (run .started day) = some [.opened 0, .openedCalls 0, .shown 0 initial, .opened 1, .told 0 quiet, .openedCalls 1, .added new1 (initial ++ [new1]), .shown 0 (initial ++ [new1]),
      .shown 1 (initial ++ [new1]), .opened 2, .called ⟨.active, some p1⟩, .told 0 ⟨.active, some p1⟩, .refused, .notRemoved, .shown 0 (initial ++ [new1]), .shown 1 (initial ++ [new1]),
      .hungUp, .told 0 ⟨.ended, some p1⟩, .hangingDone, .told 0 ⟨.inactive, some p1⟩] := by decide +kernel
  rw [hr] at ht
  cases ht
  refine ⟨s, _, hr, by decide, by decide, by decide, ?_, ?_, (C115_invited hr).1⟩
  · exact C115_current_partial (k := 1) (pre := [.opened 0, .openedCalls 0, .shown 0 initial, .opened 1, .told 0 quiet, .openedCalls 1, .added new1 (initial ++ [new1]), .shown 0 (initial ++ [new1])])
      (mid := []) hr (by simp) (by simp) rfl (.inr rfl)
  · exact C115_status_partial (k := 0) (pre := [.opened 0, .openedCalls 0, .shown 0 initial, .opened 1]) (mid := []) hr (by simp) (by simp) rfl (.inr rfl)

example : ∃ s p, 1 < s.callClients ∧ s.sleeping = 0 ∧ seen (run s [.makeCall p, .endCall, .wake]) ≠ none := ⟨⟨initial, quiet, 0, 1, 3, .next⟩, p1, by decide, rfl, by decide⟩

end QtPb.AddressServer
