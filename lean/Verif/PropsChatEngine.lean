import Verif.SpecChatEngine
import Verif.PropsChatServer
/-
Property theorems: C116, the client of the chat example.
-/
namespace QtPb.ChatEngine
open Stream (Client Item Close update Kind)
open Spec

/-! ### The client underneath -/

/-- What holds of the client: each login made one stream, which is held; at most the last one is active. -/
structure CInv (n : Nat) (c : Client) : Prop where
  streams : c.nStreams = n
  active : c.active = [] ∨ ∃ m, n = m + 1 ∧ c.active = [m] ∧ (c.streams m).connected = true
  connected : ∀ s, (c.streams s).connected = true → s ∈ c.active
  held : ∀ s, s < n → (c.streams s).deleted = false ∧ 0 < (c.streams s).held
  channel : c.channel = if n = 0 then none else some .http2
  attempts : ∀ a, a < c.nAttempts → (c.attempts a).stream < n ∧ (c.attempts a).kind = .http2
  timers : ∀ s, s ∈ c.timers → s < n

theorem CInv.lt {n : Nat} {c : Client} (h : CInv n c) {s : Nat} (hs : (c.streams s).connected = true) : s + 1 = n := by
  have := h.connected s hs
  rcases h.active with h1 | ⟨m, h1, h2, -⟩
  · rw [h1] at this
    cases this
  · rw [h2] at this
    have := List.mem_singleton.1 this
    omega

theorem CInv.only {n : Nat} {c : Client} (h : CInv n c) {s : Nat} (hs : (c.streams s).connected = true) : c.active = [s] := by
  have := h.connected s hs
  rcases h.active with h1 | ⟨m, h1, h2, -⟩
  · rw [h1] at this
    cases this
  · rw [h2] at this ⊢
    rw [List.mem_singleton.1 this]

theorem same_self (c : Client) (s : Nat) : c.same s s = true := by
  unfold Client.same
  simp

theorem update_same {α : Type} (f : Nat → α) (i : Nat) (v : α) : update f i v i = v := if_pos rfl
theorem update_other {α : Type} (f : Nat → α) {i j : Nat} (v : α) (h : j ≠ i) : update f i v j = f j := if_neg h

/-- What ending a stream does to the client, if at most that one is active. -/
theorem onFinished_eq {n : Nat} {c : Client} (h : CInv n c) (s : Nat) : c.onFinished s =
    { c with active := if (c.streams s).connected then [] else c.active, streams := update c.streams s { c.streams s with connected := false } } := by
  unfold Client.onFinished
  cases hs : (c.streams s).connected with
  | true =>
    have e : List.eraseP (fun t => c.same t s) [s] = [] := by
      rw [List.eraseP_cons, same_self]
      rfl
    rw [if_pos rfl, if_pos rfl, h.only hs, e]
  | false =>
    rw [if_neg (by decide), if_neg (by decide)]
    have : update c.streams s { c.streams s with connected := false } = c.streams := by
      funext j
      by_cases hj : j = s
      · subst hj
        rw [update_same, ← hs]
      · rw [update_other _ _ hj]
    rw [this]

theorem CInv.finish {n : Nat} {c : Client} (h : CInv n c) (s : Nat) : CInv n (c.emitFinished s).1 := by
  show CInv n ((c.onFinished s).onAbort s)
  rw [onFinished_eq h s]
  have hc : ∀ j, (update c.streams s { c.streams s with connected := false } j).connected = true → (c.streams j).connected = true ∧ j ≠ s := by
    intro j hj
    by_cases e : j = s
    · subst e
      rw [update_same] at hj
      cases hj
    · rw [update_other _ _ e] at hj
      exact ⟨hj, e⟩
  refine ⟨h.streams, ?_, ?_, ?_, h.channel, ?_, h.timers⟩
  · show (if (c.streams s).connected then [] else c.active) = [] ∨ _
    cases hs : (c.streams s).connected with
    | true => exact Or.inl rfl
    | false =>
      rcases h.active with h1 | ⟨m, h1, h2, h3⟩
      · exact Or.inl h1
      · refine Or.inr ⟨m, h1, h2, ?_⟩
        have e : m ≠ s := by
          rintro rfl
          rw [hs] at h3
          cases h3
        show (update c.streams s _ m).connected = true
        rw [update_other _ _ e]
        exact h3
  · intro j hj
    obtain ⟨h1, h2⟩ := hc j hj
    show j ∈ if (c.streams s).connected then [] else c.active
    cases hs : (c.streams s).connected with
    | true => exact absurd (Nat.add_right_cancel ((h.lt h1).trans (h.lt hs).symm)) h2
    | false => exact h.connected j h1
  · intro j hj
    show (update c.streams s _ j).deleted = false ∧ 0 < (update c.streams s _ j).held
    by_cases e : j = s
    · subst e
      rw [update_same]
      exact h.held j hj
    · rw [update_other _ _ e]
      exact h.held j hj
  · intro a ha
    have := h.attempts a ha
    show (if (c.attempts a).stream = s then { c.attempts a with connected := false } else c.attempts a).stream < n ∧ _
    show _ ∧ (if (c.attempts a).stream = s then { c.attempts a with connected := false } else c.attempts a).kind = _
    by_cases e : (c.attempts a).stream = s
    · rw [if_pos e]
      exact this
    · rw [if_neg e]
      exact this

theorem CInv.start {n : Nat} {c : Client} (h : CInv n c) {s : Nat} (hs : s < n) : CInv n (c.start s .http2).1 := by
  refine ⟨h.streams, h.active, h.connected, h.held, h.channel, ?_, h.timers⟩
  intro a ha
  have ha : a < c.nAttempts + 1 := ha
  show (update c.attempts c.nAttempts _ a).stream < n ∧ (update c.attempts c.nAttempts _ a).kind = _
  by_cases e : a = c.nAttempts
  · rw [e, update_same]
    exact ⟨hs, rfl⟩
  · rw [update_other _ _ e]
    exact h.attempts a (by omega)

theorem CInv.cut {n : Nat} {c : Client} (h : CInv n c) (a : Nat) : CInv n { c with attempts := update c.attempts a { c.attempts a with connected := false } } := by
  refine ⟨h.streams, h.active, h.connected, h.held, h.channel, ?_, h.timers⟩
  intro b hb
  show (update c.attempts a _ b).stream < n ∧ (update c.attempts a _ b).kind = _
  by_cases e : b = a
  · rw [e, update_same]
    exact h.attempts a (by rw [← e]; exact hb)
  · rw [update_other _ _ e]
    exact h.attempts b hb

theorem CInv.due {n : Nat} {c : Client} (h : CInv n c) {s : Nat} (hs : s < n) : CInv n { c with timers := c.timers ++ [s] } := by
  refine ⟨h.streams, h.active, h.connected, h.held, h.channel, h.attempts, ?_⟩
  intro j hj
  rcases List.mem_append.1 hj with hj | hj
  · exact h.timers j hj
  · rw [List.mem_singleton.1 hj]
    exact hs

theorem CInv.fired {n : Nat} {c : Client} (h : CInv n c) (s : Nat) : CInv n { c with timers := c.timers.erase s } :=
  ⟨h.streams, h.active, h.connected, h.held, h.channel, h.attempts, fun j hj => h.timers j (List.mem_of_mem_erase hj)⟩

theorem CInv.data {n : Nat} {c : Client} (h : CInv n c) (s : Nat) (d : Bytes) : CInv n { c with streams := update c.streams s { c.streams s with data := d } } := by
  have hc : ∀ j, (update c.streams s { c.streams s with data := d } j).connected = (c.streams j).connected ∧ (update c.streams s { c.streams s with data := d } j).deleted = (c.streams j).deleted ∧
      (update c.streams s { c.streams s with data := d } j).held = (c.streams j).held := by
    intro j
    by_cases e : j = s
    · subst e
      rw [update_same]
      exact ⟨rfl, rfl, rfl⟩
    · rw [update_other _ _ e]
      exact ⟨rfl, rfl, rfl⟩
  refine ⟨h.streams, ?_, ?_, ?_, h.channel, h.attempts, h.timers⟩
  · rcases h.active with h1 | ⟨m, h1, h2, h3⟩
    · exact Or.inl h1
    · exact Or.inr ⟨m, h1, h2, (hc m).1.trans h3⟩
  · intro j hj
    exact h.connected j ((hc j).1.symm.trans hj)
  · intro j hj
    show (update c.streams s _ j).deleted = false ∧ 0 < (update c.streams s _ j).held
    rw [(hc j).2.1, (hc j).2.2]
    exact h.held j hj

/-- All active streams are ended (there is at most one). -/
def stop (c : Client) : Client :=
  match c.active with
  | [] => c
  | s :: _ => (c.emitFinished s).1

theorem stop_active {n : Nat} {c : Client} (h : CInv n c) : (stop c).active = [] := by
  unfold stop
  rcases h.active with h1 | ⟨m, h1, h2, h3⟩
  · rw [h1]
    exact h1
  · rw [h2]
    show (c.onFinished m).active = []
    rw [onFinished_eq h, h3]
    rfl

theorem CInv.stopped {n : Nat} {c : Client} (h : CInv n c) : CInv n (stop c) := by
  unfold stop
  split
  · exact h
  · exact h.finish _

/-- Nothing the engine notices. -/
def Quiet (os : List Stream.Obs) : Prop := ∀ o ∈ os, (∀ a s k, o ≠ .started a s k) ∧ (∀ s, o ≠ .notified s) ∧ ∀ s k, o ≠ .failed s k

theorem quiet_hear {a : Nat} : ∀ {os : List Stream.Obs} {e : Engine}, Quiet os → Engine.hearAll a os e = (e, [])
  | [], e, _ => rfl
  | o :: os, e, h => by
    obtain ⟨h1, h2, h3⟩ := h o List.mem_cons_self
    have h4 : e.hear a o = (e, []) := by
      cases o with
      | started a s k => exact absurd rfl (h1 a s k)
      | notified s => exact absurd rfl (h2 s)
      | failed s k => exact absurd rfl (h3 s k)
      | _ => rfl
    unfold Engine.hearAll
    rw [h4]
    dsimp only
    rw [quiet_hear (os := os) fun o ho => h o (List.mem_cons_of_mem _ ho)]
    rfl

theorem hearAll_append {a : Nat} (p : List Stream.Obs) : ∀ (os : List Stream.Obs) (e : Engine), Quiet os → Engine.hearAll a (os ++ p) e = Engine.hearAll a p e
  | [], e, _ => rfl
  | o :: os, e, h => by
    obtain ⟨h1, h2, h3⟩ := h o List.mem_cons_self
    have h4 : e.hear a o = (e, []) := by
      cases o with
      | started a s k => exact absurd rfl (h1 a s k)
      | notified s => exact absurd rfl (h2 s)
      | failed s k => exact absurd rfl (h3 s k)
      | _ => rfl
    rw [List.cons_append, Engine.hearAll, h4]
    dsimp only
    rw [hearAll_append p os e fun o ho => h o (List.mem_cons_of_mem _ ho)]
    rfl

theorem finished_quiet (c : Client) (s : Nat) : Quiet (c.emitFinished s).2 := by
  intro o ho
  rcases List.mem_cons.1 ho with rfl | ho
  · exact ⟨fun _ _ _ => nofun, fun _ => nofun, fun _ _ => nofun⟩
  · obtain ⟨b, -, rfl⟩ := List.mem_map.1 ho
    exact ⟨fun _ _ _ => nofun, fun _ => nofun, fun _ _ => nofun⟩

theorem attach_eq {n : Nat} {c : Client} (h : CInv n c) : ∃ os, c.attachChannel .http2 0 0 = some ({ stop c with channel := some .http2 }, os) ∧ Quiet os := by
  have hs := stop_active h
  have h1 : ∃ os, c.abortAll 0 c.active.length = some (stop c, os) ∧ Quiet os := by
    unfold stop
    rcases h.active with h1 | ⟨m, h1, h2, h3⟩
    · rw [h1]
      exact ⟨[], rfl, nofun⟩
    · rw [h2]
      refine ⟨(c.emitFinished m).2, ?_, finished_quiet c m⟩
      unfold Client.abortAll
      rw [h2]
      dsimp only [List.length_singleton, List.getElem?_cons_zero]
      rw [Client.abortAll, Option.map_some, List.append_nil]
  obtain ⟨os, h1, h2⟩ := h1
  refine ⟨os, ?_, h2⟩
  unfold Client.attachChannel
  rw [if_neg (fun h => h rfl), h1, Option.bind_some]
  dsimp only
  rw [hs, List.length_nil, Client.abortAll, Option.map_some, List.append_nil]

/-! ### Single steps -/

structure Inv (e : Engine) : Prop where
  client : CInv e.accounts.length e.client
  slots : ∀ s, (e.slots.filter fun x => x.1 = s) = (e.accounts[s]?.map fun a => (s, a.name)).toList
  logins : ∀ a, a < e.client.nAttempts → e.loginOf a < e.accounts.length

/-- A request for a stream is sent. -/
def Engine.ask (e : Engine) (s : Nat) : Engine := { e with client := (e.client.start s .http2).1, loginOf := update e.loginOf e.client.nAttempts e.current }

/-- An attempt has ended. -/
def cut (c : Client) (a : Nat) : Client := { c with attempts := update c.attempts a { c.attempts a with connected := false } }

/-- A stream has failed. -/
def late (c : Client) (s : Nat) : Client := if (c.streams s).connected then { c with timers := c.timers ++ [s] } else c

/-- The client after a login. -/
def relogged (n : Nat) (c : Client) : Client :=
  { (({ stop c with channel := some .http2, streams := update (stop c).streams n ⟨"messageList", [], [], [], true, 1, false⟩, nStreams := n + 1 } : Client).start n .http2).1 with active := [n] }

/-- An attempt that is told what the network delivers. -/
def Engine.Runs (e : Engine) (a : Nat) : Prop := a < e.client.nAttempts ∧ e.loginOf a = e.current ∧ (e.client.attempts a).connected = true

/-- What can happen in one step. -/
inductive Does (e : Engine) : Ev → Engine → List Obs → Prop
  | login (account : Account) : Does e (.login account)
      ⟨relogged e.accounts.length e.client, e.accounts ++ [account], update e.loginOf e.client.nAttempts e.accounts.length, e.slots ++ [(e.accounts.length, account.name)], e.userName, e.messages⟩
      [.request e.client.nAttempts e.accounts.length e.accounts.length]
  | other {a : Nat} {i : Item} : ¬ e.Runs a → Does e (.net a i) e []
  | list {a : Nat} {d : Bytes} {account : Account} : e.Runs a → e.accounts[(e.client.attempts a).stream]? = some account → Does e (.net a (.data d))
      { e with
        client := { e.client with streams := update e.client.streams (e.client.attempts a).stream { e.client.streams (e.client.attempts a).stream with data := d } }
        userName := account.name
        messages := d }
      (display e.userName a account.name d)
  | again {a : Nat} : e.Runs a → Does e (.net a (.close .remoteHostClosed)) (({ e with client := cut e.client a } : Engine).ask (e.client.attempts a).stream)
      [.request e.client.nAttempts (e.client.attempts a).stream e.current]
  | fail {a : Nat} {cause : Close} : e.Runs a → (cause ≠ .remoteHostClosed ∧ cause ≠ .status Http2.Status.Ok) → Does e (.net a (.close cause))
      { e with client := ((late (cut e.client a) (e.client.attempts a).stream).emitFinished (e.client.attempts a).stream).1 } [.failed (e.client.attempts a).stream]
  | finish {a : Nat} : e.Runs a → Does e (.net a (.close (.status Http2.Status.Ok)))
      { e with client := ((cut e.client a).emitFinished (e.client.attempts a).stream).1 } []
  | noTimer {s : Nat} : s ∉ e.client.timers → Does e (.timer s) e []
  | timer {s : Nat} : s ∈ e.client.timers → Does e (.timer s) (({ e with client := { e.client with timers := e.client.timers.erase s } } : Engine).ask s)
      [.request e.client.nAttempts s e.current]
  | send (content : Bytes) : 0 < e.accounts.length → Does e (.send content) e [.sent e.current content]
  | notSend (content : Bytes) : e.accounts.length = 0 → Does e (.send content) e [.notSent]

theorem current_append (l : List Account) (a : Account) : (l ++ [a]).length - 1 = l.length := by
  rw [List.length_append, List.length_singleton, Nat.add_sub_cancel]

theorem login_does {e : Engine} (h : Inv e) (account : Account) : ∃ e' t, e.step (.login account) = .ok (e', t) ∧ Does e (.login account) e' t := by
  obtain ⟨os, h1, h2⟩ := attach_eq h.client
  have hs := stop_active h.client
  have hn : (stop e.client).nStreams = e.accounts.length := h.client.stopped.streams
  have ha : (stop e.client).nAttempts = e.client.nAttempts := by
    unfold stop
    split
    · rfl
    · show (e.client.onFinished _).nAttempts = _
      rw [onFinished_eq h.client]
  refine ⟨_, _, ?_, .login account⟩
  unfold Engine.step Engine.login
  dsimp only
  rw [h1]
  dsimp only
  rw [quiet_hear h2]
  dsimp only
  have e1 : Client.subscribe { stop e.client with channel := some .http2 } "messageList" [] none =
      (relogged e.accounts.length e.client, [.subscribed "messageList" [] none e.accounts.length, .started e.client.nAttempts e.accounts.length .http2]) := by
    unfold Client.subscribe relogged
    dsimp only
    rw [hs]
    dsimp only [List.find?_nil]
    unfold Client.start
    dsimp only
    rw [hn, ha]
    rfl
  rw [e1]
  dsimp only [given, Engine.hearAll, Engine.hear, Engine.current]
  rw [current_append]
  rfl

theorem emit_one (f : Engine → Nat × Bytes → Engine × List Obs) (e : Engine) (x : Nat × Bytes) : Engine.emit f [x] e = f e x := by
  unfold Engine.emit Engine.emit
  dsimp only
  rw [List.append_nil]

theorem slot_of {e : Engine} (h : Inv e) {s : Nat} (hs : s < e.accounts.length) : ∃ account, e.accounts[s]? = some account ∧ (e.slots.filter fun x => x.1 = s) = [(s, account.name)] := by
  refine ⟨e.accounts[s], List.getElem?_eq_getElem hs, ?_⟩
  rw [h.slots s, List.getElem?_eq_getElem hs]
  rfl

theorem net_does {e : Engine} (h : Inv e) (a : Nat) (i : Item) : ∃ e' t, e.step (.net a i) = .ok (e', t) ∧ Does e (.net a i) e' t := by
  unfold Engine.step
  dsimp only
  by_cases hc : a < e.client.nAttempts ∧ e.loginOf a = e.current
  · obtain ⟨hs, hk⟩ := h.client.attempts a hc.1
    have hd := (h.client.held _ hs).1
    obtain ⟨account, h1, h2⟩ := slot_of h hs
    rw [if_pos hc]
    by_cases hr : (e.client.attempts a).connected = true
    · have hr' : e.Runs a := ⟨hc.1, hc.2, hr⟩
      cases i with
      | data d =>
        refine ⟨_, _, ?_, .list hr' h1⟩
        have e1 : e.client.net a (.data d) = ({ e.client with streams := update e.client.streams (e.client.attempts a).stream { e.client.streams (e.client.attempts a).stream with data := d } },
            (.emitted a d :: .recv a d :: ((e.client.streams (e.client.attempts a).stream).handlers.map fun k => .handled (e.client.attempts a).stream k d)) ++
              [.notified (e.client.attempts a).stream]) := by
          unfold Client.net
          rw [hk]
          dsimp only
          rw [if_pos (by rw [hr, hd]; rfl)]
          rfl
        rw [e1]
        dsimp only
        rw [hearAll_append]
        · dsimp only [Engine.hearAll, Engine.hear]
          rw [h2, emit_one]
          unfold Engine.onMessage display
          dsimp only
          by_cases hu : e.userName = account.name
          · rw [if_neg (fun hn => hn hu), if_neg (fun hn => hn hu)]
            dsimp only
            rw [update_same, ← hu]
            rfl
          · rw [if_pos hu, if_pos hu]
            dsimp only
            rw [update_same]
            rfl
        · intro o ho
          rcases List.mem_cons.1 ho with rfl | ho
          · exact ⟨fun _ _ _ => nofun, fun _ => nofun, fun _ _ => nofun⟩
          rcases List.mem_cons.1 ho with rfl | ho
          · exact ⟨fun _ _ _ => nofun, fun _ => nofun, fun _ _ => nofun⟩
          · obtain ⟨b, -, rfl⟩ := List.mem_map.1 ho
            exact ⟨fun _ _ _ => nofun, fun _ => nofun, fun _ _ => nofun⟩
      | close cause =>
        have e1 : e.client.net a (.close cause) = e.client.close a cause := by
          unfold Client.net
          rw [hk]
          dsimp only
          rw [hr, hd]
          rfl
        rw [e1]
        have hE : ∀ code, ∃ os, Quiet os ∧ (cut e.client a).emitError (e.client.attempts a).stream code =
            (late (cut e.client a) (e.client.attempts a).stream, .failed (e.client.attempts a).stream code :: os) := by
          intro code
          unfold Client.emitError late
          by_cases hq : ((cut e.client a).streams (e.client.attempts a).stream).connected = true
          · rw [if_pos hq, if_pos hq]
            refine ⟨[.clientFailed code], ?_, rfl⟩
            intro o ho
            rw [List.mem_singleton.1 ho]
            exact ⟨fun _ _ _ => nofun, fun _ => nofun, fun _ _ => nofun⟩
          · rw [if_neg hq, if_neg hq]
            exact ⟨[], nofun, rfl⟩
        have hF : ∀ code, (cause ≠ .remoteHostClosed ∧ cause ≠ .status Http2.Status.Ok) → e.client.close a cause =
            (((cut e.client a).emitError (e.client.attempts a).stream code).1, .closed a :: ((cut e.client a).emitError (e.client.attempts a).stream code).2) →
            ∃ e' t, Res.ok (Engine.hearAll a (e.client.close a cause).2 { e with client := (e.client.close a cause).1 }) = .ok (e', t) ∧ Does e (.net a (.close cause)) e' t := by
          intro code hn e2
          refine ⟨_, _, ?_, .fail hr' hn⟩
          obtain ⟨os, ho, e3⟩ := hE code
          rw [e2, e3]
          dsimp only [Engine.hearAll, Engine.hear]
          rw [h2, emit_one, quiet_hear ho]
          rfl
        cases cause with
        | remoteHostClosed =>
          refine ⟨_, _, ?_, .again hr'⟩
          unfold Client.close
          rw [hk]
          rfl
        | networkError code =>
          refine hF code ⟨nofun, nofun⟩ ?_
          unfold Client.close
          rw [hk]
          rfl
        | status code =>
          by_cases ho : code = Http2.Status.Ok
          · subst ho
            refine ⟨_, _, ?_, .finish hr'⟩
            have e2 : e.client.close a (.status Http2.Status.Ok) =
                (((cut e.client a).emitFinished (e.client.attempts a).stream).1, .closed a :: ((cut e.client a).emitFinished (e.client.attempts a).stream).2) := by
              unfold Client.close
              rw [hk]
              rfl
            rw [e2, quiet_hear]
            intro o ho
            rcases List.mem_cons.1 ho with rfl | ho
            · exact ⟨fun _ _ _ => nofun, fun _ => nofun, fun _ _ => nofun⟩
            · exact finished_quiet _ _ o ho
          · refine hF code ⟨nofun, fun hh => ho (by cases hh; rfl)⟩ ?_
            unfold Client.close
            rw [hk]
            dsimp only
            rw [if_neg ho]
            rfl
    · refine ⟨_, _, ?_, .other fun h => hr h.2.2⟩
      have e1 : e.client.net a i = (e.client, []) := by
        unfold Client.net
        rw [hk, Bool.eq_false_iff.2 hr]
        cases i <;> rfl
      rw [e1]
      rfl
  · rw [if_neg hc]
    exact ⟨_, _, rfl, .other fun h => hc ⟨h.1, h.2.1⟩⟩

theorem step_does {e : Engine} (h : Inv e) (v : Ev) : ∃ e' t, e.step v = .ok (e', t) ∧ Does e v e' t := by
  cases v with
  | login account => exact login_does h account
  | net a i => exact net_does h a i
  | timer s =>
    by_cases hs : s ∈ e.client.timers
    · have hn := h.client.timers s hs
      have hh := (h.client.held s hn).2
      refine ⟨_, _, ?_, .timer hs⟩
      have e1 : e.client.fire s = some (({ e.client with timers := e.client.timers.erase s } : Client).start s .http2) := by
        unfold Client.fire Client.alive
        dsimp only
        rw [if_pos hs, decide_eq_true hh, Bool.or_true, h.client.channel, if_neg (show ¬ e.accounts.length = 0 by omega)]
        rfl
      unfold Engine.step
      dsimp only
      rw [e1]
      rfl
    · refine ⟨_, _, ?_, .noTimer hs⟩
      unfold Engine.step Client.fire
      dsimp only
      rw [if_neg hs]
      rfl
  | send content =>
    unfold Engine.step
    dsimp only
    rw [h.client.channel]
    by_cases h0 : e.accounts.length = 0
    · rw [if_pos h0]
      exact ⟨_, _, rfl, .notSend content h0⟩
    · rw [if_neg h0]
      exact ⟨_, _, rfl, .send content (by omega)⟩

/-! ### All histories -/

theorem Inv.new : Inv Engine.new := by
  refine ⟨⟨rfl, Or.inl rfl, ?_, ?_, rfl, ?_, ?_⟩, ?_, ?_⟩
  · intro s hs
    cases hs
  · intro s hs
    cases hs
  · intro s hs
    cases hs
  · intro s hs
    cases hs
  · intro s
    rfl
  · intro s hs
    cases hs

theorem late_inv {n : Nat} {c : Client} (h : CInv n c) {s : Nat} (hs : s < n) : CInv n (late c s) := by
  unfold late
  split
  · exact h.due hs
  · exact h

theorem CInv.anew {n : Nat} {c : Client} (h : CInv n c) : CInv (n + 1) (relogged n c) := by
  have hs := h.stopped
  have ha := stop_active h
  have hc : ∀ j, ((stop c).streams j).connected = false := by
    intro j
    cases hj : ((stop c).streams j).connected with
    | false => rfl
    | true =>
      have := hs.connected j hj
      rw [ha] at this
      cases this
  refine ⟨rfl, Or.inr ⟨n, rfl, rfl, ?_⟩, ?_, ?_, ?_, ?_, ?_⟩
  · show (update (stop c).streams n _ n).connected = true
    rw [update_same]
  · intro j hj
    have hj : (update (stop c).streams n ⟨"messageList", [], [], [], true, 1, false⟩ j).connected = true := hj
    show j ∈ [n]
    by_cases e : j = n
    · rw [e]
      exact List.mem_cons_self
    · rw [update_other _ _ e, hc j] at hj
      cases hj
  · intro j hj
    show (update (stop c).streams n ⟨"messageList", [], [], [], true, 1, false⟩ j).deleted = false ∧ 0 < (update (stop c).streams n ⟨"messageList", [], [], [], true, 1, false⟩ j).held
    by_cases e : j = n
    · rw [e, update_same]
      exact ⟨rfl, Nat.one_pos⟩
    · rw [update_other _ _ e]
      exact hs.held j (by omega)
  · show some Kind.http2 = _
    rw [if_neg (by omega)]
  · intro a hlt
    have hlt : a < (stop c).nAttempts + 1 := hlt
    show (update (stop c).attempts (stop c).nAttempts ⟨n, .http2, true, []⟩ a).stream < n + 1 ∧ (update (stop c).attempts (stop c).nAttempts ⟨n, .http2, true, []⟩ a).kind = _
    by_cases e : a = (stop c).nAttempts
    · rw [e, update_same]
      exact ⟨Nat.lt_succ_self n, rfl⟩
    · rw [update_other _ _ e]
      have := hs.attempts a (by omega)
      exact ⟨by omega, this.2⟩
  · intro j hj
    have := hs.timers j hj
    omega

theorem finish_attempts (c : Client) (s : Nat) : ((c.emitFinished s).1).nAttempts = c.nAttempts ∧ (∀ a, (((c.emitFinished s).1).attempts a).stream = (c.attempts a).stream ∧
    (((c.emitFinished s).1).attempts a).connected = ((c.attempts a).connected && decide ((c.attempts a).stream ≠ s))) ∧ ((c.emitFinished s).1).timers = c.timers := by
  have e1 : (c.onFinished s).nAttempts = c.nAttempts ∧ (c.onFinished s).attempts = c.attempts ∧ (c.onFinished s).timers = c.timers := by
    unfold Client.onFinished
    split
    · exact ⟨rfl, rfl, rfl⟩
    · exact ⟨rfl, rfl, rfl⟩
  refine ⟨e1.1, ?_, e1.2.2⟩
  intro a
  show (if ((c.onFinished s).attempts a).stream = s then { (c.onFinished s).attempts a with connected := false } else (c.onFinished s).attempts a).stream = _ ∧
    (if ((c.onFinished s).attempts a).stream = s then { (c.onFinished s).attempts a with connected := false } else (c.onFinished s).attempts a).connected = _
  rw [e1.2.1]
  by_cases hs : (c.attempts a).stream = s
  · rw [if_pos hs]
    exact ⟨rfl, by rw [decide_eq_false (fun h => h hs), Bool.and_false]⟩
  · rw [if_neg hs]
    exact ⟨rfl, by rw [decide_eq_true hs, Bool.and_true]⟩

theorem stop_attempts (c : Client) : (stop c).nAttempts = c.nAttempts ∧ (∀ a, ((stop c).attempts a).stream = (c.attempts a).stream ∧ (((stop c).attempts a).connected = true → (c.attempts a).connected = true)) ∧
    (stop c).timers = c.timers := by
  unfold stop
  split
  · exact ⟨rfl, fun a => ⟨rfl, id⟩, rfl⟩
  · obtain ⟨h1, h2, h3⟩ := finish_attempts c _
    refine ⟨h1, fun a => ⟨(h2 a).1, fun h => ?_⟩, h3⟩
    rw [(h2 a).2] at h
    exact (Bool.and_eq_true_iff.1 h).1

theorem late_attempts (c : Client) (s : Nat) : (late c s).nAttempts = c.nAttempts ∧ (late c s).attempts = c.attempts ∧ (late c s).streams = c.streams ∧
    (late c s).timers = c.timers ++ if (c.streams s).connected then [s] else [] := by
  unfold late
  split
  · exact ⟨rfl, rfl, rfl, rfl⟩
  · exact ⟨rfl, rfl, rfl, (List.append_nil _).symm⟩

theorem cut_attempts (c : Client) (b a : Nat) : ((cut c b).attempts a).stream = (c.attempts a).stream ∧ ((cut c b).attempts a).connected = ((c.attempts a).connected && decide (a ≠ b)) := by
  show (update c.attempts b _ a).stream = _ ∧ (update c.attempts b _ a).connected = _
  by_cases e : a = b
  · subst e
    rw [update_same]
    exact ⟨rfl, by rw [decide_eq_false (fun h => h rfl), Bool.and_false]⟩
  · rw [update_other _ _ e]
    exact ⟨rfl, by rw [decide_eq_true e, Bool.and_true]⟩

theorem Inv.ask {e : Engine} (h : Inv e) {s : Nat} (hs : s < e.accounts.length) : Inv (e.ask s) := by
  refine ⟨h.client.start hs, h.slots, ?_⟩
  intro a ha
  have ha : a < e.client.nAttempts + 1 := ha
  show update e.loginOf e.client.nAttempts e.current a < e.accounts.length
  by_cases eq : a = e.client.nAttempts
  · rw [eq, update_same]
    unfold Engine.current
    omega
  · rw [update_other _ _ eq]
    exact h.logins a (by omega)

theorem Inv.does {e : Engine} (h : Inv e) {v : Ev} {e' : Engine} {t : List Obs} (hd : Does e v e' t) : Inv e' := by
  cases hd with
  | login account =>
    refine ⟨?_, ?_, ?_⟩
    · show CInv (e.accounts ++ [account]).length _
      rw [List.length_append, List.length_singleton]
      exact h.client.anew
    · intro s
      show List.filter _ (e.slots ++ [_]) = _
      rw [List.filter_append, h.slots s]
      show _ = ((e.accounts ++ [account])[s]?.map _).toList
      by_cases h1 : s < e.accounts.length
      · rw [List.getElem?_append_left h1, List.filter_cons_of_neg (by simp; omega)]
        simp
      · rw [List.getElem?_eq_none (by omega)]
        by_cases h2 : s = e.accounts.length
        · subst h2
          simp
        · rw [List.getElem?_eq_none (by rw [List.length_append, List.length_singleton]; omega), List.filter_cons_of_neg (by simp; omega)]
          rfl
    · intro a ha
      have ha : a < (stop e.client).nAttempts + 1 := ha
      rw [(stop_attempts e.client).1] at ha
      show update e.loginOf e.client.nAttempts e.accounts.length a < (e.accounts ++ [account]).length
      rw [List.length_append, List.length_singleton]
      by_cases eq : a = e.client.nAttempts
      · rw [eq, update_same]
        exact Nat.lt_succ_self _
      · rw [update_other _ _ eq]
        have := h.logins a (by omega)
        omega
  | other _ => exact h
  | list hr _ => exact ⟨h.client.data _ _, h.slots, h.logins⟩
  | again hr => exact Inv.ask (e := { e with client := cut e.client _ }) ⟨h.client.cut _, h.slots, h.logins⟩ (h.client.attempts _ hr.1).1
  | @fail a _ hr _ =>
    refine ⟨(late_inv (c := cut e.client a) (h.client.cut a) (h.client.attempts a hr.1).1).finish _, h.slots, ?_⟩
    intro b hb
    refine h.logins b ?_
    have hb : b < ((late (cut e.client a) (e.client.attempts a).stream).emitFinished (e.client.attempts a).stream).1.nAttempts := hb
    rw [(finish_attempts _ _).1, (late_attempts _ _).1] at hb
    exact hb
  | @finish a hr =>
    refine ⟨(h.client.cut a).finish _, h.slots, ?_⟩
    intro b hb
    refine h.logins b ?_
    have hb : b < ((cut e.client a).emitFinished (e.client.attempts a).stream).1.nAttempts := hb
    rw [(finish_attempts _ _).1] at hb
    exact hb
  | noTimer _ => exact h
  | timer hs => exact Inv.ask (e := { e with client := { e.client with timers := e.client.timers.erase _ } }) ⟨h.client.fired _, h.slots, h.logins⟩ (h.client.timers _ hs)
  | send _ _ => exact h
  | notSend _ _ => exact h

theorem run_cons {e : Engine} {v : Ev} {vs : List Ev} {e' : Engine} {t : List Obs} (h : e.run (v :: vs) = .ok (e', t)) :
    ∃ e1 t1 t2, e.step v = .ok (e1, t1) ∧ e1.run vs = .ok (e', t2) ∧ t = t1 ++ t2 := by
  unfold Engine.run at h
  obtain ⟨⟨e1, t1⟩, h1, h⟩ := Res.bind_eq_ok.1 h
  obtain ⟨⟨e2, t2⟩, h2, h⟩ := Res.bind_eq_ok.1 h
  cases h
  exact ⟨e1, t1, t2, h1, h2, rfl⟩

theorem does_of {e : Engine} (h : Inv e) {v : Ev} {e' : Engine} {t : List Obs} (hs : e.step v = .ok (e', t)) : Does e v e' t := by
  obtain ⟨e1, t1, h1, h2⟩ := step_does h v
  rw [h1] at hs
  cases hs
  exact h2

theorem Inv.run : ∀ {vs : List Ev} {e e' : Engine} {t : List Obs}, Inv e → e.run vs = .ok (e', t) → Inv e'
  | [], e, e', t, h, hr => by
    cases hr
    exact h
  | v :: vs, e, e', t, h, hr => by
    obtain ⟨e1, t1, t2, h1, h2, -⟩ := run_cons hr
    exact Inv.run (h.does (does_of h h1)) h2

theorem run_ok : ∀ (vs : List Ev) {e : Engine}, Inv e → ∃ e' t, e.run vs = .ok (e', t)
  | [], e, _ => ⟨e, [], rfl⟩
  | v :: vs, e, h => by
    obtain ⟨e1, t1, h1, h2⟩ := step_does h v
    obtain ⟨e2, t2, h3⟩ := run_ok vs (h.does h2)
    refine ⟨e2, t1 ++ t2, ?_⟩
    unfold Engine.run
    rw [h1]
    show (e1.run vs).bind _ = _
    rw [h3]
    rfl

/-- **C116**: whatever the user and the network do, nothing undefined happens. -/
theorem C116_defined (es : List Ev) : ∃ e t, Engine.new.run es = .ok (e, t) := run_ok es Inv.new

/-! ### Requests, and what is shown -/

theorem relogged_attempts (n : Nat) (c : Client) : (relogged n c).nAttempts = c.nAttempts + 1 ∧ (∀ a, a ≠ c.nAttempts → (relogged n c).attempts a = (stop c).attempts a) ∧
    (relogged n c).attempts c.nAttempts = ⟨n, .http2, true, []⟩ ∧ (relogged n c).timers = c.timers := by
  obtain ⟨h1, h2, h3⟩ := stop_attempts c
  refine ⟨?_, ?_, ?_, h3⟩
  · show (stop c).nAttempts + 1 = _
    rw [h1]
  · intro a ha
    show update (stop c).attempts (stop c).nAttempts _ a = _
    rw [h1, update_other _ _ ha]
  · show update (stop c).attempts (stop c).nAttempts _ c.nAttempts = _
    rw [h1, update_same]

theorem ask_attempts (e : Engine) (s : Nat) : (e.ask s).client.nAttempts = e.client.nAttempts + 1 ∧ (∀ a, a ≠ e.client.nAttempts → (e.ask s).client.attempts a = e.client.attempts a ∧
    (e.ask s).loginOf a = e.loginOf a) ∧ (e.ask s).client.attempts e.client.nAttempts = ⟨s, .http2, true, []⟩ ∧ (e.ask s).loginOf e.client.nAttempts = e.current :=
  ⟨rfl, fun _ ha => ⟨update_other _ _ ha, update_other _ _ ha⟩, update_same .., update_same ..⟩

/-- The requests so far stay what they are. -/
theorem Does.stay {e : Engine} {v : Ev} {e' : Engine} {t : List Obs} (hd : Does e v e' t) : e.client.nAttempts ≤ e'.client.nAttempts ∧ ∀ a, a < e.client.nAttempts →
    (e'.client.attempts a).stream = (e.client.attempts a).stream ∧ e'.loginOf a = e.loginOf a := by
  cases hd with
  | login account =>
    obtain ⟨h1, h2, -, -⟩ := relogged_attempts e.accounts.length e.client
    refine ⟨by rw [h1]; omega, fun a ha => ⟨?_, ?_⟩⟩
    · rw [h2 a (by omega)]
      exact ((stop_attempts e.client).2.1 a).1
    · exact update_other _ _ (by omega)
  | other _ => exact ⟨Nat.le_refl _, fun _ _ => ⟨rfl, rfl⟩⟩
  | list hr _ => exact ⟨Nat.le_refl _, fun _ _ => ⟨rfl, rfl⟩⟩
  | @again b hr =>
    obtain ⟨h1, h2, -, -⟩ := ask_attempts { e with client := cut e.client b } (e.client.attempts b).stream
    refine ⟨by rw [h1]; exact Nat.le_succ _, fun a ha => ⟨?_, ?_⟩⟩
    · rw [(h2 a (Nat.ne_of_lt ha)).1]
      exact (cut_attempts e.client b a).1
    · exact (h2 a (Nat.ne_of_lt ha)).2
  | @fail b _ hr _ =>
    refine ⟨?_, fun a ha => ⟨?_, rfl⟩⟩
    · rw [(finish_attempts _ _).1, (late_attempts _ _).1]
      exact Nat.le_refl _
    · rw [((finish_attempts _ _).2.1 a).1, (late_attempts _ _).2.1]
      exact (cut_attempts e.client b a).1
  | @finish b hr =>
    refine ⟨?_, fun a ha => ⟨?_, rfl⟩⟩
    · rw [(finish_attempts _ _).1]
      exact Nat.le_refl _
    · rw [((finish_attempts _ _).2.1 a).1]
      exact (cut_attempts e.client b a).1
  | noTimer _ => exact ⟨Nat.le_refl _, fun _ _ => ⟨rfl, rfl⟩⟩
  | @timer s hs =>
    obtain ⟨h1, h2, -, -⟩ := ask_attempts { e with client := { e.client with timers := e.client.timers.erase s } } s
    refine ⟨by rw [h1]; exact Nat.le_succ _, fun a ha => ⟨?_, ?_⟩⟩
    · rw [(h2 a (Nat.ne_of_lt ha)).1]
    · exact (h2 a (Nat.ne_of_lt ha)).2
  | send _ _ => exact ⟨Nat.le_refl _, fun _ _ => ⟨rfl, rfl⟩⟩
  | notSend _ _ => exact ⟨Nat.le_refl _, fun _ _ => ⟨rfl, rfl⟩⟩

theorem not_request {before : Bytes} {a b s l : Nat} {name list : Bytes} : Obs.request b s l ∉ display before a name list := by
  intro h
  unfold display at h
  rcases List.mem_append.1 h with h | h
  · split at h
    · cases List.mem_singleton.1 h
    · cases h
  · cases List.mem_singleton.1 h

/-- The requests of a step. -/
theorem Does.asks {e : Engine} {v : Ev} {e' : Engine} {t : List Obs} (hd : Does e v e' t) (b s l : Nat) : .request b s l ∈ t ↔
    e.client.nAttempts ≤ b ∧ b < e'.client.nAttempts ∧ s = (e'.client.attempts b).stream ∧ l = e'.loginOf b := by
  have hnone : ∀ {p q : Prop}, e'.client.nAttempts = e.client.nAttempts → Obs.request b s l ∉ t → (.request b s l ∈ t ↔ e.client.nAttempts ≤ b ∧ b < e'.client.nAttempts ∧
      s = (e'.client.attempts b).stream ∧ l = e'.loginOf b) := by
    intro _ _ h1 h2
    exact ⟨fun h => absurd h h2, fun ⟨h3, h4, _⟩ => by omega⟩
  have hone : ∀ s0 l0, e'.client.nAttempts = e.client.nAttempts + 1 → (e'.client.attempts e.client.nAttempts).stream = s0 → e'.loginOf e.client.nAttempts = l0 →
      t = [.request e.client.nAttempts s0 l0] → (.request b s l ∈ t ↔ e.client.nAttempts ≤ b ∧ b < e'.client.nAttempts ∧ s = (e'.client.attempts b).stream ∧ l = e'.loginOf b) := by
    intro s0 l0 h1 h2 h3 h4
    rw [h4, List.mem_singleton, h1]
    constructor
    · intro h
      cases h
      exact ⟨Nat.le_refl _, Nat.lt_succ_self _, h2.symm, h3.symm⟩
    · rintro ⟨h5, h6, h7, h8⟩
      have : b = e.client.nAttempts := by omega
      subst this
      rw [h7, h8, h2, h3]
  cases hd with
  | login account =>
    obtain ⟨h1, -, h3, -⟩ := relogged_attempts e.accounts.length e.client
    exact hone _ _ h1 (by rw [h3]) (update_same ..) rfl
  | other _ => exact hnone (p := True) (q := True) rfl nofun
  | list hr _ => exact hnone (p := True) (q := True) rfl not_request
  | @again c hr =>
    obtain ⟨h1, -, h3, h4⟩ := ask_attempts { e with client := cut e.client c } (e.client.attempts c).stream
    exact hone _ _ h1 (congrArg (·.stream) h3) h4 rfl
  | fail hr _ => exact hnone (p := True) (q := True) (by rw [(finish_attempts _ _).1, (late_attempts _ _).1]; rfl) (fun h => nomatch List.mem_singleton.1 h)
  | finish hr => exact hnone (p := True) (q := True) (by rw [(finish_attempts _ _).1]; rfl) nofun
  | noTimer _ => exact hnone (p := True) (q := True) rfl nofun
  | @timer c hs =>
    obtain ⟨h1, -, h3, h4⟩ := ask_attempts { e with client := { e.client with timers := e.client.timers.erase c } } c
    exact hone _ _ h1 (congrArg (·.stream) h3) h4 rfl
  | send _ _ => exact hnone (p := True) (q := True) rfl (fun h => nomatch List.mem_singleton.1 h)
  | notSend _ _ => exact hnone (p := True) (q := True) rfl (fun h => nomatch List.mem_singleton.1 h)

theorem Does.accounts {e : Engine} {v : Ev} {e' : Engine} {t : List Obs} (hd : Does e v e' t) : e'.accounts = e.accounts ++ logins [v] := by
  cases hd with
  | login account => rfl
  | _ => exact (List.append_nil _).symm

theorem mem_display {before : Bytes} {a b : Nat} {name list n l : Bytes} (h : Obs.showing b n l ∈ display before a name list) : b = a ∧ n = name ∧ l = list := by
  unfold display at h
  rcases List.mem_append.1 h with h | h
  · split at h
    · cases List.mem_singleton.1 h
    · cases h
  · cases List.mem_singleton.1 h
    exact ⟨rfl, rfl, rfl⟩

/-- A list that is shown came on an attempt that runs, and is shown under the name of the login that made the stream. -/
theorem Does.showing {e : Engine} {v : Ev} {e' : Engine} {t : List Obs} (hd : Does e v e' t) {a : Nat} {name list : Bytes} (h : .showing a name list ∈ t) :
    e.Runs a ∧ (∃ account, e.accounts[(e.client.attempts a).stream]? = some account ∧ account.name = name) ∧ e'.userName = name ∧ e'.messages = list ∧ e'.accounts = e.accounts := by
  cases hd with
  | @list b d account hr ha =>
    obtain ⟨rfl, rfl, rfl⟩ := mem_display h
    exact ⟨hr, ⟨account, ha, rfl⟩, rfl, rfl, rfl⟩
  | other _ => cases h
  | finish _ => cases h
  | noTimer _ => cases h
  | _ => cases List.mem_singleton.1 h

def lists (t : List Obs) : List (Bytes × Bytes) := t.filterMap fun | .showing _ name list => some (name, list) | _ => none

theorem Does.last {e : Engine} {v : Ev} {e' : Engine} {t : List Obs} (hd : Does e v e' t) : ((lists t).getLast?).getD (e.userName, e.messages) = (e'.userName, e'.messages) := by
  cases hd with
  | @list b d account hr ha =>
    have : lists (display e.userName b account.name d) = [(account.name, d)] := by
      unfold lists display
      split <;> rfl
    rw [this]
    rfl
  | _ => rfl

structure TInv (done : List Ev) (e : Engine) (t : List Obs) : Prop where
  inv : Inv e
  accounts : e.accounts = logins done
  asked : ∀ b s l, .request b s l ∈ t ↔ b < e.client.nAttempts ∧ s = (e.client.attempts b).stream ∧ l = e.loginOf b
  last : shown t = (e.userName, e.messages)
  showing : ∀ a name list, .showing a name list ∈ t → a < e.client.nAttempts ∧ ∃ account, e.accounts[(e.client.attempts a).stream]? = some account ∧ account.name = name

theorem lists_append (t u : List Obs) : lists (t ++ u) = lists t ++ lists u := List.filterMap_append

theorem TInv.step {done : List Ev} {e : Engine} {t : List Obs} (h : TInv done e t) {v : Ev} {e' : Engine} {u : List Obs} (hd : Does e v e' u) : TInv (done ++ [v]) e' (t ++ u) := by
  obtain ⟨s1, s2⟩ := hd.stay
  refine ⟨h.inv.does hd, ?_, ?_, ?_, ?_⟩
  · rw [hd.accounts, h.accounts]
    exact List.filterMap_append.symm
  · intro b s l
    rw [List.mem_append, h.asked, hd.asks]
    constructor
    · rintro (⟨h1, h2, h3⟩ | ⟨-, h2, h3⟩)
      · rw [(s2 b h1).1, (s2 b h1).2]
        exact ⟨by omega, h2, h3⟩
      · exact ⟨h2, h3⟩
    · rintro ⟨h1, h2, h3⟩
      by_cases hb : b < e.client.nAttempts
      · rw [(s2 b hb).1] at h2
        rw [(s2 b hb).2] at h3
        exact Or.inl ⟨hb, h2, h3⟩
      · exact Or.inr ⟨by omega, h1, h2, h3⟩
  · rw [← hd.last]
    show ((lists (t ++ u)).getLast?).getD _ = _
    have hl : ((lists t).getLast?).getD ([], []) = (e.userName, e.messages) := h.last
    rw [lists_append, List.getLast?_append]
    cases hu : (lists u).getLast? with
    | some x => rfl
    | none => exact hl
  · intro a name list hm
    have hacc : ∀ {s : Nat} {account : Account}, e.accounts[s]? = some account → e'.accounts[s]? = some account := by
      intro s account hs
      rw [hd.accounts, List.getElem?_append_left (List.getElem?_eq_some_iff.1 hs).1]
      exact hs
    rcases List.mem_append.1 hm with hm | hm
    · obtain ⟨h1, account, h2, h3⟩ := h.showing a name list hm
      rw [(s2 a h1).1]
      exact ⟨by omega, account, hacc h2, h3⟩
    · obtain ⟨hr, ⟨account, h2, h3⟩, -⟩ := hd.showing hm
      rw [(s2 a hr.1).1]
      exact ⟨Nat.lt_of_lt_of_le hr.1 s1, account, hacc h2, h3⟩

theorem TInv.new : TInv [] Engine.new [] :=
  ⟨Inv.new, rfl, fun _ _ _ => ⟨nofun, fun h => nomatch h.1⟩, rfl, fun _ _ _ h => nomatch h⟩

theorem TInv.run : ∀ {vs : List Ev} {done : List Ev} {e : Engine} {t : List Obs}, TInv done e t → ∀ {e' : Engine} {u : List Obs}, e.run vs = .ok (e', u) → TInv (done ++ vs) e' (t ++ u)
  | [], done, e, t, h, e', u, hr => by
    cases hr
    rw [List.append_nil, List.append_nil]
    exact h
  | v :: vs, done, e, t, h, e', u, hr => by
    obtain ⟨e1, t1, t2, h1, h2, rfl⟩ := run_cons hr
    have := TInv.run (h.step (does_of h.inv h1)) h2
    rw [List.append_assoc, List.append_assoc] at this
    exact this

theorem reached {es : List Ev} {e : Engine} {t : List Obs} (h : Engine.new.run es = .ok (e, t)) : TInv es e t := TInv.new.run h

/-- **C116**: every list that is shown came in answer to a request, of which there is one, and is shown under the name of the login that made its stream. The name and the list that the engine
has are those that were shown last. -/
theorem C116_shown {es : List Ev} {e : Engine} {t : List Obs} (h : Engine.new.run es = .ok (e, t)) : (e.userName, e.messages) = shown t ∧
    ∀ a name list, .showing a name list ∈ t → ∃ s l account, (∀ s' l', .request a s' l' ∈ t ↔ s' = s ∧ l' = l) ∧ (logins es)[s]? = some account ∧ account.name = name := by
  have hi := reached h
  refine ⟨hi.last.symm, fun a name list hm => ?_⟩
  obtain ⟨h1, account, h2, h3⟩ := hi.showing a name list hm
  refine ⟨(e.client.attempts a).stream, e.loginOf a, account, fun s' l' => ?_, by rw [← hi.accounts]; exact h2, h3⟩
  rw [hi.asked]
  exact ⟨fun h => h.2, fun h => ⟨h1, h⟩⟩

/-! ### Logins that do not cross repeated requests -/

/-- Requests were sent with the account of the login that made their stream. -/
structure Straight (e : Engine) : Prop where
  attempts : ∀ a, a < e.client.nAttempts → e.loginOf a = (e.client.attempts a).stream
  timers : ∀ s ∈ e.client.timers, s = e.current

theorem Straight.step {e : Engine} (h : Straight e) {v : Ev} {e' : Engine} {t : List Obs} (hd : Does e v e' t) (hc : ∀ account, v = .login account → e.client.timers = []) : Straight e' := by
  obtain ⟨s1, s2⟩ := hd.stay
  have old : ∀ a, a < e.client.nAttempts → e'.loginOf a = (e'.client.attempts a).stream := by
    intro a ha
    rw [(s2 a ha).1, (s2 a ha).2]
    exact h.attempts a ha
  have one : e'.client.nAttempts = e.client.nAttempts + 1 → e'.loginOf e.client.nAttempts = (e'.client.attempts e.client.nAttempts).stream →
      ∀ a, a < e'.client.nAttempts → e'.loginOf a = (e'.client.attempts a).stream := by
    intro h1 h2 a ha
    by_cases eq : a = e.client.nAttempts
    · rw [eq]
      exact h2
    · exact old a (by omega)
  cases hd with
  | login account =>
    obtain ⟨h1, -, h3, h4⟩ := relogged_attempts e.accounts.length e.client
    refine ⟨one h1 ?_, ?_⟩
    · show update _ _ _ _ = ((relogged e.accounts.length e.client).attempts _).stream
      rw [h3, update_same]
    · show ∀ s ∈ (relogged e.accounts.length e.client).timers, _
      rw [h4, hc account rfl]
      nofun
  | other _ => exact h
  | list hr _ => exact ⟨h.attempts, h.timers⟩
  | @again c hr =>
    obtain ⟨h1, -, h3, h4⟩ := ask_attempts { e with client := cut e.client c } (e.client.attempts c).stream
    refine ⟨one h1 ?_, h.timers⟩
    have h3' := congrArg (·.stream) h3
    exact (h4.trans (hr.2.1.symm.trans (h.attempts c hr.1))).trans h3'.symm
  | @fail c _ hr _ =>
    refine ⟨fun a ha => old a ?_, ?_⟩
    · have ha : a < ((late (cut e.client c) (e.client.attempts c).stream).emitFinished (e.client.attempts c).stream).1.nAttempts := ha
      rw [(finish_attempts _ _).1, (late_attempts _ _).1] at ha
      exact ha
    · intro s hs
      have hs : s ∈ ((late (cut e.client c) (e.client.attempts c).stream).emitFinished (e.client.attempts c).stream).1.timers := hs
      rw [(finish_attempts _ _).2.2, (late_attempts _ _).2.2.2] at hs
      rcases List.mem_append.1 hs with hs | hs
      · exact h.timers s hs
      · split at hs
        · rw [List.mem_singleton.1 hs, ← h.attempts c hr.1]
          exact hr.2.1
        · cases hs
  | @finish c hr =>
    refine ⟨fun a ha => old a ?_, ?_⟩
    · have ha : a < ((cut e.client c).emitFinished (e.client.attempts c).stream).1.nAttempts := ha
      rw [(finish_attempts _ _).1] at ha
      exact ha
    · intro s hs
      have hs : s ∈ ((cut e.client c).emitFinished (e.client.attempts c).stream).1.timers := hs
      rw [(finish_attempts _ _).2.2] at hs
      exact h.timers s hs
  | noTimer _ => exact h
  | @timer s hs =>
    obtain ⟨h1, -, h3, h4⟩ := ask_attempts { e with client := { e.client with timers := e.client.timers.erase s } } s
    refine ⟨one h1 ?_, fun s hs => h.timers s (List.mem_of_mem_erase hs)⟩
    have h3' := congrArg (·.stream) h3
    exact (h4.trans (h.timers s hs).symm).trans h3'.symm
  | send _ _ => exact h
  | notSend _ _ => exact h

theorem run_snoc : ∀ {vs : List Ev} {e e1 e2 : Engine} {t u : List Obs} {v : Ev}, e.run vs = .ok (e1, t) → e1.step v = .ok (e2, u) → e.run (vs ++ [v]) = .ok (e2, t ++ u)
  | [], e, e1, e2, t, u, v, h, hs => by
    cases h
    show Res.bind _ _ = _
    rw [hs]
    show Res.ok (e2, u ++ []) = _
    rw [List.append_nil]
    rfl
  | w :: vs, e, e1, e2, t, u, v, h, hs => by
    obtain ⟨e3, t1, t2, h1, h2, rfl⟩ := run_cons h
    have := run_snoc h2 hs
    show Res.bind _ _ = _
    rw [h1]
    show (e3.run (vs ++ [v])).bind _ = _
    rw [this, List.append_assoc]
    rfl

theorem Straight.run : ∀ {vs : List Ev} {done : List Ev} {e : Engine} {t : List Obs}, Engine.new.run done = .ok (e, t) → Straight e → Calm (done ++ vs) →
    ∀ {e' : Engine} {u : List Obs}, e.run vs = .ok (e', u) → Straight e'
  | [], done, e, t, _, h, _, e', u, hr => by
    cases hr
    exact h
  | v :: vs, done, e, t, hd, h, hc, e', u, hr => by
    obtain ⟨e1, t1, t2, h1, h2, rfl⟩ := run_cons hr
    have hi := (reached hd).inv
    refine Straight.run (run_snoc hd h1) (h.step (does_of hi h1) fun account hv => hc done account vs e t (by rw [hv]) hd) ?_ h2
    rw [List.append_assoc]
    exact hc

theorem Straight.new : Straight Engine.new := ⟨(fun _ h => nomatch h), (fun _ h => nomatch h)⟩

/-- **C116**, partial: every list is shown under the name of the account with which it was asked for, as long as nobody logs in while a request is still to be repeated.

Missing: other logins, see `C116_crossed_violated`. -/
theorem C116_name_partial {es : List Ev} {e : Engine} {t : List Obs} (h : Engine.new.run es = .ok (e, t)) (hc : Calm es) {a : Nat} {name list : Bytes} (hm : .showing a name list ∈ t) :
    ∃ s l account, (∀ s' l', .request a s' l' ∈ t ↔ s' = s ∧ l' = l) ∧ (logins es)[l]? = some account ∧ account.name = name := by
  have hs : Straight e := Straight.run (done := []) (t := []) rfl Straight.new hc h
  have hi := reached h
  obtain ⟨h1, account, h2, h3⟩ := hi.showing a name list hm
  refine ⟨(e.client.attempts a).stream, e.loginOf a, account, fun s' l' => ?_, by rw [hs.attempts a h1, ← hi.accounts]; exact h2, h3⟩
  rw [hi.asked]
  exact ⟨fun h => h.2, fun h => ⟨h1, h⟩⟩

/-- The name that is shown is that of the account with which messages are sent. -/
def Named (e : Engine) : Prop := ∃ account, e.accounts[e.current]? = some account ∧ account.name = e.userName

theorem Named.step {e : Engine} (h : Straight e) {v : Ev} {e' : Engine} {t : List Obs} (hd : Does e v e' t) (hv : ∀ account, v ≠ .login account) :
    ((∃ a name list, Obs.showing a name list ∈ t) ∨ Named e) → Named e' := by
  intro hn
  have hs : ∀ a name list, Obs.showing a name list ∈ t → Named e' := by
    intro a name list hm
    obtain ⟨hr, ⟨account, h1, h2⟩, h3, -, h5⟩ := hd.showing hm
    refine ⟨account, ?_, h2.trans h3.symm⟩
    unfold Engine.current
    rw [h5, ← h1, ← h.attempts a hr.1, hr.2.1]
    rfl
  rcases hn with ⟨a, name, list, hm⟩ | hn
  · exact hs a name list hm
  · cases hd with
    | login account => exact absurd rfl (hv account)
    | @list a d account hr _ => exact hs a account.name d (List.mem_append_right _ List.mem_cons_self)
    | _ => exact hn

theorem Named.run : ∀ {vs : List Ev} {done : List Ev} {e : Engine} {t : List Obs}, Engine.new.run done = .ok (e, t) → Straight e → Calm (done ++ vs) → (∀ account, .login account ∉ vs) →
    ∀ {e' : Engine} {u : List Obs}, e.run vs = .ok (e', u) → ((∃ a name list, Obs.showing a name list ∈ u) ∨ Named e) → Named e'
  | [], done, e, t, _, h, _, _, e', u, hr, hn => by
    cases hr
    rcases hn with ⟨_, _, _, hm⟩ | hn
    · cases hm
    · exact hn
  | v :: vs, done, e, t, hd, h, hc, hl, e', u, hr, hn => by
    obtain ⟨e1, t1, t2, h1, h2, rfl⟩ := run_cons hr
    have hi := (reached hd).inv
    have hv : ∀ account, v ≠ .login account := fun account hv => hl account (by rw [hv]; exact List.mem_cons_self)
    refine Named.run (run_snoc hd h1) (h.step (does_of hi h1) fun account e => absurd e (hv account)) ?_ (fun account hm => hl account (List.mem_cons_of_mem _ hm)) h2 ?_
    · rw [List.append_assoc]
      exact hc
    · rcases hn with ⟨a, name, list, hm⟩ | hn
      · rcases List.mem_append.1 hm with hm | hm
        · exact Or.inr (Named.step h (does_of hi h1) hv (Or.inl ⟨a, name, list, hm⟩))
        · exact Or.inl ⟨a, name, list, hm⟩
      · exact Or.inr (Named.step h (does_of hi h1) hv (Or.inr hn))

/-- **C116**, partial: once a list was shown after the last login, messages are sent with the account whose name is shown, as long as nobody logs in while a request is still to be repeated.

Missing: other logins, see `C116_crossed_violated`. -/
theorem C116_sent_partial {pre es : List Ev} {e0 e : Engine} {t0 t : List Obs} (h0 : Engine.new.run pre = .ok (e0, t0)) (h : e0.run es = .ok (e, t)) (hc : Calm (pre ++ es))
    (hl : ∀ account, .login account ∉ es) {a : Nat} {name list : Bytes} (hm : .showing a name list ∈ t) (content : Bytes) :
    ∃ l account, e.step (.send content) = .ok (e, [.sent l content]) ∧ (logins (pre ++ es))[l]? = some account ∧ account.name = e.userName := by
  have hs : Straight e0 := by
    refine Straight.run (done := []) (t := []) rfl Straight.new ?_ h0
    intro p account post e1 t1 e2
    exact hc p account (post ++ es) e1 t1 (by
      have e2 : pre = p ++ .login account :: post := e2
      rw [e2]
      simp)
  obtain ⟨account, h1, h2⟩ := Named.run h0 hs hc hl h (Or.inl ⟨a, name, list, hm⟩)
  have hi := (reached h0).run h
  refine ⟨e.current, account, ?_, by rw [← hi.accounts]; exact h1, h2⟩
  have hlen := (List.getElem?_eq_some_iff.1 h1).1
  unfold Engine.step
  rw [hi.inv.client.channel, if_neg (by omega)]
  rfl

/-! ### Lists that arrive -/

theorem Does.running {e : Engine} {v : Ev} {e' : Engine} {t : List Obs} (hd : Does e v e' t) (hv : (∀ account, v ≠ .login account) ∧ ∀ a cause, v = .net a (.close cause) → cause = .remoteHostClosed)
    {n : Nat} (h : ∃ a, e.Runs a ∧ (e.client.attempts a).stream = n) : ∃ a, e'.Runs a ∧ (e'.client.attempts a).stream = n := by
  obtain ⟨a, h1, h2⟩ := h
  cases hd with
  | login account => exact absurd rfl (hv.1 account)
  | other _ => exact ⟨a, h1, h2⟩
  | list hr _ => exact ⟨a, h1, h2⟩
  | @again b hr =>
    obtain ⟨g1, g2, g3, g4⟩ := ask_attempts { e with client := cut e.client b } (e.client.attempts b).stream
    by_cases hb : a = b
    · subst hb
      refine ⟨e.client.nAttempts, ⟨?_, g4, ?_⟩, ?_⟩
      · rw [g1]
        exact Nat.lt_succ_self _
      · exact congrArg (·.connected) g3
      · exact (congrArg (·.stream) g3).trans h2
    · have ha : a ≠ e.client.nAttempts := Nat.ne_of_lt h1.1
      refine ⟨a, ⟨?_, ?_, ?_⟩, ?_⟩
      · rw [g1]
        exact Nat.lt_succ_of_lt h1.1
      · rw [(g2 a ha).2]
        exact h1.2.1
      · rw [(g2 a ha).1]
        show ((cut e.client b).attempts a).connected = true
        rw [(cut_attempts _ _ _).2, h1.2.2, decide_eq_true hb]
        rfl
      · rw [(g2 a ha).1]
        exact (cut_attempts e.client b a).1.trans h2
  | fail hr hn => exact absurd (hv.2 _ _ rfl) hn.1
  | finish hr => cases hv.2 _ _ rfl
  | noTimer _ => exact ⟨a, h1, h2⟩
  | @timer s hs =>
    obtain ⟨g1, g2, g3, g4⟩ := ask_attempts { e with client := { e.client with timers := e.client.timers.erase s } } s
    have ha : a ≠ e.client.nAttempts := Nat.ne_of_lt h1.1
    refine ⟨a, ⟨?_, ?_, ?_⟩, ?_⟩
    · rw [g1]
      exact Nat.lt_succ_of_lt h1.1
    · rw [(g2 a ha).2]
      exact h1.2.1
    · rw [(g2 a ha).1]
      exact h1.2.2
    · rw [(g2 a ha).1]
      exact h2
  | send _ _ => exact ⟨a, h1, h2⟩
  | notSend _ _ => exact ⟨a, h1, h2⟩

theorem running_run : ∀ {vs : List Ev} {e : Engine}, Inv e → Undisturbed vs → ∀ {e' : Engine} {u : List Obs} {n : Nat}, e.run vs = .ok (e', u) →
    (∃ a, e.Runs a ∧ (e.client.attempts a).stream = n) → ∃ a, e'.Runs a ∧ (e'.client.attempts a).stream = n
  | [], e, _, _, e', u, n, hr, h => by
    cases hr
    exact h
  | v :: vs, e, hi, hv, e', u, n, hr, h => by
    obtain ⟨e1, t1, t2, h1, h2, rfl⟩ := run_cons hr
    have hd := does_of hi h1
    exact running_run (hi.does hd) (fun w hw => hv w (List.mem_cons_of_mem _ hw)) h2 (hd.running (hv v List.mem_cons_self) h)

/-- **C116**: after a login a request with this account waits for lists, also after the connection was lost, until the next login or until a request ends otherwise. A list that arrives on it is shown,
under the name of the account; that the user is logged in is told if another name was shown before. -/
theorem C116_listens {pre mid : List Ev} {account : Account} {e : Engine} {t : List Obs} (h : Engine.new.run (pre ++ .login account :: mid) = .ok (e, t)) (hm : Undisturbed mid) :
    ∃ a, .request a (logins pre).length (logins pre).length ∈ t ∧ ∀ list, ∃ e', e.step (.net a (.data list)) = .ok (e', display e.userName a account.name list) ∧
      e'.userName = account.name ∧ e'.messages = list := by
  obtain ⟨e0, t0, h0⟩ := C116_defined pre
  have r0 := reached h0
  obtain ⟨e1, t1, h1, hd1⟩ := step_does r0.inv (.login account)
  obtain ⟨e2, t2, h2⟩ := run_ok mid (r0.inv.does hd1)
  have hrun : ∀ {vs : List Ev} {e : Engine} {ws : List Ev} {e1 e2 : Engine} {t1 t2 : List Obs}, e.run vs = .ok (e1, t1) → e1.run ws = .ok (e2, t2) → e.run (vs ++ ws) = .ok (e2, t1 ++ t2) := by
    intro vs
    induction vs with
    | nil =>
      intro e ws e1 e2 t1 t2 ha hb
      cases ha
      exact hb
    | cons v vs ih =>
      intro e ws e1 e2 t1 t2 ha hb
      obtain ⟨e3, u1, u2, g1, g2, rfl⟩ := run_cons ha
      show Res.bind _ _ = _
      rw [g1]
      show (e3.run (vs ++ ws)).bind _ = _
      rw [ih g2 hb, List.append_assoc]
      rfl
  have hall : Engine.new.run (pre ++ .login account :: mid) = .ok (e2, t0 ++ (t1 ++ t2)) := by
    refine hrun h0 ?_
    show Res.bind _ _ = _
    rw [h1]
    show (e1.run mid).bind _ = _
    rw [h2]
    rfl
  rw [hall] at h
  cases h
  have hrun1 : ∃ a, e1.Runs a ∧ (e1.client.attempts a).stream = (logins pre).length := by
    cases hd1 with
    | login _ =>
      obtain ⟨g1, -, g3, -⟩ := relogged_attempts e0.accounts.length e0.client
      refine ⟨e0.client.nAttempts, ⟨?_, ?_, ?_⟩, ?_⟩
      · show _ < (relogged e0.accounts.length e0.client).nAttempts
        rw [g1]
        exact Nat.lt_succ_self _
      · show update _ _ _ _ = (e0.accounts ++ [account]).length - 1
        rw [update_same, current_append]
      · exact congrArg (·.connected) g3
      · rw [← r0.accounts]
        exact congrArg (·.stream) g3
  obtain ⟨a, ha1, ha2⟩ := running_run (r0.inv.does hd1) hm h2 hrun1
  have r2 := reached hall
  have hlm : logins mid = [] := by
    unfold logins
    rw [List.filterMap_eq_nil_iff]
    intro v hv
    cases v with
    | login b => exact absurd rfl ((hm _ hv).1 b)
    | _ => rfl
  have hacc : e.accounts = logins pre ++ [account] := by
    rw [r2.accounts]
    unfold logins at hlm ⊢
    rw [List.filterMap_append, List.filterMap_cons]
    dsimp only
    rw [hlm]
  refine ⟨a, ?_, ?_⟩
  · rw [r2.asked]
    refine ⟨ha1.1, ha2.symm, ?_⟩
    rw [ha1.2.1]
    unfold Engine.current
    rw [hacc, current_append]
  · intro list
    obtain ⟨e', u, g1, g2⟩ := step_does r2.inv (.net a (.data list))
    rw [g1]
    cases g2 with
    | other hn => exact absurd ha1 hn
    | @list _ _ b _ hb =>
      rw [ha2, hacc, List.getElem?_append_right (Nat.le_refl _), Nat.sub_self] at hb
      cases hb
      exact ⟨_, rfl, rfl, rfl⟩

/-! ### Repeated requests -/

/-- How many requests for a stream run (of any login). -/
def liveN (c : Client) (s : Nat) : Nat := (List.range c.nAttempts).countP fun a => (c.attempts a).connected && (c.attempts a).stream == s

theorem liveN_le {c c' : Client} {s : Nat} (hn : c'.nAttempts = c.nAttempts) (h : ∀ a, (c'.attempts a).connected = true → (c'.attempts a).stream = s → (c.attempts a).connected = true ∧ (c.attempts a).stream = s) :
    liveN c' s ≤ liveN c s := by
  unfold liveN
  rw [hn]
  refine List.countP_mono_left fun a _ ha => ?_
  rw [Bool.and_eq_true_iff, beq_iff_eq] at ha ⊢
  exact h a ha.1 ha.2

theorem countP_lt {p q : Nat → Bool} {x : Nat} : ∀ {l : List Nat}, (∀ y, p y = true → q y = true) → x ∈ l → q x = true → p x = false → l.countP p < l.countP q
  | [], _, hx, _, _ => nomatch hx
  | y :: l, h, hx, h1, h2 => by
    rw [List.countP_cons, List.countP_cons]
    have hle : l.countP p ≤ l.countP q := List.countP_mono_left fun y _ => h y
    by_cases hy : x = y
    · subst hy
      rw [h1, h2]
      simp
      omega
    · rcases List.mem_cons.1 hx with e | hx
      · exact absurd e hy
      have := countP_lt h hx h1 h2
      by_cases hp : p y = true
      · rw [if_pos hp, if_pos (h y hp)]
        omega
      · rw [if_neg hp]
        omega

theorem liveN_lt {c c' : Client} {s a : Nat} (hn : c'.nAttempts = c.nAttempts) (h : ∀ a, (c'.attempts a).connected = true → (c'.attempts a).stream = s → (c.attempts a).connected = true ∧ (c.attempts a).stream = s)
    (ha : a < c.nAttempts) (h1 : (c.attempts a).connected = true) (h2 : (c.attempts a).stream = s) (h3 : (c'.attempts a).connected = false) : liveN c' s < liveN c s := by
  unfold liveN
  rw [hn]
  refine countP_lt (x := a) (fun a ha => ?_) (List.mem_range.2 ha) ?_ ?_
  · rw [Bool.and_eq_true_iff, beq_iff_eq] at ha ⊢
    exact h a ha.1 ha.2
  · rw [h1, h2, beq_self_eq_true]
    rfl
  · rw [h3]
    rfl

theorem liveN_succ {c c' : Client} {s s0 : Nat} (hn : c'.nAttempts = c.nAttempts + 1) (h : ∀ a, a ≠ c.nAttempts → c'.attempts a = c.attempts a) (h0 : c'.attempts c.nAttempts = ⟨s0, .http2, true, []⟩) :
    liveN c' s = liveN c s + if s0 = s then 1 else 0 := by
  unfold liveN
  rw [hn, List.range_succ, List.countP_append, List.countP_singleton, h0]
  congr 1
  · refine List.countP_congr fun a ha => ?_
    rw [h a (Nat.ne_of_lt (List.mem_range.1 ha))]
  · show (if (true && s0 == s) = true then 1 else 0) = _
    rw [Bool.true_and]
    by_cases e : s0 = s
    · rw [if_pos e, if_pos (beq_iff_eq.2 e)]
    · rw [if_neg e, if_neg (fun h => e (beq_iff_eq.1 h))]

theorem liveN_zero {n : Nat} {c : Client} (h : CInv n c) {s : Nat} (hs : n ≤ s) : liveN c s = 0 := by
  unfold liveN
  rw [List.countP_eq_zero]
  intro a ha
  have := (h.attempts a (List.mem_range.1 ha)).1
  rw [Bool.and_eq_true_iff, beq_iff_eq]
  omega

theorem finish_live (c : Client) (s j : Nat) : liveN (c.emitFinished s).1 j ≤ liveN c j := by
  obtain ⟨h1, h2, -⟩ := finish_attempts c s
  refine liveN_le h1 fun a ha hj => ?_
  rw [(h2 a).1] at hj
  rw [(h2 a).2] at ha
  exact ⟨(Bool.and_eq_true_iff.1 ha).1, hj⟩

def conn (c : Client) (s : Nat) : Nat := if (c.streams s).connected then 1 else 0

theorem finish_conn {n : Nat} {c : Client} (h : CInv n c) (s j : Nat) : conn (c.emitFinished s).1 j = if j = s then 0 else conn c j := by
  show conn ((c.onFinished s).onAbort s) j = _
  rw [onFinished_eq h s]
  show (if (update c.streams s { c.streams s with connected := false } j).connected then 1 else 0) = _
  by_cases e : j = s
  · rw [if_pos e, e, update_same]
    rfl
  · rw [if_neg e, update_other _ _ e]
    rfl

/-- How often a stream has failed and may yet fail. -/
def budget (c : Client) (s : Nat) : Nat := liveN c s + c.timers.count s + conn c s

theorem finish_budget {n : Nat} {c : Client} (h : CInv n c) (s j : Nat) : budget (c.emitFinished s).1 j ≤ budget c j := by
  have h1 := finish_live c s j
  have h2 := finish_conn h s j
  have h3 := (finish_attempts c s).2.2
  unfold budget
  rw [h3, h2]
  split <;> omega

theorem cut_live (c : Client) (a j : Nat) : liveN (cut c a) j ≤ liveN c j := by
  refine liveN_le rfl fun b hb hj => ?_
  rw [(cut_attempts c a b).1] at hj
  rw [(cut_attempts c a b).2] at hb
  exact ⟨(Bool.and_eq_true_iff.1 hb).1, hj⟩

theorem cut_live_lt {e : Engine} {a : Nat} (hr : e.Runs a) : liveN (cut e.client a) (e.client.attempts a).stream < liveN e.client (e.client.attempts a).stream := by
  refine liveN_lt (a := a) rfl (fun b hb hj => ?_) hr.1 hr.2.2 rfl ?_
  · rw [(cut_attempts e.client a b).1] at hj
    rw [(cut_attempts e.client a b).2] at hb
    exact ⟨(Bool.and_eq_true_iff.1 hb).1, hj⟩
  · rw [(cut_attempts e.client a a).2, decide_eq_false (fun h => h rfl), Bool.and_false]

theorem cut_budget (c : Client) (a j : Nat) : budget (cut c a) j ≤ budget c j := by
  have := cut_live c a j
  have h1 : (cut c a).timers = c.timers := rfl
  have h2 : conn (cut c a) j = conn c j := rfl
  unfold budget
  rw [h1, h2]
  omega

theorem Does.spend {e : Engine} (h : Inv e) {v : Ev} {e' : Engine} {t : List Obs} (hd : Does e v e' t) (s : Nat) (hs : s < e.accounts.length) : t.count (.failed s) + budget e'.client s ≤ budget e.client s := by
  cases hd with
  | login account =>
    obtain ⟨g1, g2, g3, g4⟩ := relogged_attempts e.accounts.length e.client
    have h1 : budget (stop e.client) s ≤ budget e.client s := by
      unfold stop
      split
      · exact Nat.le_refl _
      · exact finish_budget h.client _ s
    have h2 : liveN (relogged e.accounts.length e.client) s = liveN (stop e.client) s := by
      have hn := (stop_attempts e.client).1
      rw [liveN_succ (c := stop e.client) (s0 := e.accounts.length) (by rw [g1, hn]) (fun a ha => g2 a (by rw [← hn]; exact ha)) (by rw [hn]; exact g3), if_neg (by omega), Nat.add_zero]
    have h3 : conn (relogged e.accounts.length e.client) s = conn (stop e.client) s := by
      unfold conn
      show (if (update (stop e.client).streams e.accounts.length _ s).connected then 1 else 0) = _
      rw [update_other _ _ (by omega)]
    have h4 : (relogged e.accounts.length e.client).timers = (stop e.client).timers := rfl
    show 0 + budget (relogged e.accounts.length e.client) s ≤ _
    unfold budget at h1 ⊢
    rw [h2, h3, h4]
    omega
  | other _ =>
    show 0 + _ ≤ _
    omega
  | @list a d account hr ha =>
    have h0 : (display e.userName a account.name d).count (.failed s) = 0 := by
      rw [List.count_eq_zero]
      intro hm
      unfold display at hm
      rcases List.mem_append.1 hm with hm | hm
      · split at hm
        · cases List.mem_singleton.1 hm
        · cases hm
      · cases List.mem_singleton.1 hm
    have h3 : ∀ j, (update e.client.streams (e.client.attempts a).stream { e.client.streams (e.client.attempts a).stream with data := d } j).connected = (e.client.streams j).connected := by
      intro j
      by_cases eq : j = (e.client.attempts a).stream
      · rw [eq, update_same]
      · rw [update_other _ _ eq]
    rw [h0]
    unfold budget conn
    dsimp only
    rw [h3 s]
    show 0 + (liveN e.client s + _ + _) ≤ _
    omega
  | @again a hr =>
    obtain ⟨g1, g2, g3, -⟩ := ask_attempts { e with client := cut e.client a } (e.client.attempts a).stream
    have h2 := liveN_succ (c := cut e.client a) (s := s) g1 (fun a ha => (g2 a ha).1) g3
    have h1 := cut_live e.client a s
    show 0 + (liveN (Engine.ask { e with client := cut e.client a } (e.client.attempts a).stream).client s + e.client.timers.count s + conn e.client s) ≤ _
    unfold budget
    rw [h2]
    by_cases eq : (e.client.attempts a).stream = s
    · have := cut_live_lt hr
      rw [eq] at this
      rw [if_pos eq]
      omega
    · rw [if_neg eq]
      omega
  | @fail a _ hr _ =>
    have hc := h.client.cut a
    have hl := late_inv (c := cut e.client a) hc (h.client.attempts a hr.1).1
    obtain ⟨l1, l2, l3, l4⟩ := late_attempts (cut e.client a) (e.client.attempts a).stream
    have hlive : liveN (late (cut e.client a) (e.client.attempts a).stream) s = liveN (cut e.client a) s := by
      unfold liveN
      rw [l1, l2]
    have hconn : conn (late (cut e.client a) (e.client.attempts a).stream) s = conn e.client s := by
      unfold conn
      rw [l3]
      rfl
    by_cases eq : s = (e.client.attempts a).stream
    · have h1 : liveN ((late (cut e.client a) (e.client.attempts a).stream).emitFinished (e.client.attempts a).stream).1 s ≤ liveN (cut e.client a) s := hlive ▸ finish_live _ _ s
      have h2 := cut_live_lt hr
      rw [← eq] at h2
      have h3 := finish_conn hl (e.client.attempts a).stream s
      rw [if_pos eq] at h3
      show [Obs.failed (e.client.attempts a).stream].count (.failed s) + budget ((late (cut e.client a) (e.client.attempts a).stream).emitFinished (e.client.attempts a).stream).1 s ≤ _
      unfold budget
      rw [(finish_attempts _ _).2.2, l4, h3, List.count_append, ← eq, List.count_singleton_self]
      have h4 : (if ((cut e.client a).streams s).connected = true then [s] else []).count s = conn e.client s := by
        show (if (e.client.streams s).connected = true then [s] else []).count s = (if (e.client.streams s).connected then 1 else 0)
        split
        · exact List.count_singleton_self
        · rfl
      have h5 : (cut e.client a).timers = e.client.timers := rfl
      rw [h4, h5]
      rw [← eq] at h1
      omega
    · have h0 : [Obs.failed (e.client.attempts a).stream].count (.failed s) = 0 := by
        rw [List.count_eq_zero]
        intro hm
        cases List.mem_singleton.1 hm
        exact eq rfl
      have h1 := finish_budget hl (e.client.attempts a).stream s
      have h2 : budget (late (cut e.client a) (e.client.attempts a).stream) s ≤ budget e.client s := by
        have h3 := cut_live e.client a s
        unfold budget
        rw [hlive, hconn, l4, List.count_append]
        have h4 : (if ((cut e.client a).streams (e.client.attempts a).stream).connected = true then [(e.client.attempts a).stream] else []).count s = 0 := by
          rw [List.count_eq_zero]
          split
          · intro hm
            exact eq (List.mem_singleton.1 hm)
          · nofun
        have h5 : (cut e.client a).timers = e.client.timers := rfl
        rw [h4, h5]
        omega
      rw [h0]
      show 0 + budget ((late (cut e.client a) (e.client.attempts a).stream).emitFinished (e.client.attempts a).stream).1 s ≤ _
      omega
  | @finish a hr =>
    have h1 := finish_budget (c := cut e.client a) (h.client.cut a) (e.client.attempts a).stream s
    have h2 := cut_budget e.client a s
    show 0 + budget ((cut e.client a).emitFinished (e.client.attempts a).stream).1 s ≤ _
    omega
  | noTimer _ =>
    show 0 + _ ≤ _
    omega
  | @timer j hj =>
    obtain ⟨g1, g2, g3, -⟩ := ask_attempts { e with client := { e.client with timers := e.client.timers.erase j } } j
    have h2 := liveN_succ (c := { e.client with timers := e.client.timers.erase j }) (s := s) g1 (fun a ha => (g2 a ha).1) g3
    have h3 : liveN { e.client with timers := e.client.timers.erase j } s = liveN e.client s := rfl
    show 0 + (liveN (Engine.ask { e with client := { e.client with timers := e.client.timers.erase j } } j).client s + (e.client.timers.erase j).count s + conn e.client s) ≤ _
    unfold budget
    rw [h2, h3]
    by_cases eq : j = s
    · subst eq
      have := List.count_pos_iff.2 hj
      rw [if_pos rfl, List.count_erase_self]
      omega
    · rw [if_neg eq, List.count_erase_of_ne (Ne.symm eq)]
      omega
  | send _ _ =>
    show 0 + _ ≤ _
    omega
  | notSend _ _ =>
    show 0 + _ ≤ _
    omega

structure Spent (e : Engine) (t : List Obs) : Prop where
  old : ∀ s, s < e.accounts.length → t.count (.failed s) + budget e.client s ≤ 2
  new : ∀ s, e.accounts.length ≤ s → t.count (.failed s) = 0

theorem Spent.step {e : Engine} {t : List Obs} (hi : Inv e) (h : Spent e t) {v : Ev} {e' : Engine} {u : List Obs} (hd : Does e v e' u) : Spent e' (t ++ u) := by
  have hi' := hi.does hd
  have hacc : e'.accounts.length = e.accounts.length ∨ e'.accounts.length = e.accounts.length + 1 ∧ (∀ s, u.count (.failed s) = 0) ∧ budget e'.client e.accounts.length ≤ 2 := by
    cases hd with
    | login account =>
      refine Or.inr ⟨by rw [List.length_append, List.length_singleton], fun s => ?_, ?_⟩
      · rw [List.count_eq_zero]
        intro hm
        cases List.mem_singleton.1 hm
      · obtain ⟨g1, g2, g3, g4⟩ := relogged_attempts e.accounts.length e.client
        have hn := (stop_attempts e.client).1
        show budget (relogged e.accounts.length e.client) e.accounts.length ≤ 2
        unfold budget
        rw [liveN_succ (c := stop e.client) (s0 := e.accounts.length) (by rw [g1, hn]) (fun a ha => g2 a (by rw [← hn]; exact ha)) (by rw [hn]; exact g3), if_pos rfl,
          liveN_zero hi.client.stopped (Nat.le_refl _), g4]
        have h1 : e.client.timers.count e.accounts.length = 0 := by
          rw [List.count_eq_zero]
          intro hm
          have := hi.client.timers _ hm
          omega
        have h2 : conn (relogged e.accounts.length e.client) e.accounts.length ≤ 1 := by
          unfold conn
          split <;> omega
        omega
    | _ => exact Or.inl rfl
  have hfail : ∀ s, e.accounts.length ≤ s → u.count (.failed s) = 0 := by
    intro s hs
    rw [List.count_eq_zero]
    intro hm
    cases hd with
    | @fail a _ hr _ =>
      cases List.mem_singleton.1 hm
      have := (hi.client.attempts a hr.1).1
      omega
    | list hr _ =>
      unfold display at hm
      rcases List.mem_append.1 hm with hm | hm
      · split at hm
        · cases List.mem_singleton.1 hm
        · cases hm
      · cases List.mem_singleton.1 hm
    | other _ => cases hm
    | finish _ => cases hm
    | noTimer _ => cases hm
    | _ => cases List.mem_singleton.1 hm
  refine ⟨fun s hs => ?_, fun s hs => ?_⟩
  · rw [List.count_append]
    by_cases h1 : s < e.accounts.length
    · have := hd.spend hi s h1
      have := h.old s h1
      omega
    · rcases hacc with h2 | ⟨h2, h3, h4⟩
      · omega
      · have : s = e.accounts.length := by omega
        subst this
        rw [h.new _ (Nat.le_refl _), h3]
        omega
  · rw [List.count_append, h.new s (by rcases hacc with h2 | ⟨h2, -, -⟩ <;> omega), hfail s (by rcases hacc with h2 | ⟨h2, -, -⟩ <;> omega)]

theorem Spent.run : ∀ {vs : List Ev} {e : Engine} {t : List Obs}, Inv e → Spent e t → ∀ {e' : Engine} {u : List Obs}, e.run vs = .ok (e', u) → Spent e' (t ++ u)
  | [], e, t, _, h, e', u, hr => by
    cases hr
    rw [List.append_nil]
    exact h
  | v :: vs, e, t, hi, h, e', u, hr => by
    obtain ⟨e1, t1, t2, h1, h2, rfl⟩ := run_cons hr
    have hd := does_of hi h1
    rw [← List.append_assoc]
    exact Spent.run (hi.does hd) (h.step hi hd) h2

/-- **C116**: the stream of a login fails at most twice: a request that fails is repeated once, whatever happens; so a login that is refused does not keep asking. -/
theorem C116_retries {es : List Ev} {e : Engine} {t : List Obs} (h : Engine.new.run es = .ok (e, t)) (s : Nat) : t.count (.failed s) ≤ 2 := by
  have hs : Spent e ([] ++ t) := Spent.run (vs := es) Inv.new ⟨(fun s hs => nomatch hs), fun s _ => rfl⟩ h
  by_cases hlt : s < e.accounts.length
  · have := hs.old s hlt
    rw [List.nil_append] at this
    omega
  · have := hs.new s (by omega)
    rw [List.nil_append] at this
    omega

/-! ### The server of the example -/

theorem flatMap_length {α β : Type} (k : Nat) (f : α → List β) (h : ∀ x, (f x).length = k) : ∀ l : List α, (l.flatMap f).length = k * l.length
  | [] => rfl
  | x :: l => by
    rw [List.flatMap_cons, List.length_append, h, flatMap_length k f h l, List.length_cons, Nat.mul_add, Nat.mul_one, Nat.add_comm]

theorem md5_length (bs : Bytes) : (Md5.md5 bs).length = 16 := by
  unfold Md5.md5
  dsimp only
  rw [flatMap_length 4]
  · rfl
  · intro w
    rfl

theorem md5Hex_length (bs : Bytes) : (Md5.md5Hex bs).length = 32 := by
  unfold Md5.md5Hex Md5.toHex
  rw [flatMap_length 2 _ fun _ => rfl, md5_length]

theorem digit_ne : ∀ n : Fin 16, Md5.digit n.val ≠ 0 := by decide

theorem md5Hex_zero (bs : Bytes) : 0 ∉ Md5.md5Hex bs := by
  unfold Md5.md5Hex Md5.toHex
  intro h
  obtain ⟨b, -, h⟩ := List.mem_flatMap.1 h
  have hb := b.toNat_lt
  rcases List.mem_cons.1 h with h | h
  · exact digit_ne ⟨b.toNat / 16, by omega⟩ h.symm
  · exact digit_ne ⟨b.toNat % 16, Nat.mod_lt _ (by decide)⟩ (List.mem_singleton.1 h).symm

theorem headers_eq (config : Nat) (account : Account) {c : Cred.Credentials} (h : credentials config account = some c) :
    (Cred.post c).1 = Cred.fixedHeaders ++ [(ChatServer.userName, account.name), (ChatServer.userPassword, Md5.md5Hex account.password)] := by
  have e : credentials config account = some ⟨fun _ => [(ChatServer.userName, .text (some account.name)), (ChatServer.userPassword, .text (some (Md5.md5Hex account.password)))], 0, [(Cred.sslConfigCredential, .ssl config)]⟩ := rfl
  rw [e] at h
  cases h
  have e1 : (Cred.post ⟨fun _ => [(ChatServer.userName, .text (some account.name)), (ChatServer.userPassword, .text (some (Md5.md5Hex account.password)))], 0, [(Cred.sslConfigCredential, .ssl config)]⟩).1 =
      Cred.setRawHeader (Cred.setRawHeader Cred.fixedHeaders ChatServer.userName (some account.name)) ChatServer.userPassword (some (Md5.md5Hex account.password)) := rfl
  rw [e1]
  unfold Cred.setRawHeader
  dsimp only
  have f1 : (Cred.fixedHeaders.filter fun x => decide (Cred.lower x.1 ≠ Cred.lower ChatServer.userName)) = Cred.fixedHeaders := by decide +kernel
  have f2 : (Cred.fixedHeaders.filter fun x => decide (Cred.lower x.1 ≠ Cred.lower ChatServer.userPassword)) = Cred.fixedHeaders := by decide +kernel
  have f3 : Cred.lower ChatServer.userName ≠ Cred.lower ChatServer.userPassword := by decide
  rw [f1, List.filter_append, f2, List.filter_cons_of_pos (by simp only [decide_eq_true_eq]; exact f3), List.filter_nil, List.append_assoc]
  rfl

theorem says_map (key : Bytes) (md : List ChatServer.Entry) :
    ChatServer.Spec.says key md = ((((md.map fun e => (e.key, e.value)).filter fun x => x.1 = key).getLast?).map (·.2)) := by
  unfold ChatServer.Spec.says
  rw [List.filter_map, List.getLast?_map, Option.map_map]
  rfl

theorem sends_says {config : Nat} {account : Account} {md : List ChatServer.Entry} (h : Sends config account md) :
    ChatServer.Spec.says ChatServer.userName md = some account.name ∧ ChatServer.Spec.says ChatServer.userPassword md = some (Md5.md5Hex account.password) := by
  obtain ⟨c, h1, h2, -⟩ := h
  have f1 : (Cred.fixedHeaders.filter fun x => decide (x.1 = ChatServer.userName)) = [] := by decide +kernel
  have f2 : (Cred.fixedHeaders.filter fun x => decide (x.1 = ChatServer.userPassword)) = [] := by decide +kernel
  have f3 : ChatServer.userName ≠ ChatServer.userPassword := by decide
  rw [says_map, says_map, h2, headers_eq config account h1, List.filter_append, List.filter_append, f1, f2]
  constructor
  · rw [List.filter_cons_of_pos (by simp), List.filter_cons_of_neg (by simp only [decide_eq_true_eq]; exact f3.symm)]
    rfl
  · rw [List.filter_cons_of_neg (by simp only [decide_eq_true_eq]; exact f3), List.filter_cons_of_pos (by simp)]
    rfl

theorem sends_gives {config : Nat} {account : Account} {md : List ChatServer.Entry} (h : Sends config account md) (h5 : account.name.length = 5) (h0 : 0 ∉ account.name) :
    ChatServer.Spec.Gives md account.name (Md5.md5Hex account.password) :=
  ⟨(sends_says h).1, (sends_says h).2, h5, md5Hex_length _, h0, md5Hex_zero _⟩

/-- **C116**, partial: what the server of the example does with the requests of this client. A login with an account of a user is answered with the list, a message is stored under the name of the account;
other logins are refused.

Missing: names of other lengths, see `C116_longer_violated`. -/
theorem C116_server_partial {config : Nat} {account : Account} {md : List ChatServer.Entry} (h : Sends config account md) (h5 : account.name.length = 5) (h0 : 0 ∉ account.name)
    {s : ChatServer.Server} (hw : s.waiting = true) :
    (ChatServer.Spec.IsUser account.name (Md5.md5Hex account.password) → (∃ s', ChatServer.step s (.subscribe md) = .ok (s', [.shown (s.writers - 1) s.messages])) ∧
      (0 < s.writers → ∀ m, ∃ s' os, ChatServer.step s (.send md m) = .ok (s', .added { m with sender := account.name } :: os))) ∧
    (¬ ChatServer.Spec.IsUser account.name (Md5.md5Hex account.password) → (∃ s', ChatServer.step s (.subscribe md) = .ok (s', [.finished (s.writers - 1)])) ∧
      (0 < s.writers → ∀ m, ChatServer.step s (.send md m) = .ok (s, [.refused]))) := by
  have hg := sends_gives h h5 h0
  obtain ⟨_, _, _, hr⟩ := h
  have hs := ChatServer.C112_subscribe_partial hr hg hw
  refine ⟨fun hu => ⟨?_, fun hp m => ?_⟩, fun hu => ⟨?_, fun hp m => ?_⟩⟩
  · obtain ⟨s', h1, -⟩ := hs.1 hu
    exact ⟨s', h1⟩
  · obtain ⟨os, h1⟩ := (ChatServer.C112_send_partial hr hg s hp m).1 hu
    exact ⟨_, os, h1⟩
  · obtain ⟨s', h1, -⟩ := hs.2 hu
    exact ⟨s', h1⟩
  · exact (ChatServer.C112_send_partial hr hg s hp m).2 hu

/-- **C116**: the users of the example, user1 to user5, log in with the password qwerty. -/
theorem C116_users (name : Bytes) : ChatServer.Spec.IsUser name (Md5.md5Hex qwerty) ↔ ∃ k : UInt8, 49 ≤ k ∧ k ≤ 53 ∧ name = [117, 115, 101, 114, k] := by
  have e : Md5.md5Hex qwerty = ChatServer.password := by decide +kernel
  rw [e]
  unfold ChatServer.Spec.IsUser ChatServer.users
  constructor
  · intro h
    simp only [List.mem_cons, Prod.mk.injEq, and_true, List.not_mem_nil, or_false] at h
    rcases h with h | h | h | h | h
    · exact ⟨49, by decide, by decide, h⟩
    · exact ⟨50, by decide, by decide, h⟩
    · exact ⟨51, by decide, by decide, h⟩
    · exact ⟨52, by decide, by decide, h⟩
    · exact ⟨53, by decide, by decide, h⟩
  · rintro ⟨k, h1, h2, rfl⟩
    have hk : k = 49 ∨ k = 50 ∨ k = 51 ∨ k = 52 ∨ k = 53 := by
      have h1 : 49 ≤ k.toNat := h1
      have h2 : k.toNat ≤ 53 := h2
      have : k.toNat = 49 ∨ k.toNat = 50 ∨ k.toNat = 51 ∨ k.toNat = 52 ∨ k.toNat = 53 := by omega
      rcases this with h | h | h | h | h
      · exact Or.inl (UInt8.toNat_inj.1 h)
      · exact Or.inr (Or.inl (UInt8.toNat_inj.1 h))
      · exact Or.inr (Or.inr (Or.inl (UInt8.toNat_inj.1 h)))
      · exact Or.inr (Or.inr (Or.inr (Or.inl (UInt8.toNat_inj.1 h))))
      · exact Or.inr (Or.inr (Or.inr (Or.inr (UInt8.toNat_inj.1 h))))
    rcases hk with rfl | rfl | rfl | rfl | rfl <;> simp

/-! ### Violations and examples -/

def ada : Account := ⟨[117, 115, 101, 114, 49], [113]⟩
def bob : Account := ⟨[117, 115, 101, 114, 50], qwerty⟩
def ten : Account := ⟨[117, 115, 101, 114, 49, 48], qwerty⟩

def seen (r : Res (Engine × List Obs)) : Option (List Obs × Bytes) :=
  match r with
  | .ok r => some (r.2, r.1.userName)
  | _ => none

/-- Log in with a wrong password; the request fails; log in again under another name within a second; then the request of the first login is repeated. -/
def crossing : List Ev := [.login ada, .net 0 (.close (.status 16)), .login bob, .timer 0, .net 2 (.data [1]), .send [2]]

/-- C116 is violated: the request of a login that failed is repeated after a second with the account of the login after it, and its list is shown under the name of the login that failed; messages are
then sent with another account than the one whose name is shown. -/
theorem C116_crossed_violated : seen (Engine.new.run crossing) =
    some ([.request 0 0 0, .failed 0, .request 1 1 1, .request 2 0 1, .loggedIn ada.name, .showing 2 ada.name [1], .sent 1 [2]], ada.name) ∧ logins crossing = [ada, bob] ∧ ada.name ≠ bob.name :=
  ⟨by decide, rfl, by decide⟩

/-- C116 is violated: a user with a longer name is let in, and the server stores the messages under another name than the client shows. -/
theorem C116_longer_violated : ∃ md, Sends 0 ten md ∧ (ChatServer.step ⟨[], 2, true⟩ (.subscribe md) = .ok (⟨[], 2, false⟩, [.shown 1 []])) ∧
    ∀ m, ∃ s os, ChatServer.step ⟨[], 2, true⟩ (.send md m) = .ok (s, .added { m with sender := ada.name } :: os) := by
  let md : List ChatServer.Entry := (Cred.fixedHeaders ++ [(ChatServer.userName, ten.name), (ChatServer.userPassword, Md5.md5Hex ten.password)]).map fun x => ⟨x.1, x.2, some []⟩
  have he : ChatServer.extract md ([], []) = .ok (ada.name, ChatServer.password) := by decide +kernel
  have hk : ChatServer.check ada.name ChatServer.password = true := by decide +kernel
  refine ⟨md, ⟨_, rfl, ?_, ?_⟩, ?_, ?_⟩
  · rw [headers_eq 0 ten rfl]
    show List.map _ (List.map _ _) = _
    rw [List.map_map]
    exact List.map_id' _
  · intro x hx
    obtain ⟨y, -, rfl⟩ := List.mem_map.1 hx
    rfl
  · unfold ChatServer.step
    dsimp only
    rw [he]
    dsimp only [Res.bind]
    rw [hk]
    rfl
  · intro m
    refine ⟨⟨[{ m with sender := ada.name }], 2, true⟩, [.shown 0 [{ m with sender := ada.name }]], ?_⟩
    unfold ChatServer.step
    dsimp only
    rw [he]
    dsimp only [Res.bind]
    rw [hk]
    rfl

/-- The theorems apply: a login, a lost connection, a list, a message. -/
def day : List Ev := [.login bob, .net 0 (.close .remoteHostClosed), .net 1 (.data [7]), .send [2]]

example : seen (Engine.new.run day) = some ([.request 0 0 0, .request 1 0 0, .loggedIn bob.name, .showing 1 bob.name [7], .sent 0 [2]], bob.name) := by decide

example : Undisturbed [.net 0 (.close .remoteHostClosed), .net 1 (.data [7]), .send [2]] := by
  intro v hv
  simp only [List.mem_cons, List.not_mem_nil, or_false] at hv
  rcases hv with rfl | rfl | rfl
  · exact ⟨fun _ => nofun, fun a c h => by cases h; rfl⟩
  · exact ⟨fun _ => nofun, fun a c h => nomatch h⟩
  · exact ⟨fun _ => nofun, fun a c h => nomatch h⟩

/-- A login that fails, is repeated, fails again, and is followed by another login, with no request that is still to be repeated. -/
example : Calm [.login ada, .net 0 (.close (.status 16)), .timer 0, .net 1 (.close (.status 16)), .login bob, .net 2 (.data [7])] := by
  intro pre account post e t he hr
  match pre, he with
  | [], _ =>
    cases hr
    rfl
  | [_], he => cases he
  | [_, _], he => cases he
  | [_, _, _], he => cases he
  | [_, _, _, _], he =>
    cases he
    cases hr
    rfl
  | [_, _, _, _, _], he => cases he
  | _ :: _ :: _ :: _ :: _ :: _ :: pre, he =>
    have := congrArg List.length he
    simp at this

example : ∃ t, seen (Engine.new.run [.login ada, .net 0 (.close (.status 16)), .timer 0, .net 1 (.close (.status 16)), .timer 0]) = some (t, []) ∧ t.count (.failed 0) = 2 := ⟨_, rfl, by decide⟩

example : ∃ md, Sends 0 bob md := by
  refine ⟨(Cred.fixedHeaders ++ [(ChatServer.userName, bob.name), (ChatServer.userPassword, Md5.md5Hex bob.password)]).map fun x => ⟨x.1, x.2, some []⟩, _, rfl, ?_, ?_⟩
  · rw [headers_eq 0 bob rfl, List.map_map]
    exact List.map_id' _
  · intro x hx
    obtain ⟨y, -, rfl⟩ := List.mem_map.1 hx
    rfl

end QtPb.ChatEngine
