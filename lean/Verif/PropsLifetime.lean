import Verif.Lifetime
/-
C57: the life of sub-message objects.
-/
namespace QtPb.Life

/-! ### Specification -/

namespace Spec

/-- What other code may do: use messages that exist; pass to `setX_p` objects that exist and that it made itself (not the
sub-message of another message); delete objects that exist and that it made itself. -/
def Allowed (w : World) : Event → Prop
  | .message _ => True
  | .make _ => True
  | .read h => (w.holders h).live = true
  | .set h p => (w.holders h).live = true ∧ ∀ o, p = some o → w.alive o = true ∧ w.outside o = true
  | .delete p => w.alive p = true ∧ w.outside p = true
  | .destroy h => (w.holders h).live = true

/-- The worlds that can come about, with (`qml`) or without the QML library. -/
inductive Reachable (qml : Bool) : World → Prop
  | start : Reachable qml start
  | step {w w' : World} {e : Event} : Reachable qml w → Allowed w e → step qml w e = .ok w' → Reachable qml w'

end Spec
open Spec

/-! ### Invariant -/

structure Inv (w : World) : Prop where
  held_alive : ∀ h p, (w.holders h).ptr = some p → w.alive p = true
  held_live : ∀ h p, (w.holders h).ptr = some p → (w.holders h).live = true
  conn_held : ∀ h p, (w.holders h).conn = some p → (w.holders h).ptr = some p
  held_conn : ∀ h p, (w.holders h).ptr = some p → w.outside p = true → (w.holders h).conn = some p
  held_once : ∀ h h' p, (w.holders h).ptr = some p → (w.holders h').ptr = some p → w.outside p = false → h = h'
  alive_lt : ∀ p, w.alive p = true → p < w.next
  js_outside : ∀ p, w.js p = true → w.outside p = true
  live_lt : ∀ h, (w.holders h).live = true → h < w.nextHolder
  given_lt : ∀ p, w.given p = true → p < w.next

/-- Every object that exists and that the holders have to delete is held. -/
def Held (w : World) : Prop :=
  ∀ p, w.alive p = true → w.outside p = false ∨ (w.given p = true ∧ w.js p = false) → ∃ h, (w.holders h).ptr = some p

theorem inv_start : Inv start := by
  constructor <;> simp [start]

theorem held_start : Held start := by simp [Held, start]

/-- An empty holder makes an object. -/
theorem inv_get {w : World} {h : Nat} (hw : Inv w) (hl : (w.holders h).live = true) : Inv (get h w) := by
  unfold get
  split
  · exact hw
  · rename_i hp
    have fresh : ∀ h' p, (w.holders h').ptr = some p → p ≠ w.next := by
      intro h' p hh e
      have := hw.alive_lt p (hw.held_alive h' p hh)
      omega
    have hc : (w.holders h).conn = none := by
      cases hc : (w.holders h).conn with
      | none => rfl
      | some q => have := hw.conn_held h q hc; rw [hp] at this; cases this
    constructor <;> simp only [upd]
    · intro h' p
      split
      · simp only [Option.some.injEq]; intro e; simp [e]
      · intro hh; rw [if_neg (fresh h' p hh)]; exact hw.held_alive h' p hh
    · intro h' p
      split
      · intro _; exact hl
      · exact hw.held_live h' p
    · intro h' p
      split
      · rw [hc]; simp
      · exact hw.conn_held h' p
    · intro h' p
      split
      · simp only [Option.some.injEq]; intro e; simp [e]
      · intro hh; rw [if_neg (fresh h' p hh)]; exact hw.held_conn h' p hh
    · intro h1 h2 p
      split
      · split
        · intros; simp_all
        · simp only [Option.some.injEq]; intro e hh; exact absurd e.symm (fresh h2 p hh)
      · split
        · simp only [Option.some.injEq]; intro hh e; exact absurd e.symm (fresh h1 p hh)
        · intro a b; rw [if_neg (fresh h1 p a)]; exact hw.held_once h1 h2 p a b
    · intro p
      split
      · intro _; omega
      · intro ha; have := hw.alive_lt p ha; omega
    · intro p
      split
      · simp
      · exact hw.js_outside p
    · intro h'
      split
      · rename_i e; subst e; exact hw.live_lt h'
      · exact hw.live_lt h'
    · intro p hg; have := hw.given_lt p hg; omega

/-- A holder lets go of its pointer. -/
theorem inv_clear {w : World} {h : Nat} (hw : Inv w) {b : Bool} (hb : b = true → (w.holders h).live = true) :
    Inv { w with holders := upd w.holders h ⟨b, none, none⟩ } := by
  constructor <;> simp only [upd]
  · intro h' p
    split
    · simp
    · exact hw.held_alive h' p
  · intro h' p
    split
    · simp
    · exact hw.held_live h' p
  · intro h' p
    split
    · simp
    · exact hw.conn_held h' p
  · intro h' p
    split
    · simp
    · exact hw.held_conn h' p
  · intro h1 h2 p
    split
    · simp
    · split
      · simp
      · exact hw.held_once h1 h2 p
  · exact hw.alive_lt
  · exact hw.js_outside
  · intro h'
    split
    · rename_i e; subst e; intro e; exact hw.live_lt h' (hb e)
    · exact hw.live_lt h'
  · exact hw.given_lt

/-- A holder takes an object made by other code. -/
theorem inv_attach {w : World} {h p : Nat} (hw : Inv w) (hl : (w.holders h).live = true) (ha : w.alive p = true)
    (ho : w.outside p = true) :
    Inv { w with holders := upd w.holders h { w.holders h with ptr := some p, conn := some p } } := by
  constructor <;> simp only [upd]
  · intro h' q
    split
    · simp only [Option.some.injEq]; rintro rfl; exact ha
    · exact hw.held_alive h' q
  · intro h' q
    split
    · intro _; exact hl
    · exact hw.held_live h' q
  · intro h' q
    split
    · exact id
    · exact hw.conn_held h' q
  · intro h' q
    split
    · intro e _; exact e
    · exact hw.held_conn h' q
  · intro h1 h2 q
    split
    · simp only [Option.some.injEq]; rintro rfl _ hn; rw [ho] at hn; cases hn
    · split
      · simp only [Option.some.injEq]; rintro _ rfl hn; rw [ho] at hn; cases hn
      · exact hw.held_once h1 h2 q
  · exact hw.alive_lt
  · exact hw.js_outside
  · intro h'
    split
    · rename_i e; subst e; exact hw.live_lt h'
    · exact hw.live_lt h'
  · exact hw.given_lt

/-- An object is deleted that no holder has without a connection. -/
theorem inv_del {w : World} {p : Nat} (hw : Inv w) (hp : ∀ h, (w.holders h).ptr = some p → (w.holders h).conn = some p) :
    Inv { w with
      alive := upd w.alive p false
      holders := fun h => if (w.holders h).conn = some p then { w.holders h with ptr := none, conn := none } else w.holders h } := by
  constructor <;> simp only [upd]
  · intro h q
    split
    · simp
    · rename_i hc
      intro hh
      split
      · rename_i e; subst e; exact absurd (hp h hh) hc
      · exact hw.held_alive h q hh
  · intro h q
    split
    · simp
    · exact hw.held_live h q
  · intro h q
    split
    · simp
    · exact hw.conn_held h q
  · intro h q
    split
    · simp
    · exact hw.held_conn h q
  · intro h1 h2 q
    split
    · simp
    · split
      · simp
      · exact hw.held_once h1 h2 q
  · intro q
    split
    · simp
    · exact hw.alive_lt q
  · exact hw.js_outside
  · intro h
    split
    · exact hw.live_lt h
    · exact hw.live_lt h
  · exact hw.given_lt

theorem inv_give {w : World} (hw : Inv w) {p : Option Nat} (hp : ∀ o, p = some o → o < w.next) : Inv (w.give p) := by
  cases p with
  | none => exact hw
  | some o =>
    refine ⟨hw.held_alive, hw.held_live, hw.conn_held, hw.held_conn, hw.held_once, hw.alive_lt, hw.js_outside, hw.live_lt, ?_⟩
    intro q
    simp only [World.give, upd]
    split
    · rename_i e; intro _; rw [e]; exact hp o rfl
    · exact hw.given_lt q

theorem held_give {w : World} (hh : Held w) {h : Nat} {p : Option Nat} (hp : (w.holders h).ptr = p) : Held (w.give p) := by
  cases p with
  | none => exact hh
  | some o =>
    intro q ha hg
    by_cases e : q = o
    · exact ⟨h, by rw [e]; exact hp⟩
    · refine hh q ha ?_
      simpa only [World.give, upd, if_neg e] using hg

theorem held_del {w : World} {p : Nat} (hw : Inv w) (hh : ∀ q, q ≠ p → w.alive q = true →
      w.outside q = false ∨ (w.given q = true ∧ w.js q = false) → ∃ h, (w.holders h).ptr = some q) :
    Held { w with
      alive := upd w.alive p false
      holders := fun h => if (w.holders h).conn = some p then { w.holders h with ptr := none, conn := none } else w.holders h } := by
  intro q ha hq
  simp only [upd] at ha
  split at ha
  · cases ha
  · rename_i hne
    obtain ⟨h, hh⟩ := hh q hne ha hq
    refine ⟨h, ?_⟩
    simp only
    split
    · rename_i hc
      have := hw.conn_held h p hc
      rw [hh] at this
      exact absurd (Option.some.inj this) hne
    · exact hh

/-- Where the old object of a holder goes: `w0` the world before, `x` the new state of the holder. -/
theorem replace_ok {w : World} {h : Nat} {x : Holder} (hw : Inv w) (hw' : Inv { w with holders := upd w.holders h x })
    (hne : ∀ p, (w.holders h).ptr = some p → w.outside p = false → x.ptr ≠ some p) :
    ∃ w', delOpt (w.holders h).ptr { w with holders := upd w.holders h x } = .ok w' ∧ Inv w' ∧ w'.next = w.next ∧
      ((∀ o, (w.holders h).ptr = some o → x.conn ≠ some o) → w'.holders h = x) ∧
      (Held w → (∀ p, w.alive p = true → w.outside p = false ∨ (w.given p = true ∧ w.js p = false) →
        (w.holders h).ptr = none → ∃ k, (upd w.holders h x k).ptr = some p) → Held w') := by
  cases hp : (w.holders h).ptr with
  | none =>
    exact ⟨_, rfl, hw', rfl, fun _ => by simp [upd], fun _ hh p ha hq => hh p ha hq rfl⟩
  | some o =>
    have ha := hw.held_alive h o hp
    refine ⟨_, by simp only [delOpt, del, ha, if_true], inv_del (p := o) hw' ?_, rfl, fun hx => ?_, fun hh _ => held_del hw' ?_⟩
    · intro k hk
      simp only [upd] at hk ⊢
      split
      · rename_i e
        rw [if_pos e] at hk
        cases ho : w.outside o with
        | true => have := hw'.held_conn k o (by simp only [upd]; rw [if_pos e]; exact hk) ho; simpa only [upd, if_pos e] using this
        | false => exact absurd hk (hne o hp ho)
      · rename_i e
        rw [if_neg e] at hk
        cases ho : w.outside o with
        | true => exact hw.held_conn k o hk ho
        | false => exact absurd (hw.held_once k h o hk hp ho) e
    · simp [upd, hx o rfl]
    · intro q hq ha hl
      obtain ⟨k, hk⟩ := hh q ha hl
      refine ⟨k, ?_⟩
      simp only [upd]
      split
      · rename_i e; subst e; rw [hp] at hk; exact absurd (Option.some.inj hk).symm hq
      · exact hk

theorem check_ok {qml : Bool} {w : World} {h : Nat} (hw : Inv w) (hl : (w.holders h).live = true) :
    ∃ w', checkAndRelease qml h w = .ok w' ∧ Inv w' ∧ (w'.holders h).live = true ∧ w'.alive = w.alive ∧ w'.outside = w.outside ∧
      w'.next = w.next ∧ (∀ o, (w'.holders h).ptr = some o → (w.holders h).ptr = some o) ∧ (qml = true → Held w → Held w') := by
  unfold checkAndRelease
  split
  · exact ⟨w, rfl, hw, hl, rfl, rfl, rfl, fun _ h => h, fun _ h => h⟩
  · rename_i p hp
    rw [hw.held_alive h p hp]
    simp only [Bool.not_true, Bool.and_false, Bool.false_eq_true, if_false]
    split
    · rename_i hj
      refine ⟨_, rfl, inv_clear (b := (w.holders h).live) hw id, by simp [upd, hl], rfl, rfl, rfl, by simp [upd], ?_⟩
      intro hq hh q ha hg
      subst hq
      obtain ⟨k, hk⟩ := hh q ha hg
      refine ⟨k, ?_⟩
      simp only [upd]
      split
      · rename_i e
        subst e
        rw [hp] at hk
        cases hk
        simp only [Bool.not_true, Bool.false_or] at hj
        rw [hw.js_outside p hj, hj] at hg
        simp at hg
      · exact hk
    · exact ⟨w, rfl, hw, hl, rfl, rfl, rfl, fun _ h => h, fun _ h => h⟩

theorem held_get {w : World} {h : Nat} (hh : Held w) : Held (get h w) := by
  unfold get
  split
  · exact hh
  · rename_i hp
    intro q ha hg
    simp only [upd] at ha hg ⊢
    by_cases e : q = w.next
    · exact ⟨h, by simp [e]⟩
    · rw [if_neg e] at ha
      rw [if_neg e, if_neg e] at hg
      obtain ⟨k, hk⟩ := hh q ha hg
      refine ⟨k, ?_⟩
      split
      · rename_i e'; subst e'; rw [hp] at hk; cases hk
      · exact hk

theorem get_live {w : World} {h : Nat} : ((get h w).holders h).live = (w.holders h).live := by
  unfold get
  split
  · rfl
  · simp [upd]

theorem get_alive {w : World} {h p : Nat} (hp : w.alive p = true) : (get h w).alive p = true := by
  unfold get
  split
  · exact hp
  · simp only [upd]; split <;> simp [hp]

theorem get_outside {w : World} {h p : Nat} (hw : Inv w) (hp : w.alive p = true) : (get h w).outside p = w.outside p := by
  unfold get
  split
  · rfl
  · simp only [upd]
    rw [if_neg]
    have := hw.alive_lt p hp
    omega

theorem get_ptr {w : World} {h : Nat} : ∃ p, ((get h w).holders h).ptr = some p := by
  unfold get
  split
  · rename_i p hp; exact ⟨p, hp⟩
  · exact ⟨w.next, by simp [upd]⟩

/-- A step that other code may take has no undefined behaviour and keeps the invariant. -/
theorem step_ok {qml : Bool} {w : World} {e : Event} (hw : Inv w) (ha : Allowed w e) :
    ∃ w', step qml w e = .ok w' ∧ Inv w' ∧ (qml = true → Held w → Held w') := by
  cases e with
  | message v =>
    have fresh : (w.holders w.nextHolder).live = false := by
      cases hl : (w.holders w.nextHolder).live with
      | false => rfl
      | true => have := hw.live_lt _ hl; omega
    have hnone : (w.holders w.nextHolder).ptr = none := by
      cases hp : (w.holders w.nextHolder).ptr with
      | none => rfl
      | some p => rw [hw.held_live _ p hp] at fresh; cases fresh
    have hcnone : (w.holders w.nextHolder).conn = none := by
      cases hp : (w.holders w.nextHolder).conn with
      | none => rfl
      | some p => rw [hw.conn_held _ p hp] at hnone; cases hnone
    have hw1 : Inv { w with nextHolder := w.nextHolder + 1, holders := upd w.holders w.nextHolder ⟨true, none, none⟩ } := by
      constructor <;> simp only [upd]
      · intro h' p
        split
        · simp
        · exact hw.held_alive h' p
      · intro h' p
        split
        · simp
        · exact hw.held_live h' p
      · intro h' p
        split
        · simp
        · exact hw.conn_held h' p
      · intro h' p
        split
        · simp
        · exact hw.held_conn h' p
      · intro h1 h2 p
        split
        · simp
        · split
          · simp
          · exact hw.held_once h1 h2 p
      · exact hw.alive_lt
      · exact hw.js_outside
      · intro h'
        split
        · intro _; omega
        · intro hl; have := hw.live_lt h' hl; omega
      · exact hw.given_lt
    have hh1 : Held w → Held { w with nextHolder := w.nextHolder + 1, holders := upd w.holders w.nextHolder ⟨true, none, none⟩ } := by
      intro hh q ha hg
      obtain ⟨k, hk⟩ := hh q ha hg
      refine ⟨k, ?_⟩
      simp only [upd]
      split
      · rename_i e; subst e; rw [hnone] at hk; cases hk
      · exact hk
    cases v with
    | false => exact ⟨_, rfl, hw1, fun _ => hh1⟩
    | true => exact ⟨_, rfl, inv_get hw1 (by simp [upd]), fun _ hh => held_get (hh1 hh)⟩
  | make js =>
    refine ⟨_, rfl, ?_, ?_⟩
    · have fresh : ∀ h' p, (w.holders h').ptr = some p → p ≠ w.next := by
        intro h' p hh e
        have := hw.alive_lt p (hw.held_alive h' p hh)
        omega
      constructor <;> simp only [upd]
      · intro h p hp; rw [if_neg (fresh h p hp)]; exact hw.held_alive h p hp
      · exact hw.held_live
      · exact hw.conn_held
      · intro h p hp; rw [if_neg (fresh h p hp)]; exact hw.held_conn h p hp
      · intro h1 h2 p a b; rw [if_neg (fresh h1 p a)]; exact hw.held_once h1 h2 p a b
      · intro p
        split
        · intro _; omega
        · intro ha; have := hw.alive_lt p ha; omega
      · intro p
        split
        · simp
        · exact hw.js_outside p
      · exact hw.live_lt
      · intro p hg; have := hw.given_lt p hg; omega
    · intro _ hh q ha hg
      simp only [upd] at ha hg ⊢
      by_cases e : q = w.next
      · rw [if_pos e] at hg
        rcases hg with hg | hg
        · cases hg
        · have := hw.given_lt q hg.1
          omega
      · rw [if_neg e] at ha
        rw [if_neg e, if_neg e] at hg
        exact hh q ha hg
  | read h =>
    have hl : (w.holders h).live = true := ha
    refine ⟨get h w, ?_, inv_get hw hl, fun _ hh => held_get hh⟩
    obtain ⟨p, hp⟩ := get_ptr (w := w) (h := h)
    simp [step, hl, hp, (inv_get hw hl).held_alive h p hp]
  | set h p =>
    obtain ⟨hl, hp⟩ := ha
    have hall : p.all w.alive = true := by
      cases p with
      | none => rfl
      | some o => exact (hp o rfl).1
    have hg := inv_get hw hl
    have hlt : ∀ o, p = some o → o < (get h w).next := fun o ho => hg.alive_lt o (get_alive (hp o ho).1)
    simp only [step, hl, hall, Bool.and_self, if_true, set]
    by_cases he : ((get h w).holders h).ptr = p
    · rw [if_pos he]
      exact ⟨_, rfl, inv_give hg hlt, fun _ hh => held_give (held_get hh) he⟩
    · rw [if_neg he]
      have hl' : ((get h w).holders h).live = true := by rw [get_live]; exact hl
      obtain ⟨w1, h1, hw1, hl1, ha1, ho1, hn1, hp1, hh1⟩ := check_ok (qml := qml) hg hl'
      have hold : ∀ o, (w1.holders h).ptr = some o → p ≠ some o := fun o ho e => he (by rw [hp1 o ho, e])
      have hw1' : Inv { w1 with holders := upd w1.holders h { w1.holders h with ptr := p, conn := p } } := by
        cases p with
        | none => exact inv_clear hw1 (b := (w1.holders h).live) id
        | some o =>
          refine inv_attach hw1 hl1 ?_ ?_
          · rw [ha1]; exact get_alive (hp o rfl).1
          · rw [ho1, get_outside hw (hp o rfl).1]; exact (hp o rfl).2
      obtain ⟨w2, h2, hw2, hn2, hx2, hh2⟩ := replace_ok hw1 hw1' (fun o ho _ => hold o ho)
      have hend := hx2 fun o ho => hold o ho
      refine ⟨w2.give p, by simp [reset, h1, h2, Res.bind], inv_give hw2 (by rw [hn2, hn1]; exact hlt), fun hq hh => ?_⟩
      refine held_give (hh2 (hh1 hq (held_get hh)) fun q hq' hg' hn => ?_) (by rw [hend])
      obtain ⟨k, hk⟩ := hh1 hq (held_get hh) q hq' hg'
      refine ⟨k, ?_⟩
      simp only [upd]
      split
      · rename_i e; subst e; rw [hn] at hk; cases hk
      · exact hk
  | delete p =>
    obtain ⟨ha, ho⟩ := ha
    refine ⟨_, by simp only [step, del, ha, if_true], inv_del hw fun h hh => hw.held_conn h p hh ho, fun _ hh => held_del hw fun q _ => hh q⟩
  | destroy h =>
    have hl : (w.holders h).live = true := ha
    obtain ⟨w1, h1, hw1, hl1, _, _, _, _, hh1⟩ := check_ok (qml := qml) hw hl
    obtain ⟨w2, h2, hw2, _, _, hh2⟩ := replace_ok (h := h) (x := ⟨false, none, none⟩) hw1 (inv_clear hw1 (by simp)) (by simp)
    refine ⟨w2, by simp [step, hl, destroy, h1, h2, Res.bind], hw2, fun hq hh => hh2 (hh1 hq hh) fun p hp hg hn => ?_⟩
    obtain ⟨k, hk⟩ := hh1 hq hh p hp hg
    refine ⟨k, ?_⟩
    simp only [upd]
    split
    · rename_i e; subst e; rw [hn] at hk; cases hk
    · exact hk

/-! ### Properties -/

theorem reachable_inv {qml : Bool} {w : World} (h : Reachable qml w) : Inv w ∧ (qml = true → Held w) := by
  induction h with
  | start => exact ⟨inv_start, fun _ => held_start⟩
  | step _ ha hs ih =>
    obtain ⟨w', h1, h2, h3⟩ := step_ok (qml := _) ih.1 ha
    rw [hs] at h1
    cases h1
    exact ⟨h2, fun hq => h3 hq (ih.2 hq)⟩

/-- C57: whatever the history, with or without QML, what is done next has a defined effect: no object is deleted twice and no
object is used after it was deleted. Missing: histories in which the sub-message of one message is set in another one, see
`C57_shared_violated`. -/
theorem C57_safe_partial {qml : Bool} {w : World} {e : Event} (h : Reachable qml w) (ha : Allowed w e) :
    ∃ w', step qml w e = .ok w' ∧ Reachable qml w' := by
  obtain ⟨w', h1, _, _⟩ := step_ok (qml := qml) (reachable_inv h).1 ha
  exact ⟨w', h1, .step h ha h1⟩

/-- C57: the sub-message of a message is an object that exists. -/
theorem C57_not_dangling_partial {qml : Bool} {w : World} (h : Reachable qml w) {k p : Nat}
    (hp : (w.holders k).ptr = some p) : w.alive p = true :=
  (reachable_inv h).1.held_alive k p hp

/-- C57, with QML: when all messages are destroyed, the objects that are left were made by other code and are either owned by
JavaScript or were never set in a message. Missing: builds without QML, see `C57_no_qml_leak_violated`. -/
theorem C57_no_leak_partial {w : World} (h : Reachable true w) (hd : ∀ k, (w.holders k).live = false) {p : Nat}
    (hp : w.alive p = true) : w.outside p = true ∧ (w.given p = true → w.js p = true) := by
  have hi := reachable_inv h
  have none : ∀ k, (w.holders k).ptr ≠ some p := by
    intro k hk
    have := hi.1.held_live k p hk
    rw [hd k] at this
    cases this
  have hn : ¬ (w.outside p = false ∨ (w.given p = true ∧ w.js p = false)) := by
    intro hc
    obtain ⟨k, hk⟩ := hi.2 rfl p hp hc
    exact none k hk
  cases ho : w.outside p <;> cases hg : w.given p <;> cases hj : w.js p <;> simp_all

theorem del_ptr {w w' : World} {o k p : Nat} (h : del o w = .ok w') (hk : (w.holders k).ptr = some p)
    (hc : (w.holders k).conn ≠ some o) : (w'.holders k).ptr = some p := by
  unfold del at h
  split at h
  · cases h
    simp only
    rw [if_neg hc]
    exact hk
  · cases h

/-- C57, with QML: a message keeps a sub-message that JavaScript owns until another one is set, the message is destroyed or the
object is deleted; what happens to other messages does not matter. Missing: objects that JavaScript does not own, see
`C57_lost_violated`. -/
theorem C57_keeps_partial {w w' : World} {e : Event} (h : Reachable true w) (ha : Allowed w e) (hs : step true w e = .ok w')
    {k p : Nat} (hk : (w.holders k).ptr = some p) (hj : w.js p = true) (h1 : ∀ x, e ≠ .set k x) (h2 : e ≠ .destroy k)
    (h3 : e ≠ .delete p) : (w'.holders k).ptr = some p := by
  have hi := (reachable_inv h).1
  have conn : ∀ {w : World}, Inv w → (w.holders k).ptr = some p → ∀ o, o ≠ p → (w.holders k).conn ≠ some o := by
    intro w hw hk o ho hc
    have := hw.conn_held k o hc
    rw [hk] at this
    exact ho (Option.some.inj this).symm
  have getk : ∀ j, ((get j w).holders k).ptr = some p := by
    intro j
    unfold get
    split
    · exact hk
    · simp only [upd]
      split
      · rename_i hn e; subst e; rw [hk] at hn; cases hn
      · exact hk
  have getjs : ∀ j, (get j w).js p = true := by
    intro j
    unfold get
    split
    · exact hj
    · simp only [upd]
      rw [if_neg]
      · exact hj
      · have := hi.alive_lt p (hi.held_alive k p hk)
        omega
  -- what a holder other than `k` does to `k`
  have other : ∀ {w w1 w2 : World} {j : Nat} {x : Holder}, Inv w → (w.holders k).ptr = some p → w.js p = true → j ≠ k →
      (w.holders j).live = true → checkAndRelease true j w = .ok w1 →
      delOpt (w1.holders j).ptr { w1 with holders := upd w1.holders j x } = .ok w2 → (w2.holders k).ptr = some p := by
    intro w w1 w2 j x hw hk hj hne hl hc hd
    have key : (w1.holders k).ptr = some p ∧ (w1.holders k).conn = (w.holders k).conn ∧ (w1.holders j).ptr ≠ some p := by
      unfold checkAndRelease at hc
      split at hc
      · cases hc
        rename_i hn
        exact ⟨hk, rfl, by rw [hn]; simp⟩
      · rename_i o ho
        split at hc
        · cases hc
        · split at hc
          · cases hc
            refine ⟨by simp [upd, hne.symm, hk], by simp [upd, hne.symm], by simp [upd]⟩
          · rename_i hjs
            cases hc
            refine ⟨hk, rfl, fun e => ?_⟩
            rw [ho] at e
            cases e
            simp [hj] at hjs
    obtain ⟨a, b, c⟩ := key
    cases ho : (w1.holders j).ptr with
    | none => rw [ho] at hd; cases hd; simp [upd, hne.symm, a]
    | some o =>
      rw [ho] at hd c
      have hop : o ≠ p := fun e => c (by rw [e])
      refine del_ptr hd (by simp [upd, hne.symm, a]) ?_
      simp only [upd, if_neg hne.symm, b]
      exact conn hw hk o hop
  cases e with
  | message v =>
    have hne : k ≠ w.nextHolder := by
      have := hi.live_lt k (hi.held_live k p hk)
      omega
    cases v with
    | false => cases hs; simp [upd, hne, hk]
    | true =>
      cases hs
      simp only [if_true]
      unfold get
      split
      · simp [upd, hne, hk]
      · simp [upd, hne, hk]
  | make js => cases hs; exact hk
  | read j =>
    simp only [step] at hs
    split at hs
    · split at hs
      · cases hs; exact getk j
      · cases hs
    · cases hs
  | set j x =>
    have hne : j ≠ k := fun e => h1 x (by rw [e])
    obtain ⟨hl, _⟩ := ha
    simp only [step] at hs
    split at hs
    · simp only [set] at hs
      have give : ∀ w : World, ((w.give x).holders k).ptr = (w.holders k).ptr := by intro w; cases x <;> rfl
      split at hs
      · cases hs; rw [give]; exact getk j
      · simp only [reset, Res.bind_eq] at hs
        cases hc : checkAndRelease true j (get j w) with
        | ok w1 =>
          rw [hc] at hs
          simp only [Res.bind] at hs
          cases hd : delOpt (w1.holders j).ptr { w1 with holders := upd w1.holders j { w1.holders j with ptr := x, conn := x } } with
          | ok w2 =>
            rw [hd] at hs
            cases hs
            rw [give]
            exact other (inv_get hi hl) (getk j) (getjs j) hne (by rw [get_live]; exact hl) hc hd
          | _ => rw [hd] at hs; cases hs
        | _ => rw [hc] at hs; cases hs
    · cases hs
  | delete o =>
    have hne : o ≠ p := fun e => h3 (by rw [e])
    exact del_ptr hs hk (conn hi hk o hne)
  | destroy j =>
    have hne : j ≠ k := fun e => h2 (by rw [e])
    have hl : (w.holders j).live = true := ha
    simp only [step, hl, if_true, destroy, Res.bind_eq] at hs
    cases hc : checkAndRelease true j w with
    | ok w1 =>
      rw [hc] at hs
      exact other hi hk hj hne hl hc hs
    | _ => rw [hc] at hs; cases hs

/-! ### Violations -/

/-- Negation of C57: in QML, `b.sub = a.sub`, where `a.sub` was never set; then `b` is destroyed and `a.sub` read: the object was
deleted with `b`. -/
theorem C57_shared_violated :
    run true start [.message false, .message false, .read 0, .set 1 (some 0), .destroy 1, .read 0] = .ub := rfl

/-- Negation of C57: one object, not owned by JavaScript, is set in two messages; when the first is destroyed, the second loses
its sub-message. -/
theorem C57_lost_violated :
    ∃ w, run true start [.make false, .message false, .message false, .set 0 (some 0), .set 1 (some 0)] = .ok w ∧
      (w.holders 1).ptr = some 0 ∧ ∃ w', step true w (.destroy 0) = .ok w' ∧ (w'.holders 1).ptr = none :=
  ⟨_, rfl, rfl, _, rfl, rfl⟩

/-- Negation of C57: in a build without QML, a sub-message that was read once is left when its message is destroyed. -/
theorem C57_no_qml_leak_violated :
    ∃ w, run false start [.message false, .read 0, .destroy 0] = .ok w ∧ w.alive 0 = true ∧ w.outside 0 = false ∧
      ∀ k, (w.holders k).live = false := by
  refine ⟨_, rfl, rfl, rfl, fun k => ?_⟩
  match k with
  | 0 => rfl
  | _ + 1 => rfl

/-- In a build without QML no object is ever deleted except by other code. -/
theorem C57_no_qml_never_deleted {w w' : World} {e : Event} (hs : step false w e = .ok w') {p : Nat} (hp : w.alive p = true)
    (hd : e ≠ .delete p) : w'.alive p = true := by
  have released : ∀ {j : Nat} {w w1 : World}, checkAndRelease false j w = .ok w1 → (w1.holders j).ptr = none ∧ w1.alive = w.alive := by
    intro j w w1 h
    unfold checkAndRelease at h
    split at h
    · cases h; rename_i hn; exact ⟨hn, rfl⟩
    · simp only [Bool.false_and, Bool.false_eq_true, if_false, Bool.not_false, Bool.true_or, if_true] at h
      cases h
      exact ⟨by simp [upd], rfl⟩
  cases e with
  | message v =>
    cases hs
    split
    · exact get_alive hp
    · exact hp
  | make js => cases hs; simp only [upd]; split <;> simp [hp]
  | read j =>
    simp only [step] at hs
    split at hs
    · split at hs
      · cases hs; exact get_alive hp
      · cases hs
    · cases hs
  | set j x =>
    simp only [step] at hs
    have give : ∀ w : World, (w.give x).alive = w.alive := by intro w; cases x <;> rfl
    split at hs
    · simp only [set] at hs
      split at hs
      · cases hs; rw [give]; exact get_alive hp
      · simp only [reset, Res.bind_eq] at hs
        cases hc : checkAndRelease false j (get j w) with
        | ok w1 =>
          obtain ⟨a, b⟩ := released hc
          rw [hc] at hs
          simp only [Res.bind, a, delOpt] at hs
          cases hs
          rw [give]
          show w1.alive p = true
          rw [b]; exact get_alive hp
        | _ => rw [hc] at hs; cases hs
    · cases hs
  | delete o =>
    simp only [step, del] at hs
    split at hs
    · cases hs
      simp only [upd]
      rw [if_neg]
      · exact hp
      · rintro rfl; exact hd rfl
    · cases hs
  | destroy j =>
    simp only [step] at hs
    split at hs
    · simp only [destroy, Res.bind_eq] at hs
      cases hc : checkAndRelease false j w with
      | ok w1 =>
        obtain ⟨a, b⟩ := released hc
        rw [hc] at hs
        simp only [Res.bind, a, delOpt] at hs
        cases hs
        show w1.alive p = true
        rw [b]; exact hp
      | _ => rw [hc] at hs; cases hs
    · cases hs

/-- A history with an object owned by JavaScript that is set in two messages, a deleted one and a sub-message made by reading. -/
example : ∃ w, run true start [.make true, .message false, .message true, .set 0 (some 0), .set 1 (some 0), .message false,
      .read 2, .destroy 0, .delete 0, .read 1] = .ok w ∧ (w.holders 1).ptr = some 4 ∧ (w.holders 2).ptr = some 3 ∧
      w.alive 1 = false := ⟨_, rfl, rfl, rfl, rfl⟩

/-- The hypotheses of `C57_keeps_partial`. -/
example : ∃ w, Reachable true w ∧ (w.holders 0).ptr = some 0 ∧ w.js 0 = true ∧ Allowed w (.message true) := by
  have h1 : Reachable true _ := .step .start (e := .make true) trivial rfl
  have h2 : Reachable true _ := .step h1 (e := .message false) trivial rfl
  exact ⟨_, .step h2 (e := .set 0 (some 0)) ⟨rfl, fun o ho => by cases ho; exact ⟨rfl, rfl⟩⟩ rfl, rfl, rfl, trivial⟩

end QtPb.Life
