import Verif.SetterLemmas
import Verif.PropsEq
/-
Property theorems about property writes and change signals: C26.
-/
namespace QtPb
open Spec

variable {env : Env}

theorem slotsOk_set {fs : List Field} {slots : List Slot} (h : SlotsOk env fs slots) {i : Nat} {f : Field}
    {new : Slot} (hf : fs[i]? = some f) (hn : SlotOk env f.ty new) : SlotsOk env fs (slots.set i new) := by
  refine ⟨by simp [h.1], fun j g sl hg hsl => ?_⟩
  by_cases hji : j = i
  · subst hji
    rw [hf] at hg; cases hg
    rw [List.getElem?_set_self (by rw [h.1]; exact (List.getElem?_eq_some_iff.mp hf).1)] at hsl
    cases hsl; exact hn
  · rw [List.getElem?_set_ne (Ne.symm hji)] at hsl
    exact h.2 j g sl hg hsl

theorem set_self_of_get {α : Type} {l : List α} {i : Nat} {x : α} (h : l[i]? = some x) : l.set i x = l := by
  obtain ⟨hi, rfl⟩ := List.getElem?_eq_some_iff.mp h
  exact List.set_getElem_self hi

/-- One write: nothing happens if the property already has the value; otherwise the value is stored and
exactly one signal, that of this property, is emitted. -/
theorem C26_write {n : Nat} {fs : List Field} {s s' : MsgState} {i : Nat} {f : Field} {cur : Slot} {arg : Arg}
    (hs : SlotsOk env fs s.slots) (hf : fs[i]? = some f) (hc : s.slots[i]? = some cur)
    (ha : ArgOk env f.ty arg) (h : setProperty env n fs s i arg = .ok s') :
    ∃ new, s'.slots = s.slots.set i new ∧ SlotOk env f.ty new ∧
      ((already env f.ty cur arg ∧ s'.log = s.log ∧ reading env f.ty new = reading env f.ty cur) ∨
       (¬ already env f.ty cur arg ∧ s'.log = s.log ++ [i] ∧ exactly env f.ty new arg)) := by
  have hcur := hs.2 i f cur hf hc
  have hself := set_self_of_get hc
  obtain ⟨num, ty⟩ := f
  cases ha with
  | @plain ty v h1 h2 h3 hv =>
    cases hcur with
    | @plain _ c _ _ _ hcv =>
      simp only [setProperty, hf, hc, Res.ok.injEq] at h
      have hiff := plainEq_iff h1 h2 h3 hcv hv
      subst h
      by_cases he : plainEq ty c v = true
      · exact ⟨.plain c, by simp [he, hself], .plain h1 h2 h3 hcv, Or.inl ⟨hiff.mp he, by simp [he], rfl⟩⟩
      · refine ⟨.plain v, by simp [he, MsgState.change], .plain h1 h2 h3 hv, Or.inr ⟨fun hc => he (hiff.mpr hc), ?_, rfl⟩⟩
        simp [he, MsgState.change]
    | ptrs => exact absurd rfl (h2 _)
    | ptrMap => exact absurd rfl (h3 _ _)
    | unset => exact absurd rfl (h1 _)
    | sub => exact absurd rfl (h1 _)
  | @ptrs m l =>
    cases hcur with
    | plain _ h2 => exact absurd rfl (h2 _)
    | ptrs c =>
      simp only [setProperty, hf, hc, Res.ok.injEq] at h
      subst h
      by_cases he : c = l
      · subst he
        exact ⟨.ptrs c, by simp [hself], .ptrs c, Or.inl ⟨rfl, by simp, rfl⟩⟩
      · refine ⟨.ptrs l, by simp [he, MsgState.change], .ptrs l, Or.inr ⟨he, by simp [he, MsgState.change], rfl⟩⟩
  | @ptrMap kk m es hes =>
    cases hcur with
    | plain _ _ h3 => exact absurd rfl (h3 _ _)
    | @ptrMap _ _ c hk hce =>
      simp only [setProperty, hf, hc, Res.ok.injEq] at h
      have hiff := ptrMapEq_iff hk hce hes
      subst h
      by_cases he : ptrMapEq kk c es = true
      · exact ⟨.ptrMap c, by simp [he, hself], .ptrMap hk hce, Or.inl ⟨hiff.mp he, by simp [he], rfl⟩⟩
      · refine ⟨.ptrMap es, by simp [he, MsgState.change], .ptrMap hk hes,
          Or.inr ⟨fun hc => he (hiff.mpr hc), by simp [he, MsgState.change], rfl⟩⟩
  | @copy m o ho =>
    have hp : ∃ p, cur = .sub p ∧ Safe env (.msg m) (.msg ((p.map (·.2)).getD (defaultObj env m))) := by
      cases hcur with
      | plain h1 => exact absurd rfl (h1 _)
      | unset => exact ⟨none, rfl, default_safe m⟩
      | sub hsf => exact ⟨_, rfl, hsf⟩
    obtain ⟨p, rfl, hp⟩ := hp
    have hp2 : (p.map (·.2)).getD (defaultObj env m) = (p.getD (s.next, defaultObj env m)).2 := by
      cases p <;> rfl
    have hr : ∀ q : Nat × Obj, reading env (.msg m) (.sub (some q)) = .message q.2 := fun q => rfl
    have hrp : reading env (.msg m) (.sub p) = .message (p.getD (s.next, defaultObj env m)).2 := by
      cases p <;> rfl
    simp only [setProperty, hf, hc, Res.bind_eq, Res.bind_eq_ok] at h
    generalize p.getD (s.next, defaultObj env m) = c at h hp2 hrp
    obtain ⟨d, hd, h⟩ := h
    rw [C24_not_equal] at hd
    rw [hp2] at hp
    have hans := C24_answer_right hp ho hd
    cases d with
    | false =>
      simp only [Bool.false_eq_true, if_false, Res.ok.injEq] at h
      subst h
      refine ⟨.sub (some c), rfl, .sub hp, Or.inl ⟨?_, rfl, ?_⟩⟩
      · simp only [already, hp2]; exact hans.mp rfl
      · rw [hrp, hr]
    | true =>
      simp only [if_true, Res.bind_eq_ok, Res.ok.injEq] at h
      obtain ⟨o', ho', rfl⟩ := h
      obtain ⟨h1, h2⟩ := assign_sound hp ho ho'
      refine ⟨.sub (some (c.1, o')), by simp [MsgState.change], .sub h2, Or.inr ⟨?_, by simp [MsgState.change], h1⟩⟩
      simp only [already, hp2]
      intro hc
      have := hans.mpr hc
      simp at this
  | @take m o a ho =>
    have hp : ∃ p, cur = .sub p := by
      cases hcur with
      | plain h1 => exact absurd rfl (h1 _)
      | unset => exact ⟨none, rfl⟩
      | sub hsf => exact ⟨_, rfl⟩
    obtain ⟨p, rfl⟩ := hp
    simp only [setProperty, hf, hc, Res.ok.injEq] at h
    subst h
    by_cases he : p.map (·.1) = some a
    · exact ⟨.sub p, by simp [he, hself], hcur, Or.inl ⟨he, by simp [he], rfl⟩⟩
    · exact ⟨.sub (some (a, o)), by simp [he, MsgState.change], .sub ho,
        Or.inr ⟨he, by simp [he, MsgState.change], rfl⟩⟩

/-- Every write returns (schemas without maps of messages; those can make the comparison of
sub-messages dereference a null pointer, see `C24_message_map_violated`). -/
theorem C26_write_returns_partial (hm : NoMessageMaps env) {fs : List Field} {s : MsgState} {i : Nat} {f : Field}
    {cur : Slot} {arg : Arg} (hs : SlotsOk env fs s.slots) (hf : fs[i]? = some f)
    (hc : s.slots[i]? = some cur) (ha : ArgOk env f.ty arg) :
    ∃ K, ∀ n, K ≤ n → ∃ s', setProperty env n fs s i arg = .ok s' := by
  have hcur := hs.2 i f cur hf hc
  obtain ⟨num, ty⟩ := f
  cases ha with
  | @plain ty v h1 h2 h3 hv =>
    cases hcur with
    | plain => exact ⟨0, fun n _ => by simp [setProperty, hf, hc]⟩
    | ptrs => exact absurd rfl (h2 _)
    | ptrMap => exact absurd rfl (h3 _ _)
    | unset => exact absurd rfl (h1 _)
    | sub => exact absurd rfl (h1 _)
  | ptrs l =>
    cases hcur with
    | plain _ h2 => exact absurd rfl (h2 _)
    | ptrs c => exact ⟨0, fun n _ => by simp [setProperty, hf, hc]⟩
  | ptrMap =>
    cases hcur with
    | plain _ _ h3 => exact absurd rfl (h3 _ _)
    | ptrMap => exact ⟨0, fun n _ => by simp [setProperty, hf, hc]⟩
  | @copy m o ho =>
    have hp : ∃ p, cur = .sub p ∧ Safe env (.msg m) (.msg (p.getD (s.next, defaultObj env m)).2) := by
      cases hcur with
      | plain h1 => exact absurd rfl (h1 _)
      | unset => exact ⟨none, rfl, default_safe m⟩
      | sub hsf => exact ⟨_, rfl, hsf⟩
    obtain ⟨p, rfl, hp⟩ := hp
    obtain ⟨N, r, hN, _⟩ := C24_decides_partial hm hp ho
    obtain ⟨M, hM⟩ := assign_returns hm hp ho
    refine ⟨max N M, fun n hn => ?_⟩
    obtain ⟨o', ho'⟩ := hM n (by omega)
    have hne : objNe env n m (p.getD (s.next, defaultObj env m)).2 o = .ok (!r) := by
      rw [C24_not_equal]; simp [hN n (by omega)]
    simp only at ho'
    simp only [setProperty, hf, hc, hne, Res.bind_eq, Res.bind, ho']
    cases r <;> simp
  | @take m o a ho =>
    cases hcur with
    | plain h1 => exact absurd rfl (h1 _)
    | unset => exact ⟨0, fun n _ => by simp [setProperty, hf, hc]⟩
    | sub hsf => exact ⟨0, fun n _ => by simp [setProperty, hf, hc]⟩

/-- C26: every history of property writes, of any length, on an object in any state follows the
specification `History`: signals are emitted exactly when the value changes. -/
theorem C26_history {n : Nat} {fs : List Field} {s s' : MsgState} {ops : List (Nat × Arg)}
    (hs : SlotsOk env fs s.slots) (hops : ∀ op ∈ ops, ∃ f, fs[op.1]? = some f ∧ ArgOk env f.ty op.2)
    (h : runSetters env n fs s ops = .ok s') :
    ∃ signals, History env fs s.slots ops s'.slots signals ∧ s'.log = s.log ++ signals := by
  induction ops generalizing s with
  | nil => simp only [runSetters, Res.ok.injEq] at h; subst h; exact ⟨[], .nil _, by simp⟩
  | cons op ops ih =>
    obtain ⟨i, arg⟩ := op
    obtain ⟨f, hf, ha⟩ := hops (i, arg) (by simp)
    simp only [runSetters, Res.bind_eq, Res.bind_eq_ok] at h
    obtain ⟨s1, h1, h2⟩ := h
    obtain ⟨cur, hcur⟩ := getElem?_of_len hs.1.symm hf
    obtain ⟨new, hn1, hn2, hn3⟩ := C26_write hs hf hcur ha h1
    obtain ⟨sig, hh, hl⟩ := ih (s := s1) (by rw [hn1]; exact slotsOk_set hs hf hn2)
      (fun op hop => hops op (by simp [hop])) h2
    rw [hn1] at hh
    rcases hn3 with ⟨ha', hlog, hrd⟩ | ⟨ha', hlog, hex⟩
    · exact ⟨sig, .quiet hf hcur ha' hrd hh, by rw [hl, hlog]⟩
    · exact ⟨i :: sig, .loud hf hcur ha' hex hh, by rw [hl, hlog]; simp⟩

/-- C26: after any history, every property reads as the last value written to it (exactly that, or the
same value that it already had), and a property that was not written is unchanged. -/
theorem C26_reads_last_write {fs : List Field} {a b : List Slot} {ops : List (Nat × Arg)} {signals : List Nat}
    (h : History env fs a ops b signals) {j : Nat} {f : Field} {sl : Slot} (hf : fs[j]? = some f)
    (hsl : b[j]? = some sl) :
    match lastWrite j ops with
    | none => a[j]? = some sl
    | some arg => exactly env f.ty sl arg ∨
        ∃ old, reading env f.ty sl = reading env f.ty old ∧ already env f.ty old arg := by
  have hcons : ∀ (op : Nat × Arg) (ops : List (Nat × Arg)), lastWrite j (op :: ops)
      = match lastWrite j ops with
        | some v => some v
        | none => if op.1 = j then some op.2 else none := by
    intro op ops
    simp only [lastWrite, List.reverse_cons, List.find?_append]
    cases List.find? (fun op => op.1 == j) ops.reverse with
    | some x => simp
    | none =>
      simp only [Option.none_or, Option.map_none, List.find?_cons, List.find?_nil]
      by_cases h : op.1 = j
      · simp [h]
      · have : (op.1 == j) = false := by simpa using h
        simp [h, this]
  have hstep : ∀ {a b : List Slot} {i : Nat} {new : Slot} {arg : Arg} {ops : List (Nat × Arg)} {g : Field},
      fs[i]? = some g → i < a.length →
      (exactly env g.ty new arg ∨ ∃ old, reading env g.ty new = reading env g.ty old ∧ already env g.ty old arg) →
      (match lastWrite j ops with
        | none => (a.set i new)[j]? = some sl
        | some arg => exactly env f.ty sl arg ∨
            ∃ old, reading env f.ty sl = reading env f.ty old ∧ already env f.ty old arg) →
      match lastWrite j ((i, arg) :: ops) with
        | none => a[j]? = some sl
        | some arg => exactly env f.ty sl arg ∨
            ∃ old, reading env f.ty sl = reading env f.ty old ∧ already env f.ty old arg := by
    intro a b i new arg ops g hg hi hnew ih
    rw [hcons]
    cases hl : lastWrite j ops with
    | some v => rw [hl] at ih; simpa using ih
    | none =>
      rw [hl] at ih
      simp only at ih ⊢
      by_cases hij : i = j
      · subst hij
        rw [hg] at hf; cases hf
        rw [List.getElem?_set_self hi] at ih
        cases ih
        simpa using hnew
      · rw [List.getElem?_set_ne hij] at ih
        simpa [hij] using ih
  induction h with
  | nil => simpa [lastWrite] using hsl
  | quiet hg ha hal hrd _ ih =>
    exact hstep (b := b) hg (List.getElem?_eq_some_iff.mp ha).1 (Or.inr ⟨_, hrd, hal⟩) (ih hsl)
  | loud hg ha hal hex _ ih =>
    exact hstep (b := b) hg (List.getElem?_eq_some_iff.mp ha).1 (Or.inl hex) (ih hsl)

/-- C26: histories of setter calls return, for schemas without maps of messages. Missing: those, see
`C26_message_map_violated`. -/
theorem C26_history_returns_partial (hm : NoMessageMaps env) {fs : List Field} {s : MsgState}
    {ops : List (Nat × Arg)} (hs : SlotsOk env fs s.slots)
    (hops : ∀ op ∈ ops, ∃ f, fs[op.1]? = some f ∧ ArgOk env f.ty op.2) :
    ∃ K s', ∀ n, K ≤ n → runSetters env n fs s ops = .ok s' := by
  induction ops generalizing s with
  | nil => exact ⟨0, s, fun n _ => rfl⟩
  | cons op ops ih =>
    obtain ⟨i, arg⟩ := op
    obtain ⟨f, hf, ha⟩ := hops (i, arg) (by simp)
    obtain ⟨cur, hcur⟩ := getElem?_of_len hs.1.symm hf
    obtain ⟨K, hK⟩ := C26_write_returns_partial hm hs hf hcur ha
    obtain ⟨s1, h1⟩ := hK K (Nat.le_refl _)
    obtain ⟨new, hn1, hn2, _⟩ := C26_write hs hf hcur ha h1
    obtain ⟨M, s2, hM⟩ := ih (s := s1) (by rw [hn1]; exact slotsOk_set hs hf hn2)
      (fun op hop => hops op (by simp [hop]))
    refine ⟨max K M, s2, fun n hn => ?_⟩
    simp only [runSetters, Res.bind_eq, Res.bind_eq_ok]
    exact ⟨s1, setProperty_agree (by omega) fs s i arg s1 h1, hM n (by omega)⟩

/-- Negation of C26 for maps of messages: writing a sub-message property dereferences a null pointer
when the old and the new message have maps of messages of the same size with different keys. -/
theorem C26_message_map_violated : ∀ n, 1 ≤ n →
    setProperty demoMapEnv n (demoMapEnv.sch 0) ⟨[.sub (some (0, [.map [(.w32 1#32, .msg [])]]))], 1, []⟩ 0
      (.copy [.map [(.w32 2#32, .msg [])]]) = .ub := by
  intro n hn
  obtain ⟨k, rfl⟩ : ∃ k, n = k + 1 := ⟨n - 1, by omega⟩
  rfl

/-- Three writes, two of which change the value; the message setter creates the unset sub-message. -/
example : (runSetters demoEnv 5 (demoSch 2) ⟨[.plain (.sc (.w32 0#32)), .sub none], 7, []⟩
    [(0, .plain (.sc (.w32 5#32))), (0, .plain (.sc (.w32 5#32))),
     (1, .copy [.sc (.w32 1#32), .msgNull])])
    = .ok ⟨[.plain (.sc (.w32 5#32)), .sub (some (7, [.sc (.w32 1#32), .msgNull]))], 8, [0, 1]⟩ := rfl

example : SlotsOk demoEnv (demoSch 2) [.plain (.sc (.w32 0#32)), .sub none] := by
  refine ⟨rfl, fun i f sl hf hsl => ?_⟩
  match i with
  | 0 => cases hf; cases hsl; exact .plain (by simp) (by simp) (by simp) (.sc rfl)
  | 1 => cases hf; cases hsl; exact .unset
  | _ + 2 => simp [demoSch] at hf

end QtPb
