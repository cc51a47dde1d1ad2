import Verif.SerializeLemmas
/-
Whatever the input, the object filled by the decoder is a proper object of its class.
-/
namespace QtPb
open Spec

variable {env : Env}

theorem deserializeBasic_holds {k : Kind} {it it' : It} {s : Scalar}
    (h : deserializeBasic env k it = .ok (s, it')) : k.holds s := by
  cases k <;> simp only [deserializeBasic, Res.bind_eq, Res.bind_eq_ok] at h <;>
    (obtain ⟨a, _, h⟩ := h; simp only [Res.ok.injEq, Prod.mk.injEq] at h; rw [← h.1]; rfl)

theorem packedLoop_holds {k : Kind} {last n : Nat} {it it' : It} {l : List Scalar}
    (h : packedLoop env k last n it = .ok (l, it')) : ∀ s ∈ l, k.holds s := by
  induction n generalizing it it' l with
  | zero => simp [packedLoop] at h
  | succ n ih =>
    simp only [packedLoop] at h
    split at h
    · simp only [Res.ok.injEq, Prod.mk.injEq] at h
      rw [← h.1]; simp
    · simp only [Res.bind_eq, Res.bind_eq_ok] at h
      obtain ⟨⟨v, it1⟩, h1, ⟨vs, it2⟩, h2, h⟩ := h
      simp only [Res.ok.injEq, Prod.mk.injEq] at h
      rw [← h.1]
      intro s hs
      rcases List.mem_cons.mp hs with rfl | hs
      · exact deserializeBasic_holds h1
      · exact ih h2 s hs

theorem deserializePacked_holds {k : Kind} {n : Nat} {it it' : It} {l : List Scalar}
    (h : deserializePacked env k n it = .ok (l, it')) : ∀ s ∈ l, k.holds s := by
  simp only [deserializePacked, Res.bind_eq, Res.bind_eq_ok] at h
  obtain ⟨⟨c, it1⟩, _, last, _, h⟩ := h
  exact packedLoop_holds h

theorem deserializeScalarList_holds {k : Kind} {n : Nat} {prev l : List Scalar} {it it' : It}
    (hp : ∀ s ∈ prev, k.holds s) (h : deserializeScalarList env k n prev it = .ok (l, it')) :
    ∀ s ∈ l, k.holds s := by
  have happ : ∀ {k : Kind}, (∀ s ∈ prev, k.holds s) →
      Res.bind (deserializeBasic env k it) (fun x => .ok (prev ++ [x.1], x.2)) = .ok (l, it') →
      ∀ s ∈ l, k.holds s := by
    intro k hp h
    simp only [Res.bind_eq_ok] at h
    obtain ⟨⟨v, it1⟩, h1, h⟩ := h
    simp only [Res.ok.injEq, Prod.mk.injEq] at h
    rw [← h.1]
    intro s hs
    rcases List.mem_append.mp hs with hs | hs
    · exact hp s hs
    · rw [List.mem_singleton.mp hs]; exact deserializeBasic_holds h1
  cases k <;> simp only [deserializeScalarList] at h <;>
    first
    | exact deserializePacked_holds h
    | exact happ hp h
    | cases h

/-- What the decoder of nested messages guarantees. -/
def RecSafe (env : Env) (rec : Nat → Bytes → MsgResult) : Prop :=
  ∀ m body, Safe env (.msg m) (.msg (rec m body).2)

theorem deserializeObject_safe {rec : Nat → Bytes → MsgResult} (hr : RecSafe env rec) {m : Nat}
    {it it' : It} {o : Obj} (h : deserializeObject rec m it = .ok (o, it')) :
    Safe env (.msg m) (.msg o) := by
  simp only [deserializeObject, Res.bind_eq, Res.bind_eq_ok] at h
  obtain ⟨⟨body, it1⟩, _, h⟩ := h
  have := hr m body
  split at h <;> simp_all

theorem mapPairLoop_safe {rec : Nat → Bytes → MsgResult} {kk : Kind} {vt : MapVal}
    (hvt : ∀ m, vt ≠ .msg m) {last n : Nat} {key key' : Scalar} {v v' : Val} {it it' : It}
    (hk : kk.holds key) (hv : Safe env (MapVal.toTy vt) v ∧ v ≠ .msgNull)
    (h : mapPairLoop env rec kk vt last n key v it = .ok (key', v', it')) :
    kk.holds key' ∧ Safe env (MapVal.toTy vt) v' ∧ v' ≠ .msgNull := by
  induction n generalizing key v it with
  | zero => simp [mapPairLoop] at h
  | succ n ih =>
    simp only [mapPairLoop] at h
    split at h
    · simp only [Res.ok.injEq, Prod.mk.injEq] at h
      rw [← h.1, ← h.2.1]; exact ⟨hk, hv⟩
    · simp only [Res.bind_eq, Res.bind_eq_ok] at h
      obtain ⟨⟨hd, it1⟩, _, h⟩ := h
      simp only at h
      split at h
      · simp only [Res.bind_eq_ok] at h
        obtain ⟨⟨s, it2⟩, hs, h⟩ := h
        exact ih (deserializeBasic_holds hs) hv h
      · simp only [Res.bind_eq_ok] at h
        obtain ⟨⟨s, it2⟩, hs, h⟩ := h
        refine ih hk ?_ h
        cases vt with
        | scalar k =>
          simp only [deserializeMapValue, Res.bind_eq, Res.bind_eq_ok] at hs
          obtain ⟨⟨x, it3⟩, hx, hs⟩ := hs
          simp only [Res.ok.injEq, Prod.mk.injEq] at hs
          simp only [← hs.1]
          exact ⟨.sc (deserializeBasic_holds hx), by simp⟩
        | enum =>
          simp only [deserializeMapValue, Res.bind_eq, Res.bind_eq_ok] at hs
          obtain ⟨⟨x, it3⟩, hx, hs⟩ := hs
          simp only [Res.ok.injEq, Prod.mk.injEq] at hs
          simp only [← hs.1]
          exact ⟨.enum _, by simp⟩
        | msg m => exact absurd rfl (hvt m)

theorem mapInsert_values {kk : Kind} {key : Scalar} {v : Val} {P : Val → Prop} (hv : P v)
    {es : List (Scalar × Val)} (h : ∀ e ∈ es, P e.2) : ∀ e ∈ mapInsert kk key v es, P e.2 := by
  induction es with
  | nil => simp [mapInsert, hv]
  | cons x es ih =>
    obtain ⟨k', v'⟩ := x
    simp only [mapInsert]
    have h1 : P v' := h (k', v') (by simp)
    have h2 := ih fun e he => h e (List.mem_cons_of_mem _ he)
    split
    · intro e he; rcases List.mem_cons.mp he with rfl | he
      · exact h1
      · exact h2 e he
    · split
      · intro e he
        rcases List.mem_cons.mp he with rfl | he
        · exact hv
        · exact h e he
      · intro e he
        rcases List.mem_cons.mp he with rfl | he
        · exact hv
        · exact h e (List.mem_cons_of_mem _ he)

theorem mapInsert_safe {kk : Kind} {vt : MapVal} {key : Scalar} {v : Val} {es : List (Scalar × Val)}
    (hk : kk.holds key) (hv : Safe env (MapVal.toTy vt) v) (hn : v ≠ .msgNull)
    (h : Safe env (.map kk vt) (.map es)) : Safe env (.map kk vt) (.map (mapInsert kk key v es)) := by
  cases h with
  | map h1 h2 h3 h4 =>
    have hs := mapInsert_sorted (v := v) hk ⟨h1, h4⟩
    exact .map hs.1.1 (mapInsert_values (P := fun v => v ≠ .msgNull) hn h2)
      (mapInsert_values (P := fun v => Safe env (MapVal.toTy vt) v) hv h3) hs.1.2

theorem deserializeValue_safe {rec : Nat → Bytes → MsgResult} (hr : RecSafe env rec) {ty : FieldTy}
    (hty : ∀ kk m, ty ≠ .map kk (.msg m)) {n : Nat} {cur v : Val} {it it' : It}
    (hc : Safe env ty cur) (h : deserializeValue env rec ty n cur it = .ok (v, it')) :
    Safe env ty v := by
  cases ty <;> simp only [deserializeValue, Res.bind_eq, Res.bind_eq_ok] at h
  case scalar k =>
    obtain ⟨⟨x, it1⟩, hx, h⟩ := h
    simp only [Res.ok.injEq, Prod.mk.injEq] at h
    rw [← h.1]; exact .sc (deserializeBasic_holds hx)
  case list k =>
    obtain ⟨⟨x, it1⟩, hx, h⟩ := h
    simp only [Res.ok.injEq, Prod.mk.injEq] at h
    rw [← h.1]
    cases hc with
    | scList hc => exact .scList (deserializeScalarList_holds hc hx)
  case enum =>
    obtain ⟨⟨x, it1⟩, hx, h⟩ := h
    simp only [Res.ok.injEq, Prod.mk.injEq] at h
    rw [← h.1]; exact .enum _
  case enumList =>
    obtain ⟨⟨x, it1⟩, hx, h⟩ := h
    simp only [Res.ok.injEq, Prod.mk.injEq] at h
    rw [← h.1]; exact .enumList _
  case msg m =>
    obtain ⟨⟨x, it1⟩, hx, h⟩ := h
    simp only [Res.ok.injEq, Prod.mk.injEq] at h
    rw [← h.1]; exact deserializeObject_safe hr hx
  case msgList m =>
    obtain ⟨⟨x, it1⟩, hx, h⟩ := h
    simp only [Res.ok.injEq, Prod.mk.injEq] at h
    rw [← h.1]
    have := deserializeObject_safe hr hx
    cases hc with
    | msgList h1 h2 =>
      refine .msgList ?_ ?_
      · intro w hw
        rcases List.mem_append.mp hw with hw | hw
        · exact h1 w hw
        · rw [List.mem_singleton.mp hw]; simp
      · intro w hw
        rcases List.mem_append.mp hw with hw | hw
        · exact h2 w hw
        · rw [List.mem_singleton.mp hw]; exact this
  case map kk vt =>
    obtain ⟨⟨key, x, it1⟩, hx, h⟩ := h
    simp only [Res.ok.injEq, Prod.mk.injEq] at h
    rw [← h.1]
    simp only [deserializeMapPair, Res.bind_eq, Res.bind_eq_ok] at hx
    obtain ⟨⟨c, it2⟩, _, last, _, hx⟩ := hx
    have hvt : ∀ m, vt ≠ .msg m := fun m hm => hty kk m (by rw [hm])
    have := mapPairLoop_safe hvt (default_holds kk)
      (by cases vt with
        | scalar k => exact ⟨.sc (default_holds k), by simp [defaultMapVal]⟩
        | enum => exact ⟨.enum _, by simp [defaultMapVal]⟩
        | msg m => exact absurd rfl (hvt m)) hx
    cases hc with
    | map h1 h2 h3 h4 => exact mapInsert_safe this.1 this.2.1 this.2.2 (.map h1 h2 h3 h4)

theorem set_safe {m i : Nat} {o : Obj} {f : Field} {v : Val} (ho : Safe env (.msg m) (.msg o))
    (hf : (env.sch m)[i]? = some f) (hv : Safe env f.ty v) : Safe env (.msg m) (.msg (o.set i v)) := by
  cases ho with
  | msg hl hh =>
    refine .msg (by simpa using hl) fun j g w hg hw => ?_
    rw [List.getElem?_set] at hw
    split at hw
    · rename_i hij
      subst hij
      split at hw
      · have := getElem?_inj hf hg
        subst this
        cases hw
        exact hv
      · cases hw
    · exact hh j g w hg hw

theorem messageLoop_safe (hm : NoMessageMaps env) {rec : Nat → Bytes → MsgResult}
    (hr : RecSafe env rec) {m n : Nat} {it : It} {o : Obj} (ho : Safe env (.msg m) (.msg o)) :
    Safe env (.msg m) (.msg (messageLoop env rec m n it o).2) := by
  induction n generalizing it o with
  | zero => exact ho
  | succ n ih =>
    simp only [messageLoop]
    split
    · exact ho
    · split
      · rename_i it' o' h
        refine ih ?_
        simp only [deserializeProperty, Res.bind_eq, Res.bind_eq_ok] at h
        obtain ⟨⟨hd, it1⟩, _, h⟩ := h
        simp only at h
        split at h
        · cases h
        · split at h
          · simp only [Res.bind_eq_ok] at h
            obtain ⟨it2, _, h⟩ := h
            simp only [Res.ok.injEq, Prod.mk.injEq] at h
            rw [← h.2]; exact ho
          · split at h
            · rename_i i _ _ _ f cur hf hcur
              simp only [Res.bind_eq_ok] at h
              obtain ⟨⟨v, it2⟩, hv, h⟩ := h
              simp only [Res.ok.injEq, Prod.mk.injEq] at h
              rw [← h.2]
              have hc : Safe env f.ty cur := by
                cases ho with | msg _ hh => exact hh i f cur hf hcur
              have hv' := deserializeValue_safe hr (hm m f (List.mem_of_getElem? hf)) hc hv
              exact set_safe ho hf (writeVal_mirrors hc hv').2
            · cases h
      · exact ho
      · exact ho
      · exact ho

theorem default_safe (m : Nat) : Safe env (.msg m) (.msg (defaultObj env m)) :=
  holds_contents default_holds (Holds.null (env := env) (P := fun k s => k.holds s) m)

/-- Whatever the input, the decoded object is a proper object of its class. -/
theorem deserializeMessage_safe (hm : NoMessageMaps env) (n m : Nat) (data : Bytes) :
    Safe env (.msg m) (.msg (deserializeMessage env n m data).2) := by
  induction n generalizing m data with
  | zero => exact default_safe m
  | succ n ih => exact messageLoop_safe hm (fun m body => ih m body) (default_safe m)

end QtPb
