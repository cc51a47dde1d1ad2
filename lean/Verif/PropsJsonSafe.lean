import Verif.PropsJsonRead
import Verif.CompareLemmas
/-
C66: reading arbitrary bytes as JSON.
-/
namespace QtPb.Json
open Spec

variable {env : REnv}

/-! ### The object read is an object of its class -/

theorem deserializeScalar_holds {k : Kind} {t : JType} {data : Bytes} {s : Scalar}
    (h : (deserializeScalar env k t data).1 = some s) : k.holds s := by
  cases k <;> simp only [deserializeScalar] at h
  case float | double | bool | string | bytes =>
    split at h
    · first | (cases h; rfl) | cases h
    · first | (cases h; rfl) | cases h
  all_goals cases h; rfl

theorem scalarOf_holds (k : Kind) (t : JType) (data : Bytes) : k.holds (scalarOf k (deserializeScalar env k t data)) := by
  unfold scalarOf
  cases h : (deserializeScalar env k t data).1 with
  | none => exact default_holds k
  | some s => exact deserializeScalar_holds h

section
variable {rec : Nat → Bytes → MsgResult}

theorem readMessage_typed (hr : ∀ m data, WellTyped env.toEnv m (rec m data).2) {m : Nat} {data : Bytes} {o : Obj}
    (h : readMessage rec m data = .ok o) : WellTyped env.toEnv m o := by
  have := hr m data
  unfold readMessage at h
  split at h <;> simp_all

theorem readMessages_typed (hr : ∀ m data, WellTyped env.toEnv m (rec m data).2) {m : Nat} : ∀ {es : List (JType × Bytes)} {l : List Val},
    readMessages rec m es = .ok l → ∀ v ∈ l, HasTy env.toEnv (.msg m) v
  | [], l, h => by cases h; simp
  | e :: es, l, h => by
    simp only [readMessages, Res.bind_eq, Res.bind_eq_ok] at h
    obtain ⟨o, h1, r, h2, h3⟩ := h
    cases h3
    intro v hv
    rcases List.mem_cons.mp hv with rfl | hv
    · exact readMessage_typed hr h1
    · exact readMessages_typed hr h2 v hv

theorem mapValueOf_typed (hr : ∀ m data, WellTyped env.toEnv m (rec m data).2) {m i : Nat} {vt : MapVal} {t : JType} {data : Bytes} {v : Val}
    (h : mapValueOf env rec m i vt t data = .ok v) : HasTy env.toEnv (MapVal.toTy vt) v := by
  cases vt with
  | scalar k =>
    cases h
    refine .sc ?_
    split
    · exact scalarOf_holds k t data
    · exact default_holds k
  | enum => cases h; exact .enum _
  | msg m' =>
    simp only [mapValueOf] at h
    split at h
    · cases h; exact .null m'
    · simp only [Res.bind_eq, Res.bind_eq_ok] at h
      obtain ⟨o, h1, h2⟩ := h
      cases h2
      exact readMessage_typed hr h1

theorem readEntries_typed (hr : ∀ m data, WellTyped env.toEnv m (rec m data).2) {m i : Nat} {kk : Kind} {vt : MapVal} :
    ∀ {es : List (Bytes × JType × Bytes)} {out r : List (Scalar × Val)}, HasTy env.toEnv (.map kk vt) (.map out) →
    readEntries env rec m i kk vt es out = .ok r → HasTy env.toEnv (.map kk vt) (.map r)
  | [], out, r, ho, h => by cases h; exact ho
  | e :: es, out, r, ho, h => by
    simp only [readEntries, Res.bind_eq, Res.bind_eq_ok] at h
    obtain ⟨v, h1, h2⟩ := h
    refine readEntries_typed hr (mapInsert_typed ?_ (mapValueOf_typed hr h1) ho) h2
    split
    · exact scalarOf_holds kk _ _
    · exact default_holds kk

theorem deserializeValue_typed (hr : ∀ m data, WellTyped env.toEnv m (rec m data).2) {m i : Nat} {ty : FieldTy} {t : JType} {data : Bytes}
    {v : Val} {b : Bool} (h : deserializeValue env rec m i ty t data = .ok (v, b)) : HasTy env.toEnv ty v := by
  cases ty with
  | scalar k => cases h; exact .sc (scalarOf_holds k t data)
  | list k =>
    simp only [deserializeValue] at h
    split at h
    · cases h; exact .scList (by simp)
    · simp only [Res.bind_eq, Res.bind_eq_ok] at h
      obtain ⟨es, _, h⟩ := h
      cases h
      refine .scList fun s hs => ?_
      obtain ⟨e, _, rfl⟩ := List.mem_map.mp hs
      exact scalarOf_holds k _ _
  | enum =>
    simp only [deserializeValue] at h
    split at h <;> cases h <;> exact .enum _
  | enumList =>
    simp only [deserializeValue] at h
    split at h
    · cases h; exact .enumList _
    · simp only [Res.bind_eq, Res.bind_eq_ok] at h
      obtain ⟨es, _, h⟩ := h
      cases h
      exact .enumList _
  | msg m' =>
    simp only [deserializeValue] at h
    split at h
    · cases h; exact .null m'
    · simp only [Res.bind_eq, Res.bind_eq_ok] at h
      obtain ⟨o, h1, h⟩ := h
      cases h
      exact readMessage_typed hr h1
  | msgList m' =>
    simp only [deserializeValue] at h
    split at h
    · cases h; exact .msgList (by simp)
    · simp only [Res.bind_eq, Res.bind_eq_ok] at h
      obtain ⟨es, _, l, h1, h⟩ := h
      cases h
      exact .msgList (readMessages_typed hr h1)
  | map kk vt =>
    simp only [deserializeValue] at h
    split at h
    · cases h; exact .map (by simp) (by simp) (by simp)
    · simp only [Res.bind_eq, Res.bind_eq_ok] at h
      obtain ⟨es, _, l, h1, h⟩ := h
      cases h
      exact readEntries_typed hr (.map (by simp) (by simp) (by simp)) h1

theorem write_typed {f : Field} {cur v : Val} (hc : HasTy env.toEnv f.ty cur) (hv : HasTy env.toEnv f.ty v) :
    HasTy env.toEnv f.ty (writeVal f.ty cur v) := by
  by_cases hty : ∃ m2, f.ty = .msg m2
  · obtain ⟨m2, hty⟩ := hty
    rw [hty] at hv ⊢
    exact hv
  · exact (writeVal_hasTy (fun m2 h => hty ⟨m2, h⟩) hc hv).2

theorem nulled_typed {f : Field} {cur : Val} (hc : HasTy env.toEnv f.ty cur) : HasTy env.toEnv f.ty (nulled f.ty cur) := by
  unfold nulled
  split
  · exact hc
  · exact write_typed hc (defaultVal_safe f.ty).hasTy

theorem readMembers_typed (hr : ∀ m data, WellTyped env.toEnv m (rec m data).2) {m : Nat} : ∀ (es : List (Bytes × JType × Bytes)) {o : Obj},
    WellTyped env.toEnv m o → WellTyped env.toEnv m (readMembers env rec m es o).2
  | [], o, ho => ho
  | e :: es, o, ho => by
    unfold readMembers
    split
    · exact readMembers_typed hr es ho
    · split
      · rename_i i _ _ _ f cur hf hcur
        have hc : HasTy env.toEnv f.ty cur := by cases ho with | msg _ hh => exact hh i f cur hf hcur
        split
        · exact readMembers_typed hr es (set_typed ho hf (nulled_typed hc))
        · split
          · rename_i v hv
            exact readMembers_typed hr es (set_typed ho hf (write_typed hc (deserializeValue_typed hr hv)))
          · exact readMembers_typed hr es ho
          · exact ho
          · exact ho
          · exact ho
      · exact ho

end

/-- **C66**: whatever the bytes, and whatever the JSON library makes of them, the object that is read, completely or up to an exception, is
an object of its class. -/
theorem C66_typed (n m : Nat) (data : Bytes) : WellTyped env.toEnv m (deserializeMessage env n m data).2 := by
  induction n generalizing m data with
  | zero => exact (default_safe m).hasTy
  | succ n ih =>
    simp only [deserializeMessage]
    split
    · exact readMembers_typed (fun m data => ih m data) _ (default_safe m).hasTy
    all_goals exact (default_safe m).hasTy

/-! ### Reading returns -/

/-- The call returns or throws what the library throws. -/
def Finishes (env : REnv) {α : Type} (r : Res α) : Prop := (∃ a, r = .ok a) ∨ ∃ e, r = .throw e ∧ LibraryThrows env e

theorem Finishes.bind {α β : Type} {r : Res α} {f : α → Res β} (h : Finishes env r) (hf : ∀ a, r = .ok a → Finishes env (f a)) :
    Finishes env (r >>= f) := by
  rcases h with ⟨a, rfl⟩ | ⟨e, rfl, h⟩
  · exact hf a rfl
  · exact Or.inr ⟨e, rfl, h⟩

section
variable {rec : Nat → Bytes → MsgResult}

theorem readMessage_finishes {m : Nat} {data : Bytes} (h : Finishes env (rec m data).1) : Finishes env (readMessage rec m data) := by
  unfold readMessage
  rcases h with ⟨a, h⟩ | ⟨e, h, he⟩
  · split <;> simp_all [Finishes]
  · split <;> simp_all [Finishes]

theorem readMessages_finishes {m : Nat} : ∀ {es : List (JType × Bytes)}, (∀ e ∈ es, Finishes env (rec m e.2).1) →
    Finishes env (readMessages rec m es)
  | [], _ => Or.inl ⟨_, rfl⟩
  | e :: _, h => (readMessage_finishes (h e List.mem_cons_self)).bind fun _ _ =>
      (readMessages_finishes fun e he => h e (List.mem_cons_of_mem _ he)).bind fun _ _ => Or.inl ⟨_, rfl⟩

theorem mapValueOf_finishes {m i : Nat} {vt : MapVal} {t : JType} {data : Bytes} (h : ∀ m, Finishes env (rec m data).1) :
    Finishes env (mapValueOf env rec m i vt t data) := by
  cases vt with
  | scalar k => exact Or.inl ⟨_, rfl⟩
  | enum => exact Or.inl ⟨_, rfl⟩
  | msg m' =>
    simp only [mapValueOf]
    split
    · exact Or.inl ⟨_, rfl⟩
    · exact (readMessage_finishes (h m')).bind fun _ _ => Or.inl ⟨_, rfl⟩

theorem readEntries_finishes {m i : Nat} {kk : Kind} {vt : MapVal} : ∀ {es : List (Bytes × JType × Bytes)} {out : List (Scalar × Val)},
    (∀ e ∈ es, ∀ m, Finishes env (rec m e.2.2).1) → Finishes env (readEntries env rec m i kk vt es out)
  | [], _, _ => Or.inl ⟨_, rfl⟩
  | e :: _, _, h => (mapValueOf_finishes (h e List.mem_cons_self)).bind fun _ _ =>
      readEntries_finishes fun e he => h e (List.mem_cons_of_mem _ he)

theorem deserializeValue_finishes (hl : LibraryReturns env) {m i : Nat} {ty : FieldTy} {t : JType} {data : Bytes}
    (h : ∀ m data', data'.length ≤ data.length → Finishes env (rec m data').1) : Finishes env (deserializeValue env rec m i ty t data) := by
  cases ty with
  | scalar k => exact Or.inl ⟨_, rfl⟩
  | list k =>
    simp only [deserializeValue]
    split
    · exact Or.inl ⟨_, rfl⟩
    · rcases hl.array data with ⟨es, h1, _⟩ | ⟨e, h1⟩
      · rw [h1]; exact Or.inl ⟨_, rfl⟩
      · rw [h1]; exact Or.inr ⟨e, rfl, data, Or.inr (Or.inl h1)⟩
  | enum =>
    simp only [deserializeValue]
    split <;> exact Or.inl ⟨_, rfl⟩
  | enumList =>
    simp only [deserializeValue]
    split
    · exact Or.inl ⟨_, rfl⟩
    · rcases hl.array data with ⟨es, h1, _⟩ | ⟨e, h1⟩
      · rw [h1]; exact Or.inl ⟨_, rfl⟩
      · rw [h1]; exact Or.inr ⟨e, rfl, data, Or.inr (Or.inl h1)⟩
  | msg m' =>
    simp only [deserializeValue]
    split
    · exact Or.inl ⟨_, rfl⟩
    · exact (readMessage_finishes (h m' data (Nat.le_refl _))).bind fun _ _ => Or.inl ⟨_, rfl⟩
  | msgList m' =>
    simp only [deserializeValue]
    split
    · exact Or.inl ⟨_, rfl⟩
    · rcases hl.elements data with ⟨es, h1, h2⟩ | ⟨e, h1⟩
      · rw [h1]
        exact (readMessages_finishes fun e he => h m' e.2 (Nat.le_of_lt (h2 e he))).bind fun _ _ => Or.inl ⟨_, rfl⟩
      · rw [h1]; exact Or.inr ⟨e, rfl, data, Or.inr (Or.inr (Or.inr h1))⟩
  | map kk vt =>
    simp only [deserializeValue]
    split
    · exact Or.inl ⟨_, rfl⟩
    · rcases hl.entries data with ⟨es, h1, h2⟩ | ⟨e, h1⟩
      · rw [h1]
        exact (readEntries_finishes fun e he m => h m e.2.2 (Nat.le_of_lt (h2 e he))).bind fun _ _ => Or.inl ⟨_, rfl⟩
      · rw [h1]; exact Or.inr ⟨e, rfl, data, Or.inr (Or.inr (Or.inl h1))⟩

theorem readMembers_finishes (hl : LibraryReturns env) (ho : ValidOrder env.toEnv) {m : Nat} : ∀ (es : List (Bytes × JType × Bytes)) {o : Obj},
    o.length = (env.sch m).length → (∀ e ∈ es, ∀ m data', data'.length ≤ e.2.2.length → Finishes env (rec m data').1) →
    Finishes env (readMembers env rec m es o).1
  | [], o, _, _ => Or.inl ⟨_, rfl⟩
  | e :: es, o, hlen, h => by
    have ih : ∀ {o : Obj}, o.length = (env.sch m).length → Finishes env (readMembers env rec m es o).1 :=
      fun hlen => readMembers_finishes hl ho es hlen fun e he => h e (List.mem_cons_of_mem _ he)
    unfold readMembers
    cases hn : findName env m e.1 with
    | none => exact ih hlen
    | some i =>
      have hi : i < (env.sch m).length := List.mem_range.mp ((ho m).mem_iff.mp (List.mem_of_find?_eq_some hn))
      have hf : (env.sch m)[i]? = some ((env.sch m)[i]) := List.getElem?_eq_getElem hi
      have hv : o[i]? = some (o[i]'(by omega)) := List.getElem?_eq_getElem (by omega)
      simp only [hf, hv]
      split
      · exact ih (by simpa using hlen)
      · have hd := deserializeValue_finishes (rec := rec) hl (m := m) (i := i) (ty := (env.sch m)[i].ty) (t := e.2.1) (data := e.2.2)
          (fun m data' hl => h e List.mem_cons_self m data' hl)
        rcases hd with ⟨⟨v, b⟩, hd⟩ | ⟨x, hd, hx⟩
        · rw [hd]
          cases b
          · exact ih hlen
          · exact ih (by simpa using hlen)
        · rw [hd]
          exact Or.inr ⟨x, rfl, hx⟩

end

theorem message_finishes (hl : LibraryReturns env) (ho : ValidOrder env.toEnv) : ∀ (n m : Nat) (data : Bytes), data.length < n →
    Finishes env (deserializeMessage env n m data).1
  | 0, _, _, h => by omega
  | n + 1, m, data, h => by
    simp only [deserializeMessage]
    rcases hl.object data with ⟨ps, h1, h2⟩ | ⟨e, h1⟩
    · rw [h1]
      refine readMembers_finishes hl ho ps (by simp [defaultObj]) fun e he m' data' hle => ?_
      exact message_finishes hl ho n m' data' (by have := h2 e he; omega)
    · rw [h1]
      exact Or.inr ⟨e, rfl, data, Or.inl h1⟩

/-- **C66**: whatever the bytes, reading returns, or it throws what the JSON library throws: there is no undefined behaviour and no endless
recursion, provided the library behaves. -/
theorem C66_returns (hl : LibraryReturns env) (ho : ValidOrder env.toEnv) {n m : Nat} {data : Bytes} (hn : data.length < n) :
    (∃ o, deserializeMessage env n m data = (.ok (), o) ∧ WellTyped env.toEnv m o) ∨
    ∃ e o, deserializeMessage env n m data = (.throw e, o) ∧ WellTyped env.toEnv m o ∧ LibraryThrows env e := by
  have ht := C66_typed (env := env) n m data
  rcases message_finishes hl ho n m data hn with ⟨a, h⟩ | ⟨e, h, he⟩
  · exact Or.inl ⟨_, Prod.ext h rfl, ht⟩
  · exact Or.inr ⟨e, _, Prod.ext h rfl, ht, he⟩

/-- **C66**: an exception of the JSON library reaches the caller of `deserialize`, whatever the target; no other one does. The target, when
it was new, mirrors what was read up to there (when that has no null pointers in maps or lists). -/
theorem C66_target (hl : LibraryReturns env) (ho : ValidOrder env.toEnv) {n m : Nat} {data : Bytes} (hn : data.length < n) :
    ∃ st o, deserializeMessage env n m data = (st, o) ∧ (st = .ok () ∨ ∃ e, st = .throw e ∧ LibraryThrows env e) ∧
      (∀ k old, (deserialize env n k m data old).status = st) ∧
      (Safe env.toEnv (.msg m) (.msg o) → ∃ K, ∀ k, K ≤ k → ∃ r,
        deserialize env n k m data (defaultObj env.toEnv m) = ⟨st, .ok r⟩ ∧ Mirrors env.toEnv (.msg m) (.msg r) (.msg o)) := by
  have main : ∀ st o, deserializeMessage env n m data = (st, o) → (∀ k old, (deserialize env n k m data old).status = st) ∧
      (Safe env.toEnv (.msg m) (.msg o) → ∃ K, ∀ k, K ≤ k → ∃ r,
        deserialize env n k m data (defaultObj env.toEnv m) = ⟨st, .ok r⟩ ∧ Mirrors env.toEnv (.msg m) (.msg r) (.msg o)) := by
    intro st o h
    refine ⟨fun k old => by simp [deserialize, h], fun hs => ?_⟩
    obtain ⟨K, hK⟩ := assign_to_default hs
    refine ⟨K, fun k hk => ?_⟩
    obtain ⟨r, hr⟩ := hK k hk
    have := assign_sound (default_safe m) hs hr
    simp only at hr
    exact ⟨r, by simp [deserialize, h, hr], this.1⟩
  rcases C66_returns hl ho hn (m := m) with ⟨o, h, _⟩ | ⟨e, o, h, _, he⟩
  · exact ⟨_, o, h, .inl rfl, main _ _ h⟩
  · exact ⟨_, o, h, .inr ⟨e, rfl, he⟩, main _ _ h⟩

/-! ### Fields that are not named -/

theorem readMembers_keeps {rec : Nat → Bytes → MsgResult} {m i : Nat} : ∀ {es : List (Bytes × JType × Bytes)} {o : Obj},
    (∀ e ∈ es, env.fromUtf8 e.1 ≠ env.jsonName m i) → (readMembers env rec m es o).2[i]? = o[i]?
  | [], o, _ => rfl
  | e :: es, o, h => by
    have ih : ∀ {o : Obj}, (readMembers env rec m es o).2[i]? = o[i]? := readMembers_keeps fun e he => h e (List.mem_cons_of_mem _ he)
    unfold readMembers
    cases hn : findName env m e.1 with
    | none => exact ih
    | some k =>
      have hk : k ≠ i := by
        rintro rfl
        have := List.find?_some hn
        exact h e List.mem_cons_self (by simpa using this : env.jsonName m k = env.fromUtf8 e.1).symm
      have hs : ∀ x, (o.set k x)[i]? = o[i]? := fun x => List.getElem?_set_ne hk
      simp only
      split
      · split
        · rw [ih, hs]
        · split
          · rw [ih, hs]
          · exact ih
          · rfl
          · rfl
          · rfl
      · rfl

/-- **C66**: a field whose JSON name is not the name of a member keeps its default value, whatever the document. -/
theorem C66_untouched {n m i : Nat} {data : Bytes} {ps : List (Bytes × JType × Bytes)} {f : Field} (hps : env.objectOf data = .ok ps)
    (hf : (env.sch m)[i]? = some f) (h : ∀ p ∈ ps, env.fromUtf8 p.1 ≠ env.jsonName m i) :
    (deserializeMessage env n m data).2[i]? = some (defaultVal f.ty) := by
  have hd : (defaultObj env.toEnv m)[i]? = some (defaultVal f.ty) := by simp [defaultObj, hf]
  cases n with
  | zero => exact hd
  | succ n =>
    simp only [deserializeMessage, hps]
    rw [readMembers_keeps h, hd]

/-- **C66**: members whose names are not those of fields mean nothing: with and without them the same object is read. -/
theorem C66_unknown {n m : Nat} {data data' : Bytes} {ps : List (Bytes × JType × Bytes)} (hps : env.objectOf data = .ok ps)
    (hps' : env.objectOf data' = .ok (ps.filter fun p => decide (∃ i ∈ env.ord m, env.jsonName m i = env.fromUtf8 p.1))) :
    deserializeMessage env n m data = deserializeMessage env n m data' := by
  cases n with
  | zero => rfl
  | succ n =>
    simp only [deserializeMessage, hps, hps']
    generalize defaultObj env.toEnv m = o
    clear hps hps'
    induction ps generalizing o with
    | nil => rfl
    | cons e es ih =>
      rw [List.filter_cons]
      split
      · unfold readMembers
        simp only [ih]
      · rename_i hx
        rw [← ih]
        conv => lhs; unfold readMembers
        have : findName env m e.1 = none := by
          rw [findName, List.find?_eq_none]
          intro i hi he
          exact hx (by simpa using ⟨i, hi, by simpa using he⟩)
        rw [this]

/-! ### A library that meets the hypotheses -/

/-- Results with a part that is not shorter than the text are replaced by an exception. -/
def guarded {α : Type} (part : α → Bytes) (t : Bytes) : Res (List α) → Res (List α)
  | .ok ps => if (ps.all fun p => decide ((part p).length < t.length)) = true then .ok ps else .throw .invalidArgument
  | _ => .throw .invalidArgument

theorem guarded_returns {α : Type} (part : α → Bytes) (t : Bytes) (r : Res (List α)) :
    (∃ ps, guarded part t r = .ok ps ∧ ∀ p ∈ ps, (part p).length < t.length) ∨ ∃ e, guarded part t r = .throw e := by
  unfold guarded
  split
  · split
    · rename_i ps h
      exact Or.inl ⟨ps, rfl, fun p hp => of_decide_eq_true (List.all_eq_true.mp h p hp)⟩
    · exact Or.inr ⟨_, rfl⟩
  · exact Or.inr ⟨_, rfl⟩

def demoS : REnv :=
  { demoR demoTys with
    objectOf := fun t => guarded (fun p => p.2.2) t (microMembers t)
    entriesOf := fun t => guarded (fun p => p.2.2) t (microMembers t)
    arrayOf := fun t => guarded (fun p => p.2) t (microItems t)
    elementsOf := fun t => guarded (fun p => p.2) t (microItems t) }

theorem demoS_returns : LibraryReturns demoS :=
  ⟨fun t => guarded_returns _ t _, fun t => guarded_returns _ t _, fun t => guarded_returns _ t _, fun t => guarded_returns _ t _⟩

/-- The document of C64 is read, and one that is cut off makes the library throw. -/
example : deserializeMessage demoS 4 0 demoDoc = (.ok (), demoDocObj) ∧
    ∃ o, deserializeMessage demoS 4 0 (demoDoc.take 50) = (.throw .invalidArgument, o) := ⟨by with_unfolding_all rfl, _, rfl⟩

example (data : Bytes) : (∃ o, deserializeMessage demoS (data.length + 1) 0 data = (.ok (), o) ∧ WellTyped demoS.toEnv 0 o) ∨
    ∃ e o, deserializeMessage demoS (data.length + 1) 0 data = (.throw e, o) ∧ WellTyped demoS.toEnv 0 o ∧ LibraryThrows demoS e :=
  C66_returns demoS_returns (demoR_order demoTys) (Nat.lt_succ_self _)

/-- The caller sees the exception for the document that is cut off. -/
example (k : Nat) (old : Obj) : (deserialize demoS 200 k 0 (demoDoc.take 50) old).status = .throw .invalidArgument := by
  obtain ⟨st, o, h, _, hs, _⟩ := C66_target (m := 0) (n := 200) (data := demoDoc.take 50) demoS_returns (demoR_order demoTys) (by decide +kernel)
  rw [hs k old]
  have : ∃ o, deserializeMessage demoS 200 0 (demoDoc.take 50) = (.throw .invalidArgument, o) := ⟨_, rfl⟩
  obtain ⟨o', h'⟩ := this
  rw [h] at h'
  cases h'; rfl

/-- `{"a":7}` names field 0 only. -/
example : ∃ ps, demoS.objectOf [123, 34, 97, 34, 58, 55, 125] = .ok ps ∧ ∀ p ∈ ps, demoS.fromUtf8 p.1 ≠ demoS.jsonName 0 1 :=
  ⟨[([97], .number, [55])], by with_unfolding_all rfl, by decide +kernel⟩

/-- `{"zz":1,"a":7}` and `{"a":7}`. -/
example : ∃ ps, demoS.objectOf [123, 34, 122, 122, 34, 58, 49, 44, 34, 97, 34, 58, 55, 125] = .ok ps ∧
    demoS.objectOf [123, 34, 97, 34, 58, 55, 125] =
      .ok (ps.filter fun p => decide (∃ i ∈ demoS.ord 0, demoS.jsonName 0 i = demoS.fromUtf8 p.1)) :=
  ⟨[([122, 122], .number, [49]), ([97], .number, [55])], by with_unfolding_all rfl, by with_unfolding_all decide +kernel⟩

/-- **C66 violated**: the empty text for a message in a map, `{"h":{"1":""}}`, is read without an error as a null pointer, and comparing the
object with one that has a message there, `{"h":{"1":{}}}`, dereferences it. -/
theorem C66_null_entry_violated : ∃ (env : REnv) (t t' : Bytes) (o o' : Obj), ReadsJson env ∧ QtReads env ∧ ValidOrder env.toEnv ∧
    DistinctNames env.toJEnv ∧ deserializeMessage env 4 0 t = (.ok (), o) ∧ deserializeMessage env 4 0 t' = (.ok (), o') ∧
    ∀ n, objEq env.toEnv (n + 1) 0 o o' = .ub := by
  refine ⟨demoR demoTys, [123, 34, 104, 34, 58, 123, 34, 49, 34, 58, 34, 34, 125, 125], [123, 34, 104, 34, 58, 123, 34, 49, 34, 58, 123, 125, 125, 125],
    (defaultObj (demoR demoTys).toEnv 0).set 7 (.map [(.w32 1, .msgNull)]),
    (defaultObj (demoR demoTys).toEnv 0).set 7 (.map [(.w32 1, .msg [.sc (.w32 0), .sc (.bytes none)])]), demoR_json _, demoR_qt _, demoR_order _,
    demoR_names _ demoTys_short, by with_unfolding_all rfl, by with_unfolding_all rfl, fun n => ?_⟩
  with_unfolding_all rfl

end QtPb.Json
