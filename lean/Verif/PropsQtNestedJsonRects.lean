import Verif.SpecQtNestedJsonRects
import Verif.PropsQtNestedJsonSafe
import Verif.QtNestedUb
/-
C126: any text read as JSON into messages with Qt values at any depth, classes with `QRect` included.
-/
namespace QtPb.Qt
open QtPb Spec Json NestedSafeSpec NestedBytesSpec NestedRectSpec

section
variable {eq : QtVal → QtVal → Bool} {env envQ : REnv} {cls : Classes} {num : Nat → Nat}

/-- The call returns, throws what one of the libraries throws, or is undefined and `R` holds. -/
def FarEnds (env envQ : REnv) (R : Prop) {α : Type} (r : Res α) : Prop :=
  (∃ a, r = .ok a) ∨ (∃ e, r = .throw e ∧ (LibraryThrows env e ∨ LibraryThrows envQ e)) ∨ (r = .ub ∧ R)

theorem FarEnds.bind {R : Prop} {α β : Type} {r : Res α} {f : α → Res β} (h : FarEnds env envQ R r)
    (hf : ∀ a, r = .ok a → FarEnds env envQ R (f a)) : FarEnds env envQ R (r >>= f) := by
  rcases h with ⟨a, rfl⟩ | ⟨e, rfl, h⟩ | ⟨rfl, h⟩
  · exact hf a rfl
  · exact .inr (.inl ⟨e, rfl, h⟩)
  · exact .inr (.inr ⟨rfl, h⟩)

theorem FarEnds.mono {R R' : Prop} {α : Type} {r : Res α} (h : FarEnds env envQ R r) (hR : R → R') : FarEnds env envQ R' r := by
  rcases h with h | h | ⟨h, g⟩
  · exact .inl h
  · exact .inr (.inl h)
  · exact .inr (.inr ⟨h, hR g⟩)

theorem DeepFinishes.ends {R : Prop} {α : Type} {r : Res α} (h : DeepFinishes env envQ r) : FarEnds env envQ R r := by
  rcases h with h | h
  · exact .inl h
  · exact .inr (.inl h)

theorem jsonReadSub_ends {R : Prop} {rec : Nat → Bytes → Res Unit × List Deep} {c : Nat} {data : Bytes} (h : FarEnds env envQ R (rec c data).1) :
    FarEnds env envQ R (jsonReadSub rec c data) := by
  unfold jsonReadSub
  rcases h with ⟨a, h⟩ | ⟨e, h, he⟩ | ⟨h, he⟩
  · split <;> simp_all [FarEnds]
  · split <;> simp_all [FarEnds]
  · split <;> simp_all [FarEnds]

theorem jsonReadSubs_ends {R : Prop} {rec : Nat → Bytes → Res Unit × List Deep} {c : Nat} : ∀ {es : List (JType × Bytes)},
    (∀ e ∈ es, FarEnds env envQ R (rec c e.2).1) → FarEnds env envQ R (jsonReadSubs rec c es)
  | [], _ => .inl ⟨_, rfl⟩
  | e :: _, h => (jsonReadSub_ends (h e List.mem_cons_self)).bind fun _ _ =>
      (jsonReadSubs_ends fun e he => h e (List.mem_cons_of_mem _ he)).bind fun _ _ => .inl ⟨_, rfl⟩

theorem readMessage_whole {m n : Nat} {data : Bytes} {o : Obj} (h : Json.readMessage (Json.deserializeMessage env n) m data = .ok o) :
    Json.deserializeMessage env n m data = (.ok (), o) := by
  unfold Json.readMessage at h
  split at h <;> simp_all

theorem jsonDeserialize_ends (hl : LibraryReturns envQ) (ho : ValidOrder envQ.toEnv) {n : Nat} (q : QtVal) {data : Bytes} (hn : data.length < n) :
    FarEnds env envQ (Peer.carrier q = mRect ∧ ∃ k o, Json.deserializeMessage envQ k mRect data = (.ok (), o) ∧ TooFar o)
      (jsonDeserialize envQ n (Peer.carrier q) data) := by
  by_cases hr : Peer.carrier q = mRect
  · unfold jsonDeserialize
    split
    · exact .inl ⟨_, rfl⟩
    · refine FarEnds.bind ?_ fun _ _ => .inl ⟨_, rfl⟩
      refine FarEnds.bind (DeepFinishes.ends (readMessage_finishes (message_finishes hl ho n _ data hn)).deepQ) fun o h => ?_
      rw [hr] at h ⊢
      by_cases hf : TooFar o
      · exact .inr (.inr ⟨(rect_ub o).mpr hf, rfl, n, o, readMessage_whole h, hf⟩)
      · exact .inl (rect_ok hf)
  · exact (jsonDeserialize_finishes hl ho q (fun _ => hr) hn).ends

theorem jsonReadValue_ends (hl : LibraryReturns env) (ho : ValidOrder env.toEnv) (hlQ : LibraryReturns envQ) (hoQ : ValidOrder envQ.toEnv)
    {R : Prop} {rec : Nat → Bytes → Res Unit × List Deep} {n c i : Nat} {ty : DeepTy} {cur : Deep} {t : JType} {data : Bytes} (hn : data.length < n)
    (hsub : ∀ c', ty = .sub c' → FarEnds env envQ R (rec c' data).1)
    (hsubs : ∀ c', ty = .subs c' → ∀ es, env.elementsOf data = .ok es → ∀ e ∈ es, e.2.length < data.length → FarEnds env envQ R (rec c' e.2).1)
    (hqt : ty = .qt mRect → (∃ k o, Json.deserializeMessage envQ k mRect data = (.ok (), o) ∧ TooFar o) → R)
    (hc : Shaped env.toEnv cls ty cur) : FarEnds env envQ R (jsonReadValue eq env envQ num rec n c i ty cur t data) := by
  have sub : ∀ {c' : Nat} {cur : Deep}, ty = .sub c' → FarEnds env envQ R (jsonReadValue eq env envQ num rec n c i (.sub c') cur t data) := by
    intro c' cur e
    simp only [jsonReadValue]
    split
    · exact .inl ⟨_, rfl⟩
    · exact (jsonReadSub_ends (hsub c' e)).bind fun _ _ => .inl ⟨_, rfl⟩
  cases hc with
  | plain hv =>
    exact (DeepFinishes.ends
      (deserializeValue_finishes hl fun m data' hle => message_finishes hl ho n m data' (by omega)).deep).bind fun _ _ => .inl ⟨_, rfl⟩
  | qt q => exact ((jsonDeserialize_ends hlQ hoQ q hn).mono fun h => hqt (by rw [h.1]) h.2).bind fun _ _ => .inl ⟨_, rfl⟩
  | unset => exact sub rfl
  | sub => exact sub rfl
  | subs =>
    simp only [jsonReadValue]
    split
    · exact .inl ⟨_, rfl⟩
    · rcases hl.elements data with ⟨es, h1, h2⟩ | ⟨e, h1⟩
      · rw [h1]
        exact (jsonReadSubs_ends fun e he => hsubs _ rfl es h1 e he (h2 e he)).bind fun _ _ => .inl ⟨_, rfl⟩
      · rw [h1]; exact .inr (.inl ⟨e, rfl, .inl ⟨data, .inr (.inr (.inr h1))⟩⟩)

theorem jsonReadMembers_ends (hl : LibraryReturns env) (ho : ValidOrder env.toEnv) (hlQ : LibraryReturns envQ) (hoQ : ValidOrder envQ.toEnv)
    (hc : NestedSpec.Valid cls) {rec : Nat → Bytes → Res Unit × List Deep}
    (hsh : ∀ c data, Shaped env.toEnv cls (.sub c) (.sub (rec c data).2)) {n c : Nat} {data : Bytes} {ps : List (Bytes × JType × Bytes)}
    (hps : env.objectOf data = .ok ps) : ∀ (es : List (Bytes × JType × Bytes)) {o : List Deep}, (∀ e ∈ es, e ∈ ps) →
    Shaped env.toEnv cls (.sub c) (.sub o) → (∀ e ∈ es, e.2.2.length < n) →
    (∀ e ∈ es, ∀ c data', data'.length ≤ e.2.2.length → FarEnds env envQ (FarRect env envQ cls num c data') (rec c data').1) →
    FarEnds env envQ (FarRect env envQ cls num c data) (jsonReadMembers eq env envQ cls num rec n c es o).1
  | [], o, _, _, _, _ => Or.inl ⟨_, rfl⟩
  | e :: es, o, hmem, hs, hn, h => by
    have ih : ∀ {o : List Deep}, Shaped env.toEnv cls (.sub c) (.sub o) →
        FarEnds env envQ (FarRect env envQ cls num c data) (jsonReadMembers eq env envQ cls num rec n c es o).1 :=
      fun hs => jsonReadMembers_ends hl ho hlQ hoQ hc hsh hps es (fun e he => hmem e (List.mem_cons_of_mem _ he)) hs
        (fun e he => hn e (List.mem_cons_of_mem _ he)) fun e he => h e (List.mem_cons_of_mem _ he)
    unfold jsonReadMembers
    cases hf : jsonFind env cls num c e.1 with
    | none => exact ih hs
    | some i =>
      have hi : i < (cls.tab c).length := List.mem_range.mp ((hc c).2.2.mem_iff.mp (List.mem_of_find?_eq_some hf))
      have hname : env.fromUtf8 e.1 = env.jsonName (num c) i := by
        have := List.find?_some hf
        exact (by simpa using this : env.jsonName (num c) i = env.fromUtf8 e.1).symm
      have hft : (cls.tab c)[i]? = some ((cls.tab c)[i]) := List.getElem?_eq_getElem hi
      have hlen : o.length = (cls.tab c).length := by cases hs with | sub a b => exact a
      have hv : o[i]? = some (o[i]'(by omega)) := List.getElem?_eq_getElem (by omega)
      have hct : Shaped env.toEnv cls (cls.tab c)[i].ty (o[i]'(by omega)) := by cases hs with | sub a b => exact b i _ _ hft hv
      have hin : (e.1, e.2.1, e.2.2) ∈ ps := hmem e List.mem_cons_self
      simp only [hft, hv]
      split
      · exact ih (shaped_set hs hft (jsonNulled_shaped hct))
      · have hd := jsonReadValue_ends (eq := eq) (num := num) (c := c) (i := i) (t := e.2.1) (data := e.2.2) (R := FarRect env envQ cls num c data)
          (rec := rec) hl ho hlQ hoQ (hn e List.mem_cons_self)
          (fun c' hty => (h e List.mem_cons_self c' e.2.2 (Nat.le_refl _)).mono fun ⟨body, k, p, h1, h2⟩ =>
            ⟨body, k, p, .sub hps hin hname hft hty h1, h2⟩)
          (fun c' hty es' he' x hx hlt => (h e List.mem_cons_self c' x.2 (Nat.le_of_lt hlt)).mono fun ⟨body, k, p, h1, h2⟩ =>
            ⟨body, k, p, .subs (u := x.1) (item := x.2) hps hin hname hft hty he' hx h1, h2⟩)
          (fun hty ⟨k, p, h1⟩ => ⟨e.2.2, k, p, .here hps hin hname hft hty, h1⟩) hct
        rcases hd with ⟨r, hd⟩ | ⟨x, hd, hx⟩ | ⟨hd, hx⟩
        · rw [hd]
          cases r with
          | none => exact ih hs
          | some s => exact ih (shaped_set hs hft (jsonReadValue_shaped hsh hct hd))
        · rw [hd]
          exact .inr (.inl ⟨x, rfl, hx⟩)
        · rw [hd]
          exact .inr (.inr ⟨rfl, hx⟩)

theorem far_ends (hl : LibraryReturns env) (ho : ValidOrder env.toEnv) (hlQ : LibraryReturns envQ) (hoQ : ValidOrder envQ.toEnv)
    (hc : NestedSpec.Valid cls) (hq : QtOnly cls) : ∀ (n c : Nat) (data : Bytes), data.length < n →
    FarEnds env envQ (FarRect env envQ cls num c data) (jsonReadDeep eq env envQ cls num n c data).1
  | 0, _, _, h => by omega
  | n + 1, c, data, h => by
    simp only [jsonReadDeep]
    rcases hl.object data with ⟨ps, h1, h2⟩ | ⟨e, h1⟩
    · rw [h1]
      refine jsonReadMembers_ends hl ho hlQ hoQ hc (fun c data => C126_shaped hq n c data) h1 ps (fun _ h => h) (newObject_shaped hq c)
        (fun e he => by have := h2 e he; omega) fun e he c' data' hle => ?_
      exact far_ends hl ho hlQ hoQ hc hq n c' data' (by have := h2 e he; omega)
    · rw [h1]
      exact .inr (.inl ⟨e, rfl, .inl ⟨data, .inl h1⟩⟩)

/-- Whatever the classes and the text, reading ends: it returns, or throws what the JSON library throws, or some `QRect` in the text ends beyond the range of
`int`. The object has one value of the right type per field in each case.
Missing: the texts with such rectangles, see `C126_overflow_violated`. -/
theorem C126_only_rects_partial (hl : LibraryReturns env) (ho : ValidOrder env.toEnv) (hlQ : LibraryReturns envQ) (hoQ : ValidOrder envQ.toEnv)
    (hc : NestedSpec.Valid cls) (hq : QtOnly cls) {n c : Nat} {data : Bytes} (hn : data.length < n) :
    Shaped env.toEnv cls (.sub c) (.sub (jsonReadDeep eq env envQ cls num n c data).2) ∧
    ((jsonReadDeep eq env envQ cls num n c data).1 = .ok () ∨
     (∃ e, (jsonReadDeep eq env envQ cls num n c data).1 = .throw e ∧ (LibraryThrows env e ∨ LibraryThrows envQ e)) ∨
     ((jsonReadDeep eq env envQ cls num n c data).1 = .ub ∧ FarRect env envQ cls num c data)) := by
  refine ⟨C126_shaped hq n c data, ?_⟩
  rcases far_ends (eq := eq) (num := num) hl ho hlQ hoQ hc hq n c data hn with ⟨a, h⟩ | h
  · exact .inl h
  · exact .inr h

theorem jsonReadMembers_append {rec : Nat → Bytes → Res Unit × List Deep} {n c : Nat} {o' : List Deep} : ∀ {es es' : List (Bytes × JType × Bytes)}
    {o : List Deep}, jsonReadMembers eq env envQ cls num rec n c es o = (.ok (), o') →
    jsonReadMembers eq env envQ cls num rec n c (es ++ es') o = jsonReadMembers eq env envQ cls num rec n c es' o'
  | [], es', o, h => by cases h; rfl
  | e :: es, es', o, h => by
    have ih : ∀ {o : List Deep}, jsonReadMembers eq env envQ cls num rec n c es o = (.ok (), o') →
        jsonReadMembers eq env envQ cls num rec n c (es ++ es') o = jsonReadMembers eq env envQ cls num rec n c es' o' := jsonReadMembers_append
    rw [List.cons_append]
    unfold jsonReadMembers at h
    rw [jsonReadMembers]
    cases hf : jsonFind env cls num c e.1 with
    | none => rw [hf] at h; exact ih h
    | some i =>
      simp only [hf] at h ⊢
      split
      · rename_i f cur h1 h2
        simp only [h1, h2] at h
        split
        · rename_i hk
          rw [if_pos hk] at h
          exact ih h
        · rename_i hk
          rw [if_neg hk] at h
          split
          · rename_i s hs
            rw [hs] at h
            exact ih h
          · rename_i hs
            rw [hs] at h
            exact ih h
          all_goals (rename_i hs; rw [hs] at h; cases h)
      · rename_i hno
        split at h
        · rename_i f cur h1 h2
          exact absurd h2 (hno f cur h1)
        · cases h

/-- **C126 violated**: whatever the classes, a `QRect` that ends beyond the range of `int` makes reading undefined as soon as it is reached, that is, if the
members before it are accepted by themselves. -/
theorem C126_far_violated (hc : NestedSpec.Valid cls) (hq : QtOnly cls) {n c i : Nat} {data before name body : Bytes} {t : JType}
    {pre post : List (Bytes × JType × Bytes)} {f : DeepField} {o : List Deep} {r : Obj} (hps : env.objectOf data = .ok (pre ++ (name, t, body) :: post))
    (hpre : env.objectOf before = .ok pre) (hok : jsonReadDeep eq env envQ cls num (n + 1) c before = (.ok (), o))
    (hi : i < (cls.tab c).length) (hname : env.fromUtf8 name = env.jsonName (num c) i)
    (hone : ∀ k, k < (cls.tab c).length → env.jsonName (num c) k = env.jsonName (num c) i → k = i) (hf : (cls.tab c)[i]? = some f) (hty : f.ty = .qt mRect)
    (hnull : body ≠ Json.kNull) (hne : body ≠ []) (hr : Json.deserializeMessage envQ n mRect body = (.ok (), r)) (hfar : TooFar r) :
    jsonReadDeep eq env envQ cls num (n + 1) c data = (.ub, o) := by
  have hsh := C126_shaped (eq := eq) (env := env) (envQ := envQ) (num := num) hq (n + 1) c before
  rw [hok] at hsh
  simp only [jsonReadDeep, hpre] at hok
  simp only [jsonReadDeep, hps]
  rw [jsonReadMembers_append hok]
  have hfind : jsonFind env cls num c name = some i := by
    unfold jsonFind
    cases h1 : (cls.ord c).find? fun k => env.jsonName (num c) k == env.fromUtf8 name with
    | none =>
      have := List.find?_eq_none.mp h1 i ((hc c).2.2.mem_iff.mpr (List.mem_range.mpr hi))
      simp [hname] at this
    | some k =>
      have h2 := List.mem_range.mp ((hc c).2.2.mem_iff.mp (List.mem_of_find?_eq_some h1))
      have h3 := List.find?_some h1
      rw [hone k h2 (by simpa [hname] using h3)]
  have hlen : o.length = (cls.tab c).length := by cases hsh with | sub a b => exact a
  have hv : o[i]? = some (o[i]'(by omega)) := List.getElem?_eq_getElem (by omega)
  have hct : Shaped env.toEnv cls f.ty (o[i]'(by omega)) := by cases hsh with | sub a b => exact b i _ _ hf hv
  have hread : jsonReadValue eq env envQ num (jsonReadDeep eq env envQ cls num n) n c i f.ty (o[i]'(by omega)) t body = .ub := by
    obtain ⟨fn, fty⟩ := f
    simp only at hty hct ⊢
    subst hty
    have hd : jsonDeserialize envQ n mRect body = .ub := by
      unfold jsonDeserialize
      rw [if_neg hne]
      simp only [jsonRead, Json.readMessage, hr, Res.bind_eq, Res.bind, (rect_ub r).mpr hfar]
    generalize hmm : mRect = mm at hct hd
    generalize o[i]'(by omega) = cur at hct
    cases hct with
    | qt q => simp only [jsonReadValue, hd, Res.bind_eq, Res.bind]
  unfold jsonReadMembers
  simp only [hfind, hf, hv, hread, hnull, false_and, if_false]

end

theorem route_qt : QtOnly route := by
  intro c f hf m hm
  by_cases h0 : c = 0
  · subst h0
    simp [route] at hf
    rcases hf with rfl | rfl <;> cases hm
    · exact ⟨.size ⟨0, 0⟩, rfl⟩
    · exact ⟨.point ⟨0, 0⟩, rfl⟩
  · by_cases h1 : c = 1
    · subst h1
      simp [route] at hf
      rcases hf with rfl | rfl | rfl | rfl <;> cases hm
      exact ⟨.rect ⟨0, 0, 0, 0⟩, rfl⟩
    · simp [route, h0, h1] at hf

/-- Every text, into classes with a `QRect`. -/
example (eq : QtVal → QtVal → Bool) (data : Bytes) :=
  C126_only_rects_partial (eq := eq) (num := id) (c := 1) (guardedR_returns routeR) (fun _ => List.Perm.refl _) (guardedR_returns qtR)
    (fun m => qtR_world.order m) (route_sendable (env := demoEnv)).1 route_qt (Nat.lt_succ_self data.length)

def farRead : Res Unit → Bool
  | .ok () => true
  | _ => false

/-- A rectangle that ends at 2147483647 is read, one that ends a step further is not. -/
example : farRead (jsonReadDeep (fun _ _ => false) (guardedR routeR) (guardedR qtR) route id 100 1
      "{\"r\":{\"position\":{\"x\":2147483645},\"size\":{\"width\":2}}}".toUTF8.toList).1 = true ∧
    broken (jsonReadDeep (fun _ _ => false) (guardedR routeR) (guardedR qtR) route id 100 1
      "{\"r\":{\"position\":{\"x\":2147483646},\"size\":{\"width\":2}}}".toUTF8.toList).1 = true := ⟨by decide +kernel, by decide +kernel⟩

/-- `{"r":{"position":{"x":2147483646},"size":{"width":2}}}`, with `{}` before it. -/
example : jsonReadDeep (fun _ _ => false) (guardedR routeR) (guardedR qtR) route id 60 1
      "{\"r\":{\"position\":{\"x\":2147483646},\"size\":{\"width\":2}}}".toUTF8.toList = (.ub, newObject route 1) :=
  C126_far_violated (eq := fun _ _ => false) (env := guardedR routeR) (envQ := guardedR qtR) (num := id) (n := 59) (c := 1) (i := 3)
    (before := [123, 125]) (name := [114]) (t := .object) (body := "{\"position\":{\"x\":2147483646},\"size\":{\"width\":2}}".toUTF8.toList)
    (pre := []) (post := []) (f := ⟨5, .qt 9⟩)
    (r := (Json.deserializeMessage (guardedR qtR) 59 mRect "{\"position\":{\"x\":2147483646},\"size\":{\"width\":2}}".toUTF8.toList).2)
    (route_sendable (env := demoEnv)).1 route_qt (by decide +kernel) (by with_unfolding_all rfl) (by with_unfolding_all rfl) (by decide)
    (by decide +kernel) (by decide +kernel) rfl rfl (by decide +kernel) (by decide +kernel) (Prod.ext (by decide +kernel) rfl) ⟨0, by decide, by decide +kernel⟩

end QtPb.Qt
