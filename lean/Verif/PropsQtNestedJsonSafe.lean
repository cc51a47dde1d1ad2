import Verif.SpecQtNestedJsonSafe
import Verif.PropsQtNestedJson
import Verif.PropsQtObjects
import Verif.PropsJsonSafe
/-
C126: any text read as JSON into messages in which Qt values occur at any depth.
-/
namespace QtPb.Qt
open QtPb Spec Json NestedSafeSpec

section
variable {eq : QtVal → QtVal → Bool} {env envQ : REnv} {cls : Classes} {num : Nat → Nat}

/-! ### Lists that are read have no null pointers -/

/-- No list of messages in `o` has a null pointer. -/
def NoNulls (o : Obj) : Prop := ∀ (i : Nat) (l : List Val), o[i]? = some (.msgList l) → ∀ v ∈ l, ∃ p, v = .msg p

theorem readMessages_noNull {rec : Nat → Bytes → MsgResult} {m : Nat} : ∀ {es : List (JType × Bytes)} {l : List Val},
    Json.readMessages rec m es = .ok l → ∀ v ∈ l, ∃ p, v = .msg p
  | [], l, h => by cases h; simp
  | e :: es, l, h => by
    simp only [Json.readMessages, Res.bind_eq, Res.bind_eq_ok] at h
    obtain ⟨o, _, r, h2, h3⟩ := h
    cases h3
    intro v hv
    rcases List.mem_cons.mp hv with rfl | hv
    · exact ⟨_, rfl⟩
    · exact readMessages_noNull h2 v hv

theorem value_noNull {rec : Nat → Bytes → MsgResult} {m i m' : Nat} {t : JType} {data : Bytes} {l : List Val} {b : Bool}
    (h : Json.deserializeValue env rec m i (.msgList m') t data = .ok (.msgList l, b)) : ∀ v ∈ l, ∃ p, v = .msg p := by
  simp only [Json.deserializeValue] at h
  split at h
  · cases h; simp
  · simp only [Res.bind_eq, Res.bind_eq_ok] at h
    obtain ⟨es, _, r, h2, h3⟩ := h
    cases h3
    exact readMessages_noNull h2

/-- A value of a type other than a list of messages is no list of messages. -/
theorem typed_list {ty : FieldTy} {l : List Val} (h : HasTy env.toEnv ty (.msgList l)) : ∃ m, ty = .msgList m := by
  cases h; exact ⟨_, rfl⟩

theorem readMembers_noNull (n : Nat) {m : Nat} : ∀ (es : List (Bytes × JType × Bytes)) {o : Obj},
    WellTyped env.toEnv m o → NoNulls o → NoNulls (Json.readMembers env (Json.deserializeMessage env n) m es o).2
  | [], o, _, h => h
  | e :: es, o, ht, h => by
    have hset : ∀ (i : Nat) (f : Field) (cur v : Val), (env.sch m)[i]? = some f → o[i]? = some cur → HasTy env.toEnv f.ty v →
        (∀ l, v = .msgList l → ∀ x ∈ l, ∃ p, x = .msg p) →
        NoNulls (Json.readMembers env (Json.deserializeMessage env n) m es (o.set i v)).2 := by
      intro i f cur v hf hcur hv hl
      refine readMembers_noNull n es ?_ ?_
      · cases ht with
        | msg a b =>
          refine .msg (by simpa using a) fun k g w hg hw => ?_
          by_cases hk : i = k
          · subst hk
            rw [hf] at hg
            cases hg
            rw [List.getElem?_set_self (by exact (List.getElem?_eq_some_iff.mp hcur).1)] at hw
            cases hw
            exact hv
          · rw [List.getElem?_set_ne hk] at hw
            exact b k g w hg hw
      · intro k l hk
        by_cases hik : i = k
        · subst hik
          rw [List.getElem?_set_self (by exact (List.getElem?_eq_some_iff.mp hcur).1)] at hk
          cases hk
          exact hl l rfl
        · rw [List.getElem?_set_ne hik] at hk
          exact h k l hk
    have hrec : ∀ m data, WellTyped env.toEnv m (Json.deserializeMessage env n m data).2 := fun m data => C66_typed n m data
    unfold Json.readMembers
    cases hn : Json.findName env m e.1 with
    | none => exact readMembers_noNull n es ht h
    | some i =>
      simp only
      cases hf : (env.sch m)[i]? with
      | none => exact h
      | some f =>
        cases hcur : o[i]? with
        | none => exact h
        | some cur =>
          have hct : HasTy env.toEnv f.ty cur := by
            cases ht with | msg a b => exact b i f cur hf hcur
          simp only
          split
          · refine hset i f cur _ hf hcur (nulled_typed hct) fun l hl => ?_
            obtain ⟨m', hm⟩ := typed_list (hl ▸ nulled_typed hct)
            rw [hm] at hl
            simp only [Json.nulled, writeVal, defaultVal] at hl
            cases hl
            simp
          · split
            · rename_i v hv
              have hvt := Json.deserializeValue_typed hrec hv
              refine hset i f cur _ hf hcur (write_typed hct hvt) fun l hl => ?_
              obtain ⟨m', hm⟩ := typed_list (hl ▸ write_typed hct hvt)
              rw [hm] at hl hv
              simp only [writeVal] at hl
              subst hl
              exact value_noNull hv
            · exact readMembers_noNull n es ht h
            all_goals exact h

theorem message_noNull (n m : Nat) (data : Bytes) : NoNulls (Json.deserializeMessage env n m data).2 := by
  have hd : NoNulls (defaultObj env.toEnv m) := by
    intro i l h
    simp only [defaultObj, List.getElem?_map, Option.map_eq_some_iff] at h
    obtain ⟨f, _, h⟩ := h
    obtain ⟨m', hm⟩ := typed_list (h ▸ (defaultVal_safe (env := env) f.ty).hasTy)
    rw [hm] at h
    cases h
    simp
  cases n with
  | zero => exact hd
  | succ n =>
    simp only [Json.deserializeMessage]
    split
    · exact readMembers_noNull n _ (default_safe m).hasTy hd
    all_goals exact hd

/-! ### Qt values -/

theorem derefAll_returns {α : Type} {f : Obj → α} : ∀ {l : List Val}, (∀ v ∈ l, ∃ p, v = .msg p) → ∃ r, derefAll f l = .ok r
  | [], _ => ⟨_, rfl⟩
  | v :: l, h => by
    obtain ⟨p, rfl⟩ := h v List.mem_cons_self
    obtain ⟨r, hr⟩ := derefAll_returns (f := f) fun v hv => h v (List.mem_cons_of_mem _ hv)
    exact ⟨f p :: r, by simp [derefAll, hr, Res.bind_eq, Res.bind]⟩

theorem listAt_noNull {o : Obj} (h : NoNulls o) (i : Nat) : ∀ v ∈ listAt o i, ∃ p, v = .msg p := by
  unfold listAt
  split
  · exact h i _ (by assumption)
  · simp

theorem fromMessage_returns {env : Env} (q : QtVal) (hr : ∀ r, Peer.carrier q ≠ Peer.carrier (.rect r)) {o : Obj} (h : NoNulls o) :
    ∃ q', fromMessage env (Peer.carrier q) o = .ok q' ∧ Peer.carrier q' = Peer.carrier q := by
  cases q
  case rect r => exact absurd rfl (hr r)
  case polygon l =>
    obtain ⟨r, hr⟩ := derefAll_returns (f := pointFrom) (listAt_noNull h 0)
    exact ⟨.polygon r, by simp [fromMessage, Peer.carrier, polygonFrom, hr, Res.bind_eq, Res.bind], rfl⟩
  case polygonF l =>
    obtain ⟨r, hr⟩ := derefAll_returns (f := pointFFrom) (listAt_noNull h 0)
    exact ⟨.polygonF r, by simp [fromMessage, Peer.carrier, polygonFFrom, hr, Res.bind_eq, Res.bind], rfl⟩
  all_goals exact ⟨_, rfl, rfl⟩

/-! ### What reading leaves -/

theorem fromMessage_carrier {env : Env} {m : Nat} {o : Obj} {q : QtVal} (h : fromMessage env m o = .ok q) : Peer.carrier q = m := by
  unfold fromMessage at h
  split at h
  all_goals first
    | (cases h; done)
    | (cases h; rfl)
    | (simp only [Res.bind_eq, Res.bind_eq_ok] at h; obtain ⟨_, _, h⟩ := h; cases h; rfl)

theorem jsonReadSub_shaped {rec : Nat → Bytes → Res Unit × List Deep} (h : ∀ c data, Shaped env.toEnv cls (.sub c) (.sub (rec c data).2)) {c : Nat}
    {data : Bytes} {o : List Deep} (hr : jsonReadSub rec c data = .ok o) : Shaped env.toEnv cls (.sub c) (.sub o) := by
  have := h c data
  unfold jsonReadSub at hr
  split at hr <;> simp_all

theorem jsonReadSubs_shaped {rec : Nat → Bytes → Res Unit × List Deep} (h : ∀ c data, Shaped env.toEnv cls (.sub c) (.sub (rec c data).2)) {c : Nat} :
    ∀ {es : List (JType × Bytes)} {l : List Deep}, jsonReadSubs rec c es = .ok l → ∀ s ∈ l, Shaped env.toEnv cls (.sub c) s
  | [], l, hr => by cases hr; simp
  | e :: es, l, hr => by
    simp only [jsonReadSubs, Res.bind_eq, Res.bind_eq_ok] at hr
    obtain ⟨o, h1, r, h2, h3⟩ := hr
    cases h3
    intro s hs
    rcases List.mem_cons.mp hs with rfl | hs
    · exact jsonReadSub_shaped h h1
    · exact jsonReadSubs_shaped h h2 s hs

theorem jsonReadSubs_objects {rec : Nat → Bytes → Res Unit × List Deep} {c : Nat} :
    ∀ {es : List (JType × Bytes)} {l : List Deep}, jsonReadSubs rec c es = .ok l → ∀ s ∈ l, ∃ o, s = .sub o
  | [], l, hr => by cases hr; simp
  | e :: es, l, hr => by
    simp only [jsonReadSubs, Res.bind_eq, Res.bind_eq_ok] at hr
    obtain ⟨o, _, r, h2, h3⟩ := hr
    cases h3
    intro s hs
    rcases List.mem_cons.mp hs with rfl | hs
    · exact ⟨_, rfl⟩
    · exact jsonReadSubs_objects h2 s hs

theorem setQt_carrier {cur q : QtVal} (h : Peer.carrier cur = Peer.carrier q) : Peer.carrier (setQt eq cur q) = Peer.carrier q := by
  unfold setQt
  split <;> simp [h]

theorem shaped_qt {m : Nat} {q : QtVal} (h : Peer.carrier q = m) : Shaped env.toEnv cls (.qt m) (.qt q) := h ▸ .qt q

theorem jsonReadValue_shaped {rec : Nat → Bytes → Res Unit × List Deep} (h : ∀ c data, Shaped env.toEnv cls (.sub c) (.sub (rec c data).2)) {n c i : Nat}
    {ty : DeepTy} {cur s : Deep} {t : JType} {data : Bytes} (hc : Shaped env.toEnv cls ty cur)
    (hr : jsonReadValue eq env envQ num rec n c i ty cur t data = .ok (some s)) : Shaped env.toEnv cls ty s := by
  have sub : ∀ {c' : Nat} {cur : Deep}, jsonReadValue eq env envQ num rec n c i (.sub c') cur t data = .ok (some s) → Shaped env.toEnv cls (.sub c') s := by
    intro c' cur hr
    simp only [jsonReadValue] at hr
    split at hr
    · cases hr
    · simp only [Res.bind_eq, Res.bind_eq_ok] at hr
      obtain ⟨o, h1, h2⟩ := hr
      cases h2
      exact jsonReadSub_shaped h h1
  cases hc with
  | plain hv =>
    simp only [jsonReadValue, Res.bind_eq, Res.bind_eq_ok] at hr
    obtain ⟨⟨v, b⟩, h1, h2⟩ := hr
    cases b
    · cases h2
    · cases h2
      have := Json.deserializeValue_typed (fun m data => C66_typed n m data) h1
      exact .plain (write_typed (f := ⟨0, _⟩) hv this)
  | qt q =>
    simp only [jsonReadValue, jsonDeserialize, Res.bind_eq, Res.bind_eq_ok] at hr
    obtain ⟨r, h1, h2⟩ := hr
    split at h1
    · cases h1; cases h2
    · simp only [Res.bind_eq_ok] at h1
      obtain ⟨q', h3, h4⟩ := h1
      cases h4; cases h2
      simp only [jsonRead, Res.bind_eq, Res.bind_eq_ok] at h3
      obtain ⟨o, _, h5⟩ := h3
      have := fromMessage_carrier h5
      exact shaped_qt ((setQt_carrier this.symm).trans this)
  | unset c' => exact sub hr
  | sub => exact sub hr
  | subs =>
    simp only [jsonReadValue] at hr
    split at hr
    · cases hr
    · simp only [Res.bind_eq, Res.bind_eq_ok] at hr
      obtain ⟨es, _, l, h1, h2⟩ := hr
      cases h2
      exact .subs (jsonReadSubs_objects h1) (jsonReadSubs_shaped h h1)

theorem jsonNulled_shaped {ty : DeepTy} {cur : Deep} (hc : Shaped env.toEnv cls ty cur) : Shaped env.toEnv cls ty (jsonNulled eq ty cur) := by
  cases hc with
  | plain hv => exact .plain (nulled_typed (f := ⟨0, _⟩) hv)
  | qt q => exact shaped_qt ((setQt_carrier (carrier_default q).symm).trans (carrier_default q))
  | unset c' => exact .unset c'
  | sub => exact .unset _
  | subs => exact .subs (by simp) (by simp)

theorem shaped_set {c i : Nat} {o : List Deep} {f : DeepField} {s : Deep} (ho : Shaped env.toEnv cls (.sub c) (.sub o)) (hf : (cls.tab c)[i]? = some f)
    (hs : Shaped env.toEnv cls f.ty s) : Shaped env.toEnv cls (.sub c) (.sub (o.set i s)) := by
  cases ho with
  | sub a b =>
    refine .sub (by simpa using a) fun k g w hg hw => ?_
    by_cases hk : i = k
    · subst hk
      rw [hf] at hg
      cases hg
      rw [List.getElem?_set_self (by rw [a]; exact (List.getElem?_eq_some_iff.mp hf).1)] at hw
      cases hw
      exact hs
    · rw [List.getElem?_set_ne hk] at hw
      exact b k g w hg hw

theorem jsonReadMembers_shaped {rec : Nat → Bytes → Res Unit × List Deep} (h : ∀ c data, Shaped env.toEnv cls (.sub c) (.sub (rec c data).2)) {n c : Nat} :
    ∀ (es : List (Bytes × JType × Bytes)) {o : List Deep}, Shaped env.toEnv cls (.sub c) (.sub o) →
    Shaped env.toEnv cls (.sub c) (.sub (jsonReadMembers eq env envQ cls num rec n c es o).2)
  | [], o, ho => ho
  | e :: es, o, ho => by
    unfold jsonReadMembers
    cases hn : jsonFind env cls num c e.1 with
    | none => exact jsonReadMembers_shaped h es ho
    | some i =>
      simp only
      cases hf : (cls.tab c)[i]? with
      | none => exact ho
      | some f =>
        cases hcur : o[i]? with
        | none => exact ho
        | some cur =>
          have hct : Shaped env.toEnv cls f.ty cur := by
            cases ho with | sub a b => exact b i f cur hf hcur
          simp only
          split
          · exact jsonReadMembers_shaped h es (shaped_set ho hf (jsonNulled_shaped hct))
          · split
            · rename_i s hs
              exact jsonReadMembers_shaped h es (shaped_set ho hf (jsonReadValue_shaped h hct hs))
            · exact jsonReadMembers_shaped h es ho
            all_goals exact ho

theorem newObject_shaped (hq : QtOnly cls) (c : Nat) : Shaped env.toEnv cls (.sub c) (.sub (newObject cls c)) := by
  refine .sub (by simp [newObject]) fun i f s hf hs => ?_
  rw [newObject_get hf] at hs
  cases hs
  cases hty : f.ty with
  | plain ty => simp only [DeepField.default, hty]; exact .plain (defaultVal_safe ty).hasTy
  | qt m =>
    simp only [DeepField.default, hty]
    obtain ⟨q, rfl⟩ := hq c f (List.mem_of_getElem? hf) m hty
    exact shaped_qt (carrier_default q)
  | sub c' => simp only [DeepField.default, hty]; exact .unset c'
  | subs c' => simp only [DeepField.default, hty]; exact .subs (by simp) (by simp)

/-- Whatever the text, and however reading ends, what is left in a new message is an object of its class, at every depth: every Qt value is one of the
type of its field, and no list of messages has a null pointer. -/
theorem C126_shaped (hq : QtOnly cls) (n c : Nat) (data : Bytes) :
    Shaped env.toEnv cls (.sub c) (.sub (jsonReadDeep eq env envQ cls num n c data).2) := by
  induction n generalizing c data with
  | zero => exact newObject_shaped hq c
  | succ n ih =>
    simp only [jsonReadDeep]
    split
    · exact jsonReadMembers_shaped (fun c data => ih c data) _ (newObject_shaped hq c)
    all_goals exact newObject_shaped hq c

/-! ### Reading returns -/

/-- The call returns or throws what one of the libraries throws. -/
def DeepFinishes (env envQ : REnv) {α : Type} (r : Res α) : Prop :=
  (∃ a, r = .ok a) ∨ ∃ e, r = .throw e ∧ (LibraryThrows env e ∨ LibraryThrows envQ e)

theorem DeepFinishes.bind {α β : Type} {r : Res α} {f : α → Res β} (h : DeepFinishes env envQ r)
    (hf : ∀ a, r = .ok a → DeepFinishes env envQ (f a)) : DeepFinishes env envQ (r >>= f) := by
  rcases h with ⟨a, rfl⟩ | ⟨e, rfl, h⟩
  · exact hf a rfl
  · exact Or.inr ⟨e, rfl, h⟩

theorem _root_.QtPb.Json.Finishes.deep {α : Type} {r : Res α} (h : Finishes env r) : DeepFinishes env envQ r := by
  rcases h with h | ⟨e, h, g⟩
  · exact .inl h
  · exact .inr ⟨e, h, .inl g⟩

theorem _root_.QtPb.Json.Finishes.deepQ {α : Type} {r : Res α} (h : Finishes envQ r) : DeepFinishes env envQ r := by
  rcases h with h | ⟨e, h, g⟩
  · exact .inl h
  · exact .inr ⟨e, h, .inr g⟩

theorem jsonReadSub_finishes {rec : Nat → Bytes → Res Unit × List Deep} {c : Nat} {data : Bytes} (h : DeepFinishes env envQ (rec c data).1) :
    DeepFinishes env envQ (jsonReadSub rec c data) := by
  unfold jsonReadSub
  rcases h with ⟨a, h⟩ | ⟨e, h, he⟩
  · split <;> simp_all [DeepFinishes]
  · split <;> simp_all [DeepFinishes]

theorem jsonReadSubs_finishes {rec : Nat → Bytes → Res Unit × List Deep} {c : Nat} : ∀ {es : List (JType × Bytes)},
    (∀ e ∈ es, DeepFinishes env envQ (rec c e.2).1) → DeepFinishes env envQ (jsonReadSubs rec c es)
  | [], _ => Or.inl ⟨_, rfl⟩
  | e :: _, h => (jsonReadSub_finishes (h e List.mem_cons_self)).bind fun _ _ =>
      (jsonReadSubs_finishes fun e he => h e (List.mem_cons_of_mem _ he)).bind fun _ _ => Or.inl ⟨_, rfl⟩

theorem readMessage_object {m n : Nat} {data : Bytes} {o : Obj} (h : Json.readMessage (Json.deserializeMessage env n) m data = .ok o) :
    o = (Json.deserializeMessage env n m data).2 := by
  unfold Json.readMessage at h
  split at h <;> simp_all

theorem jsonDeserialize_finishes (hl : LibraryReturns envQ) (ho : ValidOrder envQ.toEnv) {n : Nat} (q : QtVal)
    (hr : ∀ r, Peer.carrier q ≠ Peer.carrier (.rect r)) {data : Bytes} (hn : data.length < n) :
    DeepFinishes env envQ (jsonDeserialize envQ n (Peer.carrier q) data) := by
  unfold jsonDeserialize
  split
  · exact .inl ⟨_, rfl⟩
  · refine DeepFinishes.bind ?_ fun _ _ => .inl ⟨_, rfl⟩
    refine DeepFinishes.bind (readMessage_finishes (message_finishes hl ho n _ data hn)).deepQ fun o h => ?_
    obtain ⟨q', h1, _⟩ := fromMessage_returns (env := envQ.toEnv) q hr (readMessage_object h ▸ message_noNull n _ data)
    exact .inl ⟨q', h1⟩

theorem jsonReadValue_finishes (hl : LibraryReturns env) (ho : ValidOrder env.toEnv) (hlQ : LibraryReturns envQ) (hoQ : ValidOrder envQ.toEnv)
    {rec : Nat → Bytes → Res Unit × List Deep} {n c i : Nat} {ty : DeepTy} {cur : Deep} {t : JType} {data : Bytes} (hn : data.length < n)
    (h : ∀ c data', data'.length ≤ data.length → DeepFinishes env envQ (rec c data').1) (hc : Shaped env.toEnv cls ty cur)
    (hr : ∀ r, ty ≠ .qt (Peer.carrier (.rect r))) :
    DeepFinishes env envQ (jsonReadValue eq env envQ num rec n c i ty cur t data) := by
  have sub : ∀ {c' : Nat} {cur : Deep}, DeepFinishes env envQ (jsonReadValue eq env envQ num rec n c i (.sub c') cur t data) := by
    intro c' cur
    simp only [jsonReadValue]
    split
    · exact .inl ⟨_, rfl⟩
    · exact (jsonReadSub_finishes (h c' data (Nat.le_refl _))).bind fun _ _ => .inl ⟨_, rfl⟩
  cases hc with
  | plain hv =>
    exact (deserializeValue_finishes hl fun m data' hle => message_finishes hl ho n m data' (by omega)).deep.bind fun _ _ => .inl ⟨_, rfl⟩
  | qt q => exact (jsonDeserialize_finishes hlQ hoQ q (fun r hq => hr r (by rw [hq])) hn).bind fun _ _ => .inl ⟨_, rfl⟩
  | unset => exact sub
  | sub => exact sub
  | subs =>
    simp only [jsonReadValue]
    split
    · exact .inl ⟨_, rfl⟩
    · rcases hl.elements data with ⟨es, h1, h2⟩ | ⟨e, h1⟩
      · rw [h1]
        exact (jsonReadSubs_finishes fun e he => h _ e.2 (Nat.le_of_lt (h2 e he))).bind fun _ _ => .inl ⟨_, rfl⟩
      · rw [h1]; exact .inr ⟨e, rfl, .inl ⟨data, .inr (.inr (.inr h1))⟩⟩

theorem jsonReadMembers_finishes (hl : LibraryReturns env) (ho : ValidOrder env.toEnv) (hlQ : LibraryReturns envQ) (hoQ : ValidOrder envQ.toEnv)
    (hc : NestedSpec.Valid cls) (hr : NoRects cls) {rec : Nat → Bytes → Res Unit × List Deep}
    (hsh : ∀ c data, Shaped env.toEnv cls (.sub c) (.sub (rec c data).2)) {n c : Nat} : ∀ (es : List (Bytes × JType × Bytes)) {o : List Deep},
    Shaped env.toEnv cls (.sub c) (.sub o) → (∀ e ∈ es, e.2.2.length < n) →
    (∀ e ∈ es, ∀ c data', data'.length ≤ e.2.2.length → DeepFinishes env envQ (rec c data').1) →
    DeepFinishes env envQ (jsonReadMembers eq env envQ cls num rec n c es o).1
  | [], o, _, _, _ => Or.inl ⟨_, rfl⟩
  | e :: es, o, hs, hn, h => by
    have ih : ∀ {o : List Deep}, Shaped env.toEnv cls (.sub c) (.sub o) → DeepFinishes env envQ (jsonReadMembers eq env envQ cls num rec n c es o).1 :=
      fun hs => jsonReadMembers_finishes hl ho hlQ hoQ hc hr hsh es hs (fun e he => hn e (List.mem_cons_of_mem _ he))
        fun e he => h e (List.mem_cons_of_mem _ he)
    unfold jsonReadMembers
    cases hf : jsonFind env cls num c e.1 with
    | none => exact ih hs
    | some i =>
      have hi : i < (cls.tab c).length := List.mem_range.mp ((hc c).2.2.mem_iff.mp (List.mem_of_find?_eq_some hf))
      have hft : (cls.tab c)[i]? = some ((cls.tab c)[i]) := List.getElem?_eq_getElem hi
      have hlen : o.length = (cls.tab c).length := by cases hs with | sub a b => exact a
      have hv : o[i]? = some (o[i]'(by omega)) := List.getElem?_eq_getElem (by omega)
      have hct : Shaped env.toEnv cls (cls.tab c)[i].ty (o[i]'(by omega)) := by cases hs with | sub a b => exact b i _ _ hft hv
      simp only [hft, hv]
      split
      · exact ih (shaped_set hs hft (jsonNulled_shaped hct))
      · have hd := jsonReadValue_finishes (eq := eq) (num := num) (c := c) (i := i) (t := e.2.1) (data := e.2.2) hl ho hlQ hoQ (hn e List.mem_cons_self)
          (fun c data' hle => h e List.mem_cons_self c data' hle) hct (hr c _ (List.getElem_mem hi))
        rcases hd with ⟨r, hd⟩ | ⟨x, hd, hx⟩
        · rw [hd]
          cases r with
          | none => exact ih hs
          | some s => exact ih (shaped_set hs hft (jsonReadValue_shaped hsh hct hd))
        · rw [hd]
          exact Or.inr ⟨x, rfl, hx⟩

theorem deep_finishes (hl : LibraryReturns env) (ho : ValidOrder env.toEnv) (hlQ : LibraryReturns envQ) (hoQ : ValidOrder envQ.toEnv)
    (hc : NestedSpec.Valid cls) (hq : QtOnly cls) (hr : NoRects cls) : ∀ (n c : Nat) (data : Bytes), data.length < n →
    DeepFinishes env envQ (jsonReadDeep eq env envQ cls num n c data).1
  | 0, _, _, h => by omega
  | n + 1, c, data, h => by
    simp only [jsonReadDeep]
    rcases hl.object data with ⟨ps, h1, h2⟩ | ⟨e, h1⟩
    · rw [h1]
      refine jsonReadMembers_finishes hl ho hlQ hoQ hc hr (fun c data => C126_shaped hq n c data) ps (newObject_shaped hq c)
        (fun e he => by have := h2 e he; omega) fun e he c' data' hle => ?_
      exact deep_finishes hl ho hlQ hoQ hc hq hr n c' data' (by have := h2 e he; omega)
    · rw [h1]
      exact .inr ⟨e, rfl, .inl ⟨data, .inl h1⟩⟩

/-- Whatever the text, reading it into a message with Qt values at any depth returns, or throws what the JSON library throws: there is no undefined
behaviour and no endless recursion, provided the library behaves and no class has a `QRect`. -/
theorem C126_returns_partial (hl : LibraryReturns env) (ho : ValidOrder env.toEnv) (hlQ : LibraryReturns envQ) (hoQ : ValidOrder envQ.toEnv)
    (hc : NestedSpec.Valid cls) (hq : QtOnly cls) (hr : NoRects cls) {n c : Nat} {data : Bytes} (hn : data.length < n) :
    (∃ o, jsonReadDeep eq env envQ cls num n c data = (.ok (), o) ∧ Shaped env.toEnv cls (.sub c) (.sub o)) ∨
    ∃ e o, jsonReadDeep eq env envQ cls num n c data = (.throw e, o) ∧ Shaped env.toEnv cls (.sub c) (.sub o) ∧
      (LibraryThrows env e ∨ LibraryThrows envQ e) := by
  have ht := C126_shaped (eq := eq) (env := env) (envQ := envQ) (num := num) hq n c data
  rcases deep_finishes (eq := eq) (num := num) hl ho hlQ hoQ hc hq hr n c data hn with ⟨a, h⟩ | ⟨e, h, he⟩
  · exact Or.inl ⟨_, Prod.ext h rfl, ht⟩
  · exact Or.inr ⟨e, _, Prod.ext h rfl, ht, he⟩

/-! ### Fields that are not named -/

theorem jsonReadMembers_keeps {rec : Nat → Bytes → Res Unit × List Deep} {n c i : Nat} : ∀ {es : List (Bytes × JType × Bytes)} {o : List Deep},
    (∀ e ∈ es, env.fromUtf8 e.1 ≠ env.jsonName (num c) i) → (jsonReadMembers eq env envQ cls num rec n c es o).2[i]? = o[i]?
  | [], o, _ => rfl
  | e :: es, o, h => by
    have ih : ∀ {o : List Deep}, (jsonReadMembers eq env envQ cls num rec n c es o).2[i]? = o[i]? :=
      jsonReadMembers_keeps fun e he => h e (List.mem_cons_of_mem _ he)
    unfold jsonReadMembers
    cases hn : jsonFind env cls num c e.1 with
    | none => exact ih
    | some k =>
      have hk : k ≠ i := by
        rintro rfl
        have := List.find?_some hn
        exact h e List.mem_cons_self (by simpa using this : env.jsonName (num c) k = env.fromUtf8 e.1).symm
      have hs : ∀ x, (o.set k x)[i]? = o[i]? := fun x => List.getElem?_set_ne hk
      simp only
      split
      · split
        · rw [ih, hs]
        · split
          · rw [ih, hs]
          · exact ih
          all_goals rfl
      · rfl

/-- A field whose JSON name is not the name of a member keeps the value it has in a new object, whatever the document and however reading ends. -/
theorem C126_untouched {n c i : Nat} {data : Bytes} {ps : List (Bytes × JType × Bytes)} {f : DeepField} (hps : env.objectOf data = .ok ps)
    (hf : (cls.tab c)[i]? = some f) (h : ∀ p ∈ ps, env.fromUtf8 p.1 ≠ env.jsonName (num c) i) :
    (jsonReadDeep eq env envQ cls num n c data).2[i]? = some f.default := by
  cases n with
  | zero => exact newObject_get hf
  | succ n =>
    simp only [jsonReadDeep, hps]
    rw [jsonReadMembers_keeps h, newObject_get hf]

end

/-! ### Cases -/

/-- A library that throws for every text it does not understand. -/
def guardedR (env : REnv) : REnv :=
  { env with
    objectOf := fun t => guarded (fun p => p.2.2) t (microMembers t)
    entriesOf := fun t => guarded (fun p => p.2.2) t (microMembers t)
    arrayOf := fun t => guarded (fun p => p.2) t (microItems t)
    elementsOf := fun t => guarded (fun p => p.2) t (microItems t) }

theorem guardedR_returns (env : REnv) : LibraryReturns (guardedR env) :=
  ⟨fun t => guarded_returns _ t _, fun t => guarded_returns _ t _, fun t => guarded_returns _ t _, fun t => guarded_returns _ t _⟩

/-- `route` with a `QPolygon` in place of the `QRect`. -/
def walk : Classes where
  tab c := if c = 0 then [⟨1, .qt 5⟩, ⟨2, .qt 7⟩] else if c = 1 then [⟨1, .plain (.scalar .int32)⟩, ⟨2, .sub 0⟩, ⟨3, .subs 0⟩, ⟨5, .qt 11⟩] else []
  ord c := if c = 0 then [1, 0] else if c = 1 then [2, 0, 3, 1] else []

theorem walk_cases {c : Nat} {f : DeepField} (h : f ∈ walk.tab c) {m : Nat} (hm : f.ty = .qt m) : m = 5 ∨ m = 7 ∨ m = 11 := by
  by_cases h0 : c = 0
  · subst h0
    simp [walk] at h
    rcases h with rfl | rfl <;> cases hm <;> simp
  · by_cases h1 : c = 1
    · subst h1
      simp [walk] at h
      rcases h with rfl | rfl | rfl | rfl <;> cases hm
      simp
    · simp [walk, h0, h1] at h

theorem walk_meets : NestedSpec.Valid walk ∧ QtOnly walk ∧ NoRects walk := by
  refine ⟨fun c => ?_, fun c f hf m hm => ?_, fun c f hf r hm => ?_⟩
  · by_cases h0 : c = 0
    · subst h0; decide
    · by_cases h1 : c = 1
      · subst h1; decide
      · simp [walk, h0, h1]
  · rcases walk_cases hf hm with rfl | rfl | rfl
    · exact ⟨.size ⟨0, 0⟩, rfl⟩
    · exact ⟨.point ⟨0, 0⟩, rfl⟩
    · exact ⟨.polygon [], rfl⟩
  · rcases walk_cases hf hm with h | h | h <;> cases h

/-- Every text. -/
example (eq : QtVal → QtVal → Bool) (data : Bytes) :=
  C126_returns_partial (eq := eq) (num := id) (c := 1) (guardedR_returns routeR) (fun _ => List.Perm.refl _) (guardedR_returns qtR)
    (fun m => qtR_world.order m) walk_meets.1 walk_meets.2.1 walk_meets.2.2 (Nat.lt_succ_self data.length)

/-- The polygon (1, 2), one leg with the point (3, 0). -/
def walkRead : Res Unit × List Deep → Bool
  | (.ok (), [.val (.sc (.w32 a)), .unset, .subs [.sub [.qt (.size _), .qt (.point p)]], .qt (.polygon [q])]) =>
    a == 0 && p.x == 3 && p.y == 0 && q.x == 1 && q.y == 2
  | _ => false

def walkThrown : Res Unit × List Deep → Bool
  | (.throw .invalidArgument, _) => true
  | _ => false

/-- A polygon, a leg and an unknown member are read; a text that is cut off makes the library throw. -/
example : walkRead (jsonReadDeep (fun _ _ => false) (guardedR routeR) (guardedR qtR) walk id 100 1
      "{\"r\":{\"points\":[{\"x\":1,\"y\":2}]},\"zz\":[],\"legs\":[{\"b\":{\"x\":3}}]}".toUTF8.toList) = true ∧
    walkThrown (jsonReadDeep (fun _ _ => false) (guardedR routeR) (guardedR qtR) walk id 100 1
      "{\"r\":{\"points\":[{\"x\":1,\"y\":2}".toUTF8.toList) = true := ⟨by decide +kernel, by decide +kernel⟩

/-- `{"n":7}` names one field of `walk` only. -/
example := C126_untouched (eq := fun _ _ => false) (envQ := guardedR qtR) (cls := walk) (num := id) (n := 9) (c := 1) (i := 3)
  (env := guardedR routeR) (data := [123, 34, 110, 34, 58, 55, 125]) (ps := [([110], .number, [55])]) (by with_unfolding_all rfl) rfl
  (by with_unfolding_all decide +kernel)

/-! ### Where it fails -/

/-- Undefined behaviour. -/
def broken : Res Unit → Bool
  | .ub => true
  | _ => false

theorem broken_ub {r : Res Unit} (h : broken r = true) : r = .ub := by
  unfold broken at h
  split at h
  · rfl
  · cases h

/-- **C126 violated**: a text with a `QRect` that ends beyond the range of `int` makes reading overflow a signed integer, which is undefined behaviour, here
in an element of a list. -/
theorem C126_overflow_violated : ∃ (env envQ : REnv) (cls : Classes) (data : Bytes), LibraryReturns env ∧ ValidOrder env.toEnv ∧ LibraryReturns envQ ∧
    ValidOrder envQ.toEnv ∧ NestedSpec.Valid cls ∧ QtOnly cls ∧ (∃ j, readJson data = some j) ∧
    data.length < 100 ∧ (jsonReadDeep (fun _ _ => false) env envQ cls id 100 1 data).1 = .ub := by
  refine ⟨guardedR routeR, guardedR qtR, ⟨fun c => if c = 0 then [⟨1, .qt 9⟩] else if c = 1 then [⟨1, .subs 0⟩] else [],
      fun c => if c = 0 then [0] else if c = 1 then [0] else []⟩,
    "{\"n\":[{\"a\":{\"position\":{\"x\":2147483647},\"size\":{\"width\":2}}}]}".toUTF8.toList, guardedR_returns _, fun _ => List.Perm.refl _,
    guardedR_returns _, fun m => qtR_world.order m, fun c => ?_, fun c f hf m hm => ?_, ?_, ?_, broken_ub ?_⟩
  · by_cases h0 : c = 0
    · subst h0; decide
    · by_cases h1 : c = 1
      · subst h1; decide
      · simp [h0, h1]
  · by_cases h0 : c = 0
    · subst h0
      simp at hf
      subst hf
      cases hm
      exact ⟨.rect ⟨0, 0, 0, 0⟩, rfl⟩
    · by_cases h1 : c = 1
      · subst h1
        simp at hf
        subst hf
        cases hm
      · simp [h0, h1] at hf
  · exact Option.isSome_iff_exists.mp (by decide +kernel)
  · decide +kernel
  · decide +kernel

end QtPb.Qt
