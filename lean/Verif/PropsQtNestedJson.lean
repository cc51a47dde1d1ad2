import Verif.SpecQtNestedJson
import Verif.PropsQtJson
import Verif.PropsQtNested
/-
C125: messages in which Qt values occur at any depth, in JSON.
-/
namespace QtPb.Qt
open QtPb Spec Json NestedJsonSpec
open JsonSpec (NumbersExact)

section
variable {env : JEnv} {envQ : REnv} {cls : Classes} {num : Nat → Nat}

/-- What the induction over `Writable` gives for each value. -/
def DeepShown (env : JEnv) (envQ : REnv) (cls : Classes) (num : Nat → Nat) (c i : Nat) (ty : DeepTy) (s : Deep) : Prop :=
  ∃ t j, Yields (fun n => jsonValue env envQ.toJEnv cls num (jsonDeep env envQ.toJEnv cls num n) n c i ty s) t ∧ Text t j ∧
    ShowsDeep env envQ.toJEnv cls num c i ty s j

theorem deepShown_subs {c' : Nat} {l : List Deep} (h : ∀ o, Deep.sub o ∈ l → DeepShown env envQ cls num c' 0 (.sub c') (.sub o)) :
    ∃ ts js, Yields (fun n => jsonSubs (jsonDeep env envQ.toJEnv cls num n) c' l) (withCommas ts) ∧ Elementwise Text ts js ∧
      Elementwise (fun o j => ShowsDeep env envQ.toJEnv cls num c' 0 (.sub c') (.sub o) j) (NestedSpec.objects l) js := by
  induction l with
  | nil => exact ⟨[], [], Yields.pure _, .nil, .nil⟩
  | cons s l ih =>
    obtain ⟨ts, js, h1, h2, h3⟩ := ih fun o ho => h o (List.mem_cons_of_mem _ ho)
    cases s with
    | sub o =>
      obtain ⟨t, j, g1, g2, g3⟩ := h o List.mem_cons_self
      exact ⟨t :: ts, j :: js, Yields.bind g1 (Yields.bind h1 (Yields.pure _)), .cons g2 h2, .cons g3 h3⟩
    | _ => exact ⟨ts, js, h1, h2, h3⟩

theorem deepShown_members {c' : Nat} {o : List Deep} (hlen : o.length = (cls.tab c').length)
    (hn : ∀ i, i < (cls.tab c').length → NoEscapes (env.toUtf8 (env.jsonName (num c') i)))
    (h : ∀ (i : Nat) (f : DeepField) (s : Deep), (cls.tab c')[i]? = some f → o[i]? = some s → DeepShown env envQ cls num c' i f.ty s) :
    ∀ is : List Nat, (∀ i ∈ is, i < (cls.tab c').length) →
    ∃ ps ms, Yields (fun n => jsonMembers env envQ.toJEnv cls num (jsonDeep env envQ.toJEnv cls num n) n c' o is) (withCommas (ps.map memberText)) ∧
      Elementwise MemberOk ps ms ∧ ps.length = is.length ∧ ms.map (·.1) = is.map (fun i => env.toUtf8 (env.jsonName (num c') i)) ∧
      (∀ (p i : Nat) (f : DeepField) (s : Deep) (name : Bytes) (j : JVal), is[p]? = some i →
        (cls.tab c')[i]? = some f → o[i]? = some s → ms[p]? = some (name, j) → ShowsDeep env envQ.toJEnv cls num c' i f.ty s j) := by
  intro is
  induction is with
  | nil =>
    intro _
    exact ⟨[], [], Yields.pure _, .nil, rfl, rfl, by intro p i f v name j hp; simp at hp⟩
  | cons i is ih =>
    intro hlt
    obtain ⟨ps, ms, h1, h2, h3, h4, h5⟩ := ih fun i hi => hlt i (by simp [hi])
    have hi := hlt i (by simp)
    have hf : (cls.tab c')[i]? = some ((cls.tab c')[i]) := List.getElem?_eq_getElem hi
    have hv : o[i]? = some (o[i]'(by omega)) := List.getElem?_eq_getElem (by omega)
    obtain ⟨t, j, g1, g2, g3⟩ := h i _ _ hf hv
    refine ⟨(env.toUtf8 (env.jsonName (num c') i), t) :: ps, (env.toUtf8 (env.jsonName (num c') i), j) :: ms, ?_,
      .cons ⟨rawOk_clean (hn i hi), rfl, g2⟩ h2, by simp [h3], by simp [h4], ?_⟩
    · simp only [jsonMembers, hf, hv]
      exact Yields.bind g1 (Yields.bind h1 (Yields.pure _))
    · intro p i' f v name j' hp hf' hv' hj
      cases p with
      | zero =>
        simp only [List.getElem?_cons_zero, Option.some.injEq] at hp hj
        subst hp
        rw [hf] at hf'; rw [hv] at hv'
        cases hf'; cases hv'; cases hj
        exact g3
      | succ p =>
        simp only [List.getElem?_cons_succ] at hp hj
        exact h5 p i' f v name j' hp hf' hv' hj

theorem writable_shown (hc : NestedSpec.Valid cls) (ho : ValidOrder env.toEnv) (hq : QtNumbers env) (hw : JsonSpec.World envQ) {c i : Nat} {ty : DeepTy}
    {s : Deep} (h : Writable env envQ cls num c i ty s) : DeepShown env envQ cls num c i ty s := by
  induction h with
  | plain h =>
    obtain ⟨t, j, g1, g2, g3⟩ := printable_shown ho hq h
    exact ⟨t, j, g1, g2, .plain g3⟩
  | @qt c i q h1 h2 =>
    obtain ⟨o, g1, g2⟩ := Peer.C86_message h1
    obtain ⟨t, j, ⟨N, k1⟩, k2, k3⟩ := printable_shown hw.order hw.prints (exact_printable (world_exact hw) (toMessage_exact hw h2 g1))
    refine ⟨t, j, ⟨N, fun n hn => ?_⟩, k2, .qt g2 (by rw [← Peer.C86_schema.2]; exact k3)⟩
    have := k1 n hn
    simp only [Json.serializeValue, materialize] at this
    simp only [jsonValue, jsonSerialize, g1, Res.bind_eq, Res.bind, this]
  | unset _ ih =>
    obtain ⟨t, j, g1, g2, g3⟩ := ih
    exact ⟨t, j, g1, g2, .unset g3⟩
  | @sub c i c' o h1 h2 h3 _ ih =>
    obtain ⟨ps, ms, k1, k2, k3, k4, k5⟩ := deepShown_members h2 h3 ih (cls.ord c') fun i hi => List.mem_range.mp ((hc c').2.2.mem_iff.mp hi)
    have hps : ps ≠ [] := by
      intro hp
      have := (hc c').2.2.length_eq
      rw [← k3, hp] at this
      simp at this
      exact h1 (List.eq_nil_of_length_eq_zero this.symm)
    refine ⟨_, .obj ms, ?_, text_object k2, .sub k4 k5⟩
    have hb := Yields.bind (Q := fun _ t => Res.ok ((123 :: t).dropLast ++ [125])) k1 (Yields.pure _)
    have e : (123 :: withCommas (ps.map memberText)).dropLast ++ [125] = 123 :: joined (ps.map memberText) ++ [125] := by
      cases ps with
      | nil => exact absurd rfl hps
      | cons p ps => rw [List.map_cons, withCommas_eq, ← List.cons_append, List.dropLast_concat]
    rw [← e]
    exact hb.shift fun n => rfl
  | subs _ ih =>
    obtain ⟨ts, js, g1, g2, g3⟩ := deepShown_subs ih
    refine ⟨_, .arr js, Yields.bind g1 (Yields.pure _), ?_, .subs (elementwise_length g3).symm fun p o j a b => elementwise_index g3 p o j a b⟩
    rw [closeWith_eq (by decide)]
    exact text_array g2

/-- A message with Qt values at any depth is written as a JSON document that shows it: under the JSON name of each field its value, for a Qt value
the message of QtCore.proto or QtGui.proto. -/
theorem C125_document_partial (hc : NestedSpec.Valid cls) (ho : ValidOrder env.toEnv) (hq : QtNumbers env) (hw : JsonSpec.World envQ) {c : Nat}
    {o : List Deep} (h : Writable env envQ cls num 0 0 (.sub c) (.sub o)) :
    ∃ N t j, (∀ n, N ≤ n → jsonDeep env envQ.toJEnv cls num n c o = .ok t) ∧ readJson t = some j ∧
      ShowsDeep env envQ.toJEnv cls num 0 0 (.sub c) (.sub o) j := by
  obtain ⟨t, j, ⟨N, hN⟩, h2, h3⟩ := writable_shown hc ho hq hw h
  exact ⟨N, t, j, hN, text_readJson h2, h3⟩

end

/-! ### Reading -/

section
variable {eq : QtVal → QtVal → Bool} {env envQ : REnv} {cls : Classes} {num : Nat → Nat}

/-- With enough steps the object is filled. -/
def DeepFills (P : Nat → Res Unit × List Deep) (o : List Deep) : Prop := ∃ N, ∀ n, N ≤ n → P n = (.ok (), o)

theorem DeepFills.readSub {P : Nat → Nat → Bytes → Res Unit × List Deep} {c : Nat} {t : Bytes} {o : List Deep} (h : DeepFills (fun n => P n c t) o) :
    Yields (fun n => jsonReadSub (P n) c t) o := by
  obtain ⟨N, hN⟩ := h
  refine ⟨N, fun n hn => ?_⟩
  have := hN n hn
  simp only at this
  simp only [jsonReadSub, this]

theorem jsonReadSubs_yields {P : Nat → Nat → Bytes → Res Unit × List Deep} {c : Nat} : ∀ {es : List (JType × Bytes)} {os : List (List Deep)},
    Elementwise (fun e o => DeepFills (fun n => P n c e.2) o) es os → Yields (fun n => jsonReadSubs (P n) c es) (os.map .sub)
  | _, _, .nil => Yields.pure _
  | _, _, .cons h t => Yields.bind h.readSub (Yields.bind (jsonReadSubs_yields t) (Yields.pure _))

theorem jsonFind_iff (hr : ReadableClasses env cls num) {c i : Nat} {name : Bytes} :
    jsonFind env cls num c name = some i ↔ i < (cls.tab c).length ∧ env.fromUtf8 name = env.jsonName (num c) i := by
  have ho := (hr.valid c).2.2
  constructor
  · intro h
    have h1 := List.find?_some h
    have h2 := List.mem_of_find?_eq_some h
    exact ⟨List.mem_range.mp (ho.mem_iff.mp h2), (by simpa using h1 : env.jsonName (num c) i = env.fromUtf8 name).symm⟩
  · rintro ⟨h1, h2⟩
    cases h : jsonFind env cls num c name with
    | none =>
      have := List.find?_eq_none.mp h i (ho.mem_iff.mpr (List.mem_range.mpr h1))
      simp [h2] at this
    | some j =>
      have h3 := List.find?_some h
      have h4 := List.mem_of_find?_eq_some h
      have h5 := List.mem_range.mp (ho.mem_iff.mp h4)
      rw [hr.distinct c i j h1 h5 (by rw [← h2]; simpa using (Eq.symm (by simpa using h3 : env.jsonName (num c) j = env.fromUtf8 name)))]

theorem jsonNulled_default (f : DeepField) : jsonNulled eq f.ty f.default = f.default := by
  obtain ⟨_, ty⟩ := f
  cases ty with
  | plain ty => simp only [jsonNulled, DeepField.default, nulled_default, ← store_eq, store_default]
  | qt m => simp only [jsonNulled, DeepField.default, setQt, ite_self]
  | sub c => rfl
  | subs c => rfl

/-- What one member does to a field of a new object. -/
def DeepEffect (eq : QtVal → QtVal → Bool) (env envQ : REnv) (num : Nat → Nat) (P : Nat → Nat → Bytes → Res Unit × List Deep) (c i : Nat) (f : DeepField)
    (e : Bytes × JType × Bytes) (w : Deep) : Prop :=
  (e.2.2 = kNull ∧ e.2.1 = .object ∧ w = f.default) ∨
  (¬ (e.2.2 = kNull ∧ e.2.1 = .object) ∧
    Yields (fun n => jsonReadValue eq env envQ num (P n) n c i f.ty f.default e.2.1 e.2.2) (some w))

theorem jsonReadMembers_fills {P : Nat → Nat → Bytes → Res Unit × List Deep} {c : Nat} {eff : Nat → Deep} :
    ∀ {es : List (Bytes × JType × Bytes)} {o : List Deep}, o.length = (cls.tab c).length →
    (∀ e ∈ es, ∀ (i : Nat), jsonFind env cls num c e.1 = some i → ∃ f, (cls.tab c)[i]? = some f ∧ o[i]? = some f.default ∧
      DeepEffect eq env envQ num P c i f e (eff i)) →
    es.Pairwise (fun a b => ∀ i, jsonFind env cls num c a.1 = some i → jsonFind env cls num c b.1 ≠ some i) →
    ∃ o', DeepFills (fun n => jsonReadMembers eq env envQ cls num (P n) n c es o) o' ∧ o'.length = o.length ∧
      (∀ (i : Nat), (∃ e ∈ es, jsonFind env cls num c e.1 = some i) → o'[i]? = some (eff i)) ∧
      (∀ (i : Nat), (∀ e ∈ es, jsonFind env cls num c e.1 ≠ some i) → o'[i]? = o[i]?)
  | [], o, _, _, _ => ⟨o, ⟨0, fun _ _ => rfl⟩, rfl, by simp, by simp⟩
  | e :: es, o, hl, he, hd => by
    have hp := List.pairwise_cons.mp hd
    cases hf : jsonFind env cls num c e.1 with
    | none =>
      obtain ⟨o', ⟨N, hN⟩, h2, h3, h4⟩ := jsonReadMembers_fills (P := P) (eff := eff) hl (fun e' he' => he e' (List.mem_cons_of_mem _ he')) hp.2
      refine ⟨o', ⟨N, fun n hn => ?_⟩, h2, ?_, ?_⟩
      · simp only [jsonReadMembers, hf]
        exact hN n hn
      · rintro i ⟨e', he', hi⟩
        rcases List.mem_cons.mp he' with rfl | he'
        · rw [hf] at hi; cases hi
        · exact h3 i ⟨e', he', hi⟩
      · intro i hi
        exact h4 i fun e' he' => hi e' (List.mem_cons_of_mem _ he')
    | some i =>
      obtain ⟨f, g1, g2, g3⟩ := he e List.mem_cons_self i hf
      have hi : i < o.length := get_lt g2
      obtain ⟨o', ⟨N, hN⟩, h2, h3, h4⟩ := jsonReadMembers_fills (P := P) (eff := eff) (c := c) (es := es) (o := o.set i (eff i))
        (by rw [List.length_set]; exact hl) (fun e' he' i' hi' => by
          obtain ⟨f', k1, k2, k3⟩ := he e' (List.mem_cons_of_mem _ he') i' hi'
          have hne : i ≠ i' := by
            rintro rfl
            exact hp.1 e' he' i hf hi'
          exact ⟨f', k1, by rw [List.getElem?_set_ne hne]; exact k2, k3⟩) hp.2
      refine ⟨o', ?_, by rw [h2, List.length_set], ?_, ?_⟩
      · rcases g3 with ⟨e1, e2, e3⟩ | ⟨e1, M, hM⟩
        · refine ⟨N, fun n hn => ?_⟩
          simp only [jsonReadMembers, hf, g1, g2]
          rw [if_pos ⟨e1, e2⟩, jsonNulled_default, ← e3]
          exact hN n hn
        · refine ⟨max N M, fun n hn => ?_⟩
          simp only [jsonReadMembers, hf, g1, g2]
          have := hM n (by omega)
          simp only at this
          rw [if_neg e1, this]
          exact hN n (by omega)
      · rintro i' ⟨e', he', hi'⟩
        rcases List.mem_cons.mp he' with rfl | he'
        · rw [hf, Option.some.injEq] at hi'
          subst hi'
          rw [h4 i fun e'' he'' => hp.1 e'' he'' i hf, List.getElem?_set_self hi]
        · exact h3 i' ⟨e', he', hi'⟩
      · intro i' hi'
        rw [h4 i' fun e' he' => hi' e' (List.mem_cons_of_mem _ he')]
        have hne : i ≠ i' := by
          rintro rfl
          exact hi' e List.mem_cons_self hf
        rw [List.getElem?_set_ne hne]

theorem newObject_get {c i : Nat} {f : DeepField} (h : (cls.tab c)[i]? = some f) : (newObject cls c)[i]? = some f.default := by
  simp [newObject, h]

/-- What the induction over `MeansDeep` gives for each value. -/
def DeepReading (eq : QtVal → QtVal → Bool) (env envQ : REnv) (cls : Classes) (num : Nat → Nat) (c i : Nat) (ty : DeepTy) (j : JVal) (s : Deep) : Prop :=
  j ≠ .null ∧ ∀ t data, Content j t data →
    Yields (fun n => jsonReadValue eq env envQ num (jsonReadDeep eq env envQ cls num n) n c i ty (DeepField.default ⟨0, ty⟩) t data) (some s)

theorem deep_read (hm : ReadsJson env) (hr : ReadableClasses env cls num) {c : Nat} {ms : List (Bytes × JVal)} {o : List Deep}
    (h1 : ms.Pairwise (fun a b => env.fromUtf8 a.1 ≠ env.fromUtf8 b.1)) (h3 : o.length = (cls.tab c).length)
    (h4 : ∀ (i : Nat) (f : DeepField), (cls.tab c)[i]? = some f → (∀ q ∈ ms, env.fromUtf8 q.1 ≠ env.jsonName (num c) i) →
      o[i]? = some f.default)
    (h5 : ∀ (i : Nat) (f : DeepField) (name : Bytes), (cls.tab c)[i]? = some f → (name, JVal.null) ∈ ms →
      env.fromUtf8 name = env.jsonName (num c) i → o[i]? = some f.default)
    (h6 : ∀ (i : Nat) (f : DeepField) (name : Bytes) (j : JVal) (s : Deep), (cls.tab c)[i]? = some f → (name, j) ∈ ms →
      env.fromUtf8 name = env.jsonName (num c) i → j ≠ .null → o[i]? = some s → DeepReading eq env envQ cls num c i f.ty j s)
    {t : Bytes} (ht : readJson t = some (.obj ms)) : DeepFills (fun n => jsonReadDeep eq env envQ cls num n c t) o := by
  have hnd : (ms.map (·.1)).Nodup := by
    rw [List.Nodup, List.pairwise_map]
    exact h1.imp fun h e => h (by rw [e])
  obtain ⟨ps, ps', k1, k2, k3⟩ := hm.object t ms ht hnd
  have hmem : ∀ p ∈ ps, ∃ j, (p.1, j) ∈ ms ∧ Content j p.2.1 p.2.2 := by
    intro p hp
    obtain ⟨n, hn⟩ := List.mem_iff_getElem?.mp (k2.mem_iff.mp hp)
    obtain ⟨q, q1, q2, q3⟩ := elementwise_get k3 hn
    exact ⟨q.2, by rw [q2]; exact List.mem_of_getElem? q1, q3⟩
  have hpw : ps.Pairwise (fun a b => env.fromUtf8 a.1 ≠ env.fromUtf8 b.1) := by
    have e : ps'.map (·.1) = ms.map (·.1) := by
      clear k2 hmem ht hnd h1 h4 h5 h6
      induction k3 with
      | nil => rfl
      | cons h _ ih => rw [List.map_cons, List.map_cons, ih, h.1]
    have h1' : (ms.map (·.1)).Pairwise (fun a b => env.fromUtf8 a ≠ env.fromUtf8 b) := List.pairwise_map.mpr h1
    rw [← e, List.pairwise_map] at h1'
    exact k2.symm.pairwise h1' fun h => fun e => h e.symm
  obtain ⟨o', ⟨N, hN⟩, l1, l2, l3⟩ := jsonReadMembers_fills (eq := eq) (env := env) (envQ := envQ) (cls := cls) (num := num)
    (P := jsonReadDeep eq env envQ cls num) (c := c) (es := ps)
    (o := newObject cls c) (eff := fun i => o[i]?.getD .unset) (by simp [newObject]) (fun e he i hi => by
      obtain ⟨g1, g2⟩ := (jsonFind_iff hr).mp hi
      obtain ⟨j, q1, q2⟩ := hmem e he
      have hf : (cls.tab c)[i]? = some ((cls.tab c)[i]) := List.getElem?_eq_getElem g1
      refine ⟨_, hf, newObject_get hf, ?_⟩
      by_cases hj : j = .null
      · subst hj
        obtain ⟨c1, c2⟩ := q2
        refine Or.inl ⟨c2, c1, ?_⟩
        simp only [h5 i _ e.1 hf q1 g2, Option.getD_some]
      · have hoi : o[i]? = some (o[i]'(by omega)) := List.getElem?_eq_getElem (by omega)
        obtain ⟨_, hy⟩ := h6 i _ e.1 j _ hf q1 g2 hj hoi
        refine Or.inr ⟨content_not_null q2 hj, ?_⟩
        simp only [hoi, Option.getD_some]
        exact hy _ _ q2)
    (hpw.imp (by
      intro a b h i ha hb
      exact h (((jsonFind_iff hr).mp ha).2.trans ((jsonFind_iff hr).mp hb).2.symm)))
  have : o' = o := by
    apply List.ext_getElem?
    intro i
    by_cases hi : i < (cls.tab c).length
    · have hf : (cls.tab c)[i]? = some ((cls.tab c)[i]) := List.getElem?_eq_getElem hi
      by_cases hx : ∃ e ∈ ps, jsonFind env cls num c e.1 = some i
      · rw [l2 i hx]
        have hoi : o[i]? = some (o[i]'(by omega)) := List.getElem?_eq_getElem (by omega)
        rw [hoi, Option.getD_some]
      · rw [l3 i fun e he hi => hx ⟨e, he, hi⟩, newObject_get hf]
        refine (h4 i _ hf fun q hq hqn => ?_).symm
        obtain ⟨n, hqn'⟩ := List.mem_iff_getElem?.mp hq
        have hlen := elementwise_length k3
        have hps : ps'[n]? = some (ps'[n]'(by have := get_lt hqn'; omega)) := List.getElem?_eq_getElem _
        obtain ⟨q', q1, q2, q3⟩ := elementwise_get k3 hps
        rw [hqn'] at q1
        cases q1
        refine hx ⟨_, k2.mem_iff.mpr (List.mem_of_getElem? hps), (jsonFind_iff hr).mpr ⟨hi, ?_⟩⟩
        rw [q2]
        exact hqn
    · have hlen : o'.length = (cls.tab c).length := by rw [l1]; simp [newObject]
      rw [List.getElem?_eq_none (by omega), List.getElem?_eq_none (by omega)]
  subst this
  refine ⟨N + 1, fun n hn => ?_⟩
  cases n with
  | zero => omega
  | succ n =>
    simp only [jsonReadDeep, k1]
    exact hN n (by omega)

theorem deepFills_of_value {P : Nat → Nat → Bytes → Res Unit × List Deep} {c i c' : Nat} {cur : Deep} {t : JType} {data : Bytes} {o : List Deep}
    (h : Yields (fun n => jsonReadValue eq env envQ num (P n) n c i (.sub c') cur t data) (some (.sub o))) : DeepFills (fun n => P n c' data) o := by
  obtain ⟨N, hN⟩ := h
  refine ⟨N, fun n hn => ?_⟩
  have h := hN n hn
  simp only [jsonReadValue] at h
  by_cases hc : data = []
  · rw [if_pos hc] at h; simp at h
  · rw [if_neg hc] at h
    simp only [jsonReadSub] at h
    rcases hp : P n c' data with ⟨r, o'⟩
    rw [hp] at h
    cases r <;> simp [Res.bind_eq, Res.bind] at h
    simp only [hp, h]

theorem qt_read (hw : JsonSpec.World envQ) {q : QtVal} {j : JVal} {o : Obj} (h1 : Means envQ quoteEscape 0 0 (.msg (Peer.carrier q)) j (.msg o))
    (h2 : Peer.Shows q o) (h3 : Faithful q) : j ≠ .null ∧ ∀ t data, Content j t data →
      Yields (fun n => jsonDeserialize envQ n (Peer.carrier q) data) (some q) := by
  cases h1 with
  | @msg _ _ _ ms o vs a1 a2 a3 a4 a5 a6 a7 =>
    refine ⟨by simp, fun t data hc => ?_⟩
    exact C119_read_partial hw h3 ⟨.obj ms, hc.2, .msg vs a1 a2 a3 a4 a5 a6 a7⟩ h2

theorem meansDeep_read (hv : ReadableWorld env) (hw : JsonSpec.World envQ) (hr : ReadableClasses env cls num) {c i : Nat} {ty : DeepTy} {j : JVal}
    {s : Deep} (h : MeansDeep eq env envQ cls num c i ty j s) : (ty ≠ .plain (.list .bool) ∧ ∀ vt, ty ≠ .plain (.map .bool vt)) →
      DeepReading eq env envQ cls num c i ty j s := by
  induction h with
  | @plain c i ty j v h =>
    intro hb
    obtain ⟨g1, g2⟩ := means_read hv.library hv.reads hv.order hv.distinct (readTy_of hv.noBool hv.noBoolKeys) hv.noNull h
      ⟨fun e => hb.1 (by rw [e]), fun vt e => hb.2 vt (by rw [e])⟩
    refine ⟨g1, fun t data hc => ?_⟩
    have := Yields.bind (Q := fun _ r => Res.ok (if r.2 then some (Deep.val (writeVal ty (defaultVal ty) r.1)) else none)) (g2 t data hc) (Yields.pure _)
    rw [if_pos rfl] at this
    rw [store_eq]
    exact this
  | @qt c i q j o h1 h2 h3 h4 =>
    intro _
    obtain ⟨g1, g2⟩ := qt_read hw h1 h2 h3
    refine ⟨g1, fun t data hc => ?_⟩
    have := Yields.bind (Q := fun _ (r : Option QtVal) => Res.ok (r.map fun q' => Deep.qt (setQt eq (qtDefault (Peer.carrier q)) q'))) (g2 t data hc)
      (Yields.pure _)
    simp only [Option.map_some, setQt, h4] at this
    exact this
  | @asNew c i q j o h1 h2 h3 h4 =>
    intro _
    obtain ⟨g1, g2⟩ := qt_read hw h1 h2 h3
    refine ⟨g1, fun t data hc => ?_⟩
    have := Yields.bind (Q := fun _ (r : Option QtVal) => Res.ok (r.map fun q' => Deep.qt (setQt eq (qtDefault (Peer.carrier q)) q'))) (g2 t data hc)
      (Yields.pure _)
    simp only [Option.map_some, setQt, h4] at this
    exact this
  | @sub c i c' ms o h1 h2 h3 h4 h5 h6 ih =>
    intro _
    refine ⟨by simp, fun t data hc => ?_⟩
    obtain ⟨rfl, hc⟩ := hc
    have := deep_read hv.library hr h1 h3 h4 h5 (fun i' f name j s g1 g2 g3 g4 g5 => ih i' f name j s g1 g2 g3 g4 g5
      (hr.noBool c' f (List.mem_of_getElem? g1))) hc
    simp only [jsonReadValue, if_neg (readJson_ne_nil hc)]
    exact Yields.bind this.readSub (Yields.pure _)
  | @subs c i c' js os h1 h2 ih =>
    intro _
    refine ⟨by simp, fun t data hc => ?_⟩
    obtain ⟨rfl, hc⟩ := hc
    obtain ⟨es, g1, g2⟩ := hv.library.elements data js hc
    simp only [jsonReadValue, if_neg (readJson_ne_nil hc), g1]
    have : Yields (fun n => jsonReadSubs (jsonReadDeep eq env envQ cls num n) c' es) (os.map .sub) := by
      refine jsonReadSubs_yields (elementwise_of_get ((elementwise_length g2).trans h1) fun p e o he ho => ?_)
      obtain ⟨j, k1, k2⟩ := elementwise_get g2 he
      obtain ⟨_, hy⟩ := ih p j o k1 ho ⟨by simp, by simp⟩
      exact deepFills_of_value (hy _ _ k2)
    exact Yields.bind (Yields.pure _) (Yields.bind this (Yields.pure _))

/-- Whatever JSON document another program writes for a message with Qt values at any depth, with members in any order and with white space, members
that mean nothing and `null` anywhere, is read as that message. -/
theorem C125_read_partial (hv : ReadableWorld env) (hw : JsonSpec.World envQ) (hr : ReadableClasses env cls num) {c : Nat} {t : Bytes} {j : JVal}
    {o : List Deep} (ht : readJson t = some j) (h : MeansDeep eq env envQ cls num 0 0 (.sub c) j (.sub o)) :
    ∃ N, ∀ n, N ≤ n → jsonReadDeep eq env envQ cls num n c t = (.ok (), o) := by
  obtain ⟨_, hy⟩ := meansDeep_read hv hw hr h ⟨by simp, by simp⟩
  cases j with
  | obj ms => exact deepFills_of_value (hy .object t ⟨rfl, ht⟩)
  | _ => cases h

/-! ### Written and read -/

/-- What the induction over `Kept` gives for each value. -/
def DeepTrip (eq : QtVal → QtVal → Bool) (env envQ : REnv) (cls : Classes) (num : Nat → Nat) (c i : Nat) (ty : DeepTy) (s : Deep) : Prop :=
  ∃ t j s', Yields (fun n => jsonValue env.toJEnv envQ.toJEnv cls num (jsonDeep env.toJEnv envQ.toJEnv cls num n) n c i ty s) t ∧ Text t j ∧
    DeepReading eq env envQ cls num c i ty j s' ∧ Restored eq env.toEnv cls ty s s' ∧ ∀ c', ty = .sub c' → ∃ ms, j = .obj ms

theorem deepTrip_subs {c' : Nat} {l : List Deep} (h : ∀ o, Deep.sub o ∈ l → DeepTrip eq env envQ cls num c' 0 (.sub c') (.sub o)) :
    ∃ ts js os, Yields (fun n => jsonSubs (jsonDeep env.toJEnv envQ.toJEnv cls num n) c' l) (withCommas ts) ∧ Elementwise Text ts js ∧
      Elementwise (fun j o' => DeepReading eq env envQ cls num c' 0 (.sub c') j (.sub o')) js os ∧
      Elementwise (fun o o' => Restored eq env.toEnv cls (.sub c') (.sub o) (.sub o')) (NestedSpec.objects l) os := by
  induction l with
  | nil => exact ⟨[], [], [], Yields.pure _, .nil, .nil, .nil⟩
  | cons s l ih =>
    obtain ⟨ts, js, os, h1, h2, h3, h4⟩ := ih fun o ho => h o (List.mem_cons_of_mem _ ho)
    cases s with
    | sub o =>
      obtain ⟨t, j, s', g1, g2, g3, g4, _⟩ := h o List.mem_cons_self
      cases g4 with
      | @sub _ _ o' a b =>
        exact ⟨t :: ts, j :: js, o' :: os, Yields.bind g1 (Yields.bind h1 (Yields.pure _)), .cons g2 h2, .cons g3 h3, .cons (.sub a b) h4⟩
    | _ => exact ⟨ts, js, os, h1, h2, h3, h4⟩

theorem deepTrip_members (hn : ClassNames env cls num) {c' : Nat} {o : List Deep} (hlen : o.length = (cls.tab c').length)
    (h : ∀ (i : Nat) (f : DeepField) (s : Deep), (cls.tab c')[i]? = some f → o[i]? = some s → DeepTrip eq env envQ cls num c' i f.ty s) :
    ∀ is : List Nat, (∀ i ∈ is, i < (cls.tab c').length) →
    ∃ ps ms, Yields (fun n => jsonMembers env.toJEnv envQ.toJEnv cls num (jsonDeep env.toJEnv envQ.toJEnv cls num n) n c' o is)
        (withCommas (ps.map memberText)) ∧
      Elementwise MemberOk ps ms ∧ ps.length = is.length ∧ ms.map (·.1) = is.map (fun i => env.toUtf8 (env.jsonName (num c') i)) ∧
      (∀ (p i : Nat) (f : DeepField) (s : Deep) (name : Bytes) (j : JVal), is[p]? = some i →
        (cls.tab c')[i]? = some f → o[i]? = some s → ms[p]? = some (name, j) →
        ∃ s', DeepReading eq env envQ cls num c' i f.ty j s' ∧ Restored eq env.toEnv cls f.ty s s') := by
  intro is
  induction is with
  | nil =>
    intro _
    exact ⟨[], [], Yields.pure _, .nil, rfl, rfl, by intro p i f v name j hp; simp at hp⟩
  | cons i is ih =>
    intro hlt
    obtain ⟨ps, ms, h1, h2, h3, h4, h5⟩ := ih fun i hi => hlt i (by simp [hi])
    have hi := hlt i (by simp)
    have hf : (cls.tab c')[i]? = some ((cls.tab c')[i]) := List.getElem?_eq_getElem hi
    have hv : o[i]? = some (o[i]'(by omega)) := List.getElem?_eq_getElem (by omega)
    obtain ⟨t, j, s', g1, g2, g3, g4, _⟩ := h i _ _ hf hv
    refine ⟨(env.toUtf8 (env.jsonName (num c') i), t) :: ps, (env.toUtf8 (env.jsonName (num c') i), j) :: ms, ?_,
      .cons ⟨rawOk_clean (hn.plain c' i hi), rfl, g2⟩ h2, by simp [h3], by simp [h4], ?_⟩
    · simp only [jsonMembers, hf, hv]
      exact Yields.bind g1 (Yields.bind h1 (Yields.pure _))
    · intro p i' f v name j' hp hf' hv' hj
      cases p with
      | zero =>
        simp only [List.getElem?_cons_zero, Option.some.injEq] at hp hj
        subst hp
        rw [hf] at hf'; rw [hv] at hv'
        cases hf'; cases hv'; cases hj
        exact ⟨s', g3, g4⟩
      | succ p =>
        simp only [List.getElem?_cons_succ] at hp hj
        exact h5 p i' f v name j' hp hf' hv' hj

/-- The object that is read from the members that were written. -/
theorem sub_back (hv : ReadableWorld env) (hr : ReadableClasses env cls num) (hn : ClassNames env cls num) {c' : Nat} {o : List Deep}
    (hlen : o.length = (cls.tab c').length) {ms : List (Bytes × JVal)}
    (h1 : ms.map (·.1) = (cls.ord c').map (fun i' => env.toUtf8 (env.jsonName (num c') i')))
    (h2 : ∀ (p i' : Nat) (f : DeepField) (s : Deep) (name : Bytes) (j : JVal), (cls.ord c')[p]? = some i' →
        (cls.tab c')[i']? = some f → o[i']? = some s → ms[p]? = some (name, j) →
        ∃ s', DeepReading eq env envQ cls num c' i' f.ty j s' ∧ Restored eq env.toEnv cls f.ty s s') :
    ∃ o', (∀ data, readJson data = some (.obj ms) → DeepFills (fun n => jsonReadDeep eq env envQ cls num n c' data) o') ∧
      Restored eq env.toEnv cls (.sub c') (.sub o) (.sub o') := by
  have ho := (hr.valid c').2.2
  have hnames : ∀ (p : Nat) (q : Bytes × JVal), ms[p]? = some q → ∃ i', (cls.ord c')[p]? = some i' ∧ i' < (cls.tab c').length ∧
      q.1 = env.toUtf8 (env.jsonName (num c') i') := by
    intro p q hq
    have : (ms.map (·.1))[p]? = some q.1 := by rw [List.getElem?_map, hq]; rfl
    rw [h1, List.getElem?_map] at this
    cases hi : (cls.ord c')[p]? with
    | none => rw [hi] at this; cases this
    | some i' =>
      rw [hi] at this
      exact ⟨i', rfl, List.mem_range.mp (ho.mem_iff.mp (List.mem_of_getElem? hi)), (Option.some.inj this).symm⟩
  have hmem : ∀ (i' : Nat), i' < (cls.tab c').length → ∃ (p : Nat) (q : Bytes × JVal), (cls.ord c')[p]? = some i' ∧ ms[p]? = some q ∧
      q.1 = env.toUtf8 (env.jsonName (num c') i') := by
    intro i' hi'
    obtain ⟨p, hp⟩ := List.mem_iff_getElem?.mp (ho.mem_iff.mpr (List.mem_range.mpr hi'))
    have hl : ms.length = (cls.ord c').length := by simpa using congrArg List.length h1
    have hq : ms[p]? = some (ms[p]'(by have := get_lt hp; omega)) := List.getElem?_eq_getElem _
    obtain ⟨i'', g1, _, g2⟩ := hnames p _ hq
    rw [hp, Option.some.injEq] at g1
    subst g1
    exact ⟨p, _, hp, hq, g2⟩
  have hone : ∀ (name : Bytes) (j : JVal) (i' : Nat), (name, j) ∈ ms → i' < (cls.tab c').length → env.fromUtf8 name = env.jsonName (num c') i' →
      ∃ (p : Nat), (cls.ord c')[p]? = some i' ∧ ms[p]? = some (name, j) := by
    intro name j i' hm hi' hname
    obtain ⟨p, hp⟩ := List.mem_iff_getElem?.mp hm
    obtain ⟨i'', g1, g2, g3⟩ := hnames p _ hp
    simp only at g3
    rw [g3, hn.exact c' i'' g2] at hname
    have := hr.distinct c' i'' i' g2 hi' hname
    subst this
    exact ⟨p, g1, hp⟩
  have hnd : (cls.ord c').Nodup := ho.nodup_iff.mpr List.nodup_range
  have huniq : ∀ (p p' i' : Nat), (cls.ord c')[p]? = some i' → (cls.ord c')[p']? = some i' → p = p' := by
    intro p p' i' ha hb
    exact (List.getElem?_inj (get_lt ha) hnd).mp (ha.trans hb.symm)
  have hval : ∀ (i' : Nat), ∃ s', ∀ (f : DeepField) (s : Deep) (p : Nat) (name : Bytes) (j : JVal), (cls.tab c')[i']? = some f → o[i']? = some s →
      (cls.ord c')[p]? = some i' → ms[p]? = some (name, j) →
      DeepReading eq env envQ cls num c' i' f.ty j s' ∧ Restored eq env.toEnv cls f.ty s s' := by
    intro i'
    by_cases hi' : i' < (cls.tab c').length
    · have hf : (cls.tab c')[i']? = some ((cls.tab c')[i']) := List.getElem?_eq_getElem hi'
      have hs : o[i']? = some (o[i']'(by omega)) := List.getElem?_eq_getElem (by omega)
      obtain ⟨p, q, g1, g2, g3⟩ := hmem i' hi'
      obtain ⟨s', k⟩ := h2 p i' _ _ q.1 q.2 g1 hf hs g2
      refine ⟨s', fun f s p' name j e1 e2 e3 e4 => ?_⟩
      have := huniq p p' i' g1 e3
      subst this
      rw [hf] at e1
      rw [hs] at e2
      rw [g2] at e4
      cases e1; cases e2; cases e4
      exact k
    · refine ⟨.unset, fun f v p name j e1 => ?_⟩
      exact absurd (get_lt e1) hi'
  have hvs : ∃ vs : Nat → Deep, ∀ (i' : Nat) (f : DeepField) (s : Deep) (p : Nat) (name : Bytes) (j : JVal), (cls.tab c')[i']? = some f →
      o[i']? = some s → (cls.ord c')[p]? = some i' → ms[p]? = some (name, j) →
      DeepReading eq env envQ cls num c' i' f.ty j (vs i') ∧ Restored eq env.toEnv cls f.ty s (vs i') :=
    ⟨fun i' => Classical.choose (hval i'), fun i' => Classical.choose_spec (hval i')⟩
  obtain ⟨vs, hvs⟩ := hvs
  let o' : List Deep := (List.range (cls.tab c').length).map vs
  have ho' : ∀ (i' : Nat), i' < (cls.tab c').length → o'[i']? = some (vs i') := by
    intro i' hi
    simp only [o', List.getElem?_map, List.getElem?_range hi, Option.map_some]
  have hsome : ∀ (i' : Nat) (f : DeepField), (cls.tab c')[i']? = some f → ∃ s, o[i']? = some s := fun i' f hf =>
    ⟨_, List.getElem?_eq_getElem (by have := get_lt hf; omega)⟩
  refine ⟨o', fun data hd => deep_read hv.library hr ?_ (by simp [o']) ?_ ?_ ?_ hd, .sub (by simp [o']) ?_⟩
  · have e : (ms.map fun q => env.fromUtf8 q.1) = (cls.ord c').map (fun i' => env.jsonName (num c') i') := by
      have : (ms.map fun q => env.fromUtf8 q.1) = (ms.map (·.1)).map env.fromUtf8 := by rw [List.map_map]; rfl
      rw [this, h1, List.map_map]
      apply List.map_congr_left
      intro i' hi'
      exact hn.exact c' i' (List.mem_range.mp (ho.mem_iff.mp hi'))
    have h : ((cls.ord c').map (fun i' => env.jsonName (num c') i')).Pairwise (· ≠ ·) := by
      rw [List.pairwise_map]
      refine List.Pairwise.imp_of_mem ?_ hnd
      intro a b ha hb hab hname
      exact hab (hr.distinct c' a b (List.mem_range.mp (ho.mem_iff.mp ha)) (List.mem_range.mp (ho.mem_iff.mp hb)) hname)
    rw [← e, List.pairwise_map] at h
    exact h
  · intro i' f hf hx
    obtain ⟨p, q, g1, g2, g3⟩ := hmem i' (get_lt hf)
    exact absurd (by rw [g3]; exact hn.exact c' i' (get_lt hf)) (hx q (List.mem_of_getElem? g2))
  · intro i' f name hf hm hname
    obtain ⟨p, g1, g2⟩ := hone name .null i' hm (get_lt hf) hname
    obtain ⟨s, hs⟩ := hsome i' f hf
    exact absurd rfl (hvs i' f s p name .null hf hs g1 g2).1.1
  · intro i' f name j s' hf hm hname _ hs'
    obtain ⟨p, g1, g2⟩ := hone name j i' hm (get_lt hf) hname
    obtain ⟨s, hs⟩ := hsome i' f hf
    rw [ho' i' (get_lt hf)] at hs'
    cases hs'
    exact (hvs i' f s p name j hf hs g1 g2).1
  · intro i' f s s' hf hs hs'
    obtain ⟨p, q, g1, g2, g3⟩ := hmem i' (get_lt hf)
    rw [ho' i' (get_lt hf)] at hs'
    cases hs'
    exact (hvs i' f s p q.1 q.2 hf hs g1 g2).2

theorem exact_readTy {m i : Nat} {ty : FieldTy} {v : Val} (h : Exact env m i ty v) : ReadTy ty := by
  cases h with
  | scList h1 _ => exact ⟨fun e => h1 (by injection e), by simp⟩
  | map _ h1 => exact ⟨by simp, fun vt e => h1 (by injection e)⟩
  | _ => exact ⟨by simp, by simp⟩

theorem kept_trip (hv : ReadableWorld env) (hp : QtNumbers env.toJEnv) (hx : ExactNames env) (hw : JsonSpec.World envQ) (hr : ReadableClasses env cls num)
    (hn : ClassNames env cls num) {c i : Nat} {ty : DeepTy} {s : Deep} (h : Kept env envQ cls num c i ty s) : DeepTrip eq env envQ cls num c i ty s := by
  induction h with
  | @plain c i ty v h =>
    obtain ⟨t, j, g1, g2, g3⟩ := printable_shown hv.order hp (exact_printable hx h)
    obtain ⟨v', k1, k2⟩ := exact_back hv.order hp hv.distinct hx h j g3
    obtain ⟨l1, l2⟩ := means_read hv.library hv.reads hv.order hv.distinct (readTy_of hv.noBool hv.noBoolKeys) hv.noNull k1 (exact_readTy h)
    refine ⟨t, j, .val (writeVal ty (defaultVal ty) v'), g1, g2, ⟨l1, fun t data hc => ?_⟩, .plain ?_, by simp⟩
    · have := Yields.bind (Q := fun _ r => Res.ok (if r.2 then some (Deep.val (writeVal ty (defaultVal ty) r.1)) else none)) (l2 t data hc) (Yields.pure _)
      rw [if_pos rfl] at this
      exact this
    · have hpx := exact_isPlain h
      have hsafe := means_safe k1
      have hm := writeVal_mirrors (defaultVal_safe (env := env) ty) hsafe
      exact k2.trans (hm.1.toSame (k2.plain_right hpx hsafe)).symm hpx.safe hsafe hm.2
  | @qt c i q hf hx =>
    rw [← Peer.C86_schema.2]
    obtain ⟨o, h1, _⟩ := convert_roundtrip (env := envQ.toEnv) hf
    have he := toMessage_exact hw hx h1
    obtain ⟨t, j, ⟨N, g1⟩, g2, g3⟩ := printable_shown hw.order hw.prints (exact_printable (world_exact hw) he)
    obtain ⟨v', k1, k2⟩ := exact_back hw.order hw.prints (world_distinct hw) (world_exact hw) he j g3
    cases k1 with
    | @msg _ _ _ ms o' vs a1 a2 a3 a4 a5 a6 a7 =>
      have hmeans : Means envQ quoteEscape 0 0 (.msg q.msg) (.obj ms) (.msg o') := .msg vs a1 a2 a3 a4 a5 a6 a7
      obtain ⟨q', c1, c2⟩ := twin_convert hw hf h1 ⟨k2, means_safe hmeans⟩
      have hw1 : Yields (fun n => jsonValue env.toJEnv envQ.toJEnv cls num (jsonDeep env.toJEnv envQ.toJEnv cls num n) n c i (.qt q.msg) (.qt q)) t := by
        refine ⟨N, fun n hn => ?_⟩
        have := g1 n hn
        simp only [Json.serializeValue, materialize] at this
        simp only [jsonValue, jsonSerialize, h1, Res.bind_eq, Res.bind, this]
      have hw2 : DeepReading eq env envQ cls num c i (.qt q.msg) (.obj ms) (.qt (setQt eq (qtDefault q.msg) q')) := by
        refine ⟨by simp, fun t data hc => ?_⟩
        obtain ⟨N', hN'⟩ := document_read hw.library hw.reads hw.order (world_distinct hw) (qtSch_noBool (world_sch hw)) (qtSch_maps hw) (world_null hw)
          hc.2 hmeans
        refine ⟨N', fun n hn => ?_⟩
        simp only [jsonReadValue, DeepField.default, jsonDeserialize_of (hN' n hn) c1 (readJson_ne hc.2), Res.bind_eq, Res.bind, Option.map_some]
      refine ⟨t, .obj ms, _, hw1, g2, hw2, ?_, by simp⟩
      cases hq : eq (qtDefault q.msg) q' with
      | true => simp only [setQt, hq, if_true]; exact .asNew c2 hq
      | false => simp only [setQt, hq]; exact .qt c2 hq
  | unset _ ih =>
    obtain ⟨t, j, s', g1, g2, g3, g4, g5⟩ := ih
    exact ⟨t, j, s', g1, g2, g3, .unset g4, g5⟩
  | @sub c i c' o h1 h2 _ ih =>
    obtain ⟨ps, ms, k1, k2, k3, k4, k5⟩ := deepTrip_members hn h2 ih (cls.ord c') fun i hi =>
      List.mem_range.mp ((hr.valid c').2.2.mem_iff.mp hi)
    have hps : ps ≠ [] := by
      intro hp
      have := (hr.valid c').2.2.length_eq
      rw [← k3, hp] at this
      simp at this
      exact h1 (List.eq_nil_of_length_eq_zero this.symm)
    obtain ⟨o', l1, l2⟩ := sub_back hv hr hn h2 k4 k5
    refine ⟨_, .obj ms, .sub o', ?_, text_object k2, ⟨by simp, fun t data hc => ?_⟩, l2, fun _ _ => ⟨ms, rfl⟩⟩
    · have hb := Yields.bind (Q := fun _ t => Res.ok ((123 :: t).dropLast ++ [125])) k1 (Yields.pure _)
      have e : (123 :: withCommas (ps.map memberText)).dropLast ++ [125] = 123 :: joined (ps.map memberText) ++ [125] := by
        cases ps with
        | nil => exact absurd rfl hps
        | cons p ps => rw [List.map_cons, withCommas_eq, ← List.cons_append, List.dropLast_concat]
      rw [← e]
      exact hb.shift fun n => rfl
    · simp only [jsonReadValue, if_neg (readJson_ne_nil hc.2)]
      exact Yields.bind (l1 data hc.2).readSub (Yields.pure _)
  | @subs c i c' l _ ih =>
    obtain ⟨ts, js, os, g1, g2, g3, g4⟩ := deepTrip_subs ih
    refine ⟨_, .arr js, .subs (os.map .sub), Yields.bind g1 (Yields.pure _), ?_, ⟨by simp, fun t data hc => ?_⟩,
      .subs (elementwise_length g4).symm (fun p o o' a b => elementwise_index g4 p o o' a b), by simp⟩
    · rw [closeWith_eq (by decide)]
      exact text_array g2
    · obtain ⟨rfl, hc⟩ := hc
      obtain ⟨es, k1, k2⟩ := hv.library.elements data js hc
      simp only [jsonReadValue, if_neg (readJson_ne_nil hc), k1]
      have : Yields (fun n => jsonReadSubs (jsonReadDeep eq env envQ cls num n) c' es) (os.map .sub) := by
        refine jsonReadSubs_yields (elementwise_of_get ((elementwise_length k2).trans (elementwise_length g3)) fun p e o he ho => ?_)
        obtain ⟨j, l1, l2⟩ := elementwise_get k2 he
        obtain ⟨_, hy⟩ := elementwise_index g3 p j o l1 ho
        exact deepFills_of_value (hy _ _ l2)
      exact Yields.bind (Yields.pure _) (Yields.bind this (Yields.pure _))

/-- A message with Qt values at any depth that is written as JSON arrives: the text is a JSON document, and what is read from it is the message, with
numbers of Qt values up to the sign of zeros. -/
theorem C125_roundtrip_partial (hv : ReadableWorld env) (hp : QtNumbers env.toJEnv) (hx : ExactNames env) (hw : JsonSpec.World envQ)
    (hr : ReadableClasses env cls num) (hn : ClassNames env cls num) {c : Nat} {o : List Deep} (h : Kept env envQ cls num 0 0 (.sub c) (.sub o)) :
    ∃ N t o', (∃ j, readJson t = some j) ∧ (∀ n, N ≤ n → jsonDeep env.toJEnv envQ.toJEnv cls num n c o = .ok t ∧
      jsonReadDeep eq env envQ cls num n c t = (.ok (), o')) ∧ Restored eq env.toEnv cls (.sub c) (.sub o) (.sub o') := by
  obtain ⟨t, j, s', ⟨N, g1⟩, g2, g3, g4, g5⟩ := kept_trip (eq := eq) hv hp hx hw hr hn h
  obtain ⟨ms, rfl⟩ := g5 c rfl
  cases g4 with
  | @sub _ _ o' a b =>
    obtain ⟨N', hN'⟩ := deepFills_of_value (g3.2 .object t ⟨rfl, text_readJson g2⟩)
    exact ⟨max N N', t, o', ⟨_, text_readJson g2⟩, fun n hn => ⟨g1 n (by omega), hN' n (by omega)⟩, .sub a b⟩

end

/-! ### Cases -/

/-- JSON names of the fields of `route`; no other messages. -/
def routeR : REnv := { demoR (fun _ => []) with
  jsonName := fun m i => if m = 0 then (if i = 0 then ['a'] else ['b']) else
    if i = 0 then ['n'] else if i = 1 then ['f', 'i', 'r', 's', 't'] else if i = 2 then ['l', 'e', 'g', 's'] else ['r']
  enumKey := fun _ _ _ => none
  enumValue := fun _ _ _ => none }

theorem routeR_world : ReadableWorld routeR ∧ ExactNames routeR ∧ QtNumbers routeR.toJEnv where
  left := {
    order := fun _ => List.Perm.refl _
    distinct := fun m a b ha _ _ => by simp [routeR, demoR] at ha
    noBool := fun m f hf => by simp [routeR, demoR] at hf
    noBoolKeys := fun m f hf => by simp [routeR, demoR] at hf
    noNull := fun _ _ => rfl
    library := micro_reads rfl rfl rfl rfl
    reads := qt_reads rfl rfl }
  right := ⟨⟨fun m i hi => by simp [routeR, demoR] at hi, fun m i hi => by simp [routeR, demoR] at hi, fun _ _ _ _ h => by cases h⟩,
    ⟨demoJ_numbers.1, demoJ_numbers.2, demoJ_numbers.3⟩⟩

theorem route_cases {c i : Nat} (h : i < (route.tab c).length) : c = 0 ∧ (i = 0 ∨ i = 1) ∨ c = 1 ∧ (i = 0 ∨ i = 1 ∨ i = 2 ∨ i = 3) := by
  by_cases h0 : c = 0
  · subst h0
    have : i < 2 := h
    omega
  · by_cases h1 : c = 1
    · subst h1
      have : i < 4 := h
      omega
    · simp [route, h0, h1] at h

theorem routeR_classes : ReadableClasses routeR route id ∧ ClassNames routeR route id := by
  refine ⟨⟨(route_sendable (env := routeR.toEnv)).1, ?_, ?_⟩, ⟨?_, ?_⟩⟩
  · intro c a b ha hb
    rcases route_cases ha with ⟨rfl, ka⟩ | ⟨rfl, ka⟩ <;> rcases route_cases hb with ⟨h, kb⟩ | ⟨h, kb⟩ <;> try cases h
    · rcases ka with rfl | rfl <;> rcases kb with rfl | rfl <;> decide
    · rcases ka with rfl | rfl | rfl | rfl <;> rcases kb with rfl | rfl | rfl | rfl <;> decide
  · intro c
    by_cases h0 : c = 0
    · subst h0; simp [route]
    · by_cases h1 : c = 1
      · subst h1; simp [route]
      · simp [route, h0, h1]
  · intro c i hi
    rcases route_cases hi with ⟨rfl, hk⟩ | ⟨rfl, hk⟩
    · rcases hk with rfl | rfl <;> (intro x hx; revert x; decide)
    · rcases hk with rfl | rfl | rfl | rfl <;> (intro x hx; revert x; decide)
  · intro c i hi
    rcases route_cases hi with ⟨rfl, hk⟩ | ⟨rfl, hk⟩
    · rcases hk with rfl | rfl <;> decide
    · rcases hk with rfl | rfl | rfl | rfl <;> decide

theorem leg_kept (w x : BitVec 32) : Kept routeR qtR route id 0 0 (.sub 0) (.sub (leg w x)) := by
  refine .sub (by simp [route]) rfl fun i f s hf hs => ?_
  match i with
  | 0 => cases hf; cases hs; exact Kept.qt (q := .size ⟨w, 4⟩) trivial trivial
  | 1 => cases hf; cases hs; exact Kept.qt (q := .point ⟨x, 0⟩) trivial trivial
  | _ + 2 => simp [route] at hf

theorem route_kept : Kept routeR qtR route id 0 0 (.sub 1) (.sub routeObject) := by
  refine .sub (by simp [route]) rfl fun i f s hf hs => ?_
  match i with
  | 0 => cases hf; cases hs; exact .plain (.sc rfl trivial)
  | 1 =>
    cases hf; cases hs
    refine .unset (.sub (by simp [route]) rfl fun i f s hf hs => ?_)
    match i with
    | 0 => cases hf; cases hs; exact Kept.qt (q := .size ⟨-1, -1⟩) trivial trivial
    | 1 => cases hf; cases hs; exact Kept.qt (q := .point ⟨0, 0⟩) trivial trivial
    | _ + 2 => simp [route] at hf
  | 2 =>
    cases hf; cases hs
    refine .subs fun o ho => ?_
    simp only [List.mem_cons, Deep.sub.injEq, reduceCtorEq, List.not_mem_nil, or_false, false_or] at ho
    rcases ho with rfl | rfl
    · exact leg_kept 3 1
    · exact leg_kept 5 2
  | 3 =>
    cases hf; cases hs
    exact Kept.qt (q := .rect ⟨1, 2, 3, 4⟩) (by simp only [Faithful, Fits]; decide) trivial
  | _ + 4 => simp [route] at hf

-- Hypotheses of the round trip, and the text.
example := C125_roundtrip_partial (eq := fun _ _ => false) routeR_world.1 routeR_world.2.2 routeR_world.2.1 qtR_world routeR_classes.1 routeR_classes.2
  route_kept
example : jsonDeep routeR.toJEnv qtR.toJEnv route id 5 1 [.val (.sc (.w32 7)), .unset, .subs [.sub (leg 3 1), .unset], .qt (.rect ⟨1, 2, 3, 4⟩)] =
    .ok ("{\"legs\":[{\"b\":{\"y\":0,\"x\":1},\"a\":{\"height\":4,\"width\":3}}],\"n\":7,".toUTF8.toList ++
      "\"r\":{\"size\":{\"height\":3,\"width\":3},\"position\":{\"y\":2,\"x\":1}},".toUTF8.toList ++
      "\"first\":{\"b\":{\"y\":0,\"x\":0},\"a\":{\"height\":-1,\"width\":-1}}}".toUTF8.toList) := by decide +kernel

/-- Hypotheses of `C125_document_partial`. -/
theorem leg_writable : Writable routeR.toJEnv qtR route id 0 0 (.sub 0) (.sub (leg 3 1)) := by
  refine .sub (by simp [route]) rfl (fun i hi => routeR_classes.2.plain 0 i hi) fun i f s hf hs => ?_
  match i with
  | 0 => cases hf; cases hs; exact Writable.qt (q := .size ⟨3, 4⟩) trivial trivial
  | 1 => cases hf; cases hs; exact Writable.qt (q := .point ⟨1, 0⟩) trivial trivial
  | _ + 2 => simp [route] at hf

example := C125_document_partial routeR_classes.1.valid routeR_world.1.order routeR_world.2.2 qtR_world leg_writable

/-- Hypotheses of `C125_read_partial`: a document of another program, with the point only, a member that means nothing, and `null`. -/
theorem leg_means : MeansDeep (fun _ _ => false) routeR qtR route id 0 0 (.sub 0)
    (.obj [([120], .num [49]), ([98], .obj [([120], .str [53])]), ([97], .null)]) (.sub [.qt (.size ⟨-1, -1⟩), .qt (.point ⟨5, 0⟩)]) := by
  obtain ⟨j, g1, g2⟩ := qtR_document
  have hj : j = .obj [([120], .str [53])] := by
    have : readJson "{ \"x\" : \"5\" }".toUTF8.toList = some (.obj [([120], .str [53])]) := by with_unfolding_all rfl
    rw [this] at g1
    exact (Option.some.inj g1).symm
  subst hj
  have names : ∀ {name : Bytes} {j : JVal}, (name, j) ∈ [(([120] : Bytes), JVal.num [49]), ([98], .obj [([120], .str [53])]), ([97], .null)] →
      name = [120] ∧ j = .num [49] ∨ name = [98] ∧ j = .obj [([120], .str [53])] ∨ name = [97] ∧ j = .null := by
    intro name j h
    simpa using h
  refine .sub (by decide) ?_ rfl ?_ ?_ ?_
  · intro q hq
    rcases names (name := q.1) (j := q.2) hq with ⟨h, _⟩ | ⟨h, _⟩ | ⟨h, _⟩ <;> (rw [h]; intro x hx; revert x; decide)
  · intro i f hf hx
    match i with
    | 0 => exact absurd (by decide) (hx ([97], .null) (by simp))
    | 1 => exact absurd (by decide) (hx ([98], .obj [([120], .str [53])]) (by simp))
    | _ + 2 => simp [route] at hf
  · intro i f name hf hm hname
    match i with
    | 0 => cases hf; rfl
    | 1 =>
      rcases names hm with ⟨_, h⟩ | ⟨_, h⟩ | ⟨h, _⟩
      · cases h
      · cases h
      · subst h; exact absurd hname (by decide)
    | _ + 2 => simp [route] at hf
  · intro i f name j s hf hm hname hj hs
    match i with
    | 0 =>
      rcases names hm with ⟨h, _⟩ | ⟨h, _⟩ | ⟨_, h⟩
      · subst h; exact absurd hname (by decide)
      · subst h; exact absurd hname (by decide)
      · exact absurd h hj
    | 1 =>
      cases hf; cases hs
      rcases names hm with ⟨h, _⟩ | ⟨_, rfl⟩ | ⟨_, h⟩
      · subst h; exact absurd hname (by decide)
      · exact MeansDeep.qt (q := .point ⟨5, 0⟩) g2 ⟨rfl, rfl⟩ trivial rfl
      · exact absurd h hj
    | _ + 2 => simp [route] at hf

set_option maxHeartbeats 2000000 in
example := C125_read_partial routeR_world.1 qtR_world routeR_classes.1
  (t := "{ \"x\" : 1, \"b\" : {\"x\":\"5\"}, \"a\":null }".toUTF8.toList) (by with_unfolding_all rfl) leg_means

/-! ### Where it fails -/

/-- **C125 violated**: an object of a class without fields is written as a closing brace, so that the message it is in is not written as JSON. -/
theorem C125_empty_violated : ∃ cls, NestedSpec.Valid cls ∧ ∀ n, ∃ bs,
    jsonDeep routeR.toJEnv qtR.toJEnv cls id (n + 3) 0 [.qt (.point ⟨5, 6⟩), .sub []] = .ok bs ∧ readJson bs = none := by
  refine ⟨⟨fun c => if c = 0 then [⟨1, .qt 7⟩, ⟨2, .sub 1⟩] else [], fun c => if c = 0 then [0, 1] else []⟩, ?_, fun n => ?_⟩
  · intro c
    by_cases h : c = 0
    · subst h; decide
    · simp [h]
  · exact ⟨"{\"a\":{\"y\":6,\"x\":5},\"b\":}}".toUTF8.toList, by with_unfolding_all rfl, by decide +kernel⟩

theorem jsonMembers_mem {env envQ : JEnv} {cls : Classes} {num : Nat → Nat} {rec : Nat → List Deep → Res Bytes} {n c : Nat} {o : List Deep} {i : Nat}
    {f : DeepField} {s : Deep} (hf : (cls.tab c)[i]? = some f) (hs : o[i]? = some s) :
    ∀ {is : List Nat} {t : Bytes}, i ∈ is → jsonMembers env envQ cls num rec n c o is = .ok t →
      ∃ t', jsonValue env envQ cls num rec n c i f.ty s = .ok t' := by
  intro is
  induction is with
  | nil => intro t h; cases h
  | cons k is ih =>
    intro t h ht
    unfold jsonMembers at ht
    rcases List.mem_cons.mp h with rfl | h
    · simp only [hf, hs, Res.bind_eq, Res.bind_eq_ok] at ht
      obtain ⟨t', h1, _⟩ := ht
      exact ⟨t', h1⟩
    · split at ht
      · simp only [Res.bind_eq, Res.bind_eq_ok] at ht
        obtain ⟨_, _, r, h1, _⟩ := ht
        exact ih h h1
      · exact ih h ht

/-- **C125 violated**: of a class that leads back to itself through singular fields not even a new object is ever written: the calls go on until the stack
is used up. -/
theorem C125_recursive_violated {env envQ : JEnv} {cls : Classes} {num : Nat → Nat} (hc : NestedSpec.Valid cls) {S : Nat → Prop}
    (hS : ∀ c, S c → ∃ f ∈ cls.tab c, ∃ c', f.ty = .sub c' ∧ S c') (n : Nat) :
    ∀ {c : Nat}, S c → ∀ t, jsonDeep env envQ cls num n c (newObject cls c) ≠ .ok t := by
  induction n with
  | zero => intro c _ t; simp [jsonDeep]
  | succ n ih =>
    intro c h t ht
    obtain ⟨f, hf, c', hty, hc'⟩ := hS c h
    obtain ⟨i, hi⟩ := List.mem_iff_getElem?.mp hf
    simp only [jsonDeep, Res.bind_eq, Res.bind_eq_ok] at ht
    obtain ⟨t', h1, _⟩ := ht
    obtain ⟨t'', h2⟩ := jsonMembers_mem hi (newObject_get hi) ((hc c).2.2.mem_iff.mpr (List.mem_range.mpr (get_lt hi))) h1
    have hd : f.default = .unset := by simp only [DeepField.default, hty]
    rw [hty, hd] at h2
    exact ih hc' t'' h2

/-- A tree whose nodes have a `QPoint` and a parent. -/
example : let cls : Classes := ⟨fun c => if c = 0 then [⟨1, .qt 7⟩, ⟨2, .sub 0⟩] else [], fun c => if c = 0 then [0, 1] else []⟩
    NestedSpec.Valid cls ∧ ∀ c, c = 0 → ∃ f ∈ cls.tab c, ∃ c', f.ty = .sub c' ∧ c' = 0 := by
  refine ⟨fun c => ?_, fun c h => ?_⟩
  · by_cases h : c = 0
    · subst h; decide
    · simp [h]
  · subst h
    exact ⟨⟨2, .sub 0⟩, by simp, 0, rfl, rfl⟩

end QtPb.Qt
