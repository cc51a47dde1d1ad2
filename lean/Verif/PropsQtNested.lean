import Verif.SpecQtNested
import Verif.PropsQtFields
import Verif.FailLemmas
/-
C122: messages in which Qt values occur at any depth.
-/
namespace QtPb.Qt
open QtPb QtPb.Spec NestedSpec
open FieldSpec (World)

section
variable {eq : QtVal → QtVal → Bool} {env envQ : Env} {cls : Classes} {fs : List DeepField}

/-! ### Reading -/

theorem findDeep_of {i : Nat} {f : DeepField} (hnd : (fs.map (·.num)).Nodup) (h : fs[i]? = some f) : findDeep fs f.num = some i := by
  unfold findDeep
  rw [List.findIdx?_eq_some_iff_getElem]
  obtain ⟨hi, rfl⟩ := List.getElem?_eq_some_iff.mp h
  refine ⟨hi, by simp, ?_⟩
  intro j hj
  simp only [beq_iff_eq]
  intro he
  have hji : j < fs.length := by omega
  have := List.pairwise_iff_getElem.mp hnd j i (by simpa using hji) (by simpa using hi) hj
  simp at this
  exact this he

theorem findDeep_none {num : Nat} (h : ∀ f ∈ fs, f.num ≠ num) : findDeep fs num = none := by
  unfold findDeep
  rw [List.findIdx?_eq_none_iff]
  intro f hf
  simpa using h f hf

variable {Sub : Nat → Bytes → List Deep → Prop} {rec : Nat → Bytes → Res Unit × List Deep} {n : Nat}

theorem deserializeSub_of (hrec : ∀ c body o, Sub c body o → body.length < 2 ^ 31 → body.length < n → rec c body = (.ok (), o))
    {c : Nat} {l body rest : Bytes} {o : List Deep} (hl : Varint l body.length) (hs : Sub c body o) {it : It} (hat : At it (l ++ body ++ rest))
    (hn : body.length < n) : deserializeSub rec c it = .ok (o, ⟨it.data, it.pos + (l ++ body).length⟩) := by
  have hsz := hat.len
  have h31 := hat.1
  simp only [List.length_append] at hsz
  simp only [deserializeSub, deserializeLengthDelimited_of hl hat.1 hat.2.1 hat.2.2, Res.bind_eq, Res.bind]
  rw [hrec c body o hs (by omega) hn]

theorem readDeep_of (hv : ValidSchema env) (hq : envQ.sch = Peer.schema)
    (hrec : ∀ c body o, Sub c body o → body.length < 2 ^ 31 → body.length < n → rec c body = (.ok (), o))
    {d k : Nat} {f : DeepField} {bs rest : Bytes} {old new : Deep} (h : DeepRecord eq env envQ Sub d f bs old new) :
    ∃ hdr payload wt, bs = hdr ++ payload ∧ Tag hdr f.num wt ∧ (wt = 0 ∨ wt = 1 ∨ wt = 2 ∨ wt = 5) ∧
      ∀ it, At it (payload ++ rest) → payload.length ≤ n → payload.length ≤ k →
        readDeep eq env envQ rec n k f old it = .ok (new, ⟨it.data, it.pos + payload.length⟩) := by
  have qt : ∀ {num : Nat} {len body : Bytes} {o : Obj} {q old : QtVal}, Varint len body.length → Message envQ d (Peer.carrier q) body o →
      Peer.Shows q o → Faithful q → ∀ it, At it (len ++ body ++ rest) → (len ++ body).length ≤ n →
        readDeep eq env envQ rec n k ⟨num, .qt (Peer.carrier q)⟩ (.qt old) it =
          .ok (.qt (setQt eq old q), ⟨it.data, it.pos + (len ++ body).length⟩) := by
    intro num len body o q old hl hm hsh hf it hat hn
    have hp := hl.1.length_pos
    have := handlerDeserialize_of (n := n) hq hl hm hsh hf hat (by simp only [List.length_append] at hn; omega)
    simp only [readDeep, this, Res.bind_eq, Res.bind]
  cases h with
  | @plain num ty _ old new h =>
    obtain ⟨hdr, payload, wt, v, rfl, ht, he, rfl⟩ := h
    refine ⟨hdr, payload, wt, rfl, ht, fieldEffect_wt he, ?_⟩
    intro it hat hn hk
    have := deserializeValue_of (n := n) (rec := deserializeMessage env n) (Sub := Message env d)
      (fun m body o h h1 h2 => deserializeMessage_of_message hv h h1 h2) he hat hn hk
    simp only [readDeep, this, Res.bind_eq, Res.bind, store_eq]
  | @same num hdr len body o q old ht hl hm hsh hf he =>
    refine ⟨hdr, len ++ body, 2, rfl, ht, by simp, ?_⟩
    intro it hat hn hk
    rw [qt hl hm hsh hf it hat hn, setQt, if_pos he]
  | @other num hdr len body o q old ht hl hm hsh hf he =>
    refine ⟨hdr, len ++ body, 2, rfl, ht, by simp, ?_⟩
    intro it hat hn hk
    rw [qt hl hm hsh hf it hat hn, setQt, he]
    rfl
  | @sub num c hdr len body o old ht hl hs =>
    refine ⟨hdr, len ++ body, 2, rfl, ht, by simp, ?_⟩
    intro it hat hn hk
    have hp := hl.1.length_pos
    have := deserializeSub_of hrec hl hs hat (by simp only [List.length_append] at hn; omega)
    cases old <;> simp only [readDeep, this, Res.bind_eq, Res.bind]
  | @elem num c hdr len body o l ht hl hs =>
    refine ⟨hdr, len ++ body, 2, rfl, ht, by simp, ?_⟩
    intro it hat hn hk
    have hp := hl.1.length_pos
    have := deserializeSub_of hrec hl hs hat (by simp only [List.length_append] at hn; omega)
    simp only [readDeep, this, Res.bind_eq, Res.bind]

theorem deepLoop_of (hv : ValidSchema env) (hq : envQ.sch = Peer.schema)
    (hrec : ∀ c body o, Sub c body o → body.length < 2 ^ 31 → body.length < n → rec c body = (.ok (), o))
    (hnd : (fs.map (·.num)).Nodup) {d : Nat} {rs : List (Nat × Bytes)} {o o' : List Deep} (h : DeepRecs eq env envQ Sub d fs rs o o') {it : It}
    (hat : At it (bytesOf rs)) (hn : (bytesOf rs).length ≤ n) {k : Nat} (hk : (bytesOf rs).length < k) :
    deepLoop eq env envQ rec n fs k it o = (.ok (), o') := by
  induction h generalizing it k with
  | nil o =>
    have hl := hat.len
    cases k with
    | zero => omega
    | succ k =>
      simp only [bytesOf, List.map_nil, List.flatten_nil, List.length_nil] at hl
      simp [deepLoop, show it.pos = it.data.length by omega]
  | @known bs i f rs o o' old new hf ho hm _ ih =>
    have eb : bytesOf ((f.num, bs) :: rs) = bs ++ bytesOf rs := by simp [bytesOf]
    rw [eb] at hat hn hk
    have hl := hat.len
    cases k with
    | zero => omega
    | succ k =>
      obtain ⟨hdr, payload, wt, rfl, ht, hwt, hread⟩ := readDeep_of (n := n) (k := k) (rest := bytesOf rs) hv hq hrec hm
      have hp := ht.1.1.length_pos
      simp only [List.length_append] at hl hn hk
      rw [List.append_assoc] at hat
      simp only [deepLoop]
      rw [if_neg (by omega)]
      have hd : deepProperty eq env envQ rec n k fs it o = .ok (⟨it.data, it.pos + hdr.length + payload.length⟩, o.set i new) := by
        simp only [deepProperty, decodeHeader_of ht hwt hat.2.2, Res.bind_eq, Res.bind, findDeep_of hnd hf, hf, ho]
        rw [hread _ hat.adv (by omega) (by omega)]
        simp
      rw [hd]
      exact ih hat.adv.adv (by omega) (by omega)
  | @unknown num wt hdr payload rs o o' hnone ht hs _ ih =>
    have eb : bytesOf ((num, hdr ++ payload) :: rs) = (hdr ++ payload) ++ bytesOf rs := by simp [bytesOf]
    rw [eb] at hat hn hk
    have hl := hat.len
    cases k with
    | zero => omega
    | succ k =>
      have hp := ht.1.1.length_pos
      simp only [List.length_append] at hl hn hk
      rw [List.append_assoc] at hat
      simp only [deepLoop]
      rw [if_neg (by omega)]
      have hd : deepProperty eq env envQ rec n k fs it o = .ok (⟨it.data, it.pos + hdr.length + payload.length⟩, o) := by
        simp only [deepProperty, decodeHeader_of ht (skippable_wt hs) hat.2.2, Res.bind_eq, Res.bind, findDeep_none hnone]
        rw [skipField_of hs hat.adv.1 hat.adv.2.1 hat.adv.2.2]
        simp
      rw [hd]
      exact ih hat.adv.adv (by omega) (by omega)

/-- The loop arrives behind the records with their effect applied. -/
theorem deepLoop_prefix (hv : ValidSchema env) (hq : envQ.sch = Peer.schema)
    (hrec : ∀ c body o, Sub c body o → body.length < 2 ^ 31 → body.length < n → rec c body = (.ok (), o))
    (hnd : (fs.map (·.num)).Nodup) {d : Nat} {rs : List (Nat × Bytes)} {o o' : List Deep} (h : DeepRecs eq env envQ Sub d fs rs o o') {it : It}
    {rest : Bytes} (hat : At it (bytesOf rs ++ rest)) (hn : (bytesOf rs).length ≤ n) {k : Nat} (hk : (bytesOf rs).length < k) :
    ∃ k' it', k ≤ k' + (bytesOf rs).length ∧ At it' rest ∧ deepLoop eq env envQ rec n fs k it o = deepLoop eq env envQ rec n fs k' it' o' := by
  induction h generalizing it k with
  | nil o => exact ⟨k, it, by simp, by simpa [bytesOf] using hat, rfl⟩
  | @known bs i f rs o o' old new hf ho hm _ ih =>
    have eb : bytesOf ((f.num, bs) :: rs) = bs ++ bytesOf rs := by simp [bytesOf]
    rw [eb] at hat hn hk ⊢
    have hl := hat.len
    cases k with
    | zero => omega
    | succ k =>
      obtain ⟨hdr, payload, wt, rfl, ht, hwt, hread⟩ := readDeep_of (n := n) (k := k) (rest := bytesOf rs ++ rest) hv hq hrec hm
      have hp := ht.1.1.length_pos
      simp only [List.length_append] at hl hn hk
      simp only [List.append_assoc] at hat
      have hd : deepProperty eq env envQ rec n k fs it o = .ok (⟨it.data, it.pos + hdr.length + payload.length⟩, o.set i new) := by
        simp only [deepProperty, decodeHeader_of ht hwt hat.2.2, Res.bind_eq, Res.bind, findDeep_of hnd hf, hf, ho]
        rw [hread _ hat.adv (by omega) (by omega)]
        simp
      obtain ⟨k', it', h1, h2, h3⟩ := ih (k := k) hat.adv.adv (by omega) (by omega)
      refine ⟨k', it', by simp only [List.length_append]; omega, h2, ?_⟩
      simp only [deepLoop]
      rw [if_neg (by omega), hd]
      exact h3
  | @unknown num wt hdr payload rs o o' hnone ht hs _ ih =>
    have eb : bytesOf ((num, hdr ++ payload) :: rs) = (hdr ++ payload) ++ bytesOf rs := by simp [bytesOf]
    rw [eb] at hat hn hk ⊢
    have hl := hat.len
    cases k with
    | zero => omega
    | succ k =>
      have hp := ht.1.1.length_pos
      simp only [List.length_append] at hl hn hk
      simp only [List.append_assoc] at hat
      have hd : deepProperty eq env envQ rec n k fs it o = .ok (⟨it.data, it.pos + hdr.length + payload.length⟩, o) := by
        simp only [deepProperty, decodeHeader_of ht (skippable_wt hs) hat.2.2, Res.bind_eq, Res.bind, findDeep_none hnone]
        rw [skipField_of hs hat.adv.1 hat.adv.2.1 hat.adv.2.2]
        simp
      obtain ⟨k', it', h1, h2, h3⟩ := ih (k := k) hat.adv.adv (by omega) (by omega)
      refine ⟨k', it', by simp only [List.length_append]; omega, h2, ?_⟩
      simp only [deepLoop]
      rw [if_neg (by omega), hd]
      exact h3

/-- A member that can hold what a record of its field brings. -/
def Fit : DeepTy → Deep → Prop
  | .qt _, s => ∃ q, s = .qt q
  | .subs _, s => ∃ l, s = .subs l
  | _, _ => True

theorem fit_new {c i : Nat} {f : DeepField} (h : (cls.tab c)[i]? = some f) : ∃ s, (newObject cls c)[i]? = some s ∧ Fit f.ty s := by
  refine ⟨f.default, by simp [newObject, h], ?_⟩
  unfold DeepField.default
  cases f.ty <;> simp [Fit]

theorem fit_recs {d : Nat} {rs : List (Nat × Bytes)} {o o' : List Deep} (h : DeepRecs eq env envQ Sub d fs rs o o')
    (ho : ∀ (i : Nat) (f : DeepField), fs[i]? = some f → ∃ s, o[i]? = some s ∧ Fit f.ty s) :
    ∀ (i : Nat) (f : DeepField), fs[i]? = some f → ∃ s, o'[i]? = some s ∧ Fit f.ty s := by
  induction h with
  | nil => exact ho
  | @known bs i f rs o o' old new hf hoi hm _ ih =>
    refine ih fun j g hg => ?_
    by_cases hij : i = j
    · subst hij
      rw [hf] at hg
      cases hg
      refine ⟨new, by simp [(List.getElem?_eq_some_iff.mp hoi).1], ?_⟩
      cases hm <;> simp [Fit]
    · rw [List.getElem?_set_ne hij]
      exact ho j g hg
  | unknown _ _ _ _ ih => exact ih ho

/-- A bad record makes `deserializeProperty` throw. -/
theorem badDeep_throws (hq : envQ.sch = Peer.schema) {SubFails : Nat → Bytes → Exn → Prop}
    (hrec : ∀ c body e, SubFails c body e → body.length < 2 ^ 31 → body.length < n → ∃ o, rec c body = (.throw e, o))
    (hnd : (fs.map (·.num)).Nodup) {bs : Bytes} {e : Exn} (h : BadDeep envQ SubFails fs bs e) {it : It} (hat : At it bs) (hn : bs.length ≤ n) {k : Nat}
    {o : List Deep} (ho : ∀ (i : Nat) (f : DeepField), fs[i]? = some f → ∃ s, o[i]? = some s ∧ Fit f.ty s) :
    deepProperty eq env envQ rec n k fs it o = .throw e ∧ bs ≠ [] := by
  have known : ∀ {hdr rest : Bytes} {f : DeepField}, f ∈ fs → Tag hdr f.num 2 → At it (hdr ++ rest) →
      (∀ it' cur, At it' rest → Fit f.ty cur → readDeep eq env envQ rec n k f cur it' = .throw e) →
      deepProperty eq env envQ rec n k fs it o = .throw e ∧ hdr ++ rest ≠ [] := by
    intro hdr rest f hf ht hat hval
    obtain ⟨i, hi⟩ := List.getElem?_of_mem hf
    obtain ⟨s, h1, h2⟩ := ho i f hi
    refine ⟨?_, ?_⟩
    · simp only [deepProperty, decodeHeader_of ht (by simp) hat.2.2, Res.bind_eq, Res.bind, Bool.not_true, Bool.false_eq_true, if_false,
        findDeep_of hnd hi, hi, h1, hval _ s hat.adv h2]
    · have := ht.1.1.ne_nil
      simp [this]
  cases h with
  | @tag tg rest t hvar hbad =>
    refine ⟨?_, by have := hvar.1.ne_nil; simp [this]⟩
    have hd : t % 2 ^ 32 = t % 2 ^ 32 / 8 * 8 + t % 8 := by omega
    have hval : (splitHeader (t % 2 ^ 32)).valid = false := by
      rw [hd, splitHeader_of (by omega)]
      rcases hbad with hb | hb | hb | hb | hb <;> simp [hb]
    simp only [deepProperty, decodeHeader, deserializeVarint_of (w := 32) (by omega) hvar hat.2.2, Res.bind_eq, Res.bind, hval, Bool.not_false, if_true]
  | truncatedTag htr hne =>
    refine ⟨?_, hne⟩
    have : Truncated it.rest := by rw [hat.2.2]; exact htr
    simp only [deepProperty, decodeHeader, deserializeVarint_truncated this, Res.bind_eq, Res.bind]
  | @truncatedLength hdr tr f hf hty ht htr =>
    refine known hf ht hat fun it' cur hat' hfit => ?_
    have h1 : Truncated it'.rest := by rw [hat'.2.2]; exact htr
    have h2 : ∀ c, deserializeSub rec c it' = .throw .outOfRange := by
      intro c
      simp only [deserializeSub, deserializeLengthDelimited, deserializeVarint_truncated h1, Res.bind_eq, Res.bind]
    obtain ⟨num, ty⟩ := f
    cases ty with
    | plain ty => exact absurd rfl (hty ty)
    | qt m =>
      obtain ⟨q, rfl⟩ := hfit
      simp only [readDeep, handlerDeserialize, deserializeObject_truncated h1, Res.bind_eq, Res.bind]
    | sub c => cases cur <;> simp only [readDeep, h2, Res.bind_eq, Res.bind]
    | subs c =>
      obtain ⟨l, rfl⟩ := hfit
      simp only [readDeep, h2, Res.bind_eq, Res.bind]
  | @qt hdr len body rest num m d e o' hf ht hl hfail =>
    refine known hf ht hat fun it' cur hat' hfit => ?_
    obtain ⟨q, rfl⟩ := hfit
    have hlen := hat'.len
    have h31 := hat'.1
    have hp := ht.1.1.length_pos
    simp only [List.length_append] at hlen hn
    have hv : ValidSchema envQ := qtSch_valid (hq.trans Peer.C86_schema.1.symm)
    have := deserializeMessage_of_fails hv hfail (by omega) (n := n) (by omega)
    simp only [readDeep, handlerDeserialize, deserializeObject_fails hl this hat', Res.bind_eq, Res.bind]
  | @inside hdr len body rest f c e hf hty ht hl hfail =>
    refine known hf ht hat fun it' cur hat' hfit => ?_
    have hlen := hat'.len
    have h31 := hat'.1
    have hp := ht.1.1.length_pos
    simp only [List.length_append] at hlen hn
    obtain ⟨o', h1⟩ := hrec c body e hfail (by omega) (by omega)
    have h2 : deserializeSub rec c it' = .throw e := by
      simp only [deserializeSub, deserializeLengthDelimited_of hl hat'.1 hat'.2.1 hat'.2.2, Res.bind_eq, Res.bind, h1]
    obtain ⟨num, ty⟩ := f
    rcases hty with rfl | rfl
    · cases cur <;> simp only [readDeep, h2, Res.bind_eq, Res.bind]
    · obtain ⟨l, rfl⟩ := hfit
      simp only [readDeep, h2, Res.bind_eq, Res.bind]

end

section
variable {eq : QtVal → QtVal → Bool} {env envQ : Env} {cls : Classes}

/-! ### Writing -/

theorem deepRecs_append {Sub : Nat → Bytes → List Deep → Prop} {d : Nat} {fs : List DeepField} {a b : List (Nat × Bytes)} {o o1 o2 : List Deep}
    (h1 : DeepRecs eq env envQ Sub d fs a o o1) (h2 : DeepRecs eq env envQ Sub d fs b o1 o2) : DeepRecs eq env envQ Sub d fs (a ++ b) o o2 := by
  induction h1 with
  | nil => exact h2
  | known e1 e2 e3 _ ih => exact .known e1 e2 e3 (ih h2)
  | unknown e1 e2 e3 _ ih => exact .unknown e1 e2 e3 (ih h2)

theorem deep_set_self {o : List Deep} {i : Nat} {s : Deep} (h : o[i]? = some s) : o.set i s = o := by
  obtain ⟨hi, rfl⟩ := List.getElem?_eq_some_iff.mp h
  exact List.set_getElem_self hi

theorem deepRecs_of_fieldRecs {Sub : Nat → Bytes → List Deep → Prop} {fs : List DeepField} {d i num : Nat} {ty : FieldTy}
    (hf : fs[i]? = some ⟨num, .plain ty⟩) {bss : List Bytes} {v v' : Val} (h : FieldRecs env (Message env d) ⟨num, ty⟩ bss v v') {o : List Deep}
    (ho : o[i]? = some (.val v)) : DeepRecs eq env envQ Sub d fs (bss.map fun b => (num, b)) o (o.set i (.val v')) := by
  induction h generalizing o with
  | nil v => rw [deep_set_self ho]; exact .nil o
  | @cons bs rs v v1 v2 hr _ ih =>
    have hlt := (List.getElem?_eq_some_iff.mp ho).1
    have := ih (o := o.set i (.val v1)) (by simp [hlt])
    rw [List.set_set] at this
    exact .known hf ho (.plain hr) this

section
variable {n : Nat}
  (hrec : ∀ {c : Nat} {o : List Deep} {bs : Bytes}, Sendable env cls (.sub c) (.sub o) → serializeDeep env envQ cls n c o = .ok bs → bs.length < 2 ^ 31 →
    ∃ o', DeepMessage eq env envQ cls n c bs o' ∧ Received eq env cls (.sub c) (.sub o) (.sub o'))
include hrec

theorem subs_recs {fs : List DeepField} {i num c : Nat} (hf : fs[i]? = some ⟨num, .subs c⟩) (hn : 1 ≤ num ∧ num < 2 ^ 29) : ∀ {l : List Deep},
    (∀ o, Deep.sub o ∈ l → Sendable env cls (.sub c) (.sub o)) → ∀ {bs : Bytes}, serializeSubs (serializeDeep env envQ cls n) num c l = .ok bs →
    bs.length < 2 ^ 31 →
    ∃ (bss : List Bytes) (os : List (List Deep)), bs = bss.flatten ∧ os.length = (objects l).length ∧
      (∀ (i : Nat) (o o' : List Deep), (objects l)[i]? = some o → os[i]? = some o' → Received eq env cls (.sub c) (.sub o) (.sub o')) ∧
      ∀ (pre o : List Deep), o[i]? = some (.subs pre) →
        DeepRecs eq env envQ (DeepMessage eq env envQ cls n) n fs (bss.map fun b => (num, b)) o (o.set i (.subs (pre ++ os.map .sub)))
  | [], _, bs, h, _ => by
    simp only [serializeSubs, Res.ok.injEq] at h
    subst h
    refine ⟨[], [], rfl, rfl, by simp [objects], fun pre o ho => ?_⟩
    simp only [List.map_nil, List.append_nil]
    rw [deep_set_self ho]
    exact .nil o
  | x :: l, hl, bs, h, hlen => by
    have skip : serializeSubs (serializeDeep env envQ cls n) num c l = .ok bs → objects (x :: l) = objects l →
        ∃ (bss : List Bytes) (os : List (List Deep)), bs = bss.flatten ∧ os.length = (objects (x :: l)).length ∧
          (∀ (i : Nat) (o o' : List Deep), (objects (x :: l))[i]? = some o → os[i]? = some o' → Received eq env cls (.sub c) (.sub o) (.sub o')) ∧
          ∀ (pre o : List Deep), o[i]? = some (.subs pre) →
            DeepRecs eq env envQ (DeepMessage eq env envQ cls n) n fs (bss.map fun b => (num, b)) o (o.set i (.subs (pre ++ os.map .sub))) := by
      intro h e
      rw [e]
      exact subs_recs hf hn (fun o ho => hl o (List.mem_cons_of_mem _ ho)) h hlen
    cases x with
    | sub x =>
      simp only [serializeSubs, Res.bind_eq, Res.bind_eq_ok, Res.ok.injEq] at h
      obtain ⟨body, hb, r, hr, rfl⟩ := h
      simp only [List.length_append] at hlen
      have hfl : (frameObject num body).length < 2 ^ 31 := by omega
      have hvl := frame_len hfl
      obtain ⟨x', hm, hx⟩ := hrec (hl x List.mem_cons_self) hb (by
        simp only [frameObject, prependLengthDelimitedSize, List.length_append] at hfl; omega)
      obtain ⟨bss, os, e1, e2, e3, e4⟩ := subs_recs hf hn (fun o ho => hl o (List.mem_cons_of_mem _ ho)) hr (by omega)
      refine ⟨frameObject num body :: bss, x' :: os, by simp [e1], by simp [objects, e2], ?_, ?_⟩
      · intro j a b ha hb
        cases j with
        | zero => simp [objects] at ha hb; subst ha hb; exact hx
        | succ j => exact e3 j a b (by simpa [objects] using ha) (by simpa using hb)
      · intro pre o ho
        have hlt := (List.getElem?_eq_some_iff.mp ho).1
        have := e4 (pre ++ [.sub x']) (o.set i (.subs (pre ++ [.sub x']))) (by simp [hlt])
        rw [List.set_set] at this
        rw [List.map_cons, List.append_assoc] at *
        exact .known hf ho (.elem (frameObject_tag hn.1 hn.2) hvl hm) this
    | val v => exact skip h rfl
    | qt q => exact skip h rfl
    | unset => exact skip h rfl
    | subs l' => exact skip h rfl

/-- One field, written and taken as records. -/
theorem deepField_recs (w : World env envQ) {fs : List DeepField} {i : Nat} {f : DeepField} (hf : fs[i]? = some f) (hn : 1 ≤ f.num ∧ f.num < 2 ^ 29) {s : Deep}
    (hs : Sendable env cls f.ty s) {bs : Bytes} (hb : serializeDeepField env envQ cls (serializeDeep env envQ cls n) n f s = .ok bs)
    (hlen : bs.length < 2 ^ 31) :
    ∃ (bss : List Bytes) (s' : Deep), bs = bss.flatten ∧ Received eq env cls f.ty s s' ∧
      ∀ o : List Deep, o[i]? = some f.default →
        DeepRecs eq env envQ (DeepMessage eq env envQ cls n) n fs (bss.map fun b => (f.num, b)) o (o.set i s') := by
  obtain ⟨num, ty⟩ := f
  simp only at hs hn
  have one : ∀ {c : Nat} {x : List Deep}, Sendable env cls (.sub c) (.sub x) → fs[i]? = some ⟨num, .sub c⟩ →
      (serializeDeep env envQ cls n c x >>= fun body => Res.ok (frameObject num body)) = .ok bs →
      ∃ x', Received eq env cls (.sub c) (.sub x) (.sub x') ∧ ∀ o : List Deep, o[i]? = some .unset →
        DeepRecs eq env envQ (DeepMessage eq env envQ cls n) n fs [(num, bs)] o (o.set i (.sub x')) := by
    intro c x hx hf hb'
    simp only [Res.bind_eq, Res.bind_eq_ok, Res.ok.injEq] at hb'
    obtain ⟨body, hb', rfl⟩ := hb'
    obtain ⟨x', hm, hr⟩ := hrec hx hb' (by
      simp only [frameObject, prependLengthDelimitedSize, List.length_append] at hlen; omega)
    exact ⟨x', hr, fun o ho => .known hf ho (.sub (frameObject_tag hn.1 hn.2) (frame_len hlen) hm) (.nil _)⟩
  cases hs with
  | @plain ty v hv =>
    have hrec : RecOk env (Message env n) (serializeMessage env n) := fun m o body h1 h2 h3 => serializeMessage_message w.schema w.order h2 h1 h3
    obtain ⟨v', h1, bss, h2, h3⟩ := FieldBytes.property_turns (f := ⟨num, ty⟩) (Sub := Message env n) hrec hn hv hb hlen
    exact ⟨bss, .val v', h2, .plain h1, fun o ho => deepRecs_of_fieldRecs hf h3 ho⟩
  | @qt q hq =>
    obtain ⟨hdr, len, body, o', rfl, ht, hl, hm, hc⟩ := qt_record w hn hq hb hlen
    have hpz := carrier_plusZero q
    have hfp := faithful_plusZero hq
    cases he : eq (qtDefault (Peer.carrier q)) (plusZero q) with
    | true =>
      refine ⟨[hdr ++ (len ++ body)], .qt (qtDefault (Peer.carrier q)), by simp, .asNew he, fun o ho => ?_⟩
      have hr := DeepRecord.same (eq := eq) (env := env) (Sub := DeepMessage eq env envQ cls n) (old := qtDefault (Peer.carrier q)) ht hl (hpz.symm ▸ hm) hc hfp he
      rw [hpz] at hr
      exact .known hf ho hr (.nil _)
    | false =>
      refine ⟨[hdr ++ (len ++ body)], .qt (plusZero q), by simp, .qt he, fun o ho => ?_⟩
      have hr := DeepRecord.other (eq := eq) (env := env) (Sub := DeepMessage eq env envQ cls n) (old := qtDefault (Peer.carrier q)) ht hl (hpz.symm ▸ hm) hc hfp he
      rw [hpz] at hr
      exact .known hf ho hr (.nil _)
  | @unset c hx =>
    obtain ⟨x', h1, h2⟩ := one hx hf hb
    exact ⟨[bs], .sub x', by simp, .unset h1, fun o ho => h2 o ho⟩
  | @sub c x h1 h2 =>
    obtain ⟨x', h1, h2⟩ := one (.sub h1 h2) hf hb
    exact ⟨[bs], .sub x', by simp, h1, fun o ho => h2 o ho⟩
  | @subs c l hl =>
    obtain ⟨bss, os, e1, e2, e3, e4⟩ := subs_recs hrec hf hn hl hb hlen
    exact ⟨bss, .subs (os.map .sub), e1, .subs e2 e3, fun o ho => e4 [] o ho⟩

theorem deepFields_recs (w : World env envQ) {fs : List DeepField} (hV : ∀ f ∈ fs, 1 ≤ f.num ∧ f.num < 2 ^ 29) {obj : List Deep} (hol : obj.length = fs.length)
    (hobj : ∀ (i : Nat) (f : DeepField) (s : Deep), fs[i]? = some f → obj[i]? = some s → Sendable env cls f.ty s) (is : List Nat) (hnd : is.Nodup)
    (hin : ∀ i ∈ is, i < fs.length) {bs : Bytes}
    (hbs : concatRes (is.map fun i => match fs[i]?, obj[i]? with
      | some f, some s => serializeDeepField env envQ cls (serializeDeep env envQ cls n) n f s
      | _, _ => .ok []) = .ok bs) (hlen : bs.length < 2 ^ 31) (o : List Deep) (hl : o.length = fs.length)
    (hdef : ∀ i ∈ is, ∀ f, fs[i]? = some f → o[i]? = some f.default) :
    ∃ rs o', bs = bytesOf rs ∧ DeepRecs eq env envQ (DeepMessage eq env envQ cls n) n fs rs o o' ∧ o'.length = fs.length ∧ (∀ i, i ∉ is → o'[i]? = o[i]?) ∧
      (∀ i f s s', i ∈ is → fs[i]? = some f → obj[i]? = some s → o'[i]? = some s' → Received eq env cls f.ty s s') := by
  induction is generalizing bs o with
  | nil =>
    simp only [List.map_nil, concatRes, Res.ok.injEq] at hbs
    subst hbs
    exact ⟨[], o, rfl, .nil o, hl, fun _ _ => rfl, by simp⟩
  | cons i is ih =>
    simp only [List.map_cons, concatRes, Res.bind_eq, Res.bind_eq_ok, Res.ok.injEq] at hbs
    obtain ⟨a, ha, b, hb, rfl⟩ := hbs
    simp only [List.length_append] at hlen
    simp only [List.nodup_cons] at hnd
    simp only [List.mem_cons, forall_eq_or_imp] at hin hdef
    have hi := hin.1
    have hfi : fs[i]? = some fs[i] := by simp [hi]
    have hvi : obj[i]? = some (obj[i]'(by omega)) := by simp [hol, hi]
    rw [hfi, hvi] at ha
    simp only at ha
    obtain ⟨bss, s', e1, h1, h2⟩ := deepField_recs hrec w hfi (hV _ (List.getElem_mem hi)) (hobj _ _ _ hfi hvi) ha (by omega)
    obtain ⟨rs, o', e2, h3, h4, h5, h6⟩ := ih hnd.2 hin.2 hb (by omega) (o.set i s') (by simpa using hl) (by
      intro j hj f hf
      have hij : i ≠ j := fun e => hnd.1 (e ▸ hj)
      rw [List.getElem?_set_ne hij]
      exact hdef.2 j hj f hf)
    refine ⟨(bss.map fun b => (fs[i].num, b)) ++ rs, o', ?_, deepRecs_append (h2 _ (hdef.1 _ hfi)) h3, h4, ?_, ?_⟩
    · rw [e1, e2]; simp [bytesOf, Function.comp_def]
    · intro j hj
      simp only [List.mem_cons, not_or] at hj
      rw [h5 j hj.2, List.getElem?_set_ne (Ne.symm hj.1)]
    · intro j f v v' hj hfj hvj hwj
      simp only [List.mem_cons] at hj
      rcases hj with rfl | hj
      · rw [h5 _ hnd.1] at hwj
        simp only [List.getElem?_set_self (show j < o.length by omega), Option.some.injEq] at hwj
        subst hwj
        rw [hfi] at hfj
        rw [hvi] at hvj
        simp only [Option.some.injEq] at hfj hvj
        subst hfj hvj
        exact h1
      · exact h6 j f v v' hj hfj hvj hwj

end

/-! ### C122 -/

/-- C122, reading: a message of any depth, its records and those of the messages in it in any order and with unknown ones among them, is read without an
exception and gives the contents that its records say. Missing: messages for which the conversion does not stand for a value. -/
theorem C122_read_partial (w : World env envQ) (hV : Valid cls) {d c : Nat} {bs : Bytes} {o : List Deep} (h : DeepMessage eq env envQ cls d c bs o)
    (hlen : bs.length < 2 ^ 31) {n : Nat} (hn : bs.length < n) : deserializeDeep eq env envQ cls n c bs = (.ok (), o) := by
  induction d generalizing c bs o n with
  | zero => exact h.elim
  | succ d ih =>
    obtain ⟨rs, rfl, h⟩ := h
    cases n with
    | zero => omega
    | succ n => exact deepLoop_of (n := n) (Sub := DeepMessage eq env envQ cls d) (rec := deserializeDeep eq env envQ cls n) w.schema w.qtSchema (fun c body o h h1 h2 => ih h h1 h2) (hV c).1 h (At.start hlen) (by omega) (by omega)

/-- C122, malformed messages: behind any valid records, a tag that is not one, an end of the input in a tag or in the length of a message, and a Qt value or
a message of another class that is malformed in turn, at any depth, are reported to the caller of the outermost `deserialize` with the exception that belongs to
the innermost error; the object contains what the outermost valid records say. Missing: errors in the values of fields of other types, which C14 and C15 have
for classes without Qt's types, and in unknown fields. -/
theorem C122_malformed_partial (w : World env envQ) (hV : Valid cls) {d c : Nat} {bs : Bytes} {e : Exn} {o : List Deep}
    (h : DeepFails eq env envQ cls d c bs e o) (hlen : bs.length < 2 ^ 31) {n : Nat} (hn : bs.length < n) :
    deserializeDeep eq env envQ cls n c bs = (.throw e, o) := by
  induction d generalizing c bs e o n with
  | zero => exact h.elim
  | succ d ih =>
    obtain ⟨rs, bad, rfl, hrs, hbad⟩ := h
    cases n with
    | zero => omega
    | succ n =>
      have hl := hlen
      simp only [List.length_append] at hn
      obtain ⟨k', it', h1, h2, h3⟩ := deepLoop_prefix (n := n) (Sub := DeepMessage eq env envQ cls d) (rec := deserializeDeep eq env envQ cls n) w.schema
        w.qtSchema (fun c body o h h1 h2 => C122_read_partial w hV h h1 h2) (hV c).1 hrs (At.start hl) (by omega) (k := n + 1) (by omega)
      simp only [deserializeDeep]
      rw [h3]
      cases k' with
      | zero =>
        have hne := (badDeep_throws (eq := eq) (env := env) (rec := deserializeDeep eq env envQ cls n) (n := n) (k := 0) w.qtSchema
          (fun c body e ⟨o', h⟩ h1 h2 => ⟨o', ih h h1 h2⟩) (hV c).1 hbad h2 (by omega) (fit_recs hrs fun i f hf => fit_new hf)).2
        have := List.length_pos_iff.mpr hne
        omega
      | succ k' =>
        obtain ⟨hp, hne⟩ := badDeep_throws (eq := eq) (env := env) (rec := deserializeDeep eq env envQ cls n) (n := n) (k := k') w.qtSchema
          (fun c body e ⟨o', h⟩ h1 h2 => ⟨o', ih h h1 h2⟩) (hV c).1 hbad h2 (by omega) (fit_recs hrs fun i f hf => fit_new hf)
        have := List.length_pos_iff.mpr hne
        have hl2 := h2.len
        simp only [deepLoop]
        rw [if_neg (by omega), hp]

/-- C122, writing: the bytes of an object are a message whose records give what is expected, at every depth.
Missing: maps whose values are messages with fields of Qt's types. -/
theorem C122_written_partial (w : World env envQ) (hV : Valid cls) {n c : Nat} {obj : List Deep} {bs : Bytes} (hobj : Sendable env cls (.sub c) (.sub obj))
    (hs : serializeDeep env envQ cls n c obj = .ok bs) (hlen : bs.length < 2 ^ 31) :
    ∃ o, DeepMessage eq env envQ cls n c bs o ∧ Received eq env cls (.sub c) (.sub obj) (.sub o) := by
  induction n generalizing c obj bs with
  | zero => simp [serializeDeep] at hs
  | succ n ih =>
    cases hobj with
    | sub hol hobj =>
      obtain ⟨_, hnum, hord⟩ := hV c
      have hmem : ∀ i, i ∈ cls.ord c ↔ i < (cls.tab c).length := by intro i; rw [hord.mem_iff, List.mem_range]
      obtain ⟨rs, o, h1, h2, h3, _, h5⟩ := deepFields_recs (eq := eq) (fun h1 h2 h3 => ih h1 h2 h3) w hnum hol hobj (cls.ord c)
        (hord.nodup_iff.mpr List.nodup_range) (fun i hi => (hmem i).mp hi) hs hlen (newObject cls c) (by simp [newObject])
        (by intro i _ f hf; simp [newObject, hf])
      exact ⟨o, ⟨rs, h1, h2⟩, .sub h3 fun i f s s' hf hv hv' => h5 i f s s' ((hmem i).mpr (List.getElem?_eq_some_iff.mp hf).1) hf hv hv'⟩

/-- C122, round trip: what is written is read without an exception, and every Qt value at every depth is the one that was sent, up to the sign of zeros and
what Qt takes for equal to the value of a new object; all else arrives as without Qt's types (C01). -/
theorem C122_roundtrip_partial (w : World env envQ) (hV : Valid cls) {n c : Nat} {obj : List Deep} {bs : Bytes} (hobj : Sendable env cls (.sub c) (.sub obj))
    (hs : serializeDeep env envQ cls n c obj = .ok bs) (hlen : bs.length < 2 ^ 31) {k : Nat} (hk : bs.length < k) :
    ∃ o, deserializeDeep eq env envQ cls k c bs = (.ok (), o) ∧ Received eq env cls (.sub c) (.sub obj) (.sub o) := by
  obtain ⟨o, h1, h2⟩ := C122_written_partial (eq := eq) w hV hobj hs hlen
  exact ⟨o, C122_read_partial w hV h1 hlen hk, h2⟩

theorem subs_yield {num c : Nat} : ∀ {l : List Deep}, (∀ o, Deep.sub o ∈ l → ∃ b, Yields (fun n => serializeDeep env envQ cls n c o) b) →
    ∃ b, Yields (fun n => serializeSubs (serializeDeep env envQ cls n) num c l) b
  | [], _ => ⟨[], Yields.pure _⟩
  | x :: l, h => by
    obtain ⟨r, hr⟩ := subs_yield (num := num) (l := l) fun o ho => h o (List.mem_cons_of_mem _ ho)
    cases x with
    | sub o =>
      obtain ⟨b, hb⟩ := h o List.mem_cons_self
      exact ⟨frameObject num b ++ r, hb.bind (hr.bind (Yields.pure _))⟩
    | _ => exact ⟨r, hr⟩

/-- `serialize` returns for every such object, unless the messages of the fields without Qt values form a cycle or there is a repeated `bool`. (An unset
member of a class that contains itself is not `Sendable`.) -/
theorem C122_returns_partial (w : World env envQ) {rank : Nat → Nat} (ha : Acyclic env rank) (hb : NoRepeatedBool env)
    (hb' : ∀ c, ∀ f ∈ cls.tab c, f.ty ≠ .plain (.list .bool)) {c : Nat} {obj : List Deep} (hobj : Sendable env cls (.sub c) (.sub obj)) :
    ∃ N bs, ∀ n, N ≤ n → serializeDeep env envQ cls n c obj = .ok bs := by
  have hr : Ranked env rank := fun m f hf => ⟨ha m f hf, hb m f hf⟩
  have key : ∀ {ty : DeepTy} {s : Deep}, Sendable env cls ty s →
      (∀ num, ty ≠ .plain (.list .bool) → ∃ b, Yields (fun n => serializeDeepField env envQ cls (serializeDeep env envQ cls n) n ⟨num, ty⟩ s) b) ∧
      (∀ c o, ty = .sub c → s = .sub o → ∃ b, Yields (fun n => serializeDeep env envQ cls n c o) b) := by
    intro ty s h
    induction h with
    | @plain ty v hv =>
      refine ⟨fun num hbool => ?_, by simp⟩
      show ∃ b, Yields (fun n => serializeProperty env (serializeMessage env n) num ty v) b
      cases hv with
      | sc => exact ⟨_, Yields.pure _⟩
      | @scList k l =>
        have : k.hasListHandler = true := by
          cases k <;> first | rfl | exact absurd rfl hbool
        refine ⟨withHeader num wtLengthDelimited (serializeListType env k l num), ?_⟩
        simp only [serializeProperty, this, if_true]; exact Yields.pure _
      | enum => exact ⟨_, Yields.pure _⟩
      | enumList => exact ⟨_, Yields.pure _⟩
      | null m => exact canSer_frame (canSer_default hr _ m (Nat.lt_succ_self _))
      | msg h1 h2 => exact canSer_frame (canSer_ranked hr (.msg h1 h2))
      | msgList h => exact canSer_msgList fun o ho => canSer_ranked hr (h _ ho)
      | map hk h hs => exact canSer_map fun m o key hm ho => canSer_ranked hr (by
          have := h _ ho
          rw [hm] at this
          exact this)
    | @qt q hq =>
      refine ⟨fun num _ => ?_, by simp⟩
      show ∃ b, Yields (fun n => handlerSerialize envQ n num q) b
      have hsch := w.qtSchema.trans Peer.C86_schema.1.symm
      obtain ⟨o, h1, _⟩ := convert_roundtrip (env := envQ) hq
      obtain ⟨ht, _⟩ := toMessage_carried hsch (fun u => w.ascii _ (ascii_uuid u)) h1
      obtain ⟨N, body, hN⟩ := C20_serialize_terminates_partial (qtSch_acyclic hsch) (qtSch_noBool hsch) ht
      refine ⟨frameObject num body, N, fun n hn => ?_⟩
      simp only [handlerSerialize, h1, hN n hn, Res.bind_eq, Res.bind]
    | @unset c _ ih =>
      obtain ⟨b, hb⟩ := ih.2 c _ rfl rfl
      exact ⟨fun num _ => ⟨frameObject num b, hb.bind (Yields.pure _)⟩, by simp⟩
    | @sub c o hl hf ih =>
      have h1 : ∃ b, Yields (fun n => serializeDeep env envQ cls n c o) b := by
        obtain ⟨b, hb⟩ := yields_concat (ps := (cls.ord c).map fun i n => match (cls.tab c)[i]?, o[i]? with
            | some f, some s => serializeDeepField env envQ cls (serializeDeep env envQ cls n) n f s
            | _, _ => .ok []) (by
          intro p hp
          simp only [List.mem_map] at hp
          obtain ⟨i, _, rfl⟩ := hp
          cases hfi : (cls.tab c)[i]? with
          | none => exact ⟨[], Yields.pure _⟩
          | some f =>
            cases hoi : o[i]? with
            | none => exact ⟨[], Yields.pure _⟩
            | some s => exact (ih i f s hfi hoi).1 f.num (hb' c f (List.mem_of_getElem? hfi)))
        refine ⟨b, hb.shift fun n => ?_⟩
        simp only [List.map_map, Function.comp_def]
        rfl
      refine ⟨fun num _ => ?_, ?_⟩
      · obtain ⟨b, hb⟩ := h1
        exact ⟨frameObject num b, hb.bind (Yields.pure _)⟩
      · rintro _ _ e1 e2
        cases e1
        cases e2
        exact h1
    | @subs c l h ih =>
      exact ⟨fun num _ => subs_yield fun o ho => (ih o ho).2 c o rfl rfl, by simp⟩
  obtain ⟨b, N, h⟩ := (key hobj).2 c obj rfl rfl
  exact ⟨N, b, h⟩

end

/-! ### Cases -/

/-- `message Leg { QtProtobuf.QSize a = 1; QtProtobuf.QPoint b = 2; }` and
`message Route { int32 n = 1; Leg first = 2; repeated Leg legs = 3; QtProtobuf.QRect r = 5; }` -/
def route : Classes where
  tab c := if c = 0 then [⟨1, .qt 5⟩, ⟨2, .qt 7⟩] else if c = 1 then [⟨1, .plain (.scalar .int32)⟩, ⟨2, .sub 0⟩, ⟨3, .subs 0⟩, ⟨5, .qt 9⟩] else []
  ord c := if c = 0 then [1, 0] else if c = 1 then [2, 0, 3, 1] else []

def leg (w x : BitVec 32) : List Deep := [.qt (.size ⟨w, 4⟩), .qt (.point ⟨x, 0⟩)]

/-- The first leg is unset; one of the pointers in the list is null. -/
def routeObject : List Deep := [.val (.sc (.w32 7)), .unset, .subs [.sub (leg 3 1), .unset, .sub (leg 5 2)], .qt (.rect ⟨1, 2, 3, 4⟩)]

theorem leg_sendable {env : Env} (w x : BitVec 32) : Sendable env route (.sub 0) (.sub (leg w x)) := by
  refine .sub rfl fun i f s hf hs => ?_
  match i with
  | 0 => cases hf; cases hs; exact Sendable.qt (q := .size ⟨w, 4⟩) trivial
  | 1 => cases hf; cases hs; exact Sendable.qt (q := .point ⟨x, 0⟩) trivial
  | _ + 2 => simp [route] at hf

/-- The hypotheses of the round trip. -/
theorem route_sendable {env : Env} : Valid route ∧ Sendable env route (.sub 1) (.sub routeObject) := by
  refine ⟨fun c => ?_, .sub rfl fun i f s hf hs => ?_⟩
  · by_cases h0 : c = 0
    · subst h0; decide
    · by_cases h1 : c = 1
      · subst h1; decide
      · simp [route, h0, h1]
  · match i with
    | 0 => cases hf; cases hs; exact .plain (.sc rfl)
    | 1 =>
      cases hf; cases hs
      refine .unset (.sub rfl fun i f s hf hs => ?_)
      match i with
      | 0 => cases hf; cases hs; exact Sendable.qt (q := .size ⟨-1, -1⟩) trivial
      | 1 => cases hf; cases hs; exact Sendable.qt (q := .point ⟨0, 0⟩) trivial
      | _ + 2 => simp [route] at hf
    | 2 =>
      cases hf; cases hs
      refine .subs fun o ho => ?_
      simp only [List.mem_cons, Deep.sub.injEq, reduceCtorEq, List.not_mem_nil, or_false, false_or] at ho
      rcases ho with rfl | rfl
      · exact leg_sendable 3 1
      · exact leg_sendable 5 2
    | 3 =>
      cases hf; cases hs
      exact Sendable.qt (q := .rect ⟨1, 2, 3, 4⟩) (by simp only [Faithful, Fits]; decide)
    | _ + 4 => simp [route] at hf

/-- The other hypotheses of `C122_returns_partial`. -/
example : let env := { demoEnv with sch := fun m => if m = 1 then demoSch 1 else [], ord := fun m => if m = 1 then [0, 1] else [] }
    World env qtEnv ∧ Acyclic env (fun _ => 0) ∧ NoRepeatedBool env ∧ ∀ c, ∀ f ∈ route.tab c, f.ty ≠ .plain (.list .bool) := by
  refine ⟨⟨fun m => ?_, fun m => ?_, demo_world.qtSchema, demo_world.qtOrder, demo_world.ascii⟩, fun m => ?_, fun m => ?_, fun c => ?_⟩
  · by_cases h : m = 1
    · subst h; decide
    · simp [h]
  · by_cases h : m = 1
    · subst h; decide
    · simp [h]
  · by_cases h : m = 1
    · subst h; simp [demoSch]
    · simp [h]
  · by_cases h : m = 1
    · subst h; simp [demoSch]
    · simp [h]
  · by_cases h0 : c = 0
    · subst h0; simp [route]
    · by_cases h1 : c = 1
      · subst h1; simp [route]
      · simp [route, h0, h1]

/-- The object is written and read; the null pointer is left out, and the unset leg arrives as a new one. -/
example : ∃ bs, serializeDeep demoEnv qtEnv route 5 1 routeObject = .ok bs ∧
    deserializeDeep (fun _ _ => false) demoEnv qtEnv route 80 1 bs =
      (.ok (), [.val (.sc (.w32 7)), .sub [.qt (.size ⟨-1, -1⟩), .qt (.point ⟨0, 0⟩)], .subs [.sub (leg 3 1), .sub (leg 5 2)], .qt (.rect ⟨1, 2, 3, 4⟩)]) :=
  ⟨_, rfl, by with_unfolding_all rfl⟩

/-- Hypotheses of `C122_read_partial`: a message with an unknown field and a leg of which the size is missing. -/
example : DeepMessage (fun _ _ => false) demoEnv qtEnv route 3 1 [0x48, 1, 0x12, 2, 0x12, 0]
    [.val (.sc (.w32 0)), .sub [.qt (.size ⟨-1, -1⟩), .qt (.point ⟨0, 0⟩)], .subs [], .qt (.rect ⟨0, 0, -1, -1⟩)] := by
  refine ⟨[(9, [0x48, 1]), (2, [0x12, 2, 0x12, 0])], rfl, ?_⟩
  refine .unknown (hdr := [0x48]) (payload := [1]) (wt := 0) (by decide) (tag1 0x48 9 0 rfl (by decide) (by decide))
    (.varint (IsVarint.last 1 (by decide))) ?_
  refine .known (i := 1) (f := ⟨2, .sub 0⟩) rfl rfl (DeepRecord.sub (hdr := [0x12]) (len := [2]) (body := [0x12, 0])
    (tag1 0x12 2 2 rfl (by decide) (by decide)) (varint1 2 2 rfl (by decide)) (o := [.qt (.size ⟨-1, -1⟩), .qt (.point ⟨0, 0⟩)]) ?_) (.nil _)
  refine ⟨[(2, [0x12, 0])], rfl, ?_⟩
  refine .known (i := 1) (f := ⟨2, .qt 7⟩) rfl rfl (DeepRecord.other (q := .point ⟨0, 0⟩) (hdr := [0x12]) (len := [0]) (body := [])
    (tag1 0x12 2 2 rfl (by decide) (by decide)) (varint1 0 0 rfl (by decide)) (o := defaultObj qtEnv 7) ?_ ⟨rfl, rfl⟩ trivial rfl) (.nil _)
  exact Stream.nil (m := 7) _

/-- Hypotheses of `C122_malformed_partial`: a group tag in the `QPoint` of the second of two legs. -/
example : DeepFails (fun _ _ => false) demoEnv qtEnv route 2 1 [0x1a, 0, 0x1a, 3, 0x12, 1, 0x0b] .invalidArgument
    [.val (.sc (.w32 0)), .unset, .subs [.sub [.qt (.size ⟨-1, -1⟩), .qt (.point ⟨0, 0⟩)]], .qt (.rect ⟨0, 0, -1, -1⟩)] := by
  refine ⟨[(3, [0x1a, 0])], [0x1a, 3, 0x12, 1, 0x0b], rfl, ?_, ?_⟩
  · exact .known (i := 2) (f := ⟨3, .subs 0⟩) rfl rfl (DeepRecord.elem (hdr := [0x1a]) (len := [0]) (body := [])
      (tag1 0x1a 3 2 rfl (by decide) (by decide)) (varint1 0 0 rfl (by decide)) (o := newObject route 0) ⟨[], rfl, .nil _⟩) (.nil _)
  · refine .inside (hdr := [0x1a]) (len := [3]) (body := [0x12, 1, 0x0b]) (rest := []) (f := ⟨3, .subs 0⟩) (c := 0) (by decide) (by simp)
      (tag1 0x1a 3 2 rfl (by decide) (by decide)) (varint1 3 3 rfl (by decide)) ⟨newObject route 0, [], [0x12, 1, 0x0b], rfl, .nil _, ?_⟩
    exact .qt (hdr := [0x12]) (len := [1]) (body := [0x0b]) (rest := []) (num := 2) (m := 7) (d := 1) (o := defaultObj qtEnv 7) (by decide)
      (tag1 0x12 2 2 rfl (by decide) (by decide)) (varint1 1 1 rfl (by decide))
      ⟨[], [0x0b], rfl, .nil _, .tag (tag := [0x0b]) (rest := []) (varint1 0x0b 11 (by decide) (by decide)) (by decide)⟩

/-! ### Where it fails -/

/-- An unset sub-message whose class has a `QTime`, which would be null, arrives as one with midnight: `message Sub { QtProtobuf.QTime t = 1; }`,
`message M { Sub s = 1; }`. -/
theorem C122_unset_violated (eq : QtVal → QtVal → Bool) (h : eq (.time ⟨-1⟩) (.time ⟨0⟩) = false) :
    ∃ bs, serializeDeep demoEnv qtEnv ⟨fun c => if c = 0 then [⟨1, .qt 2⟩] else [⟨1, .sub 0⟩], fun _ => [0]⟩ 4 1 [.unset] = .ok bs ∧
      deserializeDeep eq demoEnv qtEnv ⟨fun c => if c = 0 then [⟨1, .qt 2⟩] else [⟨1, .sub 0⟩], fun _ => [0]⟩ 9 1 bs =
        (.ok (), [.sub [.qt (.time ⟨0⟩)]]) := by
  refine ⟨_, rfl, ?_⟩
  have : deserializeDeep eq demoEnv qtEnv ⟨fun c => if c = 0 then [⟨1, .qt 2⟩] else [⟨1, .sub 0⟩], fun _ => [0]⟩ 9 1 [10, 2, 10, 0] =
      (.ok (), [.sub [.qt (setQt eq (.time ⟨-1⟩) (.time ⟨0⟩))]]) := by
    with_unfolding_all rfl
  rw [setQt, h] at this
  exact this

end QtPb.Qt
