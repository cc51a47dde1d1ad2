import Verif.SpecQtFields
import Verif.FieldBytes
import Verif.PropsQtPeers
/-
C120: messages with fields of Qt's types among others.
-/
namespace QtPb.Qt
open QtPb QtPb.Spec FieldSpec

section
variable {eq : QtVal → QtVal → Bool} {env envQ : Env} {fs : List Member}

/-! ### Reading records -/

theorem findMember_of {i : Nat} {f : Member} (hnd : (fs.map (·.num)).Nodup) (h : fs[i]? = some f) : findMember fs f.num = some i := by
  unfold findMember
  rw [List.findIdx?_eq_some_iff_getElem]
  obtain ⟨hi, rfl⟩ := List.getElem?_eq_some_iff.mp h
  refine ⟨hi, by simp, ?_⟩
  intro j hj
  simp only [beq_iff_eq]
  intro he
  have hji : j < fs.length := by omega
  have := List.pairwise_iff_getElem.mp hnd j i (by simpa using hji) (by simpa using hi) hj
  simp at this
  exact this he

theorem findMember_none {num : Nat} (h : ∀ f ∈ fs, f.num ≠ num) : findMember fs num = none := by
  unfold findMember
  rw [List.findIdx?_eq_none_iff]
  intro f hf
  simpa using h f hf

theorem handlerDeserialize_of (hs : envQ.sch = Peer.schema) {d n : Nat} {len body rest : Bytes} {o : Obj} {q : QtVal} (hl : Varint len body.length)
    (hm : Message envQ d (Peer.carrier q) body o) (hsh : Peer.Shows q o) (hf : Faithful q) {it : It} (hat : At it (len ++ body ++ rest))
    (hn : body.length < n) : handlerDeserialize envQ n (Peer.carrier q) it = .ok (q, ⟨it.data, it.pos + (len ++ body).length⟩) := by
  have hv : ValidSchema envQ := qtSch_valid (hs.trans Peer.C86_schema.1.symm)
  have hd := deserializeObject_of (n := n) (rec := deserializeMessage envQ n) (Sub := Message envQ d)
    (fun m body o h h1 h2 => deserializeMessage_of_message hv h h1 h2) hl hm hat hn
  simp only [handlerDeserialize, hd, Res.bind_eq, Res.bind, Peer.C86_read_partial hs hf hsh]

theorem readMember_of (hv : ValidSchema env) (hq : envQ.sch = Peer.schema) {d n k : Nat} {f : Member} {bs rest : Bytes} {old new : Slot}
    (h : MemberRecord eq env envQ d f bs old new) :
    ∃ hdr payload wt, bs = hdr ++ payload ∧ Tag hdr f.num wt ∧ (wt = 0 ∨ wt = 1 ∨ wt = 2 ∨ wt = 5) ∧
      ∀ it, At it (payload ++ rest) → payload.length ≤ n → payload.length ≤ k →
        readMember eq env envQ (deserializeMessage env n) n k f old it = .ok (new, ⟨it.data, it.pos + payload.length⟩) := by
  have qt : ∀ {num : Nat} {len body : Bytes} {o : Obj} {q old : QtVal}, Varint len body.length → Message envQ d (Peer.carrier q) body o →
      Peer.Shows q o → Faithful q → ∀ it, At it (len ++ body ++ rest) → (len ++ body).length ≤ n →
        readMember eq env envQ (deserializeMessage env n) n k ⟨num, .qt (Peer.carrier q)⟩ (.qt old) it =
          .ok (.qt (setQt eq old q), ⟨it.data, it.pos + (len ++ body).length⟩) := by
    intro num len body o q old hl hm hsh hf it hat hn
    have hp := hl.1.length_pos
    have := handlerDeserialize_of (n := n) hq hl hm hsh hf hat (by simp only [List.length_append] at hn; omega)
    simp only [readMember, this, Res.bind_eq, Res.bind]
  cases h with
  | @plain num ty _ old new h =>
    obtain ⟨hdr, payload, wt, v, rfl, ht, he, rfl⟩ := h
    refine ⟨hdr, payload, wt, rfl, ht, fieldEffect_wt he, ?_⟩
    intro it hat hn hk
    have := deserializeValue_of (n := n) (rec := deserializeMessage env n) (Sub := Message env d)
      (fun m body o h h1 h2 => deserializeMessage_of_message hv h h1 h2) he hat hn hk
    simp only [readMember, this, Res.bind_eq, Res.bind, store_eq]
  | @same num hdr len body o q old ht hl hm hsh hf he =>
    refine ⟨hdr, len ++ body, 2, rfl, ht, by simp, ?_⟩
    intro it hat hn hk
    rw [qt hl hm hsh hf it hat hn, setQt, if_pos he]
  | @other num hdr len body o q old ht hl hm hsh hf he =>
    refine ⟨hdr, len ++ body, 2, rfl, ht, by simp, ?_⟩
    intro it hat hn hk
    rw [qt hl hm hsh hf it hat hn, setQt, he]
    rfl

theorem membersLoop_of (hv : ValidSchema env) (hq : envQ.sch = Peer.schema) (hnd : (fs.map (·.num)).Nodup) {d n : Nat} {rs : List (Nat × Bytes)}
    {o o' : List Slot} (h : SlotRecs eq env envQ d fs rs o o') {it : It} (hat : At it (bytesOf rs)) (hn : (bytesOf rs).length ≤ n) {k : Nat}
    (hk : (bytesOf rs).length < k) : membersLoop eq env envQ (deserializeMessage env n) n fs k it o = (.ok (), o') := by
  induction h generalizing it k with
  | nil o =>
    have hl := hat.len
    cases k with
    | zero => omega
    | succ k =>
      simp only [bytesOf, List.map_nil, List.flatten_nil, List.length_nil] at hl
      simp [membersLoop, show it.pos = it.data.length by omega]
  | @cons num bs rs o o1 o2 hr _ ih =>
    have eb : bytesOf ((num, bs) :: rs) = bs ++ bytesOf rs := by simp [bytesOf]
    rw [eb] at hat hn hk
    have hl := hat.len
    cases k with
    | zero => omega
    | succ k =>
      cases hr with
      | @known _ i f _ old new hf ho hm =>
        obtain ⟨hdr, payload, wt, rfl, ht, hwt, hread⟩ := readMember_of (n := n) (k := k) (rest := bytesOf rs) hv hq hm
        have hp := ht.1.1.length_pos
        simp only [List.length_append] at hl hn hk
        rw [List.append_assoc] at hat
        simp only [membersLoop]
        rw [if_neg (by omega)]
        have hd : readProperty eq env envQ (deserializeMessage env n) n k fs it o
            = .ok (⟨it.data, it.pos + hdr.length + payload.length⟩, o.set i new) := by
          simp only [readProperty, decodeHeader_of ht hwt hat.2.2, Res.bind_eq, Res.bind, findMember_of hnd hf, hf, ho]
          rw [hread _ hat.adv (by omega) (by omega)]
          simp
        rw [hd]
        exact ih hat.adv.adv (by omega) (by omega)
      | @unknown _ wt hdr payload _ hnone ht hs =>
        have hp := ht.1.1.length_pos
        simp only [List.length_append] at hl hn hk
        rw [List.append_assoc] at hat
        simp only [membersLoop]
        rw [if_neg (by omega)]
        have hd : readProperty eq env envQ (deserializeMessage env n) n k fs it o
            = .ok (⟨it.data, it.pos + hdr.length + payload.length⟩, o) := by
          simp only [readProperty, decodeHeader_of ht (skippable_wt hs) hat.2.2, Res.bind_eq, Res.bind, findMember_none hnone]
          rw [skipField_of hs hat.adv.1 hat.adv.2.1 hat.adv.2.2]
          simp
        rw [hd]
        exact ih hat.adv.adv (by omega) (by omega)

/-! ### Written records -/

theorem expressible_of {q : QtVal} (h : Faithful q) : Peer.Expressible q := by
  cases q with
  | rect r =>
    have h : Fits r.x1 r.x2 ∧ Fits r.y1 r.y2 := h
    exact ⟨h.1.1, h.1.2.1, h.2.1, h.2.2.1⟩
  | _ => trivial

theorem carrier_plusZero (q : QtVal) : Peer.carrier (plusZero q) = Peer.carrier q := by cases q <;> rfl

theorem qt_record (w : World env envQ) {n num : Nat} (hn : 1 ≤ num ∧ num < 2 ^ 29) {q : QtVal} (h : Faithful q) {bs : Bytes}
    (hs : handlerSerialize envQ n num q = .ok bs) (hlen : bs.length < 2 ^ 31) :
    ∃ hdr len body o, bs = hdr ++ (len ++ body) ∧ Tag hdr num 2 ∧ Varint len body.length ∧ 
      Message envQ n (Peer.carrier q) body o ∧ Peer.Shows (plusZero q) o := by
  have hsch := w.qtSchema.trans Peer.C86_schema.1.symm
  obtain ⟨o, h1, _⟩ := convert_roundtrip (env := envQ) h
  obtain ⟨ht, o', h2, hc⟩ := toMessage_carried hsch (fun u => w.ascii _ (ascii_uuid u)) h1
  obtain ⟨o'', h3, h4⟩ := Peer.C86_message (expressible_of (faithful_plusZero h))
  rw [h2] at h3
  cases h3
  rw [handlerSerialize, h1] at hs
  replace hs : (serializeMessage envQ n q.msg o >>= fun body => Res.ok (frameObject num body)) = .ok bs := hs
  simp only [Res.bind_eq, Res.bind_eq_ok, Res.ok.injEq] at hs
  obtain ⟨body, hb, rfl⟩ := hs
  have hl := frame_len hlen
  obtain ⟨o2, e1, e2⟩ := serializeMessage_message (qtSch_valid hsch) w.qtOrder ht hb (by
    simp only [frameObject, prependLengthDelimitedSize, List.length_append] at hlen; omega)
  have := carried_arrives hc _ e2
  cases this
  rw [Peer.C86_schema.2] at e1
  exact ⟨_, _, body, _, rfl, frameObject_tag hn.1 hn.2, hl, e1, h4⟩

theorem recs_append {d : Nat} {a b : List (Nat × Bytes)} {o o1 o2 : List Slot} (h1 : SlotRecs eq env envQ d fs a o o1) (h2 : SlotRecs eq env envQ d fs b o1 o2) :
    SlotRecs eq env envQ d fs (a ++ b) o o2 := by
  induction h1 with
  | nil => exact h2
  | cons h _ ih => exact .cons h (ih h2)

theorem slots_set_self {o : List Slot} {i : Nat} {s : Slot} (h : o[i]? = some s) : o.set i s = o := by
  obtain ⟨hi, rfl⟩ := List.getElem?_eq_some_iff.mp h
  exact List.set_getElem_self hi

theorem recs_of_fieldRecs {d i num : Nat} {ty : FieldTy} (hf : fs[i]? = some ⟨num, .plain ty⟩) {bss : List Bytes} {v v' : Val}
    (h : FieldRecs env (Message env d) ⟨num, ty⟩ bss v v') {o : List Slot} (ho : o[i]? = some (.val v)) :
    SlotRecs eq env envQ d fs (bss.map fun b => (num, b)) o (o.set i (.val v')) := by
  induction h generalizing o with
  | nil v => rw [slots_set_self ho]; exact .nil o
  | @cons bs rs v v1 v2 hr _ ih =>
    have hlt := (List.getElem?_eq_some_iff.mp ho).1
    have := ih (o := o.set i (.val v1)) (by simp [hlt])
    rw [List.set_set] at this
    exact .cons (SlotRec.known hf ho (.plain hr)) this

/-- One field of the class, written and taken as records. -/
theorem member_recs (w : World env envQ) {n i : Nat} {f : Member} (hf : fs[i]? = some f) (hn : 1 ≤ f.num ∧ f.num < 2 ^ 29) {s : Slot}
    (hs : Sendable env f.ty s) {bs : Bytes} (hb : serializeMember env envQ n f s = .ok bs) (hlen : bs.length < 2 ^ 31) :
    ∃ (bss : List Bytes) (s' : Slot), bs = bss.flatten ∧ Received eq env f.ty s s' ∧ (∀ m, f.ty = .qt m → bss.length = 1) ∧
      ∀ o : List Slot, o[i]? = some f.default → SlotRecs eq env envQ n fs (bss.map fun b => (f.num, b)) o (o.set i s') := by
  obtain ⟨num, ty⟩ := f
  simp only at hs hn
  cases hs with
  | @plain ty v hv =>
    have hrec : RecOk env (Message env n) (serializeMessage env n) := fun m o body h1 h2 h3 => serializeMessage_message w.schema w.order h2 h1 h3
    obtain ⟨v', h1, bss, h2, h3⟩ := FieldBytes.property_turns (f := ⟨num, ty⟩) (Sub := Message env n) hrec hn hv hb hlen
    exact ⟨bss, .val v', h2, .plain h1, fun m h => by simp at h, fun o ho => recs_of_fieldRecs hf h3 ho⟩
  | @qt q hq =>
    obtain ⟨hdr, len, body, o', rfl, ht, hl, hm, hc⟩ := qt_record w hn hq hb hlen
    have hpz := carrier_plusZero q
    have hfp := faithful_plusZero hq
    cases he : eq (qtDefault (Peer.carrier q)) (plusZero q) with
    | true =>
      refine ⟨[hdr ++ (len ++ body)], .qt (qtDefault (Peer.carrier q)), by simp, .asNew he, fun _ _ => rfl, fun o ho => ?_⟩
      have hr := MemberRecord.same (eq := eq) (env := env) (old := qtDefault (Peer.carrier q)) ht hl (hpz.symm ▸ hm) hc hfp he
      rw [hpz] at hr
      exact .cons (SlotRec.known hf ho hr) (.nil _)
    | false =>
      refine ⟨[hdr ++ (len ++ body)], .qt (plusZero q), by simp, .qt he, fun _ _ => rfl, fun o ho => ?_⟩
      have hr := MemberRecord.other (eq := eq) (env := env) (old := qtDefault (Peer.carrier q)) ht hl (hpz.symm ▸ hm) hc hfp he
      rw [hpz] at hr
      exact .cons (SlotRec.known hf ho hr) (.nil _)

theorem members_recs (w : World env envQ) (hV : Valid fs) {n : Nat} {obj : List Slot} (hol : obj.length = fs.length)
    (hobj : ∀ (i : Nat) (f : Member) (s : Slot), fs[i]? = some f → obj[i]? = some s → Sendable env f.ty s) (is : List Nat) (hnd : is.Nodup)
    (hin : ∀ i ∈ is, i < fs.length) {bs : Bytes}
    (hbs : concatRes (is.map fun i => match fs[i]?, obj[i]? with
      | some f, some s => serializeMember env envQ n f s
      | _, _ => .ok []) = .ok bs) (hlen : bs.length < 2 ^ 31) (o : List Slot) (hl : o.length = fs.length)
    (hdef : ∀ i ∈ is, ∀ f, fs[i]? = some f → o[i]? = some f.default) :
    ∃ rs o', bs = bytesOf rs ∧ SlotRecs eq env envQ n fs rs o o' ∧ o'.length = fs.length ∧ (∀ i, i ∉ is → o'[i]? = o[i]?) ∧
      (∀ i f s s', i ∈ is → fs[i]? = some f → obj[i]? = some s → o'[i]? = some s' → Received eq env f.ty s s') ∧
      (∀ i f m, fs[i]? = some f → f.ty = .qt m → (rs.filter fun r => r.1 == f.num).length = if i ∈ is then 1 else 0) := by
  have hsame : ∀ {i j : Nat} {f g : Member}, fs[i]? = some f → fs[j]? = some g → f.num = g.num → i = j := by
    intro i j f g hi hj h
    have := findMember_of hV.1 hi
    rw [h, findMember_of hV.1 hj] at this
    exact (Option.some.inj this).symm
  induction is generalizing bs o with
  | nil =>
    simp only [List.map_nil, concatRes, Res.ok.injEq] at hbs
    subst hbs
    exact ⟨[], o, rfl, .nil o, hl, fun _ _ => rfl, by simp, by simp⟩
  | cons i is ih =>
    simp only [List.map_cons, concatRes, Res.bind_eq, Res.bind_eq_ok, Res.ok.injEq] at hbs
    obtain ⟨a, ha, b, hb, rfl⟩ := hbs
    simp only [List.length_append] at hlen
    simp only [List.nodup_cons] at hnd
    simp only [List.mem_cons, forall_eq_or_imp] at hin hdef
    have hi := hin.1
    have hfi : fs[i]? = some fs[i] := by simp [hi]
    have hvi : obj[i]? = some (obj[i]'(by omega)) := by simp [hol, hi]
    rw [hfi, hvi] at ha
    simp only at ha
    obtain ⟨bss, s', e1, h1, h1', h2⟩ := member_recs (eq := eq) w hfi (hV.2 _ (List.getElem_mem hi)) (hobj _ _ _ hfi hvi) ha (by omega)
    obtain ⟨rs, o', e2, h3, h4, h5, h6, h7⟩ := ih hnd.2 hin.2 hb (by omega) (o.set i s') (by simpa using hl) (by
      intro j hj f hf
      have hij : i ≠ j := fun e => hnd.1 (e ▸ hj)
      rw [List.getElem?_set_ne hij]
      exact hdef.2 j hj f hf)
    refine ⟨(bss.map fun b => (fs[i].num, b)) ++ rs, o', ?_, recs_append (h2 _ (hdef.1 _ hfi)) h3, h4, ?_, ?_, ?_⟩
    · rw [e1, e2]; simp [bytesOf, Function.comp_def]
    · intro j hj
      simp only [List.mem_cons, not_or] at hj
      rw [h5 j hj.2, List.getElem?_set_ne (Ne.symm hj.1)]
    · intro j f v v' hj hfj hvj hwj
      simp only [List.mem_cons] at hj
      rcases hj with rfl | hj
      · rw [h5 _ hnd.1] at hwj
        simp only [List.getElem?_set_self (show j < o.length by omega), Option.some.injEq] at hwj
        subst hwj
        rw [hfi] at hfj
        rw [hvi] at hvj
        simp only [Option.some.injEq] at hfj hvj
        subst hfj hvj
        exact h1
      · exact h6 j f v v' hj hfj hvj hwj
    · intro j f m hfj hm
      rw [List.filter_append, List.length_append, h7 j f m hfj hm]
      by_cases hji : j = i
      · subst hji
        rw [hfi] at hfj
        have hfj := Option.some.inj hfj
        subst hfj
        have hb1 := h1' m hm
        have : (List.filter (fun r => r.1 == fs[j].num) (bss.map fun b => (fs[j].num, b))) = bss.map fun b => (fs[j].num, b) := by
          rw [List.filter_eq_self]; simp
        rw [this]
        simp [hb1, hnd.1]
      · have : (List.filter (fun r => r.1 == f.num) (bss.map fun b => (fs[i].num, b))) = [] := by
          rw [List.filter_eq_nil_iff]
          simp only [List.mem_map, beq_iff_eq, forall_exists_index, and_imp]
          rintro x b _ rfl e
          exact hji (hsame hfj hfi e.symm)
        rw [this]
        simp [List.mem_cons, hji]

/-! ### C120 -/

/-- C120, reading: whatever records a message consists of, in any order and with unknown ones among them, every field ends as its records say, and a
field that has no record as a new object has it. Missing: malformed messages, and messages for which the conversion does not stand for a value. -/
theorem C120_read_partial (w : World env envQ) (hV : Valid fs) {d : Nat} {rs : List (Nat × Bytes)} {o : List Slot}
    (h : SlotRecs eq env envQ d fs rs (fs.map Member.default) o) (hlen : (bytesOf rs).length < 2 ^ 31) {n : Nat} (hn : (bytesOf rs).length < n) :
    deserializeMembers eq env envQ fs n (bytesOf rs) = (.ok (), o) := by
  cases n with
  | zero => omega
  | succ n => exact membersLoop_of w.schema w.qtSchema hV.1 h (At.start hlen) (by omega) (by omega)

/-- A field without records keeps the value of a new object (`C120_absent_not_empty` for what that is). -/
theorem C120_absent {d i : Nat} {f : Member} (hV : Valid fs) (hf : fs[i]? = some f) {rs : List (Nat × Bytes)} {o : List Slot}
    (h : SlotRecs eq env envQ d fs rs (fs.map Member.default) o) (hno : ∀ r ∈ rs, r.1 ≠ f.num) : o[i]? = some f.default := by
  have key : ∀ {rs : List (Nat × Bytes)} {a b : List Slot}, SlotRecs eq env envQ d fs rs a b → (∀ r ∈ rs, r.1 ≠ f.num) → b[i]? = a[i]? := by
    intro rs a b h
    induction h with
    | nil => intro _; rfl
    | @cons num bs rs o o1 o2 hr _ ih =>
      intro hno
      simp only [List.mem_cons, forall_eq_or_imp] at hno
      rw [ih hno.2]
      cases hr with
      | @known _ j g _ old new hg ho hm =>
        refine List.getElem?_set_ne ?_
        intro e
        subst e
        rw [hf] at hg
        cases hg
        exact hno.1 rfl
      | unknown => rfl
  rw [key h hno, List.getElem?_map, hf]
  rfl

/-- The last record of a field of a Qt type decides: the field has its value, or one that Qt takes for equal. -/
theorem C120_last {d i num : Nat} {q : QtVal} (hf : fs[i]? = some ⟨num, .qt (Peer.carrier q)⟩) (hV : Valid fs) {before after : List (Nat × Bytes)}
    {hdr len body : Bytes} {m : Obj} (w : World env envQ) (ht : Tag hdr num 2) (hl : Varint len body.length)
    (hm : Message envQ d (Peer.carrier q) body m) (hs : Peer.Shows q m) (hq : Faithful q) {o o1 : List Slot} {old : QtVal}
    (h1 : SlotRecs eq env envQ d fs before (fs.map Member.default) o1) (ho : o1[i]? = some (.qt old))
    (h2 : SlotRecs eq env envQ d fs after (o1.set i (.qt (if eq old q then old else q))) o) (hno : ∀ r ∈ after, r.1 ≠ num)
    (hlen : (bytesOf (before ++ (num, hdr ++ (len ++ body)) :: after)).length < 2 ^ 31) {n : Nat}
    (hn : (bytesOf (before ++ (num, hdr ++ (len ++ body)) :: after)).length < n) :
    ∃ r, deserializeMembers eq env envQ fs n (bytesOf (before ++ (num, hdr ++ (len ++ body)) :: after)) = (.ok (), o) ∧
      o[i]? = some (.qt r) ∧ (r = q ∨ r = old ∧ eq r q = true) := by
  have hlt := (List.getElem?_eq_some_iff.mp ho).1
  have key : ∀ {rs : List (Nat × Bytes)} {a b : List Slot}, SlotRecs eq env envQ d fs rs a b → (∀ r ∈ rs, r.1 ≠ num) → b[i]? = a[i]? := by
    intro rs a b h
    induction h with
    | nil => intro _; rfl
    | @cons num bs rs o o1 o2 hr _ ih =>
      intro hno
      simp only [List.mem_cons, forall_eq_or_imp] at hno
      rw [ih hno.2]
      cases hr with
      | @known _ j g _ old new hg ho hm =>
        refine List.getElem?_set_ne ?_
        intro e
        subst e
        rw [hf] at hg
        cases hg
        exact hno.1 rfl
      | unknown => rfl
  refine ⟨if eq old q then old else q, C120_read_partial w hV (recs_append h1 (.cons (SlotRec.known hf ho ?_) h2)) hlen hn, ?_, ?_⟩
  · cases he : eq old q with
    | true => exact .same ht hl hm hs hq he
    | false => exact .other ht hl hm hs hq he
  · rw [key h2 hno]
    simp [hlt]
  · cases he : eq old q with
    | true => exact Or.inr ⟨rfl, he⟩
    | false => exact Or.inl rfl

/-- C120, writing: the bytes of a message are a list of records, for every field of a Qt type exactly one, whose message shows the value; read one after
the other they give what is expected. Classes whose message fields have fields of Qt's types themselves: C122. -/
theorem C120_written_partial (w : World env envQ) (hV : Valid fs) {ord : List Nat} (ho : ord.Perm (List.range fs.length)) {obj : List Slot}
    (hol : obj.length = fs.length)
    (hobj : ∀ (i : Nat) (f : Member) (s : Slot), fs[i]? = some f → obj[i]? = some s → Sendable env f.ty s) {n : Nat} {bs : Bytes}
    (hs : serializeMembers env envQ n ord fs obj = .ok bs) (hlen : bs.length < 2 ^ 31) :
    ∃ rs o, bs = bytesOf rs ∧ SlotRecs eq env envQ n fs rs (fs.map Member.default) o ∧ o.length = fs.length ∧
      (∀ (i : Nat) (f : Member) (s s' : Slot), fs[i]? = some f → obj[i]? = some s → o[i]? = some s' → Received eq env f.ty s s') ∧
      ∀ (f : Member) (m : Nat), f ∈ fs → f.ty = .qt m → (rs.filter fun r => r.1 == f.num).length = 1 := by
  have hmem : ∀ i, i ∈ ord ↔ i < fs.length := by intro i; rw [ho.mem_iff, List.mem_range]
  obtain ⟨rs, o, h1, h2, h3, _, h5, h6⟩ := members_recs (eq := eq) w hV hol hobj ord (ho.nodup_iff.mpr List.nodup_range) (fun i hi => (hmem i).mp hi) hs hlen
    (fs.map Member.default) (by simp) (by intro i _ f hf; simp [hf])
  refine ⟨rs, o, h1, h2, h3, ?_, ?_⟩
  · intro i f s s' hf hv hv'
    exact h5 i f s s' ((hmem i).mpr (List.getElem?_eq_some_iff.mp hf).1) hf hv hv'
  · intro f m hf hm
    obtain ⟨i, hi, rfl⟩ := List.getElem_of_mem hf
    have := h6 i fs[i] m (by simp [hi]) hm
    rw [if_pos ((hmem i).mpr hi)] at this
    exact this

/-- C120, round trip: what is written is read without an exception, all fields of Qt's types have the value that was sent, up to the sign of zeros and
what Qt takes for equal to the value of a new object, and all other fields are as in a message without fields of Qt's types (C01). -/
theorem C120_roundtrip_partial (w : World env envQ) (hV : Valid fs) {ord : List Nat} (ho : ord.Perm (List.range fs.length)) {obj : List Slot}
    (hol : obj.length = fs.length)
    (hobj : ∀ (i : Nat) (f : Member) (s : Slot), fs[i]? = some f → obj[i]? = some s → Sendable env f.ty s) {n : Nat} {bs : Bytes}
    (hs : serializeMembers env envQ n ord fs obj = .ok bs) (hlen : bs.length < 2 ^ 31) {k : Nat} (hk : bs.length < k) :
    ∃ o, deserializeMembers eq env envQ fs k bs = (.ok (), o) ∧ o.length = fs.length ∧
      ∀ (i : Nat) (f : Member) (s s' : Slot), fs[i]? = some f → obj[i]? = some s → o[i]? = some s' → Received eq env f.ty s s' := by
  obtain ⟨rs, o, rfl, h2, h3, h4, _⟩ := C120_written_partial (eq := eq) w hV ho hol hobj hs hlen
  exact ⟨o, C120_read_partial w hV h2 hlen hk, h3, h4⟩

/-- The value of a Qt field that comes out of the round trip compares equal to the one without negative zeros, if Qt's comparison takes that for equal
to itself; and it is that very value if Qt's comparison is exact. -/
theorem C120_equal {m : Nat} {q r : QtVal} (h : Received eq env (.qt m) (.qt q) (.qt r)) :
    (eq (plusZero q) (plusZero q) = true → eq r (plusZero q) = true) ∧ ((∀ a b, eq a b = true → a = b) → r = plusZero q) := by
  cases h with
  | qt he => exact ⟨fun h => h, fun _ => rfl⟩
  | asNew he => exact ⟨fun _ => he, fun h => h _ _ he⟩

/-- `serialize` returns for every such message, unless the other fields' messages form a cycle or there is a repeated `bool`. -/
theorem C120_returns_partial (w : World env envQ) {rank : Nat → Nat} (ha : Acyclic env rank) (hb : NoRepeatedBool env)
    (hb' : ∀ f ∈ fs, f.ty ≠ .plain (.list .bool)) (ord : List Nat) {obj : List Slot}
    (hobj : ∀ (i : Nat) (f : Member) (s : Slot), fs[i]? = some f → obj[i]? = some s → Sendable env f.ty s) :
    ∃ N bs, ∀ n, N ≤ n → serializeMembers env envQ n ord fs obj = .ok bs := by
  have hr : Ranked env rank := fun m f hf => ⟨ha m f hf, hb m f hf⟩
  have key : ∀ p ∈ (ord.map fun i n => match fs[i]?, obj[i]? with
      | some f, some s => serializeMember env envQ n f s
      | _, _ => .ok []), ∃ b, Yields p b := by
    intro p hp
    simp only [List.mem_map] at hp
    obtain ⟨i, _, rfl⟩ := hp
    cases hf : fs[i]? with
    | none => exact ⟨[], Yields.pure _⟩
    | some f =>
      cases ho : obj[i]? with
      | none => exact ⟨[], Yields.pure _⟩
      | some s =>
        have hsend := hobj i f s hf ho
        have hbool := hb' f (List.mem_of_getElem? hf)
        obtain ⟨num, ty⟩ := f
        simp only at hsend hbool
        cases hsend with
        | @plain ty v hv =>
          show ∃ b, Yields (fun n => serializeProperty env (serializeMessage env n) num ty v) b
          cases hv with
          | sc => exact ⟨_, Yields.pure _⟩
          | @scList k l =>
            have : k.hasListHandler = true := by
              cases k <;> first | rfl | exact absurd rfl hbool
            refine ⟨withHeader num wtLengthDelimited (serializeListType env k l num), ?_⟩
            simp only [serializeProperty, this, if_true]; exact Yields.pure _
          | enum => exact ⟨_, Yields.pure _⟩
          | enumList => exact ⟨_, Yields.pure _⟩
          | null m => exact canSer_frame (canSer_default hr _ m (Nat.lt_succ_self _))
          | msg h1 h2 => exact canSer_frame (canSer_ranked hr (.msg h1 h2))
          | msgList h => exact canSer_msgList fun o ho => canSer_ranked hr (h _ ho)
          | map hk h hs => exact canSer_map fun m o key hm ho => canSer_ranked hr (by
              have := h _ ho
              rw [hm] at this
              exact this)
        | @qt q hq =>
          show ∃ b, Yields (fun n => handlerSerialize envQ n num q) b
          have hsch := w.qtSchema.trans Peer.C86_schema.1.symm
          obtain ⟨o, h1, _⟩ := convert_roundtrip (env := envQ) hq
          obtain ⟨ht, _⟩ := toMessage_carried hsch (fun u => w.ascii _ (ascii_uuid u)) h1
          obtain ⟨N, body, hN⟩ := C20_serialize_terminates_partial (qtSch_acyclic hsch) (qtSch_noBool hsch) ht
          refine ⟨frameObject num body, N, fun n hn => ?_⟩
          simp only [handlerSerialize, h1, hN n hn, Res.bind_eq, Res.bind]
  obtain ⟨b, N, h⟩ := yields_concat key
  refine ⟨N, b, fun n hn => ?_⟩
  have := h n hn
  simp only [List.map_map, Function.comp_def] at this
  exact this

end

/-! ### Cases -/

/-- The surroundings of the examples. -/
theorem demo_world : World demoEnv qtEnv :=
  ⟨demo_valid, demo_order, qtEnv_ok.1.trans Peer.C86_schema.1, qtEnv_ok.2.1, qtEnv_ok.2.2⟩

/-- `message M { int32 a = 1; QtProtobuf.QSize b = 2; Sub c = 4; QtProtobuf.QRect d = 7; }` -/
def qtClass : List Member := [⟨1, .plain (.scalar .int32)⟩, ⟨2, .qt 5⟩, ⟨4, .plain (.msg 1)⟩, ⟨7, .qt 9⟩]

def qtObject : List Slot := [.val (.sc (.w32 7)), .qt (.size ⟨3, 4⟩), .val .msgNull, .qt (.rect ⟨BitVec.ofInt 32 (-5), 7, 100, BitVec.ofInt 32 (-20)⟩)]

theorem qtClass_valid : Valid qtClass := ⟨by decide, by decide⟩

theorem qtObject_sendable : ∀ (i : Nat) (f : Member) (s : Slot), qtClass[i]? = some f → qtObject[i]? = some s → Sendable demoEnv f.ty s := by
  intro i f s hf hs
  match i with
  | 0 => cases hf; cases hs; exact .plain (.sc rfl)
  | 1 => cases hf; cases hs; exact Sendable.qt (q := .size ⟨3, 4⟩) trivial
  | 2 => cases hf; cases hs; exact .plain (.null 1)
  | 3 =>
    cases hf; cases hs
    exact Sendable.qt (q := .rect ⟨BitVec.ofInt 32 (-5), 7, 100, BitVec.ofInt 32 (-20)⟩) (by simp only [Faithful, Fits]; decide)
  | _ + 4 => simp [qtClass] at hf

/-- The object above is written with its two Qt values, the last field first, and read back. -/
example : serializeMembers demoEnv qtEnv 4 [3, 2, 1, 0] qtClass qtObject = .ok
      [58, 13, 18, 5, 16, 51, 8, 212, 1, 10, 4, 16, 14, 8, 9, 34, 5, 13, 0, 0, 0, 0, 18, 4, 16, 8, 8, 6, 8, 7] ∧
    [3, 2, 1, 0].Perm (List.range qtClass.length) ∧
    deserializeMembers (fun _ _ => false) demoEnv qtEnv qtClass 40
        [58, 13, 18, 5, 16, 51, 8, 212, 1, 10, 4, 16, 14, 8, 9, 34, 5, 13, 0, 0, 0, 0, 18, 4, 16, 8, 8, 6, 8, 7] =
      (.ok (), [.val (.sc (.w32 7)), .qt (.size ⟨3, 4⟩), .val (.msg [.sc (.w32 0), .sc (.bytes none)]),
        .qt (.rect ⟨BitVec.ofInt 32 (-5), 7, 100, BitVec.ofInt 32 (-20)⟩)]) := by
  refine ⟨by with_unfolding_all rfl, by decide, ?_⟩
  with_unfolding_all rfl

/-- A message of an unknown field and an empty `QSize`: the size is (0, 0), the rectangle, which has no record, is that of a new object. -/
theorem demo_records : SlotRecs (fun _ _ => false) demoEnv qtEnv 2 qtClass [(5, [0x28, 1]), (2, [0x12, 0])] (qtClass.map Member.default)
    [.val (.sc (.w32 0)), .qt (.size ⟨0, 0⟩), .val .msgNull, .qt (.rect ⟨0, 0, -1, -1⟩)] := by
  refine .cons (SlotRec.unknown (hdr := [0x28]) (payload := [1]) (wt := 0) (by decide) (tag1 0x28 5 0 rfl (by decide) (by decide))
    (.varint (IsVarint.last 1 (by decide)))) (.cons (SlotRec.known (i := 1) (f := ⟨2, .qt 5⟩) rfl rfl ?_) (.nil _))
  exact MemberRecord.other (q := .size ⟨0, 0⟩) (hdr := [0x12]) (len := [0]) (body := []) (tag1 0x12 2 2 rfl (by decide) (by decide))
    (varint1 0 0 rfl (by decide)) (o := defaultObj qtEnv 5) (Stream.nil (m := 5) _) ⟨rfl, rfl⟩ trivial rfl

example : (SlotRecs (fun _ _ => false) demoEnv qtEnv 2 qtClass [(5, [0x28, 1]), (2, [0x12, 0])] (qtClass.map Member.default)
    [.val (.sc (.w32 0)), .qt (.size ⟨0, 0⟩), .val .msgNull, .qt (.rect ⟨0, 0, -1, -1⟩)]) ∧ ∀ r ∈ ([(5, [0x28, 1]), (2, [0x12, 0])] : List (Nat × Bytes)), r.1 ≠ 7 :=
  ⟨demo_records, by decide⟩

/-- The hypotheses of `C120_last`: two records of the size, of which the second counts. -/
example : ∃ o1 o, SlotRecs (fun _ _ => false) demoEnv qtEnv 2 qtClass [(5, [0x28, 1]), (2, [0x12, 0])] (qtClass.map Member.default) o1 ∧
    o1[1]? = some (.qt (.size ⟨0, 0⟩)) ∧ SlotRecs (fun _ _ => false) demoEnv qtEnv 2 qtClass [] (o1.set 1 (.qt (.size ⟨3, 0⟩))) o ∧
    Message qtEnv 2 5 [8, 6] [.sc (.w32 3), .sc (.w32 0)] ∧ Peer.Shows (.size ⟨3, 0⟩) [.sc (.w32 3), .sc (.w32 0)] := by
  refine ⟨_, _, demo_records, rfl, .nil _, ?_, rfl, rfl⟩
  exact Stream.known (m := 5) (i := 0) (f := ⟨1, .scalar .sint32⟩) (hdr := [8]) (payload := [6]) (rest := []) rfl (tag1 8 1 0 rfl (by decide) (by decide))
    rfl (FieldEffect.scalar _ (k := .sint32) (s := .w32 3) (Reads.sint32 (n := 6) (varint1 6 6 rfl (by decide)) (by decide))) (Stream.nil _)

/-- A field without a record is not a field with an empty message: sizes are (-1, -1) instead of (0, 0), times null instead of midnight, quaternions and
transformations the identity instead of 0. -/
theorem C120_absent_not_empty (env : Env) :
    deserializeMembers (fun _ _ => false) env qtEnv [⟨1, .qt 2⟩, ⟨2, .qt 5⟩, ⟨3, .qt 6⟩, ⟨4, .qt 18⟩, ⟨5, .qt 19⟩] 12 [] =
      (.ok (), [.qt (.time ⟨-1⟩), .qt (.size ⟨-1, -1⟩), .qt (.sizeF ⟨0xbff0000000000000#64, 0xbff0000000000000#64⟩),
        .qt (.transform ⟨0x3ff0000000000000#64, 0, 0, 0, 0x3ff0000000000000#64, 0, 0, 0, 0x3ff0000000000000#64⟩), .qt (.quaternion ⟨0x3f800000#32, 0, 0, 0⟩)]) ∧
    deserializeMembers (fun _ _ => false) env qtEnv [⟨1, .qt 2⟩, ⟨2, .qt 5⟩, ⟨3, .qt 6⟩, ⟨4, .qt 18⟩, ⟨5, .qt 19⟩] 12 [10, 0, 18, 0, 26, 0, 34, 0, 42, 0] =
      (.ok (), [.qt (.time ⟨0⟩), .qt (.size ⟨0, 0⟩), .qt (.sizeF ⟨0, 0⟩), .qt (.transform ⟨0, 0, 0, 0, 0, 0, 0, 0, 0⟩), .qt (.quaternion ⟨0, 0, 0, 0⟩)]) := by
  refine ⟨by with_unfolding_all rfl, by with_unfolding_all rfl⟩

/-! ### Where it fails -/

/-- A point in a field, written and read: when Qt takes it for equal to (0, 0), (0, 0) is what arrives. Qt documents that it compares points
approximately, so this is what becomes of (1e-13, 0). -/
theorem C120_tiny_point_violated (eq : QtVal → QtVal → Bool)
    (h : eq (.pointF ⟨0, 0⟩) (.pointF ⟨0x3d3c25c268497682#64, 0⟩) = true) :
    ∃ bs, serializeMembers demoEnv qtEnv 3 [0] [⟨1, .qt 8⟩] [.qt (.pointF ⟨0x3d3c25c268497682#64, 0⟩)] = .ok bs ∧
      deserializeMembers eq demoEnv qtEnv [⟨1, .qt 8⟩] 50 bs = (.ok (), [.qt (.pointF ⟨0, 0⟩)]) := by
  refine ⟨_, rfl, ?_⟩
  have : deserializeMembers eq demoEnv qtEnv [⟨1, .qt 8⟩] 50 [10, 18, 17, 0, 0, 0, 0, 0, 0, 0, 0, 9, 130, 118, 73, 104, 194, 37, 60, 61]
      = (.ok (), [.qt (setQt eq (.pointF ⟨0, 0⟩) (.pointF ⟨0x3d3c25c268497682#64, 0⟩))]) := by
    with_unfolding_all rfl
  rw [setQt, if_pos h] at this
  exact this

/-- A new object with a `QTime`, which is null, does not arrive as such: it is midnight on the other side. -/
theorem C120_new_object_violated (eq : QtVal → QtVal → Bool) (h : eq (.time ⟨-1⟩) (.time ⟨0⟩) = false) :
    ∃ bs, serializeMembers demoEnv qtEnv 3 [0] [⟨1, .qt 2⟩] [Member.default ⟨1, .qt 2⟩] = .ok bs ∧
      deserializeMembers eq demoEnv qtEnv [⟨1, .qt 2⟩] 50 bs = (.ok (), [.qt (.time ⟨0⟩)]) := by
  refine ⟨_, rfl, ?_⟩
  have : deserializeMembers eq demoEnv qtEnv [⟨1, .qt 2⟩] 50 [10, 0] = (.ok (), [.qt (setQt eq (.time ⟨-1⟩) (.time ⟨0⟩))]) := by
    with_unfolding_all rfl
  rw [setQt, h] at this
  exact this

end QtPb.Qt
