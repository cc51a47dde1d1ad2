import Verif.PropsInterop
import Verif.PropsOwn
import Verif.PropsRecords
/-
C93: which fields a peer sees as set: members of a oneof, and sub-messages.

The generator does not know `oneof`: no printer looks at it (src/generator: the descriptors are asked for fields only,
messagedefinitionprinter.cpp:149-198, messagedeclarationprinter.cpp:229-330), so that the members of a oneof are ordinary fields of the
class, and the model of messages (`Values.lean`, `Codec.lean`) is the model of messages with oneofs as well. A peer that knows the oneof
has set, of its members, the one of which the last record arrives.
-/
namespace QtPb

open Spec
open Ref (Payload)

/-! ### Specification -/

/-- A field that can be a member of a oneof: not repeated and no map. -/
def Spec.Singular : FieldTy → Prop
  | .scalar _ | .enum | .msg _ => True
  | _ => False

/-- The member of a oneof with the field numbers `members` that a peer sees set when these records have arrived: the one of the last
record of a member. -/
def Spec.seen (members : List Nat) (rs : List (Nat × Payload)) : Option Nat :=
  ((rs.filter fun r => members.contains r.1).getLast?).map (·.1)

/-- Types of which a value is always written: numbers of fixed width and sub-messages. -/
def Spec.AlwaysWritten : FieldTy → Prop
  | .scalar .float | .scalar .double | .scalar .fixed32 | .scalar .sfixed32 | .scalar .fixed64 | .scalar .sfixed64 | .msg _ => True
  | _ => False

/-! ### Records -/

variable {env : Env}

theorem cut_nil {rs : List (Nat × Payload)} (h : Cut [] rs) : rs = [] := by
  generalize hb : ([] : Bytes) = bs at h
  cases h with
  | nil => rfl
  | cons ht hp _ =>
    have h0 : (0 : Nat) = _ := congrArg List.length hb
    simp only [List.length_append] at h0
    have := tag_length ht
    omega

theorem cut_unique {bs : Bytes} {r r' : List (Nat × Payload)} (h : Cut bs r) (h' : Cut bs r') (hlen : bs.length < 2 ^ 31) : r = r' := by
  induction h generalizing r' with
  | nil => exact (cut_nil h').symm
  | @cons hdr b rest num wt p rs ht hp hr ih =>
    simp only [List.length_append] at hlen
    have e1 := record_of ht (payloadIs_payload hp (by omega) rest)
    generalize hb : hdr ++ b ++ rest = bs at h' e1
    cases h' with
    | nil =>
      have h0 := congrArg List.length hb
      simp only [List.length_append, List.length_nil] at h0
      have := tag_length ht
      omega
    | @cons hdr' b' rest' num' wt' p' rs' ht' hp' hr' =>
      have hl := congrArg List.length hb
      simp only [List.length_append] at hl
      have e2 := record_of ht' (payloadIs_payload hp' (by omega) rest')
      rw [e1] at e2
      simp only [Option.some.injEq, Prod.mk.injEq] at e2
      obtain ⟨rfl, rfl, rfl⟩ := e2
      rw [ih hr' (by omega)]

/-- The records of field `i` of a message. -/
structure Piece (env : Env) (m : Nat) (obj : Obj) (i : Nat) (part : List (Nat × Payload)) : Prop where
  num : ∀ f, (env.sch m)[i]? = some f → ∀ r ∈ part, r.1 = f.num
  absent : ∀ f v, (env.sch m)[i]? = some f → obj[i]? = some v → Singular f.ty → omitted f.ty v → part = []
  written : ∀ f v, (env.sch m)[i]? = some f → obj[i]? = some v → Singular f.ty → ¬ omitted f.ty v → part.length = 1

/-- The records of the fields, one after the other. -/
inductive Pieces (env : Env) (m : Nat) (obj : Obj) : List Nat → List (Nat × Payload) → Prop
  | nil : Pieces env m obj [] []
  | cons {i : Nat} {is : List Nat} {part rs : List (Nat × Payload)} : Piece env m obj i part → Pieces env m obj is rs →
      Pieces env m obj (i :: is) (part ++ rs)

theorem fields_pieces {Sub : Nat → Bytes → Prop} {rec : Nat → Obj → Res Bytes} (hv : ValidSchema env) (hrec : OwnOk env Sub rec) {m : Nat} {obj : Obj}
    (hobj : HasTy env (.msg m) (.msg obj)) (is : List Nat) (hin : ∀ i ∈ is, i < (env.sch m).length) {bs : Bytes}
    (hbs : concatRes (is.map fun i =>
      match (env.sch m)[i]?, obj[i]? with
      | some f, some v => serializeProperty env rec f.num f.ty v
      | _, _ => .ok []) = .ok bs) (hlen : bs.length < 2 ^ 31) :
    ∃ rs, Cut bs rs ∧ Pieces env m obj is rs := by
  induction is generalizing bs with
  | nil =>
    simp only [List.map_nil, concatRes, Res.ok.injEq] at hbs
    subst hbs
    exact ⟨[], .nil, .nil⟩
  | cons i is ih =>
    simp only [List.map_cons, concatRes, Res.bind_eq, Res.bind_eq_ok, Res.ok.injEq] at hbs
    obtain ⟨a, ha, b, hb, rfl⟩ := hbs
    simp only [List.length_append] at hlen
    simp only [List.mem_cons, forall_eq_or_imp] at hin
    obtain ⟨rs, h3, h4⟩ := ih hin.2 hb (by omega)
    cases hobj with
    | msg hl hf =>
      have hi := hin.1
      have hfi : (env.sch m)[i]? = some (env.sch m)[i] := by simp [hi]
      have hvi : obj[i]? = some (obj[i]'(by omega)) := by simp [hl, hi]
      rw [hfi, hvi] at ha
      simp only at ha
      have hty := hf _ _ _ hfi hvi
      obtain ⟨ps, h1, _, h2, _⟩ := property_cut (Sub := Sub) (rec := rec) hrec ((hv m).2 _ (List.getElem_mem hi)) hty ha (by omega)
      refine ⟨_, h1.append h3, .cons ⟨?_, ?_, ?_⟩ h4⟩
      · intro f hf' r hr
        rw [hfi] at hf'; cases hf'
        obtain ⟨p, _, rfl⟩ := List.mem_map.1 hr
        rfl
      · intro f v hf' hv' hs ho
        rw [hfi] at hf'; cases hf'
        rw [hvi] at hv'; cases hv'
        have hb' : (env.sch m)[i].ty ≠ .list .bool := fun e => by rw [e] at hs; exact hs
        rw [(C06_omission (rec := rec) (num := (env.sch m)[i].num) hty hb').2 ho] at ha
        cases ha
        exact cut_nil h1
      · intro f v hf' hv' hs ho
        rw [hfi] at hf'; cases hf'
        rw [hvi] at hv'; cases hv'
        have hb' : (env.sch m)[i].ty ≠ .list .bool := fun e => by rw [e] at hs; exact hs
        have hone : AtMostOnce (env.sch m)[i].ty := by
          revert hs
          generalize (env.sch m)[i].ty = ty
          cases ty <;> simp [Singular, AtMostOnce]
        have := h2 hone
        rw [List.length_map]
        cases ps with
        | nil =>
          refine absurd ((C06_omission (rec := rec) (num := (env.sch m)[i].num) hty hb').1 ?_) ho
          rw [ha]
          generalize hr : List.map _ ([] : List Payload) = rs' at h1
          cases h1 with
          | nil => rfl
          | cons _ _ _ => simp at hr
        | cons p ps => simp only [List.length_cons] at this ⊢; omega

/-- Whatever a message holds: the records of what is written for it, in the order of the fields. -/
theorem message_pieces (hv : ValidSchema env) (ho : ValidOrder env) {n m : Nat} {obj : Obj} {bs : Bytes} (hobj : WellTyped env m obj)
    (hs : serializeMessage env n m obj = .ok bs) (hlen : bs.length < 2 ^ 31) {rs : List (Nat × Payload)} (hc : Cut bs rs) :
    Pieces env m obj (env.ord m) rs := by
  cases n with
  | zero => simp [serializeMessage] at hs
  | succ n =>
    have hrec : OwnOk env (fun m b => ∃ d, Sparse env d m b) (serializeMessage env n) := fun m o body h1 h2 h3 => C79_form hv ho h2 h1 h3
    simp only [serializeMessage] at hs
    obtain ⟨rs', h1, h2⟩ := fields_pieces hv hrec hobj (env.ord m)
      (fun i hi => List.mem_range.1 ((ho m).mem_iff.1 hi)) hs hlen
    rw [cut_unique hc h1 hlen]
    exact h2

theorem num_inj (hv : ValidSchema env) {m i j : Nat} {f g : Field} (hf : (env.sch m)[i]? = some f) (hg : (env.sch m)[j]? = some g)
    (h : f.num = g.num) : i = j := by
  obtain ⟨hi, hie⟩ := List.getElem?_eq_some_iff.1 hf
  obtain ⟨hj, hje⟩ := List.getElem?_eq_some_iff.1 hg
  have : ((env.sch m).map (·.num))[i]'(by simpa using hi) = ((env.sch m).map (·.num))[j]'(by simpa using hj) := by simp [hie, hje, h]
  exact (List.getElem_inj (hv m).1).1 this

theorem Pieces.other (hv : ValidSchema env) {m : Nat} {obj : Obj} {is : List Nat} {rs : List (Nat × Payload)} (h : Pieces env m obj is rs)
    (hin : ∀ i ∈ is, i < (env.sch m).length) {i : Nat} {f : Field} (hf : (env.sch m)[i]? = some f) (hi : i ∉ is) : payloadsOf f.num rs = [] := by
  induction h with
  | nil => rfl
  | @cons j is part rs hp _ ih =>
    rw [payloadsOf_append, ih (fun k hk => hin k (List.mem_cons_of_mem _ hk)) (fun h => hi (List.mem_cons_of_mem _ h)), List.append_nil]
    have hj := hin j List.mem_cons_self
    simp only [payloadsOf, List.map_eq_nil_iff, List.filter_eq_nil_iff, beq_iff_eq]
    intro r hr e
    have := hp.num _ (List.getElem?_eq_getElem hj) r hr
    exact hi (by rw [num_inj hv hf (List.getElem?_eq_getElem hj) (e.symm.trans this)]; exact List.mem_cons_self)

theorem Pieces.count (hv : ValidSchema env) {m : Nat} {obj : Obj} {is : List Nat} {rs : List (Nat × Payload)} (h : Pieces env m obj is rs)
    (hnd : is.Nodup) (hin : ∀ i ∈ is, i < (env.sch m).length) {i : Nat} {f : Field} {v : Val} (hf : (env.sch m)[i]? = some f)
    (hval : obj[i]? = some v) (hi : i ∈ is) (hs : Singular f.ty) :
    (omitted f.ty v → payloadsOf f.num rs = []) ∧ (¬ omitted f.ty v → (payloadsOf f.num rs).length = 1) := by
  induction h with
  | nil => cases hi
  | @cons j is part rs hp hps ih =>
    rw [payloadsOf_append]
    have hin' := fun k hk => hin k (List.mem_cons_of_mem _ hk)
    by_cases hij : i = j
    · subst hij
      rw [hps.other hv hin' hf (List.nodup_cons.1 hnd).1, List.append_nil]
      have hself : payloadsOf f.num part = part.map (·.2) := by
        unfold payloadsOf
        rw [List.filter_eq_self.2 fun r hr => by simpa using hp.num f hf r hr]
      rw [hself]
      exact ⟨fun h => by rw [hp.absent f v hf hval hs h]; rfl, fun h => by rw [List.length_map]; exact hp.written f v hf hval hs h⟩
    · have : payloadsOf f.num part = [] := by
        simp only [payloadsOf, List.map_eq_nil_iff, List.filter_eq_nil_iff, beq_iff_eq]
        intro r hr e
        have hj := hin j List.mem_cons_self
        have := hp.num _ (List.getElem?_eq_getElem hj) r hr
        exact hij (num_inj hv hf (List.getElem?_eq_getElem hj) (e.symm.trans this))
      rw [this, List.nil_append]
      exact ih (List.nodup_cons.1 hnd).2 hin' ((List.mem_cons.1 hi).resolve_left hij)

/-! ### C93 -/

/-- **C93, exactly what is written of a singular field**: one record, or none if the value is one of `omitted`: the zero of a varint number
or enumeration, `false`, a null string or byte array. Numbers of fixed width and sub-messages are written in any case. -/
theorem C93_exactly (hv : ValidSchema env) (ho : ValidOrder env) {n m : Nat} {obj : Obj} {bs : Bytes} (hobj : WellTyped env m obj)
    (hs : serializeMessage env n m obj = .ok bs) (hlen : bs.length < 2 ^ 31) {rs : List (Nat × Payload)} (hc : Cut bs rs)
    {i : Nat} {f : Field} {v : Val} (hf : (env.sch m)[i]? = some f) (hval : obj[i]? = some v) (hsing : Singular f.ty) :
    (omitted f.ty v → payloadsOf f.num rs = []) ∧ (¬ omitted f.ty v → (payloadsOf f.num rs).length = 1) :=
  (message_pieces hv ho hobj hs hlen hc).count hv ((ho m).nodup_iff.2 List.nodup_range)
    (fun i hi => List.mem_range.1 ((ho m).mem_iff.1 hi)) hf hval
    ((ho m).mem_iff.2 (List.mem_range.2 (List.getElem?_eq_some_iff.1 hf).1)) hsing

theorem omitted_iff {ty : FieldTy} {v : Val} (h : HasTy env ty v) (hs : Singular ty) (ha : ¬ AlwaysWritten ty) : omitted ty v ↔ v = defaultVal ty := by
  cases ty with
  | scalar k =>
    cases h with
    | @sc _ s hs =>
      cases k <;> cases s <;> simp_all [AlwaysWritten, Kind.holds, omitted, scalarOmitted, defaultVal, defaultScalar]
  | enum => cases h; simp [omitted, defaultVal]
  | msg m => exact absurd trivial ha
  | list k => exact absurd hs id
  | enumList => exact absurd hs id
  | msgList m => exact absurd hs id
  | map kk vt => exact absurd hs id

theorem not_omitted {ty : FieldTy} {v : Val} (h : HasTy env ty v) (ha : AlwaysWritten ty) : ¬ omitted ty v := by
  cases ty with
  | scalar k =>
    cases h with
    | @sc _ s hs => cases k <;> cases s <;> simp_all [AlwaysWritten, Kind.holds, omitted, scalarOmitted]
  | msg m => cases v <;> simp [omitted]
  | enum => exact absurd ha id
  | list k => exact absurd ha id
  | enumList => exact absurd ha id
  | msgList m => exact absurd ha id
  | map kk vt => exact absurd ha id

theorem mem_payloadsOf {num : Nat} {rs : List (Nat × Payload)} (h : payloadsOf num rs ≠ []) : ∃ r ∈ rs, r.1 = num := by
  cases hp : rs.filter (fun r => r.1 == num) with
  | nil => simp [payloadsOf, hp] at h
  | cons r l =>
    have : r ∈ rs.filter (fun r => r.1 == num) := by rw [hp]; exact List.mem_cons_self
    obtain ⟨h1, h2⟩ := List.mem_filter.1 this
    exact ⟨r, h1, by simpa using h2⟩

theorem not_mem_payloadsOf {num : Nat} {rs : List (Nat × Payload)} (h : payloadsOf num rs = []) : ∀ r ∈ rs, r.1 ≠ num := by
  intro r hr e
  simp only [payloadsOf, List.map_eq_nil_iff, List.filter_eq_nil_iff, beq_iff_eq] at h
  exact h r hr e

/-- The numbers of the fields with these places. -/
def Spec.numbers (env : Env) (m : Nat) (group : List Nat) : List Nat := group.filterMap fun i => ((env.sch m)[i]?).map (·.num)

/-- The fields of a oneof: singular fields of the message. -/
def Spec.Oneof (env : Env) (m : Nat) (group : List Nat) : Prop := ∀ i ∈ group, ∃ f, (env.sch m)[i]? = some f ∧ Singular f.ty

theorem mem_numbers {m : Nat} {group : List Nat} {k : Nat} : k ∈ numbers env m group ↔ ∃ i ∈ group, ∃ f, (env.sch m)[i]? = some f ∧ f.num = k := by
  simp only [numbers, List.mem_filterMap, Option.map_eq_some_iff]

theorem seen_none {members : List Nat} {rs : List (Nat × Payload)} : seen members rs = none ↔ ∀ r ∈ rs, r.1 ∉ members := by
  simp [seen]

/-- **C93, what holds**: of a oneof without numbers of fixed width and without messages, a program that sets one member to a value other
than its default and leaves the others alone is understood: a peer sees this member set; and none if the program sets none. (That the peer
gets the value itself is C21.)

What is missing: other types of members (`C93_always_violated`, `C93_hidden_violated`), members set to their defaults
(`C93_default_violated`), programs that set two members (`C93_two_violated`). -/
theorem C93_seen_partial (hv : ValidSchema env) (ho : ValidOrder env) {n m : Nat} {obj : Obj} {bs : Bytes} (hobj : WellTyped env m obj)
    (hs : serializeMessage env n m obj = .ok bs) (hlen : bs.length < 2 ^ 31) {rs : List (Nat × Payload)} (hc : Cut bs rs)
    {group : List Nat} (hg : Oneof env m group) (hw : ∀ i ∈ group, ∀ f, (env.sch m)[i]? = some f → ¬ AlwaysWritten f.ty) :
    (∀ i ∈ group, ∀ f v, (env.sch m)[i]? = some f → obj[i]? = some v → v ≠ defaultVal f.ty →
      (∀ j ∈ group, j ≠ i → ∀ g, (env.sch m)[j]? = some g → obj[j]? = some (defaultVal g.ty)) →
      seen (numbers env m group) rs = some f.num) ∧
    ((∀ j ∈ group, ∀ g, (env.sch m)[j]? = some g → obj[j]? = some (defaultVal g.ty)) → seen (numbers env m group) rs = none) := by
  have hty : ∀ (i : Nat) (f : Field) (v : Val), (env.sch m)[i]? = some f → obj[i]? = some v → HasTy env f.ty v := by
    cases hobj with | msg _ h => exact h
  have absent : ∀ j ∈ group, ∀ g, (env.sch m)[j]? = some g → obj[j]? = some (defaultVal g.ty) → ∀ r ∈ rs, r.1 ≠ g.num := by
    intro j hj g hgj hval
    obtain ⟨g', hg', hsing⟩ := hg j hj
    rw [hgj] at hg'; cases hg'
    exact not_mem_payloadsOf ((C93_exactly hv ho hobj hs hlen hc hgj hval hsing).1 ((omitted_iff (hty j g _ hgj hval) hsing (hw j hj g hgj)).2 rfl))
  constructor
  · intro i hi f v hf hval hne hoth
    obtain ⟨f', hf', hsing⟩ := hg i hi
    rw [hf] at hf'; cases hf'
    have h1 := (C93_exactly hv ho hobj hs hlen hc hf hval hsing).2 (fun h => hne ((omitted_iff (hty i f v hf hval) hsing (hw i hi f hf)).1 h))
    obtain ⟨r, hr, hrn⟩ := mem_payloadsOf (num := f.num) (rs := rs) (by intro e; rw [e] at h1; simp at h1)
    cases hl : seen (numbers env m group) rs with
    | none => exact absurd (mem_numbers.2 ⟨i, hi, f, hf, hrn.symm⟩) (seen_none.1 hl r hr)
    | some k =>
      obtain ⟨q, hq, rfl⟩ := Option.map_eq_some_iff.1 hl
      have hq' := List.mem_of_getLast? hq
      obtain ⟨hqm, hqn⟩ := List.mem_filter.1 hq'
      obtain ⟨j, hj, g, hgj, hgn⟩ := mem_numbers.1 (List.contains_iff_mem.1 hqn)
      by_cases hji : j = i
      · subst hji
        rw [hf] at hgj; cases hgj
        rw [hgn]
      · exact absurd hgn.symm (absent j hj g hgj (hoth j hj hji g hgj) q hqm)
  · intro hall
    rw [seen_none]
    intro r hr hn
    obtain ⟨j, hj, g, hgj, hgn⟩ := mem_numbers.1 hn
    exact absent j hj g hgj (hall j hj g hgj) r hr hgn.symm

/-- **C93 is violated for every oneof with a message or a number of fixed width among its members**: whatever the program has set, even
nothing at all, a peer sees a member set. -/
theorem C93_always_violated (hv : ValidSchema env) (ho : ValidOrder env) {n m : Nat} {obj : Obj} {bs : Bytes} (hobj : WellTyped env m obj)
    (hs : serializeMessage env n m obj = .ok bs) (hlen : bs.length < 2 ^ 31) {rs : List (Nat × Payload)} (hc : Cut bs rs)
    {group : List Nat} {j : Nat} {g : Field} (hj : j ∈ group) (hg : (env.sch m)[j]? = some g) (ha : AlwaysWritten g.ty) :
    seen (numbers env m group) rs ≠ none := by
  have hl : j < obj.length := by
    cases hobj with | msg h _ => rw [h]; exact (List.getElem?_eq_some_iff.1 hg).1
  have hval : obj[j]? = some obj[j] := List.getElem?_eq_getElem hl
  have hsing : Singular g.ty := by
    revert ha; generalize g.ty = ty; cases ty <;> simp [AlwaysWritten, Singular]
  have hty : HasTy env g.ty obj[j] := by cases hobj with | msg _ h => exact h j g _ hg hval
  have h1 := (C93_exactly hv ho hobj hs hlen hc hg hval hsing).2 (not_omitted hty ha)
  obtain ⟨r, hr, hrn⟩ := mem_payloadsOf (num := g.num) (rs := rs) (by intro e; rw [e] at h1; simp at h1)
  exact fun h => seen_none.1 h r hr (mem_numbers.2 ⟨j, hj, g, hg, hrn.symm⟩)

/-- The records of the fields behind field `j` in the order of the fields. -/
theorem Pieces.split {m : Nat} {obj : Obj} {l1 l2 : List Nat} {j : Nat} {rs : List (Nat × Payload)}
    (h : Pieces env m obj (l1 ++ j :: l2) rs) :
    ∃ a part b, rs = a ++ part ++ b ∧ Piece env m obj j part ∧ Pieces env m obj l2 b := by
  induction l1 generalizing rs with
  | nil =>
    generalize hl : [] ++ j :: l2 = l at h
    cases h with
    | nil => cases hl
    | @cons i is part rs hp hps =>
      simp only [List.nil_append, List.cons.injEq] at hl
      obtain ⟨rfl, rfl⟩ := hl
      exact ⟨[], part, rs, rfl, hp, hps⟩
  | cons k l1 ih =>
    generalize hl : k :: l1 ++ j :: l2 = l at h
    cases h with
    | nil => cases hl
    | @cons i is part rs hp hps =>
      simp only [List.cons_append, List.cons.injEq] at hl
      obtain ⟨rfl, rfl⟩ := hl
      obtain ⟨a, part', b, rfl, h1, h2⟩ := ih hps
      exact ⟨part ++ a, part', b, by simp, h1, h2⟩

/-- **C93 is violated whatever is set**: a member that is written before such a member, in the order of the table of fields, is never seen:
the message or number of fixed width, which the program has not touched, is seen instead, or another member behind it. -/
theorem C93_hidden_violated (hv : ValidSchema env) (ho : ValidOrder env) {n m : Nat} {obj : Obj} {bs : Bytes} (hobj : WellTyped env m obj)
    (hs : serializeMessage env n m obj = .ok bs) (hlen : bs.length < 2 ^ 31) {rs : List (Nat × Payload)} (hc : Cut bs rs)
    {group : List Nat} {i j : Nat} {f g : Field} (hj : j ∈ group) (hf : (env.sch m)[i]? = some f) (hg : (env.sch m)[j]? = some g)
    (ha : AlwaysWritten g.ty) {l1 l2 : List Nat} (hord : env.ord m = l1 ++ j :: l2) (hi : i ∈ l1) :
    seen (numbers env m group) rs ≠ some f.num := by
  have hl : j < obj.length := by
    cases hobj with | msg h _ => rw [h]; exact (List.getElem?_eq_some_iff.1 hg).1
  have hval : obj[j]? = some obj[j] := List.getElem?_eq_getElem hl
  have hsing : Singular g.ty := by
    revert ha; generalize g.ty = ty; cases ty <;> simp [AlwaysWritten, Singular]
  have hty : HasTy env g.ty obj[j] := by cases hobj with | msg _ h => exact h j g _ hg hval
  have hnd : (l1 ++ j :: l2).Nodup := hord ▸ (ho m).nodup_iff.2 List.nodup_range
  have hp := message_pieces hv ho hobj hs hlen hc
  rw [hord] at hp
  obtain ⟨a, part, b, rfl, h1, h2⟩ := hp.split
  have hone := h1.written g _ hg hval hsing (not_omitted hty ha)
  have hij : i ≠ j := fun e => by
    rw [List.nodup_append] at hnd
    exact hnd.2.2 i hi j List.mem_cons_self e
  have hnum : f.num ≠ g.num := fun e => hij (num_inj hv hf hg e)
  have hi2 : i ∉ l2 := fun h => by
    rw [List.nodup_append] at hnd
    exact hnd.2.2 i hi i (List.mem_cons_of_mem _ h) rfl
  have hin2 : ∀ k ∈ l2, k < (env.sch m).length := fun k hk =>
    List.mem_range.1 ((ho m).mem_iff.1 (by rw [hord]; exact List.mem_append_right _ (List.mem_cons_of_mem _ hk)))
  have hb := not_mem_payloadsOf (h2.other hv hin2 hf hi2)
  obtain ⟨r, hr⟩ := List.length_eq_one_iff.1 hone
  subst hr
  have hrn : r.1 = g.num := h1.num g hg r List.mem_cons_self
  have hmem : (numbers env m group).contains r.1 = true := by
    rw [hrn]; exact List.contains_iff_mem.2 (mem_numbers.2 ⟨j, hj, g, hg, rfl⟩)
  intro hseen
  obtain ⟨q, hq, hqn⟩ := Option.map_eq_some_iff.1 hseen
  rw [List.append_assoc, List.filter_append, List.filter_append, List.filter_cons, if_pos hmem, List.filter_nil,
    List.getLast?_append] at hq
  have hq2 : ([r] ++ b.filter fun r => (numbers env m group).contains r.1).getLast? = some q := by
    cases hx : ([r] ++ b.filter fun r => (numbers env m group).contains r.1).getLast? with
    | none => simp at hx
    | some x => rw [hx] at hq; simpa using hq
  have := List.mem_of_getLast? hq2
  rcases List.mem_append.1 this with h | h
  · rw [List.mem_singleton] at h
    subst h
    exact hnum (hqn.symm.trans hrn)
  · exact hb q (List.mem_filter.1 h).1 hqn

/-- **C93 is violated for members set to their default**: a peer does not see a member that the program has set to 0, `false` or a null
string: nothing is written for it. -/
theorem C93_default_violated (hv : ValidSchema env) (ho : ValidOrder env) {n m : Nat} {obj : Obj} {bs : Bytes} (hobj : WellTyped env m obj)
    (hs : serializeMessage env n m obj = .ok bs) (hlen : bs.length < 2 ^ 31) {rs : List (Nat × Payload)} (hc : Cut bs rs)
    {group : List Nat} {i : Nat} {f : Field} (hf : (env.sch m)[i]? = some f) (hsing : Singular f.ty) (ha : ¬ AlwaysWritten f.ty)
    (hval : obj[i]? = some (defaultVal f.ty)) : seen (numbers env m group) rs ≠ some f.num := by
  have hty : HasTy env f.ty (defaultVal f.ty) := by cases hobj with | msg _ h => exact h i f _ hf hval
  have h0 := not_mem_payloadsOf ((C93_exactly hv ho hobj hs hlen hc hf hval hsing).1 ((omitted_iff hty hsing ha).2 rfl))
  intro h
  obtain ⟨q, hq, hqn⟩ := Option.map_eq_some_iff.1 h
  exact h0 q (List.mem_filter.1 (List.mem_of_getLast? hq)).1 hqn

/-! ### Reading -/

theorem fieldIndex_get {num : Nat} {fs : List Field} {i : Nat} (h : Ref.fieldIndex num fs = some i) : ∃ f, fs[i]? = some f ∧ f.num = num := by
  induction fs generalizing i with
  | nil => cases h
  | cons f fs ih =>
    simp only [Ref.fieldIndex] at h
    split at h
    · rename_i e
      cases h
      exact ⟨f, rfl, e⟩
    · cases hi : Ref.fieldIndex num fs with
      | none => rw [hi] at h; cases h
      | some k =>
        rw [hi] at h
        cases h
        obtain ⟨g, h1, h2⟩ := ih hi
        exact ⟨g, h1, h2⟩

/-- The reference decoder leaves a field alone of which there is no record. -/
theorem records_absent {sub : Nat → Bytes → Obj → Option Obj} {m j : Nat} {g : Field} (hg : (env.sch m)[j]? = some g) {bs : Bytes}
    {rs : List (Nat × Payload)} (hc : Cut bs rs) (hlen : bs.length < 2 ^ 31) (habs : ∀ r ∈ rs, r.1 ≠ g.num) {n : Nat} {o o' : Obj}
    (h : Ref.records env sub m n bs o = some o') : o'[j]? = o[j]? := by
  induction hc generalizing n o with
  | nil => cases n <;> simp [Ref.records] at h <;> rw [h]
  | @cons hdr b rest num wt p rs ht hp hr ih =>
    simp only [List.length_append] at hlen
    have e1 := record_of ht (payloadIs_payload hp (by omega) rest)
    have hne : hdr ++ b ++ rest ≠ [] := fun e => by
      have h0 := congrArg List.length e
      simp only [List.length_append, List.length_nil] at h0
      have := tag_length ht
      omega
    cases n with
    | zero =>
      generalize hdr ++ b ++ rest = bs at h hne
      cases bs with
      | nil => exact absurd rfl hne
      | cons x xs => simp [Ref.records] at h
    | succ n =>
      have hstep : Ref.records env sub m (n + 1) (hdr ++ b ++ rest) o =
          match Ref.apply env sub m num p o with
          | some o' => Ref.records env sub m n rest o'
          | none => none := by
        revert e1 hne
        generalize hdr ++ b ++ rest = bs
        intro e1 hne
        cases bs with
        | nil => exact absurd rfl hne
        | cons x xs =>
          simp only [Ref.records, e1]
          cases Ref.apply env sub m num p o <;> rfl
      rw [hstep] at h
      cases ha : Ref.apply env sub m num p o with
      | none => rw [ha] at h; cases h
      | some o1 =>
        rw [ha] at h
        rw [ih (by omega) (fun r hr => habs r (List.mem_cons_of_mem _ hr)) h]
        unfold Ref.apply at ha
        cases hi : Ref.fieldIndex num (env.sch m) with
        | none => rw [hi] at ha; cases ha; rfl
        | some i =>
          rw [hi] at ha
          obtain ⟨f, hf, hfn⟩ := fieldIndex_get hi
          have hij : i ≠ j := fun e => by
            subst e
            rw [hf] at hg; cases hg
            exact habs _ List.mem_cons_self hfn.symm
          simp only [hf] at ha
          cases ho : o[i]? with
          | none => rw [ho] at ha; cases ha
          | some old =>
            rw [ho] at ha
            obtain ⟨new, _, rfl⟩ := Option.map_eq_some_iff.1 ha
            rw [List.getElem?_set_ne hij]

/-- **C93, reading**: of what other implementations write (C67), the library has the same message as the reference decoder, and every
field of which there is no record holds its default: if a peer sends one member of a oneof, the library has set this one and no other. (A message that meets the hypotheses: the example
beside C67_usual_partial.) -/
theorem C93_read_partial (hv : ValidSchema env) {d m n : Nat} {bs : Bytes} (h : Usual env d m bs) (hlen : bs.length < 2 ^ 31)
    (hn : bs.length < n) {rs : List (Nat × Payload)} (hc : Cut bs rs) :
    ∃ o2 o, deserializeMessage env n m bs = (.ok (), o2) ∧ Ref.decode env m bs = some o ∧ Agrees env (.msg m) (.msg o2) (.msg o) ∧
      ∀ (j : Nat) (g : Field) (v : Val), (env.sch m)[j]? = some g → (∀ r ∈ rs, r.1 ≠ g.num) → o2[j]? = some v →
        Agrees env g.ty v (defaultVal g.ty) := by
  obtain ⟨o2, o, h1, h2, h3⟩ := C67_usual_partial hv h hlen hn
  refine ⟨o2, o, h1, h2, h3, fun j g v hg habs hv => ?_⟩
  have hrec : Ref.records env (Ref.merge env bs.length) m bs.length bs (defaultObj env m) = some o := h2
  have hj := records_absent hg hc hlen habs hrec
  have hdef : (defaultObj env m)[j]? = some (defaultVal g.ty) := by simp [defaultObj, hg]
  rw [hdef] at hj
  cases h3 with
  | msg _ _ hall => exact hall j g v _ hg hv hj

/-! ### Cases -/

/-- `message 0 { oneof x { int32 a = 1; string b = 2; M c = 3; } oneof y { sint64 d = 4; string e = 5; } }`, `message M { }`. -/
def oneofEnv : Env where
  sch m := if m = 0 then [⟨1, .scalar .int32⟩, ⟨2, .scalar .string⟩, ⟨3, .msg 1⟩, ⟨4, .scalar .sint64⟩, ⟨5, .scalar .string⟩] else []
  ord m := if m = 0 then [0, 1, 2, 3, 4] else []
  toUtf8 s := s.map fun c => UInt8.ofNat c.toNat
  fromUtf8 b := b.map fun u => Char.ofNat u.toNat

theorem oneofEnv_valid : ValidSchema oneofEnv ∧ ValidOrder oneofEnv := by
  constructor
  · intro m
    by_cases h : m = 0
    · simp [oneofEnv, h]
    · simp [oneofEnv, h]
  · intro m
    by_cases h : m = 0
    · simp only [oneofEnv, h, if_true]; exact List.Perm.refl _
    · simp [oneofEnv, h]

/-- The message with `a` and `d` set. -/
def oneofObj : Obj := [.sc (.w32 7), .sc (.str none), .msgNull, .sc (.w64 5), .sc (.str none)]

/-- What is written for it: `a`, `c` although it is not set, and `d`. -/
def oneofBytes : Bytes := [0x08, 7, 0x1a, 0, 0x20, 10]

theorem oneof_cut : Cut oneofBytes [(1, .varint 7), (3, .delimited []), (4, .varint 10)] := by
  have v : ∀ b : UInt8, b.toNat < 128 → Varint [b] b.toNat := fun b h => ⟨.last b h, by simp⟩
  exact .cons (hdr := [0x08]) (b := [7]) (wt := 0) ⟨v 0x08 (by decide), by decide, by decide⟩ (.varint (v 7 (by decide)) (by decide))
    (.cons (hdr := [0x1a]) (b := [0] ++ []) (wt := 2) ⟨v 0x1a (by decide), by decide, by decide⟩ (.delimited (v 0 (by decide)))
      (.cons (hdr := [0x20]) (b := [10]) (wt := 0) ⟨v 0x20 (by decide), by decide, by decide⟩ (.varint (v 10 (by decide)) (by decide)) .nil))

/-- The hypotheses of the theorems are met by this message: of the oneof `y` a peer sees what was set; of `x`, it sees `c`. -/
example : serializeMessage oneofEnv 3 0 oneofObj = .ok oneofBytes ∧ Oneof oneofEnv 0 [3, 4] ∧ Oneof oneofEnv 0 [0, 1, 2] ∧
    seen (numbers oneofEnv 0 [3, 4]) [(1, .varint 7), (3, .delimited []), (4, .varint 10)] = some 4 ∧
    seen (numbers oneofEnv 0 [0, 1, 2]) [(1, .varint 7), (3, .delimited []), (4, .varint 10)] = some 3 := by
  refine ⟨by rfl, ?_, ?_, by rfl, by rfl⟩
  · intro i hi
    simp only [List.mem_cons, List.not_mem_nil, or_false] at hi
    rcases hi with rfl | rfl <;> exact ⟨_, rfl, trivial⟩
  · intro i hi
    simp only [List.mem_cons, List.not_mem_nil, or_false] at hi
    rcases hi with rfl | rfl | rfl <;> exact ⟨_, rfl, trivial⟩

example : WellTyped oneofEnv 0 oneofObj := by
  refine .msg rfl fun i f v hf hv => ?_
  match i with
  | 0 => cases hf; cases hv; exact .sc rfl
  | 1 => cases hf; cases hv; exact .sc rfl
  | 2 => cases hf; cases hv; exact .null 1
  | 3 => cases hf; cases hv; exact .sc rfl
  | 4 => cases hf; cases hv; exact .sc rfl
  | _ + 5 => cases hf

/-- **C93 is violated by programs that set two members**: nothing unsets the first one, both are written, and a peer sees only one of them,
here the one that was set first. (`setE` was called first, then `setD`.) -/
theorem C93_two_violated :
    ∃ bs rs, serializeMessage oneofEnv 3 0 [.sc (.w32 0), .sc (.str none), .msgNull, .sc (.w64 5), .sc (.str (some ['a']))] = .ok bs ∧
      Cut bs rs ∧ payloadsOf 4 rs = [.varint 10] ∧ payloadsOf 5 rs = [.delimited [97]] ∧ seen (numbers oneofEnv 0 [3, 4]) rs = some 5 := by
  have v : ∀ b : UInt8, b.toNat < 128 → Varint [b] b.toNat := fun b h => ⟨.last b h, by simp⟩
  refine ⟨[0x1a, 0, 0x20, 10, 0x2a, 1, 97], [(3, .delimited []), (4, .varint 10), (5, .delimited [97])], by rfl, ?_, by rfl, by rfl, by rfl⟩
  exact .cons (hdr := [0x1a]) (b := [0] ++ []) (wt := 2) ⟨v 0x1a (by decide), by decide, by decide⟩ (.delimited (v 0 (by decide)))
    (.cons (hdr := [0x20]) (b := [10]) (wt := 0) ⟨v 0x20 (by decide), by decide, by decide⟩ (.varint (v 10 (by decide)) (by decide))
      (.cons (hdr := [0x2a]) (b := [1] ++ [97]) (wt := 2) ⟨v 0x2a (by decide), by decide, by decide⟩ (.delimited (v 1 (by decide))) .nil))

/-- **C93 is violated when reading**: of an input with records of two members, which a peer may send (it merges messages, or changes its
mind), the last one counts; the library has both set. -/
theorem C93_read_violated :
    ∃ bs rs, Cut bs rs ∧ seen (numbers oneofEnv 0 [3, 4]) rs = some 5 ∧
      deserializeMessage oneofEnv 10 0 bs = (.ok (), [.sc (.w32 0), .sc (.str none), .msgNull, .sc (.w64 5), .sc (.str (some ['a']))]) := by
  have v : ∀ b : UInt8, b.toNat < 128 → Varint [b] b.toNat := fun b h => ⟨.last b h, by simp⟩
  refine ⟨[0x20, 10, 0x2a, 1, 97], [(4, .varint 10), (5, .delimited [97])], ?_, by rfl, by rfl⟩
  exact .cons (hdr := [0x20]) (b := [10]) (wt := 0) ⟨v 0x20 (by decide), by decide, by decide⟩ (.varint (v 10 (by decide)) (by decide))
      (.cons (hdr := [0x2a]) (b := [1] ++ [97]) (wt := 2) ⟨v 0x2a (by decide), by decide, by decide⟩ (.delimited (v 1 (by decide))) .nil)

end QtPb
