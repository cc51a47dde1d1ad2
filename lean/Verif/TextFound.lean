import Verif.TextProps
import Verif.GenLemmas
/-
What is found in a whole header. (Helpers for the theorems about generated text.)
-/
namespace QtPb.TextProof
open QtPb.Gen QtPb.Gen.Spec QtPb.Gen.Text QtPb.Gen.Text.Spec QtPb.SpecCpp

mutual
theorem bodies_fst : ∀ (msg : Msg) (ns : List Str) (path : Path), (bodies ns path msg).map (·.1) = declare ns path msg
  | .mk name fields nested e, ns, path => by
    rw [bodies, declare, List.map_append, bodiesList_fst]
    rfl
theorem bodiesList_fst : ∀ (l : List Msg) (ns : List Str) (path : Path) (fields : List FieldD),
    (bodiesList ns path fields l).map (·.1) = declareList ns path fields l
  | [], ns, path, fields => by rw [bodiesList, declareList]; rfl
  | n :: l, ns, path, fields => by
    rw [bodiesList, declareList, List.map_append, bodiesList_fst l]
    split
    · rw [bodies_fst]
    · rfl
end

mutual
theorem bodies_perm : ∀ (msg : Msg) (ns : List Str) (path : Path),
    ((bodies ns path msg).map fun b => (b.1.msg, b.2)).Perm (messagesOf path msg)
  | .mk name fields nested e, ns, path => by
    rw [bodies, messagesOf, List.map_append]
    refine List.perm_append_comm.trans ?_
    exact List.Perm.cons _ (bodiesList_perm nested _ _ fields)
theorem bodiesList_perm : ∀ (l : List Msg) (ns : List Str) (path : Path) (fields : List FieldD),
    ((bodiesList ns path fields l).map fun b => (b.1.msg, b.2)).Perm (messagesOfList path fields l)
  | [], ns, path, fields => by rw [bodiesList, messagesOfList]; exact .nil
  | n :: l, ns, path, fields => by
    rw [bodiesList, messagesOfList, List.map_append]
    refine List.Perm.append ?_ (bodiesList_perm l ns path fields)
    split
    · exact bodies_perm n ns path
    · exact .nil
end

mutual
theorem bodies_ok {o : Options} {c : Ctx} (hf : PlainFile o c) : ∀ (msg : Msg) (ns : List Str) (path : Path), PlainMsg msg → (∀ s ∈ path, Named s) →
    ∀ b ∈ bodies ns path msg, MsgOk o c ⟨b.1.msg, b.2⟩ ∧ b.1.cpp ≠ []
  | .mk name fields nested e, ns, path, hm, hp, b, hb => by
    rw [PlainMsg] at hm
    have hg := good_snoc hp hm.1
    rw [bodies, List.mem_append] at hb
    rcases hb with hb | hb
    · exact bodiesList_ok hf nested _ _ fields hm.2.2 hg.2 b hb
    · rw [List.mem_singleton] at hb
      rw [hb]
      exact ⟨⟨hf, hg, hm.2.1⟩, by simp⟩
theorem bodiesList_ok {o : Options} {c : Ctx} (hf : PlainFile o c) : ∀ (l : List Msg) (ns : List Str) (path : Path) (fields : List FieldD),
    PlainMsgs l → (∀ s ∈ path, Named s) → ∀ b ∈ bodiesList ns path fields l, MsgOk o c ⟨b.1.msg, b.2⟩ ∧ b.1.cpp ≠ []
  | [], ns, path, fields, _, _, b, hb => by rw [bodiesList] at hb; simp at hb
  | n :: l, ns, path, fields, hm, hp, b, hb => by
    rw [PlainMsgs] at hm
    rw [bodiesList, List.mem_append] at hb
    rcases hb with hb | hb
    · split at hb
      · exact bodies_ok hf n ns path hm.1 hp b hb
      · simp at hb
    · exact bodiesList_ok hf l ns path fields hm.2 hp b hb
end

theorem messagesOf_ok {o : Options} {c : Ctx} (hf : PlainFile o c) {msg : Msg} {path : Path} (hm : PlainMsg msg) (hp : ∀ s ∈ path, Named s)
    {b : Path × List FieldD} (hb : b ∈ messagesOf path msg) : MsgOk o c ⟨b.1, b.2⟩ := by
  have := (bodies_perm msg [] path).mem_iff.2 hb
  obtain ⟨x, hx, rfl⟩ := List.mem_map.1 this
  exact (bodies_ok hf msg [] path hm hp x hx).1

theorem plainMsgs_mem : ∀ {l : List Msg}, PlainMsgs l → ∀ m ∈ l, PlainMsg m
  | [], _, m, hm => by simp at hm
  | n :: l, h, m, hm => by
    rw [PlainMsgs] at h
    rcases List.mem_cons.1 hm with rfl | hm
    · exact h.1
    · exact plainMsgs_mem h.2 m hm

theorem dropLast_getLastD {l : List Str} (h : l ≠ []) : l.dropLast ++ [l.getLastD []] = l := by
  rw [List.getLastD_eq_getLast?, List.getLast?_eq_some_getLast h]
  exact List.dropLast_concat_getLast h

/-- What is found in a header of messages. -/
def headerEvents (o : Options) (c : Ctx) (enums : List EnumD) (msgs : List Msg) : List Event :=
  enums.flatMap (enumEvents o c []) ++ msgs.flatMap (fun msg => (bodies (outerNs o c) c.package msg).map forwardEvent) ++
  msgs.flatMap fun msg => (bodies (outerNs o c) c.package msg).flatMap (classEvents o c) ++
    (messagesOf c.package msg).flatMap fun b => metaEvents [] (ownMetas o c ⟨b.1, b.2⟩)

theorem header_eff {o : Options} {c : Ctx} (hf : PlainFile o c) {external internal : List Str} (he : ∀ i ∈ external, Name i)
    (hi : ∀ i ∈ internal, Includable i) {enums : List EnumD} (hen : ∀ e ∈ enums, PlainEnum e) {msgs : List Msg} (hm : PlainMsgs msgs) :
    ∃ text, printed (messageHeader o c external internal enums msgs) = some text ∧ read text = some (headerEvents o c enums msgs) := by
  have hmm := plainMsgs_mem hm
  have h0 := headerTop_quiet (out := false) o he hi
  have h1 := Eff.flatMap (l := enums) (f := enumDeclaration o c) (s := []) (fun e h => enumDeclaration_eff hf (hen e h))
  have h2 := Eff.flatMap (l := msgs) (f := forwardDeclaration o c) (s := []) (fun m h => forwardDeclaration_eff hf (hmm m h))
  have h3 := Eff.flatMap (l := msgs) (f := classDeclaration o c) (s := []) (fun m h => classDeclaration_eff hf (hmm m h))
  have := read_printed (((Eff.append h0 h1).append h2).append h3)
  simpa [messageHeader, headerEvents, scopeOf] using this

/-! ### Lists made of parts -/

/-- A function of lists that goes part by part. -/
structure Parts {β : Type} (x : List Event → List β) : Prop where
  nil : x [] = []
  append : ∀ a b, x (a ++ b) = x a ++ x b

theorem Parts.flatMap {α β : Type} {x : List Event → List β} (h : Parts x) (l : List α) (f : α → List Event) :
    x (l.flatMap f) = l.flatMap fun a => x (f a) := by
  induction l with
  | nil => simp [h.nil]
  | cons a l ih => rw [List.flatMap_cons, h.append, ih, List.flatMap_cons]

theorem Parts.map {α β : Type} {x : List Event → List β} (h : Parts x) (l : List α) (f : α → Event) :
    x (l.map f) = l.flatMap fun a => x [f a] := by rw [List.map_eq_flatMap, h.flatMap]

theorem parts_classes : Parts classesIn := ⟨rfl, fun a b => by simp [classesIn]⟩
theorem parts_forwards : Parts forwardsIn := ⟨rfl, fun a b => by simp [forwardsIn]⟩
theorem parts_calls (m : Text) : Parts (callsIn m) := ⟨rfl, fun a b => by simp [callsIn]⟩
theorem parts_bases : Parts basesIn := ⟨rfl, fun a b => by simp [basesIn]⟩
theorem parts_labels (l : Text) : Parts (labelsIn l) := ⟨rfl, fun a b => by simp [labelsIn]⟩
theorem parts_properties : Parts propertiesIn := ⟨rfl, propertiesIn_append⟩

theorem metaEvents_call (sc : List Text) (l : List (List Lexeme)) : callsIn kwMetaType (metaEvents sc l) = l.map fun a => (sc, a) := by
  induction l with
  | nil => rfl
  | cons a l ih =>
    simp only [metaEvents, List.map_cons] at ih ⊢
    rw [← List.singleton_append, (parts_calls _).append, ih]
    rfl

theorem bodyEvents_calls {o : Options} {c : Ctx} {m : Cur} (sc : List Text) :
    classesIn (bodyEvents (o := o) (c := c) (m := m) sc) = [] ∧ forwardsIn (bodyEvents (o := o) (c := c) (m := m) sc) = [] ∧
    callsIn kwMetaType (bodyEvents (o := o) (c := c) (m := m) sc) = [] ∧
    callsIn kwEnum (bodyEvents (o := o) (c := c) (m := m) sc) =
      (enumsOf o c m.path).map fun n => (sc, [.word n]) := by
  have hx : ∀ f e, e ∈ extraEvents (o := o) (c := c) (m := m) f sc → ∃ as, e = .call sc kwProperty as := by
    intro f e he
    unfold extraEvents at he
    split at he
    · exact ⟨_, List.mem_singleton.1 he⟩
    · split at he
      · exact ⟨_, List.mem_singleton.1 he⟩
      · simp at he
  have key : ∀ {β : Type} (x : List Event → List β), Parts x → (∀ as, x [.call sc kwProperty as] = []) →
      (∀ l, x [.label sc l] = []) → (∀ n, x [.func sc n] = []) →
      x (bodyEvents (o := o) (c := c) (m := m) sc) =
        x ((qenums (o := o) (c := c) (m := m)).map fun n => Event.call sc kwEnum [.word n]) := by
    intro β x hp h0 hlab hfun
    have h1 : x (m.fields.map fun f => propEvent (o := o) (c := c) (m := m) f sc) = [] := by
      rw [hp.map]; exact flatMap_nil' fun f _ => h0 _
    have h2 : x (m.fields.flatMap fun f => extraEvents (o := o) (c := c) (m := m) f sc) = [] := by
      rw [hp.flatMap]
      refine flatMap_nil' fun f _ => ?_
      have : extraEvents (o := o) (c := c) (m := m) f sc = (extraEvents (o := o) (c := c) (m := m) f sc).flatMap fun e => [e] := by simp
      rw [this, hp.flatMap]
      refine flatMap_nil' fun e he => ?_
      obtain ⟨as, rfl⟩ := hx f e he
      exact h0 as
    have h3 : x ((bodyMems o c m).map (Mem.event sc)) = [] := by
      rw [hp.map]
      refine flatMap_nil' fun y _ => ?_
      cases y with
      | label l => exact hlab l
      | func n => exact hfun n
    unfold bodyEvents
    rw [hp.append, hp.append, hp.append, hp.append, h1, h2, h3, hlab]
    simp
  refine ⟨?_, ?_, ?_, ?_⟩
  · rw [key _ parts_classes (fun _ => rfl) (fun _ => rfl) (fun _ => rfl), parts_classes.map]; exact flatMap_nil' fun _ _ => rfl
  · rw [key _ parts_forwards (fun _ => rfl) (fun _ => rfl) (fun _ => rfl), parts_forwards.map]; exact flatMap_nil' fun _ _ => rfl
  · rw [key _ (parts_calls _) (fun _ => rfl) (fun _ => rfl) (fun _ => rfl), (parts_calls _).map]; exact flatMap_nil' fun _ _ => rfl
  · rw [key _ (parts_calls _) (fun _ => rfl) (fun _ => rfl) (fun _ => rfl), (parts_calls _).map, List.map_eq_flatMap]; rfl

/-- In front of what is found in a body. -/
theorem classEvents_parts {β : Type} {x : List Event → List β} (h : Parts x) (hlab : ∀ sc l, x [.label sc l] = [])
    (hfun : ∀ sc n, x [.func sc n] = []) (o : Options) (c : Ctx) (b : Printed × List FieldD) :
    x (classEvents o c b) = x [.cls b.1.cpp.dropLast (b.1.cpp.getLastD []) objectBases] ++
      x (bodyEvents (o := o) (c := c) (m := ⟨b.1.msg, b.2⟩) b.1.cpp) := by
  have e : classEvents o c b = [Event.cls b.1.cpp.dropLast (b.1.cpp.getLastD []) objectBases] ++ ([.label b.1.cpp kwObject] ++
    ([.func b.1.cpp (text! "Q_DECLARE_PROTOBUF_SERIALIZERS")] ++ bodyEvents (o := o) (c := c) (m := ⟨b.1.msg, b.2⟩) b.1.cpp)) := rfl
  rw [e, h.append, h.append, h.append, hlab, hfun]
  simp

theorem metaEvents_none {β : Type} {x : List Event → List β} (h : Parts x) (h0 : ∀ sc as, x [.call sc kwMetaType as] = []) (sc : List Text)
    (l : List (List Lexeme)) : x (metaEvents sc l) = [] := by
  unfold metaEvents
  rw [h.map]
  exact flatMap_nil' fun _ _ => h0 _ _

/-! ### Labels of classes -/

theorem Parts.none {β : Type} {x : List Event → List β} (h : Parts x) {l : List Event} (h0 : ∀ e ∈ l, x [e] = []) : x l = [] := by
  have : l = l.flatMap fun e => [e] := by simp
  rw [this, h.flatMap]
  exact flatMap_nil' h0

theorem extra_is_call {o : Options} {c : Ctx} {m : Cur} {f : FieldD} {sc : List Text} {e : Event}
    (he : e ∈ extraEvents (o := o) (c := c) (m := m) f sc) : ∃ as, e = .call sc kwProperty as := by
  unfold extraEvents at he
  split at he
  · exact ⟨_, List.mem_singleton.1 he⟩
  · split at he
    · exact ⟨_, List.mem_singleton.1 he⟩
    · simp at he

theorem bodyMems_object {o : Options} {c : Ctx} {m : Cur} {x : Mem} (hx : x ∈ bodyMems o c m) : x ≠ .label kwObject := by
  revert x
  unfold bodyMems timestampMems
  simp only [List.forall_mem_append]
  refine ⟨⟨⟨⟨⟨⟨⟨⟨⟨⟨⟨⟨?_, ?_⟩, ?_⟩, ?_⟩, ?_⟩, ?_⟩, ?_⟩, ?_⟩, ?_⟩, ?_⟩, ?_⟩, ?_⟩, ?_⟩ <;> intro x hx e <;> subst e
  · simp at hx
  · split at hx <;> simp at hx
  · simp at hx
  · obtain ⟨f, _, h⟩ := List.mem_flatMap.1 hx
    unfold getterMems at h
    (repeat' split at h) <;> simp at h
  · simp at hx
  · simp at hx
  · revert hx; simp; decide
  · simp at hx
  · revert hx; simp; decide
  · obtain ⟨f, _, h⟩ := List.mem_flatMap.1 hx
    (repeat' split at h) <;> simp at h
  · obtain ⟨f, _, h⟩ := List.mem_flatMap.1 hx
    (repeat' split at h) <;> simp at h
  · obtain ⟨f, _, h⟩ := List.mem_flatMap.1 hx
    (repeat' split at h) <;> simp at h
  · revert hx; simp; decide

theorem bodyEvents_object {o : Options} {c : Ctx} {m : Cur} (sc : List Text) :
    labelsIn kwObject (bodyEvents (o := o) (c := c) (m := m) sc) = [] ∧ basesIn (bodyEvents (o := o) (c := c) (m := m) sc) = [] := by
  have h : ∀ e ∈ bodyEvents (o := o) (c := c) (m := m) sc, (∃ k as, e = .call sc k as) ∨ (∃ n, e = .func sc n) ∨ ∃ l, l ≠ kwObject ∧ e = .label sc l := by
    intro e he
    unfold bodyEvents at he
    simp only [List.mem_append, List.mem_map, List.mem_flatMap, List.mem_singleton] at he
    rcases he with (((⟨f, _, rfl⟩ | ⟨f, _, he⟩) | rfl) | ⟨n, _, rfl⟩) | ⟨x, hx, rfl⟩
    · exact Or.inl ⟨_, _, rfl⟩
    · obtain ⟨as, rfl⟩ := extra_is_call he
      exact Or.inl ⟨_, _, rfl⟩
    · exact Or.inr (Or.inr ⟨_, by decide, rfl⟩)
    · exact Or.inl ⟨_, _, rfl⟩
    · cases x with
      | func n => exact Or.inr (Or.inl ⟨_, rfl⟩)
      | label l => exact Or.inr (Or.inr ⟨l, fun e => bodyMems_object hx (by rw [e]), rfl⟩)
  constructor
  · refine (parts_labels _).none fun e he => ?_
    rcases h e he with ⟨k, as, rfl⟩ | ⟨n, rfl⟩ | ⟨l, hl, rfl⟩
    · rfl
    · rfl
    · simp [labelsIn, hl]
  · refine parts_bases.none fun e he => ?_
    rcases h e he with ⟨k, as, rfl⟩ | ⟨n, rfl⟩ | ⟨l, hl, rfl⟩ <;> rfl

/-! ### Functions of classes -/

/-- The section after some events. -/
def sectionAfter : Text → List Event → Text
  | a, [] => a
  | _, .cls _ _ _ :: es => sectionAfter kwPrivate es
  | a, .label _ l :: es => sectionAfter (if sections.contains l then l else a) es
  | a, .func _ _ :: es => sectionAfter a es
  | a, .call _ _ _ :: es => sectionAfter a es
  | a, .forward _ _ :: es => sectionAfter a es

theorem membersFrom_append (a : Text) (x y : List Event) : membersFrom a (x ++ y) = membersFrom a x ++ membersFrom (sectionAfter a x) y := by
  induction x generalizing a with
  | nil => rfl
  | cons e x ih => cases e <;> simp [membersFrom, sectionAfter, ih]

/-- The functions in a part that does not depend on the section before it. -/
def Own (x : List Event) (l : List (List Text × Text × Text)) : Prop := ∀ a, membersFrom a x = l

theorem Own.nil : Own [] [] := fun _ => rfl

theorem Own.append {x y : List Event} {k l : List (List Text × Text × Text)} (hx : Own x k) (hy : Own y l) : Own (x ++ y) (k ++ l) := fun a => by
  rw [membersFrom_append, hx, hy]

theorem Own.flatMap {α : Type} {l : List α} {f : α → List Event} {g : α → List (List Text × Text × Text)} (h : ∀ b ∈ l, Own (f b) (g b)) :
    Own (l.flatMap f) (l.flatMap g) := by
  induction l with
  | nil => exact Own.nil
  | cons b l ih => exact (h b (by simp)).append (ih fun x hx => h x (by simp [hx]))

/-- Calls of macros. -/
theorem own_calls {l : List Event} (h : ∀ e ∈ l, (∃ sc k as, e = .call sc k as) ∨ ∃ sc n, e = .forward sc n) :
    Own l [] ∧ ∀ a, sectionAfter a l = a := by
  induction l with
  | nil => exact ⟨Own.nil, fun _ => rfl⟩
  | cons e l ih =>
    have := ih fun x hx => h x (by simp [hx])
    rcases h e (by simp) with ⟨sc, k, as, rfl⟩ | ⟨sc, n, rfl⟩ <;> exact ⟨fun a => this.1 a, fun a => this.2 a⟩

/-- Functions with given names. -/
theorem members_funcs (a : Text) (sc : List Text) (ns : List Text) (rest : List Event) :
    membersFrom a ((ns.map Mem.func).map (Mem.event sc) ++ rest) = ns.map (fun n => (sc, a, n)) ++ membersFrom a rest := by
  induction ns with
  | nil => rfl
  | cons n ns ih => simp only [List.map_cons, Mem.event, List.cons_append, membersFrom, ih]

theorem members_label {a l : Text} (h : sections.contains l = true) (sc : List Text) (rest : List Event) :
    membersFrom a (([Mem.label l]).map (Mem.event sc) ++ rest) = membersFrom l rest := by
  simp only [List.map_cons, List.map_nil, Mem.event, List.cons_append, List.nil_append, membersFrom, h, if_true]

theorem bodyMems_eq (o : Options) (c : Ctx) (b : Printed × List FieldD) (h : upperCaseName (b.1.msg.getLastD []) = b.1.cpp.getLastD []) :
    bodyMems o c ⟨b.1.msg, b.2⟩ = (publicOf o b).map Mem.func ++ ([.label kwSignals] ++ ((b.2.map signalName).map Mem.func ++ ([.label kwPrivate] ++
      ((privateOf o c b.2).map Mem.func ++ [.label kwPrivate])))) := by
  have e1 : ∀ l : List FieldD, l.flatMap (getterMems o) = (l.flatMap (gettersOf o)).map Mem.func := by
    intro l
    rw [List.map_flatMap]
    refine flatMap_congr' fun f _ => ?_
    unfold getterMems gettersOf
    cases f.repeated with
    | false => rfl
    | true => simp only [if_true]; split <;> rfl
  have e2 : ∀ (l : List FieldD) (p : FieldD → Bool) (g : FieldD → List Str),
      (l.flatMap fun f => if p f then (g f).map Mem.func else []) = ((l.filter p).flatMap g).map Mem.func := by
    intro l p g
    induction l with
    | nil => rfl
    | cons f l ih =>
      rw [List.flatMap_cons, ih, List.filter_cons]
      split <;> simp
  have e3 := e2 b.2 (isPureMessage c.package) (fun f => [f.prop ++ kP])
  have e4 := e2 b.2 (isPureMessage c.package) (fun f => [f.setter ++ kP])
  have e5 := e2 b.2 (hasQmlAlias o.qml) (fun f => [f.prop ++ kP, f.setter ++ kP])
  simp only [List.map_cons, List.map_nil] at e3 e4 e5
  unfold bodyMems publicOf privateOf timestampMems className
  simp only [h, e1, e3, e4, e5, List.map_append, List.map_replicate, List.map_cons, List.map_nil, List.append_assoc, List.map_map,
    ← List.map_eq_flatMap]
  refine congrArg (_ ++ ·) (congrArg₂' (· ++ ·) ?_ rfl)
  unfold isTimestamp
  by_cases ht : b.1.msg = [text! "google", text! "protobuf", text! "Timestamp"]
  · simp [ht]
  · simp [ht]

/-- The functions found in the class of a message. -/
theorem class_members (o : Options) (c : Ctx) (b : Printed × List FieldD) (h : upperCaseName (b.1.msg.getLastD []) = b.1.cpp.getLastD []) :
    Own (classEvents o c b) ((membersOf o c b).map fun p => (b.1.cpp, p.1, p.2)) := by
  intro a
  have hcalls : ∀ e ∈ b.2.map (fun f => propEvent (o := o) (c := c) (m := ⟨b.1.msg, b.2⟩) f b.1.cpp) ++
      (b.2.flatMap fun f => extraEvents (o := o) (c := c) (m := ⟨b.1.msg, b.2⟩) f b.1.cpp),
      (∃ sc k as, e = Event.call sc k as) ∨ ∃ sc n, e = Event.forward sc n := by
    intro e he
    simp only [List.mem_append, List.mem_map, List.mem_flatMap] at he
    rcases he with ⟨f, _, rfl⟩ | ⟨f, _, he⟩
    · exact Or.inl ⟨_, _, _, rfl⟩
    · obtain ⟨as, rfl⟩ := extra_is_call he
      exact Or.inl ⟨_, _, _, rfl⟩
  have henum : ∀ e ∈ (qenums (o := o) (c := c) (m := ⟨b.1.msg, b.2⟩)).map (fun n => Event.call b.1.cpp kwEnum [.word n]),
      (∃ sc k as, e = Event.call sc k as) ∨ ∃ sc n, e = Event.forward sc n := by
    intro e he
    obtain ⟨n, _, rfl⟩ := List.mem_map.1 he
    exact Or.inl ⟨_, _, _, rfl⟩
  have k1 := own_calls hcalls
  have k2 := own_calls henum
  have e : classEvents o c b = Event.cls b.1.cpp.dropLast (b.1.cpp.getLastD []) objectBases :: .label b.1.cpp kwObject ::
    .func b.1.cpp (text! "Q_DECLARE_PROTOBUF_SERIALIZERS") :: bodyEvents (o := o) (c := c) (m := ⟨b.1.msg, b.2⟩) b.1.cpp := rfl
  rw [e]
  have ho : sections.contains kwObject = false := by decide
  simp only [membersFrom, ho, Bool.false_eq_true, if_false]
  unfold bodyEvents
  rw [bodyMems_eq o c b h]
  simp only [List.map_append, List.append_assoc]
  rw [← List.append_assoc, membersFrom_append, k1.1, k1.2, List.nil_append, List.singleton_append, membersFrom]
  simp only [show sections.contains kwPublic = true by decide, if_true]
  rw [membersFrom_append, k2.1, k2.2, List.nil_append, members_funcs, members_label (by decide), members_funcs, members_label (by decide),
    members_funcs]
  simp only [membersOf, List.map_append, List.map_map, List.map_cons, List.map_nil, Mem.event, membersFrom, List.append_nil, List.append_assoc]
  rfl

mutual
theorem bodies_names : ∀ (msg : Msg) (ns : List Str) (path : Path), ∀ b ∈ bodies ns path msg,
    upperCaseName (b.1.msg.getLastD []) = b.1.cpp.getLastD []
  | .mk name fields nested e, ns, path, b, hb => by
    rw [bodies, List.mem_append] at hb
    rcases hb with hb | hb
    · exact bodiesList_names nested _ _ fields b hb
    · rw [List.mem_singleton] at hb
      rw [hb]
      simp
theorem bodiesList_names : ∀ (l : List Msg) (ns : List Str) (path : Path) (fields : List FieldD), ∀ b ∈ bodiesList ns path fields l,
    upperCaseName (b.1.msg.getLastD []) = b.1.cpp.getLastD []
  | [], ns, path, fields, b, hb => by rw [bodiesList] at hb; simp at hb
  | n :: l, ns, path, fields, b, hb => by
    rw [bodiesList, List.mem_append] at hb
    rcases hb with hb | hb
    · split at hb
      · exact bodies_names n ns path b hb
      · simp at hb
    · exact bodiesList_names l ns path fields b hb
end

theorem enum_members (o : Options) (c : Ctx) (e : EnumD) :
    Own (enumEvents o c [] e) ((gadgetMembers e).map fun p => (gadgetClass o c e, p.1, p.2)) := fun _ => rfl

/-- The functions found in the class of a client. -/
theorem client_members (o : Options) (sc : List Text) (s : ServiceText) :
    Own (clientEvents o sc s) ((clientMembers o s).map fun p => (sc ++ [upperCaseName s.name ++ text! "Client"], p.1, p.2)) := by
  intro a
  have e1 : s.methods.flatMap (methodMems o) = (s.methods.flatMap fun d => if d.streaming then List.replicate 2 (text! "stream" ++ upperCaseName d.name)
      else List.replicate (if o.qml then 5 else 3) d.name).map Mem.func := by
    rw [List.map_flatMap]
    refine flatMap_congr' fun d _ => ?_
    unfold methodMems
    cases d.streaming <;> cases o.qml <;> rfl
  have e2 : s.methods.flatMap (privateMems o) =
      ((s.methods.filter fun d => d.streaming && o.qml).map fun d => text! "qmlStream" ++ upperCaseName d.name ++ text! "_p").map Mem.func := by
    induction s.methods with
    | nil => rfl
    | cons d l ih =>
      rw [List.flatMap_cons, ih, List.filter_cons]
      unfold privateMems
      split <;> simp
  have e : clientEvents o sc s = Event.cls sc (clientName s) clientBases :: .label (sc ++ [clientName s]) kwObject ::
    .label (sc ++ [clientName s]) kwPublic :: .func (sc ++ [clientName s]) (clientName s) ::
    ((s.methods.flatMap (methodMems o)).map (Mem.event (sc ++ [clientName s])) ++ (([Mem.label kwPrivate]).map (Mem.event (sc ++ [clientName s])) ++
      ((s.methods.flatMap (privateMems o)).map (Mem.event (sc ++ [clientName s])) ++ []))) := by
    simp [clientEvents, clientMems, Mem.event]
  rw [e, e1, e2]
  have ho : sections.contains kwObject = false := by decide
  have hp : sections.contains kwPublic = true := by decide
  simp only [membersFrom, ho, hp, Bool.false_eq_true, if_false, if_true]
  rw [members_funcs, members_label (by decide), members_funcs]
  simp only [clientMembers, List.map_append, List.map_cons, List.map_nil, List.map_map, List.map_flatMap, membersFrom, List.append_nil]
  refine congrArg₂' (· :: ·) rfl (congrArg₂' (· ++ ·) (flatMap_congr' fun d _ => ?_) rfl)
  split <;> simp [clientName]

end QtPb.TextProof
