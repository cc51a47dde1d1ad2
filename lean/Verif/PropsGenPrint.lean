import Verif.TextFound
/-
C94: the text of generated headers and sources, read again as C++: brackets match, and the classes, properties, enumerations and meta
types found in it are those of the schema, in the right namespaces. The reader is in `SpecCpp`, what is expected in `SpecText`.
All theorems are about plain schemas (`PlainFile`, `PlainMsgs`, `PlainEnum`, `PlainService`); what is missing are schemas with names that
mean something to C++ (`C94_keyword_violated`), JSON names with quotes (`C94_json_name_violated`) and comments with the end of a comment
(`C94_comment_violated`).
-/
namespace QtPb.Gen.Text
open QtPb.Gen QtPb.SpecCpp QtPb.Gen.Text.Spec QtPb.TextProof

section
variable {o : Options} {c : Ctx} {external internal : List Str} {enums : List EnumD} {msgs : List Msg}

/-- The classes and the forward declarations of a file of messages: one class for every top-level enumeration and for every message that
is visited, in the namespaces of the package (and the extra one); every class is declared forward before. The text is C++ as far as the
reader knows it: comments and literals end, brackets match, every declaration is finished. -/
theorem C94_header_classes_partial (hf : PlainFile o c) (hx : ∀ i ∈ external, Name i) (hi : ∀ i ∈ internal, Includable i)
    (he : ∀ e ∈ enums, PlainEnum e) (hm : PlainMsgs msgs) :
    ∃ text evs, printed (messageHeader o c external internal enums msgs) = some text ∧ read text = some evs ∧
      classesIn evs = enums.map (gadgetClass o c) ++ (msgs.flatMap (bodies (around o c) c.package)).map (·.1.cpp) ∧
      forwardsIn evs = (msgs.flatMap (bodies (around o c) c.package)).map (·.1.cpp) := by
  obtain ⟨text, h1, h2⟩ := header_eff hf hx hi he hm
  have hmm := plainMsgs_mem hm
  refine ⟨text, _, h1, h2, ?_, ?_⟩
  · unfold headerEvents
    have e1 : classesIn (enums.flatMap (enumEvents o c [])) = enums.map (gadgetClass o c) := by
      rw [parts_classes.flatMap, List.map_eq_flatMap]; rfl
    have e2 : classesIn (msgs.flatMap fun msg => (bodies (outerNs o c) c.package msg).map forwardEvent) = [] := by
      rw [parts_classes.flatMap]
      refine flatMap_nil' fun msg _ => ?_
      rw [parts_classes.map]
      exact flatMap_nil' fun _ _ => rfl
    rw [parts_classes.append, parts_classes.append, e1, e2, parts_classes.flatMap, List.append_nil, List.map_flatMap]
    refine congrArg (_ ++ ·) (flatMap_congr' fun msg hmem => ?_)
    rw [parts_classes.append, parts_classes.flatMap, parts_classes.flatMap,
      flatMap_nil' (f := fun b : Path × List FieldD => classesIn (metaEvents [] (ownMetas o c ⟨b.1, b.2⟩)))
        (fun b _ => metaEvents_none parts_classes (fun _ _ => rfl) _ _), List.append_nil, List.map_eq_flatMap]
    refine flatMap_congr' fun b hb => ?_
    have hne := (bodies_ok hf msg _ _ (hmm msg hmem) hf.package b hb).2
    rw [classEvents_parts parts_classes (fun _ _ => rfl) (fun _ _ => rfl), (bodyEvents_calls _).1]
    simpa [classesIn] using dropLast_getLastD hne
  · unfold headerEvents
    have e1 : forwardsIn (enums.flatMap (enumEvents o c [])) = [] := by
      rw [parts_forwards.flatMap]; exact flatMap_nil' fun _ _ => rfl
    have e3 : forwardsIn (msgs.flatMap fun msg => (bodies (outerNs o c) c.package msg).flatMap (classEvents o c) ++
        (messagesOf c.package msg).flatMap fun b => metaEvents [] (ownMetas o c ⟨b.1, b.2⟩)) = [] := by
      rw [parts_forwards.flatMap]
      refine flatMap_nil' fun msg _ => ?_
      rw [parts_forwards.append, parts_forwards.flatMap, parts_forwards.flatMap,
        flatMap_nil' (f := fun b : Path × List FieldD => forwardsIn (metaEvents [] (ownMetas o c ⟨b.1, b.2⟩)))
          (fun b _ => metaEvents_none parts_forwards (fun _ _ => rfl) _ _), List.append_nil]
      refine flatMap_nil' fun b _ => ?_
      rw [classEvents_parts parts_forwards (fun _ _ => rfl) (fun _ _ => rfl), (bodyEvents_calls _).2.1]
      rfl
    rw [parts_forwards.append, parts_forwards.append, e1, e3, parts_forwards.flatMap, List.append_nil, List.nil_append, List.map_flatMap]
    refine flatMap_congr' fun msg hmem => ?_
    rw [parts_forwards.map, List.map_eq_flatMap]
    refine flatMap_congr' fun b hb => ?_
    have hne := (bodies_ok hf msg _ _ (hmm msg hmem) hf.package b hb).2
    simpa [forwardsIn, forwardEvent] using dropLast_getLastD hne

/-- The classes and forward declarations found are those of the model of declarations (`File.classes`, `File.forwards`), to which the
theorems about names, order and members of classes apply. -/
theorem C94_header_declared_partial (hf : PlainFile o c) (hx : ∀ i ∈ external, Name i) (hi : ∀ i ∈ internal, Includable i)
    (he : ∀ e ∈ enums, PlainEnum e) (hm : PlainMsgs msgs) :
    ∃ text evs, printed (messageHeader o c external internal enums msgs) = some text ∧ read text = some evs ∧
      classesIn evs = enums.map (gadgetClass o c) ++ (File.classes o.extra ⟨c.package, msgs⟩).map (·.cpp) ∧
      forwardsIn evs = (File.forwards o.extra ⟨c.package, msgs⟩).map (·.cpp) := by
  obtain ⟨text, evs, h1, h2, h3, h4⟩ := C94_header_classes_partial hf hx hi he hm
  have hb : (msgs.flatMap (bodies (around o c) c.package)).map (·.1.cpp) = (File.classes o.extra ⟨c.package, msgs⟩).map (·.cpp) := by
    unfold File.classes
    rw [List.map_flatMap, List.map_flatMap]
    refine flatMap_congr' fun msg _ => ?_
    rw [show fileNs o.extra c.package = around o c from rfl, ← bodies_fst, List.map_map]
    rfl
  have hc : File.forwards o.extra ⟨c.package, msgs⟩ = File.classes o.extra ⟨c.package, msgs⟩ := by
    unfold File.forwards File.classes
    exact flatMap_congr' fun msg _ => forward_eq msg _ _
  exact ⟨text, evs, h1, h2, by rw [h3, hb], by rw [h4, hb, hc]⟩

/-- The properties: in the class of every message there are the properties of its fields, with the type of the field, its name, the
methods that read and write it, the signal and what is said of QML, in the order of the fields; there are no others. -/
theorem C94_header_properties_partial (hf : PlainFile o c) (hx : ∀ i ∈ external, Name i) (hi : ∀ i ∈ internal, Includable i)
    (he : ∀ e ∈ enums, PlainEnum e) (hm : PlainMsgs msgs) :
    ∃ text evs, printed (messageHeader o c external internal enums msgs) = some text ∧ read text = some evs ∧
      propertiesIn evs = (msgs.flatMap (bodies (around o c) c.package)).flatMap fun b =>
        (expected o c b.1.msg b.2).map fun p => (b.1.cpp, some p) := by
  obtain ⟨text, h1, h2⟩ := header_eff hf hx hi he hm
  have hmm := plainMsgs_mem hm
  refine ⟨text, _, h1, h2, ?_⟩
  unfold headerEvents
  have e1 : propertiesIn (enums.flatMap (enumEvents o c [])) = [] := by
    rw [parts_properties.flatMap]; exact flatMap_nil' fun _ _ => rfl
  have e2 : propertiesIn (msgs.flatMap fun msg => (bodies (outerNs o c) c.package msg).map forwardEvent) = [] := by
    rw [parts_properties.flatMap]
    refine flatMap_nil' fun msg _ => ?_
    rw [parts_properties.map]
    exact flatMap_nil' fun _ _ => rfl
  rw [parts_properties.append, parts_properties.append, e1, e2, parts_properties.flatMap, List.append_nil, List.nil_append, List.flatMap_assoc]
  refine flatMap_congr' fun msg hmem => ?_
  rw [parts_properties.append, parts_properties.flatMap, parts_properties.flatMap,
    flatMap_nil' (f := fun b : Path × List FieldD => propertiesIn (metaEvents [] (ownMetas o c ⟨b.1, b.2⟩)))
      (fun b _ => metaEvents_none parts_properties (fun _ _ => rfl) _ _), List.append_nil]
  refine flatMap_congr' fun b hb => ?_
  have ok := (bodies_ok hf msg _ _ (hmm msg hmem) hf.package b hb).1
  rw [classEvents_parts parts_properties (fun _ _ => rfl) (fun _ _ => rfl), body_properties ok]
  rfl

/-- The enumerations declared to Qt: in the class of a top-level enumeration that enumeration, in the class of a message those of the
message. -/
theorem C94_header_enums_partial (hf : PlainFile o c) (hx : ∀ i ∈ external, Name i) (hi : ∀ i ∈ internal, Includable i)
    (he : ∀ e ∈ enums, PlainEnum e) (hm : PlainMsgs msgs) :
    ∃ text evs, printed (messageHeader o c external internal enums msgs) = some text ∧ read text = some evs ∧
      callsIn kwEnum evs = (enums.map fun e => (gadgetClass o c e, [Lexeme.word (upperCaseName e.name)])) ++
        (msgs.flatMap (bodies (around o c) c.package)).flatMap fun b => (enumsOf o c b.1.msg).map fun n => (b.1.cpp, [.word n]) := by
  obtain ⟨text, h1, h2⟩ := header_eff hf hx hi he hm
  refine ⟨text, _, h1, h2, ?_⟩
  have hp := parts_calls kwEnum
  unfold headerEvents
  have e1 : callsIn kwEnum (enums.flatMap (enumEvents o c [])) = enums.map fun e => (gadgetClass o c e, [Lexeme.word (upperCaseName e.name)]) := by
    rw [hp.flatMap, List.map_eq_flatMap]; rfl
  have e2 : callsIn kwEnum (msgs.flatMap fun msg => (bodies (outerNs o c) c.package msg).map forwardEvent) = [] := by
    rw [hp.flatMap]
    refine flatMap_nil' fun msg _ => ?_
    rw [hp.map]
    exact flatMap_nil' fun _ _ => rfl
  rw [hp.append, hp.append, e1, e2, hp.flatMap, List.append_nil, List.flatMap_assoc]
  refine congrArg (_ ++ ·) (flatMap_congr' fun msg hmem => ?_)
  rw [hp.append, hp.flatMap, hp.flatMap,
    flatMap_nil' (f := fun b : Path × List FieldD => callsIn kwEnum (metaEvents [] (ownMetas o c ⟨b.1, b.2⟩)))
      (fun b _ => metaEvents_none hp (fun _ _ => rfl) _ _), List.append_nil]
  refine flatMap_congr' fun b hb => ?_
  rw [classEvents_parts hp (fun _ _ => rfl) (fun _ _ => rfl), (bodyEvents_calls _).2.2.2]
  rfl

/-- The types declared to the meta-type system: all outside of namespaces and classes, as Qt demands; for every top-level enumeration the
list of it, for every message its class, the list of it, its own enumerations that are used in it and the types of its maps. -/
theorem C94_header_metatypes_partial (hf : PlainFile o c) (hx : ∀ i ∈ external, Name i) (hi : ∀ i ∈ internal, Includable i)
    (he : ∀ e ∈ enums, PlainEnum e) (hm : PlainMsgs msgs) :
    ∃ text evs, printed (messageHeader o c external internal enums msgs) = some text ∧ read text = some evs ∧
      callsIn kwMetaType evs = ((enums.map fun e => qualified (enumListName o (c.package ++ [e.name]) .global)) ++
        (msgs.flatMap (messagesOf c.package)).flatMap (declared o c)).map fun t => ([], t) := by
  obtain ⟨text, h1, h2⟩ := header_eff hf hx hi he hm
  have hmm := plainMsgs_mem hm
  refine ⟨text, _, h1, h2, ?_⟩
  have hp := parts_calls kwMetaType
  unfold headerEvents
  have e1 : callsIn kwMetaType (enums.flatMap (enumEvents o c [])) =
      (enums.map fun e => qualified (enumListName o (c.package ++ [e.name]) .global)).map fun t => ([], t) := by
    rw [hp.flatMap, List.map_map, List.map_eq_flatMap]
    refine flatMap_congr' fun e hmem => ?_
    simp only [Function.comp_apply]
    rw [← enumMeta_eq hf (he e hmem)]
    rfl
  have e2 : callsIn kwMetaType (msgs.flatMap fun msg => (bodies (outerNs o c) c.package msg).map forwardEvent) = [] := by
    rw [hp.flatMap]
    refine flatMap_nil' fun msg _ => ?_
    rw [hp.map]
    exact flatMap_nil' fun _ _ => rfl
  rw [hp.append, hp.append, e1, e2, hp.flatMap, List.append_nil, List.map_append, List.flatMap_assoc, List.map_flatMap]
  refine congrArg (_ ++ ·) (flatMap_congr' fun msg hmem => ?_)
  rw [hp.append, hp.flatMap, hp.flatMap, flatMap_nil' (f := fun b => callsIn kwMetaType (classEvents o c b)), List.nil_append, List.map_flatMap]
  · refine flatMap_congr' fun b hb => ?_
    have ok := messagesOf_ok hf (hmm msg hmem) hf.package hb
    rw [metaEvents_call, ownMetas_eq ok]
  · intro b _
    rw [classEvents_parts hp (fun _ _ => rfl) (fun _ _ => rfl), (bodyEvents_calls _).2.2.1]
    rfl

/-- The messages whose types are declared are those that have classes. -/
theorem C94_metatypes_of_classes (msgs : List Msg) (ns : List Str) (path : Path) :
    ((msgs.flatMap (bodies ns path)).map fun b => (b.1.msg, b.2)).Perm (msgs.flatMap (messagesOf path)) := by
  induction msgs with
  | nil => exact .nil
  | cons m l ih =>
    rw [List.flatMap_cons, List.flatMap_cons, List.map_append]
    exact List.Perm.append (bodies_perm m ns path) ih

/-- The functions of the classes, with the sections they are in: for every top-level enumeration and every message those of `gadgetMembers`
and `membersOf`, in order; there are no others. -/
theorem C94_header_members_partial (hf : PlainFile o c) (hx : ∀ i ∈ external, Name i) (hi : ∀ i ∈ internal, Includable i)
    (he : ∀ e ∈ enums, PlainEnum e) (hm : PlainMsgs msgs) :
    ∃ text evs, printed (messageHeader o c external internal enums msgs) = some text ∧ read text = some evs ∧
      membersIn evs = (enums.flatMap fun e => (gadgetMembers e).map fun p => (gadgetClass o c e, p.1, p.2)) ++
        (msgs.flatMap (bodies (around o c) c.package)).flatMap fun b => (membersOf o c b).map fun p => (b.1.cpp, p.1, p.2) := by
  obtain ⟨text, h1, h2⟩ := header_eff hf hx hi he hm
  refine ⟨text, _, h1, h2, ?_⟩
  have ha : outerNs o c = around o c := rfl
  have k1 : Own (enums.flatMap (enumEvents o c [])) (enums.flatMap fun e => (gadgetMembers e).map fun p => (gadgetClass o c e, p.1, p.2)) :=
    Own.flatMap fun e _ => enum_members o c e
  have k2 : Own (msgs.flatMap fun msg => (bodies (around o c) c.package msg).map forwardEvent) [] :=
    (own_calls fun e he => by
      obtain ⟨msg, _, h⟩ := List.mem_flatMap.1 he
      obtain ⟨b, _, rfl⟩ := List.mem_map.1 h
      exact Or.inr ⟨_, _, rfl⟩).1
  have k3 : Own (msgs.flatMap fun msg => (bodies (around o c) c.package msg).flatMap (classEvents o c) ++
      (messagesOf c.package msg).flatMap fun b => metaEvents [] (ownMetas o c ⟨b.1, b.2⟩))
      (msgs.flatMap fun msg => ((bodies (around o c) c.package msg).flatMap fun b =>
        (membersOf o c b).map fun p => (b.1.cpp, p.1, p.2)) ++ []) := by
    refine Own.flatMap fun msg _ => Own.append ?_ ?_
    · exact Own.flatMap fun b hb => class_members o c b (bodies_names msg _ _ b hb)
    · refine (own_calls fun e he => ?_).1
      obtain ⟨b, _, h⟩ := List.mem_flatMap.1 he
      obtain ⟨a, _, rfl⟩ := List.mem_map.1 h
      exact Or.inl ⟨_, _, _, rfl⟩
  have := (k1.append k2).append k3 kwPrivate
  unfold membersIn headerEvents
  rw [ha, this, List.append_nil, List.flatMap_assoc]
  simp only [List.append_nil]

/-- The bases of the classes and the macro of moc: all are derived from QObject, in public; every class has Q_OBJECT in it, once, and it is
nowhere else. -/
theorem C94_header_objects_partial (hf : PlainFile o c) (hx : ∀ i ∈ external, Name i) (hi : ∀ i ∈ internal, Includable i)
    (he : ∀ e ∈ enums, PlainEnum e) (hm : PlainMsgs msgs) :
    ∃ text evs, printed (messageHeader o c external internal enums msgs) = some text ∧ read text = some evs ∧
      (∀ as ∈ basesIn evs, as = [.punct ':', .word (text! "public"), .word (text! "QObject")]) ∧
      labelsIn kwObject evs = classesIn evs := by
  obtain ⟨text, evs, h1, h2, h3, -⟩ := C94_header_classes_partial hf hx hi he hm
  obtain ⟨text', h1', h2'⟩ := header_eff hf hx hi he hm
  rw [h1] at h1'
  cases h1'
  rw [h2] at h2'
  cases h2'
  have hmm := plainMsgs_mem hm
  refine ⟨text, _, h1, h2, ?_, ?_⟩
  · have key : ∀ l : List Event, (∀ e ∈ l, ∀ sc n as, e = .cls sc n as → as = objectBases) → ∀ as ∈ basesIn l, as = objectBases := by
      intro l h as ha
      obtain ⟨e, hem, hee⟩ := List.mem_filterMap.1 ha
      cases e with
      | cls sc n bs => simp at hee; subst hee; exact h _ hem _ _ _ rfl
      | _ => simp at hee
    refine key _ fun e hem sc n as hcls => ?_
    subst hcls
    unfold headerEvents at hem
    simp only [List.mem_append, List.mem_flatMap, List.mem_map] at hem
    rcases hem with (⟨x, _, hem⟩ | ⟨x, _, b, _, hem⟩) | ⟨x, _, ⟨b, _, hem⟩ | ⟨b, _, hem⟩⟩
    · simp only [enumEvents, gadgetMems, List.map_cons, List.map_nil, Mem.event, List.mem_cons, List.mem_append, Event.cls.injEq, reduceCtorEq,
        false_or, or_false, List.not_mem_nil] at hem
      exact hem.2.2
    · cases hem
    · simp only [classEvents, List.mem_cons, Event.cls.injEq, reduceCtorEq, false_or] at hem
      rcases hem with hem | hem
      · exact hem.2.2
      · have := (bodyEvents_object (o := o) (c := c) (m := ⟨b.1.msg, b.2⟩) b.1.cpp).2
        have : as ∈ basesIn (bodyEvents (o := o) (c := c) (m := ⟨b.1.msg, b.2⟩) b.1.cpp) := List.mem_filterMap.2 ⟨_, hem, rfl⟩
        simp_all
    · obtain ⟨a, _, h⟩ := List.mem_map.1 hem
      cases h
  · rw [h3]
    have hp := parts_labels kwObject
    unfold headerEvents
    have e1 : labelsIn kwObject (enums.flatMap (enumEvents o c [])) = enums.map (gadgetClass o c) := by
      rw [hp.flatMap, List.map_eq_flatMap]; rfl
    have e2 : labelsIn kwObject (msgs.flatMap fun msg => (bodies (outerNs o c) c.package msg).map forwardEvent) = [] := by
      rw [hp.flatMap]
      refine flatMap_nil' fun msg _ => ?_
      rw [hp.map]
      exact flatMap_nil' fun _ _ => rfl
    rw [hp.append, hp.append, e1, e2, hp.flatMap, List.append_nil, List.map_flatMap]
    refine congrArg (_ ++ ·) (flatMap_congr' fun msg hmem => ?_)
    rw [hp.append, hp.flatMap, hp.flatMap,
      flatMap_nil' (f := fun b : Path × List FieldD => labelsIn kwObject (metaEvents [] (ownMetas o c ⟨b.1, b.2⟩)))
        (fun b _ => metaEvents_none hp (fun _ _ => rfl) _ _), List.append_nil, List.map_eq_flatMap]
    refine flatMap_congr' fun b hb => ?_
    have e3 : classEvents o c b = [Event.cls b.1.cpp.dropLast (b.1.cpp.getLastD []) objectBases, .label b.1.cpp kwObject,
      .func b.1.cpp (text! "Q_DECLARE_PROTOBUF_SERIALIZERS")] ++ bodyEvents (o := o) (c := c) (m := ⟨b.1.msg, b.2⟩) b.1.cpp := rfl
    rw [e3, hp.append, (bodyEvents_object _).1]
    rfl

/-- What moc needs: the functions named after READ and WRITE of every property are declared in the class of the property, and what is named
after NOTIFY is a signal of that class. -/
theorem C94_header_moc_partial (hf : PlainFile o c) (hx : ∀ i ∈ external, Name i) (hi : ∀ i ∈ internal, Includable i)
    (he : ∀ e ∈ enums, PlainEnum e) (hm : PlainMsgs msgs) :
    ∃ text evs, printed (messageHeader o c external internal enums msgs) = some text ∧ read text = some evs ∧
      ∀ sc p, (sc, p) ∈ propertiesIn evs → ∃ q, p = some q ∧ (∃ a, (sc, a, q.read) ∈ membersIn evs) ∧
        (∀ w, q.write = some w → ∃ a, (sc, a, w) ∈ membersIn evs) ∧ ∃ n, q.notify = some n ∧ (sc, kwSignals, n) ∈ membersIn evs := by
  obtain ⟨text, evs, h1, h2, h3⟩ := C94_header_properties_partial hf hx hi he hm
  obtain ⟨text', evs', h1', h2', h4⟩ := C94_header_members_partial hf hx hi he hm
  rw [h1] at h1'
  cases h1'
  rw [h2] at h2'
  cases h2'
  refine ⟨text, evs, h1, h2, fun sc p hp => ?_⟩
  rw [h3] at hp
  obtain ⟨b, hb, hp⟩ := List.mem_flatMap.1 hp
  obtain ⟨q, hq, e⟩ := List.mem_map.1 hp
  cases e
  have mem : ∀ x ∈ membersOf o c b, (b.1.cpp, x.1, x.2) ∈ membersIn evs := fun x hx => by
    rw [h4]
    exact List.mem_append_right _ (List.mem_flatMap.2 ⟨b, hb, List.mem_map.2 ⟨x, hx, rfl⟩⟩)
  have hpub : ∀ n ∈ publicOf o b, (b.1.cpp, kwPublic, n) ∈ membersIn evs := fun n hn => mem (kwPublic, n) (by simp [membersOf, hn])
  have hpri : ∀ n ∈ privateOf o c b.2, (b.1.cpp, kwPrivate, n) ∈ membersIn evs := fun n hn => mem (kwPrivate, n) (by simp [membersOf, hn])
  have hsig : ∀ f ∈ b.2, (b.1.cpp, kwSignals, signalName f) ∈ membersIn evs := fun f hf => mem (kwSignals, signalName f) (by
    simp only [membersOf, List.mem_append, List.mem_map]
    exact Or.inl (Or.inr ⟨_, ⟨f, hf, rfl⟩, rfl⟩))
  have hget : ∀ f ∈ b.2, f.prop ∈ publicOf o b := fun f hf => by
    have : f.prop ∈ gettersOf o f := by unfold gettersOf; (repeat' split) <;> simp
    simp only [publicOf, List.mem_append]
    exact Or.inl (Or.inl (Or.inr (List.mem_flatMap.2 ⟨f, hf, this⟩)))
  have hset : ∀ f ∈ b.2, f.setter ∈ publicOf o b := fun f hf => by
    simp only [publicOf, List.mem_append]
    exact Or.inl (Or.inr (List.mem_map.2 ⟨f, hf, rfl⟩))
  have hpure : ∀ f ∈ b.2, isPureMessage c.package f = true → f.prop ++ kP ∈ privateOf o c b.2 ∧ f.setter ++ kP ∈ privateOf o c b.2 :=
    fun f hf hp => by
      simp only [privateOf, List.mem_append, List.mem_map, List.mem_filter]
      exact ⟨Or.inl (Or.inl ⟨f, ⟨hf, hp⟩, rfl⟩), Or.inl (Or.inr ⟨f, ⟨hf, hp⟩, rfl⟩)⟩
  have halias : ∀ f ∈ b.2, hasQmlAlias o.qml f = true → f.prop ++ kP ∈ privateOf o c b.2 ∧ f.setter ++ kP ∈ privateOf o c b.2 :=
    fun f hf hp => by
      simp only [privateOf, List.mem_append]
      exact ⟨Or.inr (List.mem_flatMap.2 ⟨f, List.mem_filter.2 ⟨hf, hp⟩, by simp [kP]⟩),
        Or.inr (List.mem_flatMap.2 ⟨f, List.mem_filter.2 ⟨hf, hp⟩, by simp [kP]⟩)⟩
  refine ⟨q, rfl, ?_⟩
  unfold expected at hq
  rcases List.mem_append.1 hq with hq | hq
  · obtain ⟨f, hf, rfl⟩ := List.mem_map.1 hq
    refine ⟨?_, ?_, signalName f, rfl, hsig f hf⟩
    · simp only
      unfold fieldProperty
      split
      · exact ⟨_, hpri _ (hpure f hf ‹_›).1⟩
      · (repeat' split) <;> exact ⟨_, hpub _ (hget f hf)⟩
    · intro w hw
      simp only at hw
      unfold fieldProperty at hw
      split at hw
      · cases hw; exact ⟨_, hpri _ (hpure f hf ‹_›).2⟩
      · (repeat' split at hw) <;> cases hw <;> exact ⟨_, hpub _ (hset f hf)⟩
  · obtain ⟨f, hf, hq⟩ := List.mem_flatMap.1 hq
    obtain ⟨p, hx, rfl⟩ := List.mem_map.1 hq
    unfold extraProperty at hx
    split at hx
    · rename_i hc
      rw [List.mem_singleton.1 hx]
      refine ⟨⟨kwPublic, hpub _ ?_⟩, (fun w hw => by cases hw), signalName f, rfl, hsig f hf⟩
      simp only [Bool.and_eq_true, beq_iff_eq, Bool.not_eq_true'] at hc
      have : f.prop ++ kL ∈ gettersOf o f := by simp [gettersOf, hc, kL]
      simp only [publicOf, List.mem_append]
      exact Or.inl (Or.inl (Or.inr (List.mem_flatMap.2 ⟨f, hf, this⟩)))
    · split at hx
      · rw [List.mem_singleton.1 hx]
        exact ⟨⟨_, hpri _ (halias f hf ‹_›).1⟩, (fun w hw => by cases hw; exact ⟨_, hpri _ (halias f hf ‹_›).2⟩), signalName f, rfl, hsig f hf⟩
      · simp at hx

/-- The source of a file of messages: brackets match, and no class is declared in it, no property, no enumeration, no meta type. -/
theorem C94_source_partial {header : Str} (hf : PlainFile o c) (hh : Includable header) (he : ∀ e ∈ enums, PlainEnum e) (hm : PlainMsgs msgs) :
    ∃ text, printed (messageSource o c header enums msgs) = some text ∧ read text = some [] := by
  have hmm := plainMsgs_mem hm
  have h0 := sourceTop_quiet (out := true) (external := if o.qml then [text! "QQmlEngine"] else []) hh (by
    intro i hi
    split at hi
    · rw [List.mem_singleton.1 hi]
      exact ⟨by decide, by decide, by decide⟩
    · simp at hi)
  exact read_printed (Quiet.append (Quiet.append h0 (Quiet.flatMap fun e h => enumDefinition_quiet hf (he e h)))
    (Quiet.flatMap fun m h => classDefinition_quiet hf (hmm m h)))

end

section
variable {o : Options} {c : Ctx} {external internal : List Str} {services : List ServiceText}

/-- The header of the clients of a file: one class for every service, in the namespaces of the package, derived from the client of the
library, with Q_OBJECT, with the functions of `clientMembers`. -/
theorem C94_client_header_partial (hf : PlainFile o c) (hx : ∀ i ∈ external, Name i) (hi : ∀ i ∈ internal, Includable i)
    (hs : ∀ s ∈ services, PlainService s) :
    ∃ text evs, printed (clientHeaderText o c external internal services) = some text ∧ read text = some evs ∧
      classesIn evs = (services.map fun s => around o c ++ [upperCaseName s.name ++ text! "Client"]) ∧
      forwardsIn evs = [] ∧ propertiesIn evs = [] ∧
      (∀ as ∈ basesIn evs, as = [.punct ':', .word (text! "public"), .word (text! "QtProtobuf"), .punct ':', .punct ':',
        .word (text! "QAbstractGrpcClient")]) ∧ labelsIn kwObject evs = classesIn evs ∧
      membersIn evs = services.flatMap fun s => (clientMembers o s).map fun p =>
        (around o c ++ [upperCaseName s.name ++ text! "Client"], p.1, p.2) := by
  have h0 := headerTop_quiet (out := false) o hx hi
  have h1 := Eff.flatMap (l := services) (f := clientDeclaration o c) (s := [])
    (fun s h => clientDeclaration_eff hf (hs s h).1 (hs s h).2)
  obtain ⟨text, h2, h3⟩ := read_printed (Eff.append h0 h1)
  simp only [List.nil_append] at h3
  have hmems : ∀ {β : Type} {x : List Event → List β}, Parts x → (∀ sc l, l ≠ kwObject → x [.label sc l] = []) →
      (∀ sc n, x [.func sc n] = []) → ∀ sc s, x (clientEvents o sc s) = x [.cls sc (clientName s) clientBases] ++
        x [.label (sc ++ [clientName s]) kwObject] := by
    intro β x hp hlab hfun sc s
    have e : clientEvents o sc s = [Event.cls sc (clientName s) clientBases] ++ ([.label (sc ++ [clientName s]) kwObject] ++
        (([.label kwPublic, .func (clientName s)] ++ s.methods.flatMap (methodMems o) ++ [.label kwPrivate] ++
        s.methods.flatMap (privateMems o) : List Mem).map (Mem.event (sc ++ [clientName s])))) := by
      simp [clientEvents, clientMems, Mem.event]
    rw [e, hp.append, hp.append, hp.none (l := List.map _ _), List.append_nil]
    intro y hy
    obtain ⟨z, hz, rfl⟩ := List.mem_map.1 hy
    cases z with
    | func n => exact hfun _ _
    | label l =>
      refine hlab _ _ fun hl => ?_
      subst hl
      simp only [List.mem_append, List.mem_cons, List.not_mem_nil, or_false, List.mem_flatMap, Mem.label.injEq, reduceCtorEq] at hz
      rcases hz with ((h | ⟨d, _, h⟩) | h) | ⟨d, _, h⟩
      · revert h; decide
      · unfold methodMems at h
        (repeat' split at h) <;> simp at h
      · revert h; decide
      · unfold privateMems at h
        split at h <;> simp at h
  have hcls : classesIn (services.flatMap fun s => clientEvents o (scopeOf [] ++ outerNs o c) s) =
      services.map fun s => around o c ++ [upperCaseName s.name ++ text! "Client"] := by
    rw [parts_classes.flatMap, List.map_eq_flatMap]
    refine flatMap_congr' fun s _ => ?_
    rw [hmems parts_classes (fun _ _ _ => rfl) (fun _ _ => rfl)]
    rfl
  refine ⟨text, _, h2, h3, hcls, ?_, ?_, ?_, ?_, ?_⟩
  · rw [parts_forwards.flatMap]
    exact flatMap_nil' fun s _ => by rw [hmems parts_forwards (fun _ _ _ => rfl) (fun _ _ => rfl)]; rfl
  · rw [parts_properties.flatMap]
    exact flatMap_nil' fun s _ => by rw [hmems parts_properties (fun _ _ _ => rfl) (fun _ _ => rfl)]; rfl
  · rw [parts_bases.flatMap]
    intro as has
    obtain ⟨s, _, h⟩ := List.mem_flatMap.1 has
    rw [hmems parts_bases (fun _ _ _ => rfl) (fun _ _ => rfl)] at h
    exact List.mem_singleton.1 h
  · rw [hcls, (parts_labels _).flatMap, List.map_eq_flatMap]
    refine flatMap_congr' fun s _ => ?_
    rw [hmems (parts_labels _) (fun _ _ hl => by simp [labelsIn, hl]) (fun _ _ => rfl)]
    rfl
  · exact Own.flatMap (l := services) (fun s _ => client_members o _ s) kwPrivate

/-- The source of the clients of a file: brackets match, nothing is declared in it. -/
theorem C94_client_source_partial {header : Str} (hf : PlainFile o c) (hh : Includable header) (hs : ∀ s ∈ services, PlainService s) :
    ∃ text, printed (clientSourceText o c header services) = some text ∧ read text = some [] := by
  have h0 := sourceTop_quiet (out := true) (external := if o.qml then [text! "QQmlEngine", text! "QJSEngine", text! "QJSValue"] else []) hh (by
    intro i hi
    split at hi
    · simp only [List.mem_cons, List.not_mem_nil, or_false] at hi
      rcases hi with rfl | rfl | rfl <;> exact ⟨by decide, by decide, by decide⟩
    · simp at hi)
  exact read_printed (Quiet.append h0 (Quiet.flatMap fun s h => clientDefinition_quiet hf (hs s h).1 (hs s h).2))

end

/-! ### The hypotheses can be met -/

namespace Sample

def sub : Path := [text! "pkg", text! "sub"]

def ctx : Ctx where
  package := sub
  packageOf := fun _ => text! "pkg.sub"
  nestedType := fun p => p.length > 3
  visibility := fun _ _ => .local
  firstValue := fun _ => text! "A"
  entry := fun _ => ({ camel := text! "key", json := text! "key", number := 1, type := .int32 },
    { camel := text! "value", json := text! "value", number := 2, type := .string })
  enums := fun p => if p.length = 3 then [⟨text! "E", [(text! "a", 0), (text! "B", -1)]⟩] else []
  comment := fun _ => text! "A comment."
  fieldComment := fun _ _ => []

def inner : Msg := .mk (text! "Inner") [{ camel := text! "x", json := text! "x", number := 1, type := .int32 }] [] false

def outer : Msg := .mk (text! "Outer")
  [{ camel := text! "id", json := text! "id", number := 1, type := .int32 },
   { camel := text! "inner", json := text! "inner", number := 3, type := .message, msgType := some (sub ++ [text! "Outer", text! "Inner"]) },
   { camel := text! "inners", json := text! "inners", number := 4, type := .message, repeated := true,
     msgType := some (sub ++ [text! "Outer", text! "Inner"]) },
   { camel := text! "e", json := text! "e", number := 5, type := .enum, enumType := some (sub ++ [text! "Outer", text! "E"]) },
   { camel := text! "m", json := text! "m", number := 6, type := .message, repeated := true, isMap := true,
     msgType := some (sub ++ [text! "Outer", text! "MEntry"]) }] [inner] false

def opts : Options := { qml := true, fieldEnum := true, comments := true }

def global : EnumD := ⟨text! "glob", [(text! "a", 0)]⟩

def service : ServiceText :=
  ⟨text! "tests", [⟨text! "get", [text! "a", text! "B"], [text! "a", text! "B"], false⟩, ⟨text! "upd", [text! "a", text! "B"], [text! "a", text! "B"], true⟩]⟩

/-- Names, by computation. -/
def nameB (s : Str) : Bool := !s.isEmpty && s.all isWord && !keywords.contains s

theorem name_of {s : Str} (h : nameB s = true) : Name s := by
  simp only [nameB, Bool.and_eq_true, Bool.not_eq_true', List.isEmpty_eq_false_iff, List.all_eq_true, List.contains_eq_mem,
    decide_eq_false_iff_not] at h
  exact ⟨h.1.1, h.1.2, h.2⟩

theorem named_of {s : Str} (h : (nameB s && nameB (upperCaseName s)) = true) : Named s := by
  rw [Bool.and_eq_true] at h
  exact ⟨name_of h.1, name_of h.2⟩

theorem named_all {l : List Str} (h : (l.all fun s => nameB s && nameB (upperCaseName s)) = true) : ∀ s ∈ l, Named s := fun s hs =>
  named_of (List.all_eq_true.1 h s hs)

def pathB (q : Option Path) : Bool := !(q.getD []).isEmpty && (q.getD []).all fun s => nameB s && nameB (upperCaseName s)

theorem path_of {q : Option Path} (h : pathB q = true) : NamedPath q := by
  simp only [pathB, Bool.and_eq_true, Bool.not_eq_true', List.isEmpty_eq_false_iff] at h
  exact ⟨h.1, named_all h.2⟩

def fieldB (f : FieldD) : Bool :=
  (nameB f.prop && nameB (upperCaseName f.prop)) && (f.json.all fun c => c != '"' && c != '\\' && c != '\n') &&
  (f.type != .message || pathB f.msgType) && (f.type != .enum || pathB f.enumType) && (!f.isMap || f.type == .message) && f.type != .group

theorem field_of {f : FieldD} (h : fieldB f = true) : PlainField f := by
  simp only [fieldB, Bool.and_eq_true, Bool.or_eq_true, bne_iff_ne, beq_iff_eq, List.all_eq_true, Bool.not_eq_true'] at h
  obtain ⟨⟨⟨⟨⟨h1, h2⟩, h3⟩, h4⟩, h5⟩, h6⟩ := h
  refine ⟨named_of (by simp [h1]), fun c hc => ⟨(h2 c hc).1.1, (h2 c hc).1.2, (h2 c hc).2⟩, fun e => ?_, fun e => ?_, fun e => ?_, h6⟩
  · rcases h3 with h3 | h3
    · exact absurd e h3
    · exact path_of h3
  · rcases h4 with h4 | h4
    · exact absurd e h4
    · exact path_of h4
  · rcases h5 with h5 | h5
    · simp [e] at h5
    · exact h5

theorem fields_of {l : List FieldD} (h : l.all fieldB = true) : ∀ f ∈ l, PlainField f := fun f hf => field_of (List.all_eq_true.1 h f hf)

theorem comment_plain : PlainComment (text! "A comment.") := by
  refine ⟨by decide, text! "A comment.", ⟨[], [], by simp, by simp [Comments.Blank], by simp [Comments.Blank], ?_, ?_⟩, ?_, ?_⟩
  · intro x r e hb
    have h := congrArg List.head? e
    simp at h
    have := hb x (by simp)
    rw [← h] at this
    revert this; decide
  · intro x r e hb
    have h := congrArg List.getLast? e
    simp at h
    have := hb x (by simp)
    rw [← h] at this
    revert this; decide
  · rw [← Comments.hasPair_iff]; decide
  · rw [← Comments.hasPair_iff]; decide

theorem empty_plain : PlainComment [] := by
  refine ⟨by simp, [], ⟨[], [], rfl, by simp [Comments.Blank], by simp [Comments.Blank], ?_, ?_⟩, ?_, ?_⟩
  · intro x r e; simp at e
  · intro x r e; simp at e
  · rw [← Comments.hasPair_iff]; decide
  · rw [← Comments.hasPair_iff]; decide

theorem plainFile : PlainFile opts ctx where
  extra := Or.inl rfl
  package := named_all (by decide)
  first := fun _ => name_of (by simp only [ctx]; decide)
  keys := fun _ => by simp only [ctx]; decide
  values := fun _ => field_of (by simp only [ctx]; decide)
  enums := fun q e he => by
    simp only [ctx] at he
    split at he
    · rw [List.mem_singleton.1 he]
      refine ⟨named_of (by decide), fun v hv => ?_⟩
      simp only [List.mem_cons, List.not_mem_nil, or_false] at hv
      rcases hv with rfl | rfl <;> exact name_of (by decide)
    · simp at he
  comments := fun _ _ => ⟨comment_plain, fun _ => empty_plain⟩

theorem plainMsgs : PlainMsgs [outer] := by
  rw [PlainMsgs, PlainMsgs, outer, PlainMsg, PlainMsgs, PlainMsgs, inner, PlainMsg, PlainMsgs]
  exact ⟨⟨named_of (by decide), fields_of (by decide), ⟨named_of (by decide), fields_of (by decide), trivial⟩, trivial⟩, trivial⟩

theorem plainEnums : ∀ e ∈ [global], PlainEnum e := by
  intro e he
  rw [List.mem_singleton.1 he]
  refine ⟨named_of (by decide), fun v hv => ?_⟩
  rw [List.mem_singleton.1 hv]
  exact name_of (by decide)

theorem includes : (∀ i ∈ [text! "QString"], Name i) ∧ ∀ i ∈ [text! "other.qpb.h"], Includable i := by
  refine ⟨fun i hi => ?_, fun i hi => ?_⟩
  · rw [List.mem_singleton.1 hi]; exact name_of (by decide)
  · rw [List.mem_singleton.1 hi]; intro x hx; revert x; decide

theorem plainService : ∀ s ∈ [service], PlainService s := by
  intro s hs
  rw [List.mem_singleton.1 hs]
  refine ⟨named_of (by decide), fun d hd => ?_⟩
  simp only [service, List.mem_cons, List.not_mem_nil, or_false] at hd
  rcases hd with rfl | rfl <;> exact ⟨named_of (by decide), ⟨by decide, named_all (by decide)⟩, ⟨by decide, named_all (by decide)⟩⟩

end Sample

open Sample in
/-- With a nested message, fields of messages, lists, enumerations and maps, an enumeration, QML and comments: the classes found. -/
example : ∃ text evs, printed (messageHeader opts ctx [text! "QString"] [text! "other.qpb.h"] [global] [outer]) = some text ∧
    read text = some evs ∧ classesIn evs = [[text! "pkg", text! "sub", text! "GlobGadget"],
      [text! "pkg", text! "sub", text! "Outer_QtProtobufNested", text! "Inner"], [text! "pkg", text! "sub", text! "Outer"]] := by
  obtain ⟨text, evs, h1, h2, h3, -⟩ := C94_header_classes_partial plainFile includes.1 includes.2 plainEnums plainMsgs
  exact ⟨text, evs, h1, h2, by rw [h3]; decide +kernel⟩

open Sample in
/-- The same for the properties: there are 9. -/
example : ∃ text evs, printed (messageHeader opts ctx [text! "QString"] [text! "other.qpb.h"] [global] [outer]) = some text ∧
    read text = some evs ∧ (propertiesIn evs).length = 9 := by
  obtain ⟨text, evs, h1, h2, h3⟩ := C94_header_properties_partial plainFile includes.1 includes.2 plainEnums plainMsgs
  exact ⟨text, evs, h1, h2, by rw [h3]; decide +kernel⟩

open Sample in
/-- The same for the functions: there are 49, 6 of them signals. -/
example : ∃ text evs, printed (messageHeader opts ctx [text! "QString"] [text! "other.qpb.h"] [global] [outer]) = some text ∧
    read text = some evs ∧ (membersIn evs).length = 49 ∧ ((membersIn evs).filter fun x => x.2.1 == kwSignals).length = 6 := by
  obtain ⟨text, evs, h1, h2, h3⟩ := C94_header_members_partial plainFile includes.1 includes.2 plainEnums plainMsgs
  exact ⟨text, evs, h1, h2, by rw [h3]; decide +kernel⟩

open Sample in
/-- The same for what moc needs: there are properties. -/
example : ∃ text evs, printed (messageHeader opts ctx [text! "QString"] [text! "other.qpb.h"] [global] [outer]) = some text ∧
    read text = some evs ∧ propertiesIn evs ≠ [] := by
  obtain ⟨text, evs, h1, h2, h3⟩ := C94_header_properties_partial plainFile includes.1 includes.2 plainEnums plainMsgs
  exact ⟨text, evs, h1, h2, by rw [h3]; decide +kernel⟩

open Sample in
example : ∃ text, printed (messageSource opts ctx (text! "x.qpb.h") [global] [outer]) = some text ∧ read text = some [] :=
  C94_source_partial plainFile (by intro x hx; revert x; decide) plainEnums plainMsgs

open Sample in
example : ∃ text evs, printed (clientHeaderText opts ctx [] [] [service]) = some text ∧ read text = some evs ∧
    classesIn evs = [[text! "pkg", text! "sub", text! "TestsClient"]] := by
  obtain ⟨text, evs, h1, h2, h3, -⟩ := C94_client_header_partial (external := []) (internal := []) plainFile (by simp) (by simp) plainService
  exact ⟨text, evs, h1, h2, by rw [h3]; decide +kernel⟩

/-! ### What goes wrong -/

/-- A message with one field. -/
def Sample.one (name json : Str) : Msg := .mk (text! "M") [{ camel := name, json := json, number := 1, type := .int32 }] [] false

/-- C94 is violated: JSON names are printed between quotes as they are; with the option `json_name = "a\"b"` the literal does not end. -/
theorem C94_json_name_violated : ∃ text, printed (messageSource {} Sample.ctx (text! "x.qpb.h") [] [Sample.one (text! "a") (text! "a\"b")]) =
    some text ∧ read text = none := by
  have h : (printed (messageSource {} Sample.ctx (text! "x.qpb.h") [] [Sample.one (text! "a") (text! "a\"b")])).isSome = true := by
    decide +kernel
  obtain ⟨text, ht⟩ := Option.isSome_iff_exists.1 h
  refine ⟨text, ht, ?_⟩
  have : (printed (messageSource {} Sample.ctx (text! "x.qpb.h") [] [Sample.one (text! "a") (text! "a\"b")])).bind read = none := by
    decide +kernel
  rwa [ht] at this

/-- C94 is violated: a field that is called `class` or `namespace`, which protobuf allows, makes a header that is no C++. -/
theorem C94_keyword_violated : ∀ name ∈ [text! "class", text! "namespace"],
    ∃ text, printed (messageHeader {} Sample.ctx [] [] [] [Sample.one name name]) = some text ∧ read text = none := by
  intro name hn
  have h : (printed (messageHeader {} Sample.ctx [] [] [] [Sample.one name name])).isSome = true ∧
      (printed (messageHeader {} Sample.ctx [] [] [] [Sample.one name name])).bind read = none := by
    simp only [List.mem_cons, List.not_mem_nil, or_false] at hn
    rcases hn with rfl | rfl <;> decide +kernel
  obtain ⟨text, ht⟩ := Option.isSome_iff_exists.1 h.1
  refine ⟨text, ht, ?_⟩
  have := h.2
  rwa [ht] at this

/-- C94 is violated: a comment with the end of a comment in it leaves its rest in the header as code; here there is an unmatched
bracket. -/
theorem C94_comment_violated : ∃ text, printed (messageHeader { comments := true }
      { Sample.ctx with comment := fun _ => text! "from src/*/ (" } [] [] [] [Sample.one (text! "a") (text! "a")]) = some text ∧
    read text = none := by
  have h : (printed (messageHeader { comments := true } { Sample.ctx with comment := fun _ => text! "from src/*/ (" } [] [] []
      [Sample.one (text! "a") (text! "a")])).isSome = true ∧
      (printed (messageHeader { comments := true } { Sample.ctx with comment := fun _ => text! "from src/*/ (" } [] [] []
      [Sample.one (text! "a") (text! "a")])).bind read = none := by decide +kernel
  obtain ⟨text, ht⟩ := Option.isSome_iff_exists.1 h.1
  refine ⟨text, ht, ?_⟩
  have := h.2
  rwa [ht] at this

end QtPb.Gen.Text
