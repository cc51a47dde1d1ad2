import Verif.TextModes
import Verif.PropsGenCtorRun
/-
C100: single-file mode and multi-file mode generate the same classes.
-/
namespace QtPb.Gen.Text
open QtPb.SpecCpp QtPb.Gen.Text.Spec QtPb.TextProof

section
variable {u : Sources} {pkgOf : Path → List Str}

/-- The header of a file in single-file mode: a part without declarations, the classes of the enumerations, declarations without body, and
for every message a text with its class and the classes of the messages inside. The header of the message in multi-file mode ends with the
same text; before it there are only declarations without body. -/
theorem C100_headers_partial (hu : u.Plain) (hp : PlainPackages pkgOf) :
    ∃ (top forwards : Text) (gadget : EnumD → Text) (cls : Msg → Text),
      u.headerText = some (top ++ u.enums.flatMap gadget ++ forwards ++ u.msgs.flatMap cls) ∧ read top = some [] ∧
      (∃ evs, read forwards = some evs ∧ OnlyForwards evs) ∧
      (∀ e ∈ u.enums, ∃ evs, read (gadget e) = some evs ∧ classesIn evs = [gadgetClass u.o u.c e]) ∧
      ∀ m ∈ u.msgs, (∃ evs, read (cls m) = some evs ∧ classesIn evs = (bodies (around u.o u.c) u.c.package m).map (·.1.cpp)) ∧
        ∃ before evs, printed (Text.multiHeader u.o u.c pkgOf m) = some (before ++ cls m) ∧ read before = some evs ∧ OnlyForwards evs := by
  have hmm := plainMsgs_mem hu.msgs
  refine ⟨textOf (headerTop u.o u.external u.internal), u.msgs.flatMap fun m => textOf (forwardDeclaration u.o u.c m),
    fun e => textOf (enumDeclaration u.o u.c e), fun m => textOf (classDeclaration u.o u.c m),
    header_parts hu.file hu.external hu.internal hu.enums hu.msgs, textOf_read (headerTop_quiet (out := false) u.o hu.external hu.internal), ?_, ?_, ?_⟩
  · have h := Eff.flatMap (l := u.msgs) (f := forwardDeclaration u.o u.c) (s := []) (fun m h => forwardDeclaration_eff hu.file (hmm m h))
    have e : textOf (u.msgs.flatMap (forwardDeclaration u.o u.c)) = u.msgs.flatMap fun m => textOf (forwardDeclaration u.o u.c m) := by
      have := textOf_parts (top := []) (fun start => ⟨[], start, rfl⟩) (fun m h => prints_forward hu.file (hmm m h))
        (fun m _ => section_forward u.o u.c m)
      rw [List.nil_append] at this
      exact this
    refine ⟨_, e ▸ textOf_read h, fun e he => ?_⟩
    obtain ⟨m, _, he⟩ := List.mem_flatMap.1 he
    obtain ⟨b, _, rfl⟩ := List.mem_map.1 he
    exact ⟨_, _, rfl⟩
  · intro e he
    exact ⟨_, textOf_read (enumDeclaration_eff hu.file (hu.enums e he)), rfl⟩
  · intro m hm
    refine ⟨⟨_, read_class hu.file (hmm m hm), own_classes hu.file (hmm m hm)⟩, textOf (multiTop u.o u.c pkgOf m), _,
      printed_part (multiTop_eff hp (hmm m hm)).prints (prints_class hu.file (hmm m hm)) (section_class _ _ _),
      textOf_read (multiTop_eff hp (hmm m hm)), fun e he => ?_⟩
    obtain ⟨q, _, he⟩ := List.mem_flatMap.1 he
    split at he
    · cases he
    · rw [List.mem_singleton] at he
      exact ⟨_, _, he⟩

/-- The source of a file in single-file mode: a statement, the functions of the enumerations, and for every message a text with the functions
of its class and of the classes inside. The source of the message in multi-file mode is the same text after the lines with `#include`. -/
theorem C100_sources_partial (hu : u.Plain) :
    ∃ (top : Text) (gadget : EnumD → Text) (fns : Msg → Text),
      u.sourceText = some (top ++ u.enums.flatMap gadget ++ u.msgs.flatMap fns) ∧
      (∃ head, items top = some [.statement [] head]) ∧
      (∀ e ∈ u.enums, ∃ is, items (gadget e) = some is ∧ (fnsIn is).map (·.cls) = [gadgetClass u.o u.c e]) ∧
      ∀ m ∈ u.msgs, (∃ is, items (fns m) = some is ∧
          ((fnsIn is).map Fn.sig) = (bodies (around u.o u.c) u.c.package m).flatMap (sigsOf u.o u.c)) ∧
        ∃ includes, printed (multiSource u.o u.c m) = some (includes ++ fns m) ∧
          lex includes = some (quotedInclude (m.name.map Char.toLower) ++ if u.o.qml then angleInclude (text! "QQmlEngine") else []) := by
  have hmm := plainMsgs_mem hu.msgs
  refine ⟨_, fun e => textOf (enumDefinition u.o u.c e), fun m => textOf (classDefinition u.o u.c m),
    source_parts hu.file hu.header hu.enums hu.msgs, ?_, ?_, ?_⟩
  · refine ⟨_, (gives_top hu.header ?_).textOf⟩
    intro i hi
    split at hi
    · simp only [List.mem_cons, List.not_mem_nil, or_false] at hi
      subst hi; exact ⟨by decide, by decide, by decide⟩
    · simp at hi
  · intro e he
    refine ⟨_, (gives_enum hu.file (hu.enums e he)).textOf, ?_⟩
    rw [List.nil_append, show outerNs u.o u.c = around u.o u.c from rfl, fns_enum]
    rfl
  · intro m hm
    refine ⟨⟨_, (gives_classDefinition hu.file (hmm m hm)).textOf, ?_⟩, textOf (multiSourceTop u.o m),
      printed_part (top_lex (hmm m hm)).prints (prints_definition hu.file (hmm m hm)) (section_definition _ _ _), (top_lex (hmm m hm)).textOf⟩
    rw [List.nil_append, show outerNs u.o u.c = around u.o u.c from rfl, fnsIn_flatMap, List.map_flatMap]
    refine flatMap_congr' fun b hb => ?_
    obtain ⟨ok, h1, h2⟩ := allBodies_ok hu.file hu.msgs (show b ∈ allBodies u.o u.c u.msgs from List.mem_flatMap.2 ⟨m, hm, hb⟩)
    unfold bodyItems
    rw [fns_class ok, h2]
    exact sigs_class ok rfl h1

/-- Every message has such files, and its classes are the same as in single-file mode: the members, signals, functions, assignments, copies
and moves; the functions without parameters; the constructors. -/
theorem C100_class_partial (hu : u.Plain) (hp : PlainPackages pkgOf) {m : Msg} (hm : m ∈ u.msgs) :
    ∃ header source h s, u.headerText = some header ∧ u.sourceText = some source ∧ OwnFiles u pkgOf m h s ∧
      ∀ b ∈ bodies (around u.o u.c) u.c.package m,
        (∀ types, SpecCpp.classOf h s b.1.cpp types = SpecCpp.classOf header source b.1.cpp types) ∧
        (∀ name, nullaryOf h s b.1.cpp name = nullaryOf header source b.1.cpp name) ∧
        ∀ types, ctorOf s b.1.cpp types = ctorOf source b.1.cpp types := by
  have hmm := plainMsgs_mem hu.msgs
  have hpm := hmm m hm
  obtain ⟨header, evs, h1, h2, h3⟩ := C94_header_members_partial hu.file hu.external hu.internal hu.enums hu.msgs
  obtain ⟨source, h4, h5⟩ := source_items hu.file hu.header hu.enums hu.msgs
  have ht := multiTop_eff (o := u.o) (c := u.c) hp hpm
  have k1 : printed (Text.multiHeader u.o u.c pkgOf m) = some (textOf (multiTop u.o u.c pkgOf m ++ classDeclaration u.o u.c m)) := by
    have := printed_part ht.prints (prints_class hu.file hpm) (section_class _ _ _)
    unfold Text.multiHeader
    rw [textOf, this, Option.getD_some]
  obtain ⟨fwd, hfw, k2⟩ : ∃ fwd, OnlyForwards fwd ∧
      read (textOf (multiTop u.o u.c pkgOf m ++ classDeclaration u.o u.c m)) = some (fwd ++ ownEvents u.o u.c m) := by
    have := textOf_read (ht.append (classDeclaration_eff hu.file hpm))
    refine ⟨_, ?_, this⟩
    intro e he
    obtain ⟨q, _, he⟩ := List.mem_flatMap.1 he
    split at he
    · cases he
    · rw [List.mem_singleton] at he
      exact ⟨_, _, he⟩
  have k3 := (HG.append (multiTop_hq (o := u.o) (c := u.c) hp hpm) (HG.append
    (HG.inNamespaces (outer_names hu.file) (hg_declare hu.file m u.c.package hpm hu.file.package))
    (hq_metaTypes hu.file m u.c.package hpm hu.file.package))).congr (f := fun s =>
      (bodies (s ++ outerNs u.o u.c) u.c.package m).flatMap (bodyDeclared u.o u.c)) (by simp) |>.textOf
  have k4 := (gives_classDefinition hu.file hpm).textOf
  refine ⟨header, source, _, textOf (classDefinition u.o u.c m), h1, h4, ⟨k1, ?_, textOf (multiSourceTop u.o m),
      printed_part (top_lex hpm).prints (prints_definition hu.file hpm) (section_definition _ _ _), (top_lex hpm).textOf⟩, fun b hb => ?_⟩
  · obtain ⟨t, s', h⟩ := prints_definition hu.file hpm true
    simp [textOf, printed, h]
  · have hbu : b ∈ u.bodies := List.mem_flatMap.2 ⟨m, hm, hb⟩
    obtain ⟨header', h1', ds, h6, h7⟩ := header_declared hu hbu
    cases h1.symm.trans h1'
    have hn := List.nodup_append.1 hu.distinct
    have hnm : ((bodies (around u.o u.c) u.c.package m).map (·.1.cpp)).Nodup := by
      have : (u.bodies.map (·.1.cpp)).Nodup := hn.2.1
      unfold Sources.bodies at this
      rw [List.map_flatMap] at this
      exact nodup_part this hm
    have f1 := source_functions hu hbu
    have f2 : (fnsIn ((bodies ([] ++ outerNs u.o u.c) u.c.package m).flatMap (bodyItems u.o u.c))).filter (·.cls == b.1.cpp) =
        classFns u.o u.c ⟨b.1.msg, b.2⟩ b.1.cpp := by
      have e : fnsIn ((bodies ([] ++ outerNs u.o u.c) u.c.package m).flatMap (bodyItems u.o u.c)) =
          (bodies (around u.o u.c) u.c.package m).flatMap fun b => classFns u.o u.c ⟨b.1.msg, b.2⟩ b.1.cpp := by
        rw [List.nil_append, show outerNs u.o u.c = around u.o u.c from rfl, fnsIn_flatMap]
        refine flatMap_congr' fun b hb => ?_
        obtain ⟨ok, -, e2⟩ := allBodies_ok hu.file hu.msgs (show b ∈ allBodies u.o u.c u.msgs from List.mem_flatMap.2 ⟨m, hm, hb⟩)
        unfold bodyItems
        rw [fns_class ok, e2]
      rw [e]
      exact filter_key (kb := fun b : Printed × List FieldD => b.1.cpp) (fun b x hx => classFns_cls _ x hx) hnm hb
    have g2 : ((bodies ([] ++ outerNs u.o u.c) u.c.package m).flatMap (bodyDeclared u.o u.c)).filter (·.cls == b.1.cpp) =
        classDeclared u.o u.c ⟨b.1.msg, b.2⟩ b.1.cpp :=
      filter_key (kb := fun b : Printed × List FieldD => b.1.cpp) (fun b x hx => classDeclared_cls _ x hx) hnm hb
    have g3 : (membersIn evs).filter (·.1 == b.1.cpp) = (membersOf u.o u.c b).map fun p => (b.1.cpp, p.1, p.2) := by
      rw [h3, List.filter_append]
      have e : (u.enums.flatMap fun e => (gadgetMembers e).map fun p => (gadgetClass u.o u.c e, p.1, p.2)).filter (·.1 == b.1.cpp) = [] := by
        apply List.filter_eq_nil_iff.2
        intro x hx
        obtain ⟨e, he, hx⟩ := List.mem_flatMap.1 hx
        obtain ⟨p, -, rfl⟩ := List.mem_map.1 hx
        have := hn.2.2 _ (List.mem_map.2 ⟨e, he, rfl⟩) _ (List.mem_map.2 ⟨b, hbu, rfl⟩)
        simp only [beq_iff_eq]
        exact this
      rw [e, List.nil_append]
      exact filter_key (key := fun x : List Text × Text × Text => x.1) (kb := fun b : Printed × List FieldD => b.1.cpp)
        (g := fun b => (membersOf u.o u.c b).map fun p => (b.1.cpp, p.1, p.2)) (fun b x hx => by
          obtain ⟨p, -, rfl⟩ := List.mem_map.1 hx; rfl) hn.2.1 hbu
    have g4 : ∀ fwd : List Event, OnlyForwards fwd → (membersIn (fwd ++ ownEvents u.o u.c m)).filter (·.1 == b.1.cpp) =
        (membersOf u.o u.c b).map fun p => (b.1.cpp, p.1, p.2) := by
      intro fwd hfwd
      have e : membersIn (fwd ++ ownEvents u.o u.c m) = membersIn (ownEvents u.o u.c m) := members_forwards hfwd _ _
      rw [e, own_members]
      exact filter_key (key := fun x : List Text × Text × Text => x.1) (kb := fun b : Printed × List FieldD => b.1.cpp)
        (g := fun b => (membersOf u.o u.c b).map fun p => (b.1.cpp, p.1, p.2)) (fun b x hx => by
          obtain ⟨p, -, rfl⟩ := List.mem_map.1 hx; rfl) hnm hb
    exact same_class k2 h2 k3 h6 k4 h5 ((g4 _ hfw).trans g3.symm) (g2.trans h7.symm) (f2.trans f1.symm)

/-- A program of classes from multi-file mode is a program of classes from single-file mode: what C96 says of the latter holds for the former. -/
theorem C100_program_partial {env : Env} {prog : Nat → ClassText} (h : GeneratedMulti env prog) : Spec.Generated env prog := by
  intro k
  obtain ⟨u, pkgOf, m, b, h, s, hu, hp, hm, hb, hr, hown, hcls⟩ := h k
  obtain ⟨header, source, h', s', h1, h2, hown', h3⟩ := C100_class_partial hu hp hm
  cases hown.declarations.symm.trans hown'.declarations
  cases hown.definitions.symm.trans hown'.definitions
  exact ⟨u, b, header, source, hu, List.mem_flatMap.2 ⟨m, hm, hb⟩, hr, h1, h2, ((h3 b hb).1 _).symm.trans hcls⟩

theorem C100_program_copy_partial {env : Env} {prog : Nat → ClassText} {copies : Nat → Fn} (h : GeneratedCopyMulti env prog copies) :
    GeneratedCopy env prog copies := by
  intro k
  obtain ⟨u, pkgOf, m, b, h, s, hu, hp, hm, hb, hr, hown, hcls, hcopy⟩ := h k
  obtain ⟨header, source, h', s', h1, h2, hown', h3⟩ := C100_class_partial hu hp hm
  cases hown.declarations.symm.trans hown'.declarations
  cases hown.definitions.symm.trans hown'.definitions
  exact ⟨u, b, header, source, hu, List.mem_flatMap.2 ⟨m, hm, hb⟩, hr, h1, h2, ((h3 b hb).1 _).symm.trans hcls,
    ((h3 b hb).2.2 _).symm.trans hcopy⟩

/-- Such a program exists for messages with fields of these types. -/
theorem C100_exists_partial {env : Env} (hp : PlainPackages pkgOf) (h : ∀ k, ∃ (u : Sources) (b : Printed × List FieldD), u.Plain ∧ b ∈ u.bodies ∧
    Represents u.c b.2 (env.sch k)) : ∃ prog, GeneratedMulti env prog := by
  have : ∀ k, ∃ p, ∃ (u : Sources) (pkgOf : Path → List Str) (m : Msg) (b : Printed × List FieldD) (header source : Text), u.Plain ∧
      PlainPackages pkgOf ∧ m ∈ u.msgs ∧ b ∈ bodies (around u.o u.c) u.c.package m ∧ Represents u.c b.2 (env.sch k) ∧
      OwnFiles u pkgOf m header source ∧ SpecCpp.classOf header source b.1.cpp ((env.sch k).map (·.ty)) = some p := by
    intro k
    obtain ⟨u, b, hu, hb, hr⟩ := h k
    obtain ⟨m, hm, hb'⟩ := List.mem_flatMap.1 hb
    obtain ⟨header, source, h', s, h1, h2, h3, h4⟩ := C100_class_partial hu hp hm
    obtain ⟨header', source', p, h1', h2', h5, -⟩ := class_of hu hb hr
    cases h1.symm.trans h1'
    cases h2.symm.trans h2'
    exact ⟨p, u, pkgOf, m, b, h', s, hu, hp, hm, hb', hr, h3, ((h4 b hb').1 _).trans h5⟩
  exact ⟨fun k => Classical.choose (this k), fun k => Classical.choose_spec (this k)⟩

end

/-- The files with the enumerations of all files in multi-file mode: after a part without declarations, and after lines with `#include`, they
have the texts that single-file mode has for the enumerations of each file, file by file. -/
theorem C100_enums_partial {o : Options} {us : List Sources} (hu : ∀ u ∈ us, u.Plain ∧ u.o = o) :
    ∃ (top includes : Text) (decl def' : Sources → EnumD → Text),
      printed (enumsHeader o (us.map fun u => (u.c, u.enums))) = some (top ++ us.flatMap fun u => u.enums.flatMap (decl u)) ∧
      printed (enumsSource o (us.map fun u => (u.c, u.enums))) = some (includes ++ us.flatMap fun u => u.enums.flatMap (def' u)) ∧
      read top = some [] ∧
      lex includes = some (quotedInclude (text! "globalenums") ++ if o.qml then angleInclude (text! "QQmlEngine") else []) ∧
      ∀ u ∈ us, (∃ before after, u.headerText = some (before ++ u.enums.flatMap (decl u) ++ after) ∧ read before = some []) ∧
        (∃ before after, u.sourceText = some (before ++ u.enums.flatMap (def' u) ++ after) ∧ ∃ head, items before = some [.statement [] head]) ∧
        ∀ e ∈ u.enums, (∃ evs, read (decl u e) = some evs ∧ classesIn evs = [gadgetClass u.o u.c e]) ∧
          ∃ is, items (def' u e) = some is ∧ (fnsIn is).map Fn.sig = [enumSig u.o u.c e] := by
  have pairs : ∀ {β : Type} (f : Sources → EnumD → List β), (us.flatMap fun u => u.enums.flatMap (f u)) =
      (us.flatMap fun u => u.enums.map fun e => (u, e)).flatMap fun x => f x.1 x.2 := fun f => by
    rw [List.flatMap_assoc]
    refine flatMap_congr' fun u _ => ?_
    rw [List.flatMap_map]
  have mem : ∀ x ∈ us.flatMap (fun u => u.enums.map fun e => (u, e)), x.1.Plain ∧ x.1.o = o ∧ PlainEnum x.2 := by
    intro x hx
    obtain ⟨u, h, hx⟩ := List.mem_flatMap.1 hx
    obtain ⟨e, he, rfl⟩ := List.mem_map.1 hx
    exact ⟨(hu u h).1, (hu u h).2, (hu u h).1.enums e he⟩
  have q0 : Quiet false ([.print [] tDisclaimerTemplate, .print [] tPreambleTemplate, .print [] tDefaultProtobufIncludesTemplate]) :=
    .cons (quiet_nil (by decide +kernel)) (.cons (quiet_nil (by decide +kernel)) (quiet_nil (by decide +kernel)))
  have l0 := lx_includes (name := kGlobalEnums) (by intro x hx; revert x; decide) o.qml
  refine ⟨textOf [.print [] tDisclaimerTemplate, .print [] tPreambleTemplate, .print [] tDefaultProtobufIncludesTemplate], textOf _,
    fun u e => textOf (enumDeclaration u.o u.c e), fun u e => textOf (enumDefinition u.o u.c e), ?_, ?_, textOf_read q0, l0.textOf, fun u hmem => ?_⟩
  · unfold enumsHeader
    rw [List.flatMap_map]
    have e : (us.flatMap fun u => u.enums.flatMap (enumDeclaration o u.c)) = us.flatMap fun u => u.enums.flatMap (enumDeclaration u.o u.c) :=
      flatMap_congr' fun u h => by rw [(hu u h).2]
    rw [e, pairs, pairs, printed_parts q0.prints (fun x hx => prints_enum (mem x hx).1.file (mem x hx).2.2) (fun x _ => section_enum _ _ _)]
  · unfold enumsSource
    rw [List.flatMap_map]
    have e : (us.flatMap fun u => u.enums.flatMap (enumDefinition o u.c)) = us.flatMap fun u => u.enums.flatMap (enumDefinition u.o u.c) :=
      flatMap_congr' fun u h => by rw [(hu u h).2]
    rw [e, pairs, pairs, printed_parts l0.prints (fun x hx => prints_enumDefinition (mem x hx).1.file (mem x hx).2.2)
      (fun x _ => section_enumDefinition _ _ _)]
  · obtain ⟨hp, -⟩ := hu u hmem
    refine ⟨?_, ?_, fun e he => ⟨⟨_, textOf_read (enumDeclaration_eff hp.file (hp.enums e he)), rfl⟩, _,
      (gives_enum hp.file (hp.enums e he)).textOf, ?_⟩⟩
    · refine ⟨_, _, (header_parts hp.file hp.external hp.internal hp.enums hp.msgs).trans (by rw [List.append_assoc (_ ++ _)]),
        textOf_read (headerTop_quiet (out := false) u.o hp.external hp.internal)⟩
    · refine ⟨_, _, source_parts hp.file hp.header hp.enums hp.msgs, _, (gives_top hp.header ?_).textOf⟩
      intro i hi
      split at hi
      · simp only [List.mem_cons, List.not_mem_nil, or_false] at hi
        subst hi; exact ⟨by decide, by decide, by decide⟩
      · simp at hi
    · rw [List.nil_append, show outerNs u.o u.c = around u.o u.c from rfl, fns_enum]
      rfl

/-- Clients: the class of a service and its functions are printed with the same text in both modes, after parts without declarations, and
after a statement (the lines with `#include` and the using directive). -/
theorem C100_clients_partial {o : Options} {c : Ctx} {services : List ServiceText} {external internal : List Str} {header : Str} (hf : PlainFile o c)
    (hx : ∀ i ∈ external, Name i) (hi : ∀ i ∈ internal, Includable i) (hh : Includable header) (hs : ∀ s ∈ services, PlainService s) :
    ∃ (top head : Text) (decl def' : ServiceText → Text), printed (clientHeaderText o c external internal services) = some (top ++ services.flatMap decl) ∧
      printed (clientSourceText o c header services) = some (head ++ services.flatMap def') ∧ read top = some [] ∧
      (∃ st, items head = some [.statement [] st]) ∧
      ∀ s ∈ services, (∃ evs, read (decl s) = some evs ∧ classesIn evs = [around o c ++ [upperCaseName s.name ++ text! "Client"]]) ∧
        (∃ is, items (def' s) = some is ∧ (fnsIn is).map (fun f => (f.sig, namedCalls f.body)) = clientSigs o c s) ∧
        (∀ internal' external' : List Str, (∀ i ∈ internal', Includable i) → (∀ i ∈ external', Name i) →
          ∃ before, printed (multiClientHeader o c internal' external' s) = some (before ++ decl s) ∧ read before = some []) ∧
        ∃ before st, printed (multiClientSource o c s) = some (before ++ def' s) ∧ items before = some [.statement [] st] := by
  have hq : ∀ i ∈ (if o.qml then [text! "QQmlEngine", text! "QJSEngine", text! "QJSValue"] else []), Name i := by
    intro i hi
    split at hi
    · simp only [List.mem_cons, List.not_mem_nil, or_false] at hi
      rcases hi with rfl | rfl | rfl <;> exact ⟨by decide, by decide, by decide⟩
    · simp at hi
  have p1 : ∀ s ∈ services, Prints (clientDeclaration o c s) := fun s h => (clientDeclaration_eff hf (hs s h).1 (hs s h).2).prints
  have p2 : ∀ s ∈ services, Prints (clientDefinition o c s) := fun s h => (clientDefinition_quiet hf (hs s h).1 (hs s h).2).prints
  have q0 := headerTop_quiet (out := false) o hx hi
  refine ⟨_, _, fun s => textOf (clientDeclaration o c s), fun s => textOf (clientDefinition o c s),
    printed_parts q0.prints p1 (fun s _ => section_client o c s),
    printed_parts (sourceTop_quiet (out := true) hh hq).prints p2 (fun s _ => section_clientDefinition o c s), textOf_read q0,
    ⟨_, (gives_top hh hq).textOf⟩, fun s h => ⟨⟨_, textOf_read (clientDeclaration_eff hf (hs s h).1 (hs s h).2), ?_⟩,
      ⟨_, (gives_client hf (hs s h).1 (hs s h).2).textOf, ?_⟩, fun internal' external' hi' hx' => ?_, _, _,
      printed_part (sourceTop_quiet (out := true) (includable_lower (includable_name (hs s h).1.1)) hq).prints (p2 s h) (section_clientDefinition o c s),
      (gives_top (includable_lower (includable_name (hs s h).1.1)) hq).textOf⟩⟩
  · obtain ⟨text, evs, k1, k2, k3, -⟩ := C94_client_header_partial (services := [s]) hf hx hi (fun s' h' => by
      rw [List.mem_singleton.1 h']; exact hs s h)
    obtain ⟨text', j1, j2⟩ := read_printed (Eff.append q0 (clientDeclaration_eff hf (hs s h).1 (hs s h).2))
    have e : clientHeaderText o c external internal [s] = headerTop o external internal ++ clientDeclaration o c s := by
      simp [clientHeaderText]
    rw [e] at k1
    cases k1.symm.trans j1
    cases k2.symm.trans j2
    simpa using k3
  · exact (fns_client (hs s h).2 _ (by rw [List.nil_append]; rfl)).1
  · have q1 : Quiet false ([.print [] tDisclaimerTemplate, .print [] tPreambleTemplate] ++
        internal'.map (fun i => .print [(text! "include", i)] tInternalIncludeTemplate) ++
        external'.map (fun i => .print [(text! "include", i)] tExternalIncludeTemplate)) :=
      Quiet.append (Quiet.append (.cons (quiet_nil (by decide +kernel)) (quiet_nil (by decide +kernel)))
        (Quiet.map fun i h => include_quiet (hi' i h))) (Quiet.map fun i h => external_quiet (hx' i h))
    exact ⟨_, printed_part q1.prints (p1 s h) (section_client o c s), textOf_read q1⟩

/-! ### The hypotheses can be met -/

open Sample in
theorem Sample.packages : PlainPackages fun _ => sub := fun _ => named_all (l := sub) (by decide)

open Sample in
/-- The file of C96 in multi-file mode: the classes of `Outer` and of the message inside. -/
example : ∃ header source h s, file.headerText = some header ∧ file.sourceText = some source ∧ OwnFiles file (fun _ => sub) outer h s ∧
    (∀ types, SpecCpp.classOf h s [text! "pkg", text! "sub", text! "Outer"] types =
      SpecCpp.classOf header source [text! "pkg", text! "sub", text! "Outer"] types) ∧
    ∀ types, SpecCpp.classOf h s [text! "pkg", text! "sub", text! "Outer_QtProtobufNested", text! "Inner"] types =
      SpecCpp.classOf header source [text! "pkg", text! "sub", text! "Outer_QtProtobufNested", text! "Inner"] types := by
  obtain ⟨header, source, h, s, h1, h2, h3, h4⟩ := C100_class_partial filePlain packages (m := outer) (List.mem_cons_self ..)
  have e : ((bodies (around file.o file.c) file.c.package outer).map (·.1.cpp)) = [[text! "pkg", text! "sub", text! "Outer_QtProtobufNested", text! "Inner"],
    [text! "pkg", text! "sub", text! "Outer"]] := by decide +kernel
  have get : ∀ cls ∈ (bodies (around file.o file.c) file.c.package outer).map (·.1.cpp), ∀ types,
      SpecCpp.classOf h s cls types = SpecCpp.classOf header source cls types := by
    intro cls hc
    obtain ⟨b, hb, rfl⟩ := List.mem_map.1 hc
    exact (h4 b hb).1
  rw [e] at get
  exact ⟨header, source, h, s, h1, h2, h3, get _ (by simp), get _ (by simp)⟩

open Sample in
/-- A program with a sub-message, lists, enumerations and maps. -/
example : ∃ prog, GeneratedMulti outerEnv prog :=
  C100_exists_partial packages fun k => by
    obtain ⟨b, hb, hr⟩ := outerFiles k
    exact ⟨file, b, filePlain, hb, hr⟩

open Sample in
/-- Two files with an enumeration each, and services. -/
example : (∀ u ∈ [file, nodes], u.Plain ∧ u.o = opts) ∧ (∀ u ∈ [file, nodes], u.enums ≠ []) ∧ ∀ s ∈ [service], PlainService s := by
  refine ⟨fun u hu => ?_, fun u hu => ?_, plainService⟩
  · simp only [List.mem_cons, List.not_mem_nil, or_false] at hu
    rcases hu with rfl | rfl
    · exact ⟨filePlain, rfl⟩
    · exact ⟨nodesPlain, rfl⟩
  · simp only [List.mem_cons, List.not_mem_nil, or_false] at hu
    rcases hu with rfl | rfl <;> simp [file, nodes]

end QtPb.Gen.Text
