import Verif.TextMulti
import Verif.SpecModes
import Verif.PropsGenDefs
import Verif.PropsGenPrint
import Verif.TextProgram
/-
The parts of the texts of both modes.
-/
namespace QtPb.TextProof
open QtPb.Gen QtPb.Gen.Text QtPb.SpecCpp QtPb.Gen.Text.Spec

/-! ### Texts of parts -/

theorem Gives.textOf {ops : List Op} {e : List Text → List Item} (h : Gives ops e) : items (textOf ops) = some (e []) := by
  obtain ⟨text, h1, h2⟩ := items_printed h
  simpa [TextProof.textOf, h1] using h2

theorem HG.textOf {ops : List Op} {b : Bool} {e : List Text → List Declared} (h : HG false b ops e) : SpecCpp.declared (textOf ops) = some (e []) := by
  obtain ⟨text, h1, h2⟩ := h.declared
  simpa [TextProof.textOf, h1] using h2

theorem Lx.textOf {ops : List Op} {ls : List Lexeme} (h : Lx false false ops ls) : lex (textOf ops) = some ls := by
  obtain ⟨text, start', out, w, h1, h2, h3, -, h5⟩ := h 0 true [] (fun _ => rfl) (fun _ => rfl)
  have hw := h5 rfl
  subst hw
  simp only [endWord, if_true, List.append_nil, List.nil_append] at h3
  subst h3
  simp [TextProof.textOf, printed, h1, lex, h2, endWord]

theorem Lx.prints {ops : List Op} {ls : List Lexeme} (h : Lx false false ops ls) : Prints ops := by
  intro start
  obtain ⟨text, start', out, w, h1, -⟩ := h 0 start [] (fun _ => rfl) (fun _ => rfl)
  exact ⟨text, start', h1⟩

theorem Prints.append {x y : List Op} (hx : Prints x) (hy : Prints y) : Prints (x ++ y) := by
  intro start
  obtain ⟨t1, s1, h1⟩ := hx start
  obtain ⟨t2, s2, h2⟩ := hy s1
  exact ⟨t1 ++ t2, s2, by rw [run_append, h1]; simp [h2]⟩

theorem textOf_parts {α : Type} {top : List Op} (ht : Prints top) {f : α → List Op} {l : List α} (h : ∀ x ∈ l, Prints (f x))
    (hs : ∀ x ∈ l, Section (f x)) : textOf (top ++ l.flatMap f) = textOf top ++ l.flatMap fun x => textOf (f x) := by
  rw [textOf, printed_parts ht h hs, Option.getD_some]

theorem Prints.flatMap {α : Type} {f : α → List Op} {l : List α} (h : ∀ x ∈ l, Prints (f x)) : Prints (l.flatMap f) := by
  induction l with
  | nil => exact fun start => ⟨[], start, rfl⟩
  | cons x l ih => exact (h x (by simp)).append (ih fun y hy => h y (by simp [hy]))

theorem section_forward (o : Options) (c : Ctx) (m : Msg) : Section (forwardDeclaration o c m) := ⟨_, rfl⟩

/-! ### Headers -/

section
variable {o : Options} {c : Ctx} (hf : PlainFile o c)
include hf

theorem prints_class {m : Msg} (h : PlainMsg m) : Prints (classDeclaration o c m) := (classDeclaration_eff hf h).prints
theorem prints_forward {m : Msg} (h : PlainMsg m) : Prints (forwardDeclaration o c m) := (forwardDeclaration_eff hf h).prints
theorem prints_enum {e : EnumD} (h : PlainEnum e) : Prints (enumDeclaration o c e) := (enumDeclaration_eff hf h).prints
theorem prints_definition {m : Msg} (h : PlainMsg m) : Prints (classDefinition o c m) := (classDefinition_quiet hf h).prints
theorem prints_enumDefinition {e : EnumD} (h : PlainEnum e) : Prints (enumDefinition o c e) := (enumDefinition_quiet hf h).prints

theorem header_parts {external internal : List Str} {enums : List EnumD} {msgs : List Msg} (hx : ∀ i ∈ external, Name i)
    (hi : ∀ i ∈ internal, Includable i) (he : ∀ e ∈ enums, PlainEnum e) (hm : PlainMsgs msgs) :
    printed (Text.messageHeader o c external internal enums msgs) = some (textOf (headerTop o external internal) ++
      (enums.flatMap fun e => textOf (enumDeclaration o c e)) ++ (msgs.flatMap fun m => textOf (forwardDeclaration o c m)) ++
      msgs.flatMap fun m => textOf (classDeclaration o c m)) := by
  have hmm := plainMsgs_mem hm
  have p0 : Prints (headerTop o external internal) := (headerTop_quiet (out := false) o hx hi).prints
  have p1 := p0.append (Prints.flatMap fun e h => prints_enum hf (he e h))
  have p2 := p1.append (Prints.flatMap fun m h => prints_forward hf (hmm m h))
  unfold Text.messageHeader
  rw [printed_parts p2 (fun m h => prints_class hf (hmm m h)) (fun m _ => section_class o c m),
    textOf_parts p1 (fun m h => prints_forward hf (hmm m h)) (fun m _ => section_forward o c m),
    textOf_parts p0 (fun e h => prints_enum hf (he e h)) (fun e _ => section_enum o c e)]

theorem source_parts {header : Str} {enums : List EnumD} {msgs : List Msg} (hh : Includable header) (he : ∀ e ∈ enums, PlainEnum e)
    (hm : PlainMsgs msgs) :
    printed (messageSource o c header enums msgs) = some (textOf (sourceTop header (if o.qml then [text! "QQmlEngine"] else [])) ++
      (enums.flatMap fun e => textOf (enumDefinition o c e)) ++ msgs.flatMap fun m => textOf (classDefinition o c m)) := by
  have hmm := plainMsgs_mem hm
  have p0 : Prints (sourceTop header (if o.qml then [text! "QQmlEngine"] else [])) := (sourceTop_quiet (out := true) hh (by
    intro i hi
    split at hi
    · simp only [List.mem_cons, List.not_mem_nil, or_false] at hi
      subst hi; exact ⟨by decide, by decide, by decide⟩
    · simp at hi)).prints
  have p1 := p0.append (Prints.flatMap fun e h => prints_enumDefinition hf (he e h))
  unfold messageSource
  rw [printed_parts p1 (fun m h => prints_definition hf (hmm m h)) (fun m _ => section_definition o c m),
    textOf_parts p0 (fun e h => prints_enumDefinition hf (he e h)) (fun e _ => section_enumDefinition o c e)]

end

theorem lx_includes {name : Str} (h : Includable name) (q : Bool) :
    Lx false false ([.print [] tDisclaimerTemplate, .print [(text! "include", name)] tInternalIncludeTemplate] ++
      if q then [.print [(text! "include", text! "QQmlEngine")] tExternalIncludeTemplate] else [])
      (quotedInclude name ++ if q then angleInclude (text! "QQmlEngine") else []) := by
  have h1 : Lx false false [.print [] tDisclaimerTemplate] [] := lx_nil (by rfl)
  refine Lx.append (Lx.cons h1 (lx_internal h)) ?_
  cases q
  · exact Lx.nil _
  · exact lx_external ⟨by decide, by decide, by decide⟩

theorem top_lex {o : Options} {m : Msg} (h : PlainMsg m) : Lx false false (multiSourceTop o m)
    (quotedInclude (m.name.map Char.toLower) ++ if o.qml then angleInclude (text! "QQmlEngine") else []) :=
  lx_includes (includable_lower (includable_name (plain_named h).1)) o.qml

theorem members_forwards {l : List Event} (h : OnlyForwards l) (a : Text) (x : List Event) : membersFrom a (l ++ x) = membersFrom a x := by
  induction l with
  | nil => rfl
  | cons e l ih =>
    obtain ⟨s, n, rfl⟩ := h e (by simp)
    rw [List.cons_append, membersFrom]
    exact ih (fun e he => h e (by simp [he]))
    all_goals simp

theorem classes_forwards {l : List Event} (h : OnlyForwards l) : classesIn l = [] := by
  induction l with
  | nil => rfl
  | cons e l ih =>
    obtain ⟨s, n, rfl⟩ := h e (by simp)
    exact ih (fun e he => h e (by simp [he]))

/-- What is found in the text of the class of a message and of the messages inside. -/
def ownEvents (o : Options) (c : Ctx) (m : Msg) : List Event :=
  (bodies (around o c) c.package m).flatMap (classEvents o c) ++
    (messagesOf c.package m).flatMap fun b => metaEvents [] (ownMetas o c ⟨b.1, b.2⟩)

theorem read_class {o : Options} {c : Ctx} (hf : PlainFile o c) {m : Msg} (h : PlainMsg m) :
    read (textOf (classDeclaration o c m)) = some (ownEvents o c m) := by
  have := textOf_read (classDeclaration_eff hf h)
  simpa [scopeOf, ownEvents, show outerNs o c = around o c from rfl] using this

theorem own_classes {o : Options} {c : Ctx} (hf : PlainFile o c) {m : Msg} (h : PlainMsg m) :
    classesIn (ownEvents o c m) = (bodies (around o c) c.package m).map (·.1.cpp) := by
  unfold ownEvents
  rw [parts_classes.append, parts_classes.flatMap, parts_classes.flatMap,
    flatMap_nil' (f := fun b : Path × List FieldD => classesIn (metaEvents [] (ownMetas o c ⟨b.1, b.2⟩)))
      (fun b _ => metaEvents_none parts_classes (fun _ _ => rfl) _ _), List.append_nil, List.map_eq_flatMap]
  refine flatMap_congr' fun b hb => ?_
  have hne := (bodies_ok hf m _ _ h hf.package b hb).2
  rw [classEvents_parts parts_classes (fun _ _ => rfl) (fun _ _ => rfl), (bodyEvents_calls _).1]
  simpa [classesIn] using dropLast_getLastD hne

theorem own_members (o : Options) (c : Ctx) (m : Msg) : membersIn (ownEvents o c m) =
    (bodies (around o c) c.package m).flatMap fun b => (membersOf o c b).map fun p => (b.1.cpp, p.1, p.2) := by
  have k : Own (ownEvents o c m) (((bodies (around o c) c.package m).flatMap fun b => (membersOf o c b).map fun p => (b.1.cpp, p.1, p.2)) ++ []) := by
    refine Own.append (Own.flatMap fun b hb => class_members o c b (bodies_names m _ _ b hb)) ?_
    refine (own_calls fun e he => ?_).1
    obtain ⟨b, _, h⟩ := List.mem_flatMap.1 he
    obtain ⟨a, _, rfl⟩ := List.mem_map.1 h
    exact Or.inl ⟨_, _, _, rfl⟩
  have := k kwPrivate
  simpa [membersIn] using this

/-- What is read for a class depends on what belongs to the class only. -/
theorem same_class {header header' source source' : Text} {evs evs' : List Event} {ds ds' : List Declared} {is is' : List Item} {cls : List Text}
    (h1 : read header = some evs) (h1' : read header' = some evs') (h2 : SpecCpp.declared header = some ds)
    (h2' : SpecCpp.declared header' = some ds') (h3 : items source = some is) (h3' : items source' = some is')
    (he : (membersIn evs).filter (·.1 == cls) = (membersIn evs').filter (·.1 == cls))
    (hd : ds.filter (·.cls == cls) = ds'.filter (·.cls == cls)) (hf : (fnsIn is).filter (·.cls == cls) = (fnsIn is').filter (·.cls == cls)) :
    (∀ types, SpecCpp.classOf header source cls types = SpecCpp.classOf header' source' cls types) ∧
    (∀ name, nullaryOf header source cls name = nullaryOf header' source' cls name) ∧
    ∀ types, ctorOf source cls types = ctorOf source' cls types := by
  have e1 : functionsOf is ds cls = functionsOf is' ds' cls := by unfold functionsOf; rw [hd, hf]
  have e2 : memberNames ds cls = memberNames ds' cls := by unfold memberNames; rw [hd]
  have e3 : signalsOf evs cls = signalsOf evs' cls := by
    have k : ∀ l : List (List Text × Text × Text), l.filter (fun x => x.1 == cls && x.2.1 == kwSignals) =
        (l.filter (·.1 == cls)).filter (·.2.1 == kwSignals) := fun l => by
      rw [List.filter_filter]
      exact List.filter_congr fun x _ => Bool.and_comm _ _
    unfold signalsOf
    rw [k, k, he]
  refine ⟨fun types => ?_, fun name => ?_, fun types => ?_⟩
  · unfold SpecCpp.classOf
    rw [h1, h2, h3, h1', h2', h3']
    dsimp only
    rw [e1, e2, e3]
  · unfold nullaryOf
    rw [h2, h3, h2', h3']
    dsimp only
    rw [e1]
  · unfold ctorOf
    rw [h3, h3']
    dsimp only
    have k : ∀ l : List Fn, l.find? (fun f => f.isCtor && f.cls == cls && f.params.map (·.1) == types) =
        (l.filter (·.cls == cls)).find? (fun f => f.isCtor && f.params.map (·.1) == types) := fun l => by
      rw [List.find?_filter]
      congr 1
      funext f
      rw [Bool.eq_iff_iff]
      simp only [Bool.and_eq_true, beq_iff_eq, decide_eq_true_eq, and_assoc, and_left_comm]
    rw [k, k, hf]

theorem nodup_part {α β : Type} {f : α → List β} {l : List α} (h : (l.flatMap f).Nodup) {x : α} (hx : x ∈ l) : (f x).Nodup := by
  obtain ⟨a, b, rfl⟩ := List.append_of_mem hx
  rw [List.flatMap_append, List.flatMap_cons] at h
  exact (List.nodup_append.1 (List.nodup_append.1 h).2.1).1

end QtPb.TextProof
