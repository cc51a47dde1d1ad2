import Verif.TextVars
import Verif.TextComment
/-
What the calls of the Printer made for a message do to the reader of the text. (Helpers for the theorems about generated text.)
-/
namespace QtPb.TextProof
open QtPb.Gen QtPb.Gen.Text QtPb.Gen.Text.Spec QtPb.SpecCpp

/-! ### Calls without anything to find -/

/-- The calls print text in which nothing is found and all brackets are closed (outside of classes, with `out`). -/
def Quiet (out : Bool) (ops : List Op) : Prop := Eff out false false ops [] [] (fun _ => [])

section
variable {out : Bool}

theorem Quiet.nil : Quiet out [] := Eff.nil _ _

theorem Quiet.append {a b : List Op} (ha : Quiet out a) (hb : Quiet out b) : Quiet out (a ++ b) := (Eff.append ha hb).congr (by simp)

theorem Quiet.within {a : List Op} (h : Quiet out a) (r : List Frame)
    (hr : out = true → ∀ st, inClass st = false → inClass (r ++ st) = false := by
      first | exact fun _ _ _ => rfl | exact fun h => nomatch h) : Eff out false false a r r (fun _ => []) := by
  have := Eff.within h r hr
  simpa using this

theorem Quiet.indented {a : List Op} (h : Quiet out a) : Quiet out (indented a) := Eff.indented h

theorem Quiet.flatMap {α : Type} {l : List α} {f : α → List Op} (h : ∀ x ∈ l, Quiet out (f x)) : Quiet out (l.flatMap f) :=
  (Eff.flatMap (e := fun _ _ => []) h).congr (by simp)

theorem Quiet.map {α : Type} {l : List α} {f : α → Op} (h : ∀ x ∈ l, Quiet out [f x]) : Quiet out (l.map f) :=
  (Eff.map (e := fun _ _ => []) h).congr (by simp)

theorem Quiet.cons {op : Op} {b : List Op} (ha : Quiet out [op]) (hb : Quiet out b) : Quiet out (op :: b) := Quiet.append ha hb

theorem Quiet.enclose {a b d : List Op} {f : Frame} (ha : Eff out false false a [] [f] (fun _ => [])) (hb : Quiet out b)
    (hd : Eff out false false d [f] [] (fun _ => []))
    (hr : out = true → ∀ st, inClass st = false → inClass ([f] ++ st) = false := by
      first | exact fun _ _ _ => rfl | exact fun h => nomatch h) : Quiet out (a ++ b ++ d) :=
  ((ha.append (hb.within [f] hr)).append hd).congr (by simp)

theorem Quiet.ite {p : Prop} [Decidable p] {a b : List Op} (ha : p → Quiet out a) (hb : ¬ p → Quiet out b) :
    Quiet out (if p then a else b) := by
  split
  · exact ha ‹_›
  · exact hb ‹_›

/-- `Eff` for calls whose symbolic effect is computed. -/
theorem Eff.of {vars : Vars} {keys : List Str} {s0 s1 : List SFrame} {t : Str} {evs : List SEvent} {q : Bool}
    (hg : GoodL vars) (hk : ∀ x ∈ keys, (vars.get x).isSome = true) (h : effect out (fun _ => true) keys s0 t = some (s1, evs, q)) :
    Eff out false q [.print vars t] (s0.map (instF vars)) (s1.map (instF vars)) (fun st => evs.flatMap (instE vars st)) :=
  eff_print hg.good hk h

theorem quiet_of {vars : Vars} {keys : List Str} {t : Str} (hg : GoodL vars) (hk : ∀ x ∈ keys, (vars.get x).isSome = true)
    (h : effect out (fun _ => true) keys [] t = some ([], [], false)) : Quiet out [.print vars t] := Eff.of hg hk h

theorem quiet_nil {t : Str} (h : effect out (fun _ => true) [] [] t = some ([], [], false)) : Quiet out [.print [] t] :=
  quiet_of .nil (by simp) h

theorem val_chars (vars : Vars) (n : Text) : val vars (n.map Tok.ch) = n := by
  induction n with
  | nil => rfl
  | cons c n ih => simp only [List.map_cons, val, List.flatMap_cons, tokVal] at ih ⊢; rw [ih]; rfl

/-- `}` after the brace of a block or a namespace. -/
def Closable : Frame → Prop
  | .brace => True
  | .space _ => True
  | _ => False

theorem close_of {t : Str} (h : ∀ f, (f = .brace ∨ (∃ p, f = .space p)) →
    effect out (fun _ => true) [] [f] t = some ([], [], false)) {f : Frame} (hf : Closable f) :
    Eff out false false [.print [] t] [f] [] (fun _ => []) := by
  cases f with
  | brace => exact Eff.of (s0 := [.brace]) .nil (by simp) (h _ (Or.inl rfl))
  | space n =>
    have := Eff.of (s0 := [.space (n.map Tok.ch)]) (vars := []) (keys := []) .nil (by simp) (h _ (Or.inr ⟨_, rfl⟩))
    simpa [instF, val_chars] using this
  | _ => exact hf.elim

theorem close_block {f : Frame} (hf : Closable f) :
    Eff out false false [.print [] tSimpleBlockEnclosureTemplate] [f] [] (fun _ => []) :=
  close_of (fun f h => by cases out <;> rcases h with rfl | ⟨p, rfl⟩ <;> rfl) hf

theorem close_semicolon {f : Frame} (hf : Closable f) :
    Eff out false false [.print [] tSemicolonBlockEnclosureTemplate] [f] [] (fun _ => []) :=
  close_of (fun f h => by cases out <;> rcases h with rfl | ⟨p, rfl⟩ <;> rfl) hf

/-- `};` after the body of a class. -/
theorem close_class (n : Str) : Eff out false false [.print [] tSemicolonBlockEnclosureTemplate] [.cls n] [] (fun _ => []) := by
  have := Eff.of (out := out) (s0 := [.cls (n.map Tok.ch)]) (s1 := []) (evs := []) (q := false) (t := tSemicolonBlockEnclosureTemplate)
    (vars := []) (keys := []) .nil (by simp) (by cases out <;> rfl)
  simpa [instF, val_chars] using this

theorem newline : Quiet out [.print [] (text! "\n")] := quiet_nil (by cases out <;> decide +kernel)

/-! ### Namespaces -/

/-- Frames of namespaces, the innermost first. -/
def spaces (ns : List Str) : List Frame := (ns.map Frame.space).reverse

theorem spaces_append (a b : List Str) : spaces (a ++ b) = spaces b ++ spaces a := by simp [spaces]

theorem scopeOf_spaces (ns : List Str) (st : List Frame) : scopeOf (spaces ns ++ st) = scopeOf st ++ ns := by
  induction ns generalizing st with
  | nil => simp [spaces]
  | cons n ns ih =>
    have : spaces (n :: ns) ++ st = spaces ns ++ (.space n :: st) := by simp [spaces]
    rw [this, ih]
    simp [scopeOf]

theorem inClass_spaces (ns : List Str) (st : List Frame) (h : inClass st = false) : inClass (spaces ns ++ st) = false := by
  induction ns generalizing st with
  | nil => simpa [spaces] using h
  | cons n ns ih =>
    have : spaces (n :: ns) ++ st = spaces ns ++ (.space n :: st) := by simp [spaces]
    rw [this]
    exact ih _ rfl

theorem open_namespace {n : Str} (h : Name n) :
    Eff out false false [.print [(text! "namespace", n)] tNamespaceTemplate] [] [.space n] (fun _ => []) := by
  have := Eff.of (out := out) (vars := [(text! "namespace", n)]) (keys := [text! "namespace"]) (s0 := []) (t := tNamespaceTemplate)
    (s1 := [.space [.var (text! "namespace")]]) (evs := []) (q := false)
    (.cons (name_value h) (Or.inr (name_id h)) .nil) (by simp [Vars.get]) (by cases out <;> decide +kernel)
  simpa [instF, val, tokVal, Vars.val, Vars.get] using this

theorem open_namespaces (ns : List Str) (h : ∀ n ∈ ns, Name n) :
    Eff out false false (ns.map fun n => .print [(text! "namespace", n)] tNamespaceTemplate) [] (spaces ns) (fun _ => []) := by
  induction ns with
  | nil => exact Eff.nil _ _
  | cons n ns ih =>
    have h1 := open_namespace (out := out) (h n (by simp))
    have h2 := (ih (fun x hx => h x (by simp [hx]))).within [.space n]
    have e : spaces (n :: ns) = spaces ns ++ [.space n] := by simp [spaces]
    rw [e]
    exact (h1.append h2).congr (by simp)

theorem printNamespaces_eff (ns : List Str) (h : ∀ n ∈ ns, Name n) : Eff out false false (printNamespaces ns) [] (spaces ns) (fun _ => []) :=
  (Eff.append newline (open_namespaces ns h)).congr (by simp)

theorem close_namespaces (ns : List Str) :
    Eff out false false (ns.map fun _ => .print [] tSimpleBlockEnclosureTemplate) (spaces ns) [] (fun _ => []) := by
  induction ns with
  | nil => exact Eff.nil _ _
  | cons n ns ih =>
    have h1 : Eff out false false [.print [] tSimpleBlockEnclosureTemplate] [.space n] [] (fun _ => []) := close_block trivial
    have e : spaces (n :: ns) = spaces ns ++ [.space n] := by simp [spaces]
    have h2 := ih.within [.space n]
    rw [e]
    have : (List.map (fun _ => Op.print [] tSimpleBlockEnclosureTemplate) (n :: ns)) =
        ns.map (fun _ => Op.print [] tSimpleBlockEnclosureTemplate) ++ [Op.print [] tSimpleBlockEnclosureTemplate] := by
      simp only [List.map_const', List.length_cons]
      rw [List.replicate_succ']
    rw [this]
    exact (h2.append h1).congr (by simp)

theorem encloseNamespaces_eff (ns : List Str) : Eff out false false (encloseNamespaces ns) (spaces ns) [] (fun _ => []) := by
  have h := (((newline (out := out)).within (spaces ns) (fun _ => inClass_spaces ns)).append (close_namespaces ns)).append newline
  exact h.congr (by simp)

/-- Text inside of namespaces. -/
theorem Eff.inNamespaces {ns : List Str} {b : List Op} {e : List Frame → List Event} (h : ∀ n ∈ ns, Name n)
    (hb : Eff out false false b [] [] e) :
    Eff out false false (printNamespaces ns ++ b ++ encloseNamespaces ns) [] [] (fun st => e (spaces ns ++ st)) := by
  have := ((printNamespaces_eff ns h).append (hb.within (spaces ns) (fun _ => inClass_spaces ns))).append (encloseNamespaces_eff ns)
  exact this.congr (by simp)

theorem encloseClass_eff (n : Str) : Eff out false false encloseClass [.cls n] [] (fun _ => []) :=
  ((close_class n).append newline).congr (by simp)

end

/-! ### Labels and functions -/

/-- What is found directly in a class besides macros: a label or the name of a function. -/
inductive Mem
  | label (l : Text)
  | func (n : Text)

def Mem.event (sc : List Text) : Mem → Event
  | .label l => .label sc l
  | .func n => .func sc n

/-- These are found directly in classes only. -/
def memEvents (st : List Frame) (l : List Mem) : List Event := if inClass st then l.map (Mem.event (scopeOf st)) else []

theorem memEvents_append (st : List Frame) (a b : List Mem) : memEvents st (a ++ b) = memEvents st a ++ memEvents st b := by
  unfold memEvents; split <;> simp

theorem memEvents_nil (st : List Frame) : memEvents st [] = [] := by unfold memEvents; split <;> rfl

theorem memEvents_flatMap {α : Type} (st : List Frame) (l : List α) (f : α → List Mem) :
    memEvents st (l.flatMap f) = l.flatMap fun x => memEvents st (f x) := by
  induction l with
  | nil => exact memEvents_nil st
  | cons x l ih => rw [List.flatMap_cons, memEvents_append, ih, List.flatMap_cons]

/-- The calls print labels and functions, and all brackets are closed. -/
def Body (ops : List Op) (l : List Mem) : Prop := Eff false false false ops [] [] (fun st => memEvents st l)

theorem Quiet.body {a : List Op} (h : Quiet false a) : Body a [] := Eff.congr h (fun st => (memEvents_nil st).symm)

theorem Body.nil : Body [] [] := Quiet.nil.body

theorem Body.append {a b : List Op} {l k : List Mem} (ha : Body a l) (hb : Body b k) : Body (a ++ b) (l ++ k) :=
  (Eff.append ha hb).congr (fun st => (memEvents_append st l k).symm)

theorem Body.cons {op : Op} {b : List Op} {l k : List Mem} (ha : Body [op] l) (hb : Body b k) : Body (op :: b) (l ++ k) :=
  Body.append ha hb

theorem Body.indented {a : List Op} {l : List Mem} (h : Body a l) : Body (indented a) l := Eff.indented h

theorem Body.flatMap {α : Type} {l : List α} {f : α → List Op} {k : α → List Mem} (h : ∀ x ∈ l, Body (f x) (k x)) :
    Body (l.flatMap f) (l.flatMap k) :=
  (Eff.flatMap h).congr (fun st => (memEvents_flatMap st l k).symm)

theorem Body.map {α : Type} {l : List α} {f : α → Op} {k : α → Mem} (h : ∀ x ∈ l, Body [f x] [k x]) : Body (l.map f) (l.map k) := by
  have := Body.flatMap (f := fun x => [f x]) (k := fun x => [k x]) h
  rwa [← List.map_eq_flatMap, ← List.map_eq_flatMap] at this

theorem Body.ite {p : Prop} [Decidable p] {a b : List Op} {l k : List Mem} (ha : p → Body a l) (hb : ¬ p → Body b k) :
    Body (if p then a else b) (if p then l else k) := by
  split
  · exact ha ‹_›
  · exact hb ‹_›

theorem Body.congr {a : List Op} {l k : List Mem} (h : Body a l) (e : l = k) : Body a k := e ▸ h

theorem body_func {vars : Vars} {keys : List Str} {t : Str} {p : List Tok} {n : Text} (hg : GoodL vars)
    (hk : ∀ x ∈ keys, (vars.get x).isSome = true) (h : effect false (fun _ => true) keys [] t = some ([], [.func [] p], false))
    (hn : val vars p = n) : Body [.print vars t] [.func n] := by
  refine (Eff.of hg hk h).congr fun st => ?_
  simp only [List.flatMap_cons, List.flatMap_nil, instE, List.map_nil, List.nil_append, hn, memEvents]
  split <;> rfl

theorem body_label {l t : Text} (h : effect false (fun _ => true) [] [] t = some ([], [.label [] l], false)) :
    Body [.print [] t] [.label l] := by
  refine (Eff.of .nil (by simp) h).congr fun st => ?_
  simp only [List.flatMap_cons, List.flatMap_nil, instE, List.map_nil, List.nil_append, memEvents]
  split <;> rfl

theorem body_public : Body [.print [] tPublicBlockTemplate] [.label kwPublic] := body_label (by decide +kernel)
theorem body_private : Body [.print [] tPrivateBlockTemplate] [.label kwPrivate] := body_label (by decide +kernel)
theorem body_signals : Body [.print [] tSignalsBlockTemplate] [.label kwSignals] := body_label (by decide +kernel)

/-! ### The message -/

/-- The message that is printed. -/
structure MsgOk (o : Options) (c : Ctx) (m : Cur) : Prop where
  file : PlainFile o c
  path : Good' m.path
  fields : ∀ f ∈ m.fields, PlainField f

def ownKeys : List Str := text! "classname" :: typeKeys

theorem own_keys (o : Options) (c : Ctx) (m : Cur) : ∀ x ∈ ownKeys, ((own o c m).get x).isSome = true := by
  intro x hx
  apply get_isSome
  exact hx

theorem extraOk {o : Options} {c : Ctx} (h : PlainFile o c) : ExtraOk o := h.extra

theorem typesOk {f : FieldD} (h : PlainField f) : TypesOk f := ⟨h.message, h.enum⟩

theorem keyOk {o : Options} {c : Ctx} (h : PlainFile o c) (q : Path) : TypesOk (c.entry q).1 := by
  have := h.keys q
  refine ⟨fun e => ?_, fun e => ?_⟩ <;> (rw [e] at this; exact absurd this (by decide))

theorem entryOk {o : Options} {c : Ctx} (h : PlainFile o c) (q : Path) : TypesOk (c.entry q).1 ∧ TypesOk (c.entry q).2 :=
  ⟨keyOk h q, typesOk (h.values q)⟩

section
variable {out : Bool} {o : Options} {c : Ctx} {m : Cur} (ok : MsgOk o c m)
include ok

theorem own_good : GoodL (own o c m) := goodL_message c (extraOk ok.file) ok.path none

theorem pv_good {f : FieldD} (hf : f ∈ m.fields) : GoodL (pv o c m f) :=
  goodL_property (extraOk ok.file) ok.path (typesOk (ok.fields f hf)) (ok.fields f hf).prop (entryOk ok.file)

theorem q_own {t : Str} (h : effect out (fun _ => true) ownKeys [] t = some ([], [], false)) : Quiet out [.print (own o c m) t] :=
  quiet_of (own_good ok) (own_keys o c m) h

theorem q_pv {f : FieldD} (hf : f ∈ m.fields) {t : Str} (h : effect out (fun _ => true) propKeys [] t = some ([], [], false)) :
    Quiet out [.print (pv o c m f) t] :=
  quiet_of (pv_good ok hf) (propertyVars_keys o c m.path f) h

theorem comments_quiet : Quiet out (printComments o (c.comment m.path)) := comment_eff fun h => (ok.file.comments h m.path).1

theorem fieldComments_quiet (n : Nat) : Quiet out (printComments o (c.fieldComment m.path n)) :=
  comment_eff fun h => (ok.file.comments h m.path).2 n

theorem parameters_quiet (n : Nat) : Quiet out ((m.fields.take n).map fun f => .print (pv o c m f) (parameterTemplate f)) := by
  apply Quiet.map
  intro f hf
  have hf := List.mem_of_mem_take hf
  unfold parameterTemplate
  split
  · exact q_pv ok hf (by cases out <;> decide +kernel)
  · split
    · exact q_pv ok hf (by cases out <;> decide +kernel)
    · exact q_pv ok hf (by cases out <;> decide +kernel)

theorem eff_own {s0 s1 : List SFrame} {t : Str} {evs : List SEvent} {q : Bool}
    (h : effect out (fun _ => true) ownKeys s0 t = some (s1, evs, q)) :
    Eff out false q [.print (own o c m) t] (s0.map (instF (own o c m))) (s1.map (instF (own o c m)))
      (fun st => evs.flatMap (instE (own o c m) st)) :=
  Eff.of (own_good ok) (own_keys o c m) h

omit ok in
theorem own_classname : (own o c m).val (text! "classname") = upperCaseName (m.path.getLastD []) := rfl

omit ok in
theorem pv_name (f : FieldD) : (pv o c m f).val (text! "property_name") = f.prop ∧
    (pv o c m f).val (text! "property_name_cap") = upperCaseName f.prop := by
  unfold pv propertyVars
  constructor <;> (repeat' split) <;> rfl

omit ok in
theorem pv_words {f : FieldD} : val (pv o c m f) [.var (text! "property_name")] = f.prop ∧
    val (pv o c m f) (.var (text! "property_name") :: (text! "_p").map Tok.ch) = f.prop ++ kP ∧
    val (pv o c m f) (.var (text! "property_name") :: (text! "_l").map Tok.ch) = f.prop ++ kL ∧
    val (pv o c m f) (.var (text! "property_name") :: (text! "Data").map Tok.ch) = f.prop ++ kData ∧
    val (pv o c m f) ((text! "set").map Tok.ch ++ [.var (text! "property_name_cap")]) = f.setter ∧
    val (pv o c m f) ((text! "set").map Tok.ch ++ .var (text! "property_name_cap") :: (text! "_p").map Tok.ch) = f.setter ++ kP ∧
    val (pv o c m f) (.var (text! "property_name") :: (text! "Changed").map Tok.ch) = signalName f := by
  have h := pv_name (o := o) (c := c) (m := m) f
  have s1 : val (pv o c m f) [.var (text! "property_name")] = f.prop := by simp [val, tokVal, h.1]
  have s2 : val (pv o c m f) [.var (text! "property_name_cap")] = upperCaseName f.prop := by simp [val, tokVal, h.2]
  have e1 : val (pv o c m f) ((text! "_p").map Tok.ch) = kP := rfl
  have e2 : val (pv o c m f) ((text! "_l").map Tok.ch) = kL := rfl
  have e3 : val (pv o c m f) ((text! "Data").map Tok.ch) = kData := rfl
  have e4 : val (pv o c m f) ((text! "set").map Tok.ch) = text! "set" := rfl
  have e5 : val (pv o c m f) ((text! "Changed").map Tok.ch) = text! "Changed" := rfl
  have cons : ∀ (a : Tok) (l : List Tok), val (pv o c m f) (a :: l) = val (pv o c m f) [a] ++ val (pv o c m f) l := fun a l => by
    rw [← val_append]; rfl
  refine ⟨s1, ?_, ?_, ?_, ?_, ?_, ?_⟩
  · rw [cons, s1, e1]
  · rw [cons, s1, e2]
  · rw [cons, s1, e3]
  · rw [val_append, e4, s2]; rfl
  · rw [val_append, cons, e4, s2, e1]; simp [FieldD.setter, kSet]
  · rw [cons, s1, e5]; rfl

/-- Functions named after a field. -/
theorem f_pv {f : FieldD} (hf : f ∈ m.fields) {t : Str} {p : List Tok} {n : Text} (hn : val (pv o c m f) p = n)
    (h : effect false (fun _ => true) propKeys [] t = some ([], [.func [] p], false)) : Body [.print (pv o c m f) t] [.func n] :=
  body_func (pv_good ok hf) (propertyVars_keys o c m.path f) h hn

/-- The name of the class. -/
def className (m : Cur) : Text := upperCaseName (m.path.getLastD [])

/-- Functions named after the class. -/
theorem f_own {t : Str} (h : effect false (fun _ => true) ownKeys [] t = some ([], [.func [] [.var (text! "classname")]], false)) :
    Body [.print (own o c m) t] [.func (className m)] :=
  body_func (own_good ok) (own_keys o c m) h (by simp [val, tokVal, own_classname, className])

theorem declConstructor_body (n : Nat) : Body (declConstructor o c m n) [.func (className m)] := by
  have h1 := eff_own (out := false) ok (s0 := []) (s1 := [.paren]) (evs := [.func [] [.var (text! "classname")]]) (q := false)
    (t := tProtoConstructorBeginTemplate) (by decide +kernel)
  have h2 := (parameters_quiet (out := false) ok n).within [.paren]
  have h3 := eff_own (out := false) ok (s0 := [.paren]) (s1 := []) (evs := []) (q := false) (t := tProtoConstructorEndTemplate)
    (by decide +kernel)
  refine ((h1.append h2).append h3).congr fun st => ?_
  simp only [List.flatMap_cons, List.flatMap_nil, instE, List.map_nil, List.nil_append, List.append_nil, memEvents, val, tokVal,
    own_classname, className]
  split <;> rfl

/-- What is said of Timestamp. -/
def timestampMems (m : Cur) : List Mem := if isTimestamp m then [.func (text! "Timestamp"), .func (text! "QDateTime")] else []

theorem declConstructors_body :
    Body (declConstructors o c m) (List.replicate (m.fields.length + 1) (.func (className m)) ++ timestampMems m) := by
  unfold declConstructors timestampMems
  apply Body.append
  · have := Body.flatMap (l := List.range (m.fields.length + 1)) (fun n _ => declConstructor_body ok n)
    refine this.congr ?_
    rw [← List.map_eq_flatMap, List.map_const', List.length_range]
  · refine Body.ite (fun _ => ?_) (fun _ => Body.nil)
    refine (Eff.of (out := false) (vars := []) (keys := []) (s0 := []) (s1 := []) (q := false) (t := kTimestampDecl)
      (evs := [.func [] ((text! "Timestamp").map Tok.ch), .func [] ((text! "QDateTime").map Tok.ch)]) .nil (by simp)
      (by decide +kernel)).congr fun st => ?_
    simp only [List.flatMap_cons, List.flatMap_nil, instE, val_chars, List.map_nil, List.nil_append, List.append_nil, memEvents]
    split <;> rfl

theorem printMaps_quiet : Quiet false (printMaps o c m) := by
  unfold printMaps
  refine (Quiet.flatMap fun f hf => ?_).indented
  refine Quiet.ite (fun _ => ?_) (fun _ => Quiet.nil)
  split
  · exact q_pv ok hf (by decide +kernel)
  · exact q_pv ok hf (by decide +kernel)

theorem declSpecial_body : Body (declSpecial o c m) [.func (className m), .func (className m), .func (className m)] := by
  unfold declSpecial
  exact .cons (f_own ok (by decide +kernel)) <| .cons (f_own ok (by decide +kernel)) <| .cons (q_own ok (by decide +kernel)).body <|
    .cons (f_own ok (by decide +kernel)) <| .cons (q_own ok (by decide +kernel)).body <| .cons (q_own ok (by decide +kernel)).body <|
    .cons (q_own ok (by decide +kernel)).body .nil

/-- The getters of a field. -/
def getterMems (o : Options) (f : FieldD) : List Mem :=
  [.func f.prop] ++ if f.repeated then [.func f.prop] ++ (if f.type == .message && !f.isMap && o.qml then [.func (f.prop ++ kL)] else [])
    else []

theorem declGetters_body : Body (declGetters o c m) (m.fields.flatMap (getterMems o)) := by
  unfold declGetters
  refine (Body.flatMap fun f hf => ?_).indented
  obtain ⟨w1, w2, w3, w4, w5, w6, w7⟩ := pv_words (o := o) (c := c) (m := m) (f := f)
  unfold getterOps getterMems
  refine Body.append (l := [.func f.prop]) (Body.append (l := [])
    (Quiet.append (fieldComments_quiet ok _) newline).body ?_) ?_
  · split
    · exact f_pv ok hf w1 (by decide +kernel)
    · exact f_pv ok hf w1 (by decide +kernel)
  · refine Body.ite (fun _ => ?_) (fun _ => Body.nil)
    refine Body.append (f_pv ok hf w1 (by decide +kernel)) ?_
    exact Body.ite (fun _ => f_pv ok hf w3 (by decide +kernel)) (fun _ => Body.nil)

theorem declSetters_body : Body (declSetters o c m) (m.fields.map fun f => .func f.setter) := by
  unfold declSetters
  refine (Body.map fun f hf => ?_).indented
  obtain ⟨w1, w2, w3, w4, w5, w6, w7⟩ := pv_words (o := o) (c := c) (m := m) (f := f)
  unfold setterTemplate
  split
  · split
    · exact f_pv ok hf w5 (by decide +kernel)
    · exact f_pv ok hf w5 (by decide +kernel)
  · exact f_pv ok hf w5 (by decide +kernel)
  · exact f_pv ok hf w5 (by decide +kernel)
  · exact f_pv ok hf w5 (by decide +kernel)

theorem printPrivateGetters_body : Body (printPrivateGetters o c m)
    (m.fields.flatMap fun f => if isPureMessage c.package f then [.func (f.prop ++ kP)] else []) := by
  unfold printPrivateGetters
  refine (Body.flatMap fun f hf => ?_).indented
  obtain ⟨w1, w2, w3, w4, w5, w6, w7⟩ := pv_words (o := o) (c := c) (m := m) (f := f)
  exact Body.ite (fun _ => f_pv ok hf w2 (by decide +kernel)) (fun _ => Body.nil)

theorem printPrivateSetters_body : Body (printPrivateSetters o c m)
    (m.fields.flatMap fun f => if isPureMessage c.package f then [.func (f.setter ++ kP)] else []) := by
  unfold printPrivateSetters
  refine (Body.flatMap fun f hf => ?_).indented
  obtain ⟨w1, w2, w3, w4, w5, w6, w7⟩ := pv_words (o := o) (c := c) (m := m) (f := f)
  exact Body.ite (fun _ => f_pv ok hf w6 (by decide +kernel)) (fun _ => Body.nil)

theorem printSignals_body : Body (printSignals o c m) (m.fields.map fun f => .func (signalName f)) := by
  unfold printSignals
  refine (Body.map fun f hf => ?_).indented
  obtain ⟨w1, w2, w3, w4, w5, w6, w7⟩ := pv_words (o := o) (c := c) (m := m) (f := f)
  exact f_pv ok hf w7 (by decide +kernel)

omit ok in
/-- With an alias for QML the variable `qml_alias_type` has a value. -/
theorem alias_keys {f : FieldD} {q : Bool} (h : hasQmlAlias q f = true) :
    ∀ x ∈ text! "qml_alias_type" :: propKeys, ((pv o c m f).get x).isSome = true := by
  intro x hx
  rcases List.mem_cons.1 hx with rfl | hx
  · apply get_isSome
    have ht : f.isMap = false ∧ f.repeated = false ∧ (f.type = .int32 ∨ f.type = .sfixed32 ∨ f.type = .fixed32) := by
      simp only [hasQmlAlias, Bool.and_eq_true, Bool.not_eq_true', Bool.or_eq_true, beq_iff_eq] at h
      obtain ⟨⟨⟨h1, h2⟩, h3⟩, -⟩ := h
      refine ⟨h1, h2, ?_⟩
      rcases h3 with (h3 | h3) | h3
      · exact Or.inl h3
      · exact Or.inr (Or.inl h3)
      · exact Or.inr (Or.inr h3)
    have hm : text! "qml_alias_type" ∈ (typeVars o c m.path f).map (·.1) := by
      have : ∀ t, text! "qml_alias_type" ∈ (simpleVars t).map (·.1) := fun t => by
        show _ ∈ [_, _, _, _, _, _, _, _, _, _, _, _, _, _]
        simp
      unfold typeVars
      rcases ht.2.2 with h | h | h <;> (rw [h]; exact this _)
    unfold pv propertyVars
    simp only [ht.1, ht.2.1, Bool.false_eq_true, if_false, List.map_append, List.mem_append]
    exact Or.inr hm
  · exact propertyVars_keys o c m.path f x hx

theorem f_alias {f : FieldD} (hf : f ∈ m.fields) {q : Bool} (hq : hasQmlAlias q f = true) {t : Str} {p : List Tok} {n : Text}
    (hn : val (pv o c m f) p = n)
    (h : effect false (fun _ => true) (text! "qml_alias_type" :: propKeys) [] t = some ([], [.func [] p], false)) :
    Body [.print (pv o c m f) t] [.func n] :=
  body_func (pv_good ok hf) (alias_keys hq) h hn

theorem printPrivateMethods_body : Body (printPrivateMethods o c m)
    (m.fields.flatMap fun f => if hasQmlAlias o.qml f then [.func (f.prop ++ kP), .func (f.setter ++ kP)] else []) := by
  unfold printPrivateMethods
  refine (Body.flatMap fun f hf => ?_).indented
  obtain ⟨w1, w2, w3, w4, w5, w6, w7⟩ := pv_words (o := o) (c := c) (m := m) (f := f)
  exact Body.ite (fun h => .cons (f_alias ok hf h w2 (by decide +kernel)) (f_alias ok hf h w6 (by decide +kernel))) (fun _ => Body.nil)

theorem printFieldEnum_quiet : Quiet false (printFieldEnum o c m) := by
  unfold printFieldEnum
  refine Quiet.indented (Quiet.enclose (f := .brace) ?_ ?_ (close_semicolon trivial))
  · exact Eff.of (s0 := []) (s1 := [.brace]) (evs := []) (keys := []) .nil (by simp) (by decide +kernel)
  · exact (Quiet.map fun f hf => q_pv ok hf (by decide +kernel)).indented

theorem printClassMembers_quiet : Quiet false (printClassMembers o c m) := by
  unfold printClassMembers
  refine (Quiet.map fun f hf => ?_).indented
  split
  · exact q_pv ok hf (by decide +kernel)
  · split
    · exact q_pv ok hf (by decide +kernel)
    · exact q_pv ok hf (by decide +kernel)

theorem nested_path {n : Msg} (hn : Named n.name) : Good' (m.path ++ [n.name]) :=
  ⟨by simp, fun s hs => by
    rcases List.mem_append.1 hs with hs | hs
    · exact ok.path.2 s hs
    · simp at hs; rw [hs]; exact hn⟩

/-! ### Properties -/

/-- The arguments of the macro of a template. -/
def argsOf (keys : List Str) (t : Str) : List SLex :=
  match effect false (fun _ => true) keys [] t with
  | some ([], [.call [] _ args], false) => args
  | _ => []

omit ok in
theorem eff_macro {vars : Vars} {keys : List Str} {t m : Str} (hg : GoodL vars) (hk : ∀ x ∈ keys, (vars.get x).isSome = true)
    (h : effect false (fun _ => true) keys [] t = some ([], [.call [] m (argsOf keys t)], false)) :
    Eff false false false [.print vars t] [] [] (fun st => [.call (scopeOf st) m ((argsOf keys t).flatMap (inst vars))]) := Eff.of hg hk h

def aliasKeys : List Str := text! "qml_alias_type" :: propKeys

/-- What is found for a field by the first loop. -/
def propEvent (f : FieldD) (sc : List Text) : Event :=
  .call sc kwProperty ((argsOf propKeys (propertyTemplate o c f)).flatMap (inst (pv o c m f)))

def extraEvents (f : FieldD) (sc : List Text) : List Event :=
  if f.type == .message && f.repeated && !f.isMap && o.qml then
    [.call sc kwProperty ((argsOf propKeys tQmlListPropertyTemplate).flatMap (inst (pv o c m f)))]
  else if hasQmlAlias o.qml f then
    [.call sc kwProperty ((argsOf aliasKeys tNonScriptableAliasPropertyTemplate).flatMap (inst (pv o c m f)))]
  else []

theorem printProperties_eff : Eff false false false (printProperties o c m) [] []
    (fun st => m.fields.map (fun f => propEvent (o := o) (c := c) (m := m) f (scopeOf st)) ++
      m.fields.flatMap fun f => extraEvents (o := o) (c := c) (m := m) f (scopeOf st)) := by
  unfold printProperties
  refine Eff.indented (Eff.append (q1 := false) (s1 := []) ?_ ?_)
  · refine (Eff.map (e := fun f st => [propEvent (o := o) (c := c) (m := m) f (scopeOf st)]) fun f hf => ?_).congr
      (fun st => by rw [← List.map_eq_flatMap])
    unfold propEvent propertyTemplate
    have hk := propertyVars_keys o c m.path f
    split
    · exact eff_macro (pv_good ok hf) hk (by decide +kernel)
    · split
      · exact eff_macro (pv_good ok hf) hk (by decide +kernel)
      · split
        · split
          · exact eff_macro (pv_good ok hf) hk (by decide +kernel)
          · exact eff_macro (pv_good ok hf) hk (by decide +kernel)
        · exact eff_macro (pv_good ok hf) hk (by decide +kernel)
  · refine Eff.flatMap fun f hf => ?_
    unfold extraPropertyOps extraEvents
    split
    · exact eff_macro (pv_good ok hf) (propertyVars_keys o c m.path f) (by decide +kernel)
    · split
      · rename_i ha
        exact eff_macro (keys := aliasKeys) (pv_good ok hf) (alias_keys ha) (by decide +kernel)
      · exact Eff.nil _ _

/-! ### Enumerations -/

omit ok in
theorem enumValues_quiet (values : List (Str × Int)) (h : ∀ v ∈ values, Name (upperCaseName v.1)) : Quiet out (enumValueOps values) := by
  unfold enumValueOps
  refine Quiet.map fun v hv => ?_
  exact quiet_of (keys := [text! "enumvalue", text! "value"])
    (.cons (name_value (h v hv)) (Or.inl (by decide)) <| .cons (value_int _) (Or.inl (by decide)) .nil) (by simp [Vars.get])
    (by cases out <;> decide +kernel)

omit ok in
theorem word_inst {vars : Vars} {x : Str} {v : Str} (hv : vars.val x = v) (hid : IsId v) :
    [SLex.word [.var x]].flatMap (inst vars) = [.word v] := by
  simp [inst, val, tokVal, hv, hid.lexemes]

omit ok in
/-- Q_ENUM of an enumeration. -/
theorem qenum_eff {vars : Vars} {keys : List Str} {v : Str} (hg : GoodL vars) (hk : ∀ x ∈ keys, (vars.get x).isSome = true)
    (hv : vars.val (text! "type") = v) (hid : IsId v)
    (h : effect false (fun _ => true) keys [] tQEnumTemplate = some ([], [.call [] kwEnum [.word [.var (text! "type")]]], false)) :
    Eff false false false [.print vars tQEnumTemplate] [] [] (fun st => [.call (scopeOf st) kwEnum [.word v]]) := by
  have := Eff.of hg hk h
  refine this.congr fun st => ?_
  simp only [List.flatMap_cons, List.flatMap_nil, List.append_nil, List.map_nil, instE, List.nil_append]
  have := word_inst hv hid
  simp only [List.flatMap_cons, List.flatMap_nil, List.append_nil] at this
  rw [this]

def enumKeys : List Str := text! "classname" :: typeKeys ++ [text! "enum_gadget"]

theorem localEnum_good {e : EnumD} (he : Named e.name) : GoodL (localEnumVars o c m e) :=
  goodL_enum c (extraOk ok.file)
    ⟨by simp, fun s hs => by
      rcases List.mem_append.1 hs with hs | hs
      · exact ok.path.2 s hs
      · simp at hs; rw [hs]; exact he⟩ _ _ (fun _ => ⟨m.path, rfl, ok.path⟩)

omit ok in
theorem localEnum_type (e : EnumD) : (localEnumVars o c m e).val (text! "type") = upperCaseName e.name := by
  have : (localEnumVars o c m e).val (text! "type") = upperCaseName ((m.path ++ [e.name]).getLastD []) := rfl
  rw [this]; simp

omit ok in
theorem localEnum_keys (e : EnumD) : ∀ x ∈ enumKeys, ((localEnumVars o c m e).get x).isSome = true :=
  fun _ hx => get_isSome hx

theorem qenumOps_eff {e : EnumD} (he : PlainEnum e) :
    Eff false false false (qenumOps o c m e) [] [] (fun st => [.call (scopeOf st) kwEnum [.word (upperCaseName e.name)]]) := by
  unfold qenumOps
  have hg := localEnum_good ok he.1
  have hk := localEnum_keys (o := o) (c := c) (m := m) e
  have h1 : Eff false false false [.print (localEnumVars o c m e) tEnumDefinitionTemplate] [] [.brace] (fun _ => []) :=
    Eff.of (s0 := []) (s1 := [.brace]) (evs := []) hg hk (by decide +kernel)
  have h2 := Quiet.enclose h1 (enumValues_quiet e.values he.2).indented (close_semicolon trivial)
  have h3 := qenum_eff hg hk (localEnum_type e) (name_id he.1.2) (by decide +kernel)
  have := (Eff.append h2 h3)
  refine Eff.congr (e := fun st => [] ++ [.call (scopeOf st) kwEnum [.word (upperCaseName e.name)]]) ?_ (by simp)
  simpa [List.append_assoc] using this

/-- The enumerations of the message, and that of the field numbers. -/
def qenums : List Str := (if o.fieldEnum then [kFieldEnumType] else []) ++ (c.enums m.path).map fun e => upperCaseName e.name

theorem printQEnums_eff : Eff false false false (printQEnums o c m) [] []
    (fun st => (qenums (o := o) (c := c) (m := m)).map fun n => .call (scopeOf st) kwEnum [.word n]) := by
  unfold printQEnums
  have he := ok.file.enums m.path
  have h1 : Eff false false false (if o.fieldEnum then
      printFieldEnum o c m ++ QtPb.Gen.Text.indented [.print [(text! "type", kFieldEnumType)] tQEnumTemplate] ++ [.print [] (text! "\n")]
      else []) [] [] (fun st => (if o.fieldEnum then [kFieldEnumType] else []).map fun n => .call (scopeOf st) kwEnum [.word n]) := by
    split
    · have hn : Name kFieldEnumType := ⟨by decide, by decide, by decide⟩
      have := qenum_eff (vars := [(text! "type", kFieldEnumType)]) (keys := [text! "type"]) (v := kFieldEnumType)
        (.cons (name_value hn) (Or.inl (by decide)) .nil) (by simp [Vars.get]) rfl (name_id hn) (by decide +kernel)
      exact ((Eff.append (printFieldEnum_quiet ok) this.indented).append newline).congr (by simp)
    · exact Eff.nil _ _
  have h2 : Eff false false false (if (c.enums m.path).isEmpty then []
      else QtPb.Gen.Text.indented ((c.enums m.path).flatMap (qenumOps o c m) ++
        (c.enums m.path).map fun e => .print (localEnumVars o c m e) tEnumTypeRepeatedTemplate)) [] []
      (fun st => (c.enums m.path).map fun e => .call (scopeOf st) kwEnum [.word (upperCaseName e.name)]) := by
    split
    · rename_i hempty
      rw [List.isEmpty_iff] at hempty
      rw [hempty]
      exact Eff.nil _ _
    · have a := Eff.flatMap (e := fun e st => [.call (scopeOf st) kwEnum [.word (upperCaseName e.name)]])
        (fun e hmem => qenumOps_eff ok (he e hmem))
      have b : Quiet false ((c.enums m.path).map fun e => .print (localEnumVars o c m e) tEnumTypeRepeatedTemplate) :=
        Quiet.map fun e hmem => quiet_of (localEnum_good ok (he e hmem).1) (localEnum_keys e) (by decide +kernel)
      exact (a.append b).indented.congr (fun st => by rw [← List.map_eq_flatMap]; simp)
  exact (h1.append h2).congr (fun st => by simp [qenums, List.map_append, Function.comp_def])

theorem printNested_quiet {nested : List Msg} (hn : ∀ n ∈ nested, Named n.name) : Quiet false (printNested o c m nested) := by
  unfold printNested
  refine (Quiet.flatMap fun n hmem => ?_).indented
  refine Quiet.ite (fun _ => ?_) (fun _ => Quiet.nil)
  exact quiet_of (keys := ownKeys) (goodL_message c (extraOk ok.file) (nested_path ok (hn n hmem)) _)
    (fun x hx => get_isSome hx) (by decide +kernel)

/-! ### The class -/

/-- The labels and functions of the class after its enumerations. -/
def bodyMems (o : Options) (c : Ctx) (m : Cur) : List Mem :=
  (List.replicate (m.fields.length + 1) (.func (className m)) ++ timestampMems m ++
    [.func (className m), .func (className m), .func (className m)]) ++
  m.fields.flatMap (getterMems o) ++ (m.fields.map fun f => .func f.setter) ++ [.func (text! "registerTypes")] ++
  [.label kwSignals] ++ (m.fields.map fun f => .func (signalName f)) ++
  [.label kwPrivate] ++ (m.fields.flatMap fun f => if isPureMessage c.package f then [.func (f.prop ++ kP)] else []) ++
  (m.fields.flatMap fun f => if isPureMessage c.package f then [.func (f.setter ++ kP)] else []) ++
  (m.fields.flatMap fun f => if hasQmlAlias o.qml f then [.func (f.prop ++ kP), .func (f.setter ++ kP)] else []) ++
  [.label kwPrivate]

/-- What is found in the class of a message. -/
def bodyEvents (sc : List Text) : List Event :=
  m.fields.map (fun f => propEvent (o := o) (c := c) (m := m) f sc) ++
  (m.fields.flatMap fun f => extraEvents (o := o) (c := c) (m := m) f sc) ++ [.label sc kwPublic] ++
  ((qenums (o := o) (c := c) (m := m)).map fun n => .call sc kwEnum [.word n]) ++ (bodyMems o c m).map (Mem.event sc)

theorem printClassBody_eff {nested : List Msg} (hn : ∀ n ∈ nested, Named n.name) (cls : Text) :
    Eff false false false (printClassBody o c m nested) [.cls cls] [.cls cls]
      (fun st => bodyEvents (o := o) (c := c) (m := m) (scopeOf (.cls cls :: st))) := by
  have man : Body (QtPb.Gen.Text.indented [.print (own o c m) tManualRegistrationDeclaration]) [.func (text! "registerTypes")] :=
    (body_func (own_good ok) (own_keys o c m) (p := (text! "registerTypes").map Tok.ch) (by decide +kernel) (val_chars _ _)).indented
  have ctor : Body (QtPb.Gen.Text.indented (declConstructors o c m ++ declSpecial o c m)) _ :=
    ((declConstructors_body ok).append (declSpecial_body ok)).indented
  have hq := (printNested_quiet ok hn).body.append <| (printMaps_quiet ok).body.append <| ctor.append <| (declGetters_body ok).append <|
      (declSetters_body ok).append <| man.append <| body_signals.append <| (printSignals_body ok).append <| body_private.append <|
      (printPrivateGetters_body ok).append <| (printPrivateSetters_body ok).append <| (printPrivateMethods_body ok).append <|
      body_private.append (printClassMembers_quiet ok).body
  have := ((printProperties_eff ok).append body_public).append ((printQEnums_eff ok).append hq)
  unfold printClassBody
  have := (this.within [.cls cls]).congr
    (e' := fun st => bodyEvents (o := o) (c := c) (m := m) (scopeOf (.cls cls :: st))) (fun st => by
      simp [bodyEvents, bodyMems, memEvents, inClass, Mem.event])
  simpa only [List.append_assoc, List.nil_append] using this

/-- `: public QObject`. -/
def objectBases : List Lexeme := [.punct ':', .word (text! "public"), .word (text! "QObject")]

theorem declClass_eff {nested : List Msg} (hn : ∀ n ∈ nested, Named n.name) :
    Eff false false false (declClass o c m nested) [] [] (fun st =>
      .cls (scopeOf st) (className m) objectBases :: .label (scopeOf st ++ [className m]) kwObject ::
        .func (scopeOf st ++ [className m]) (text! "Q_DECLARE_PROTOBUF_SERIALIZERS") ::
        bodyEvents (o := o) (c := c) (m := m) (scopeOf st ++ [className m])) := by
  unfold declClass
  have h1 : Eff false false false [.print (own o c m) tProtoClassDeclarationBeginTemplate] [] [.cls (className m)]
      (fun st => [.cls (scopeOf st) (className m) objectBases, .label (scopeOf st ++ [className m]) kwObject,
        .func (scopeOf st ++ [className m]) (text! "Q_DECLARE_PROTOBUF_SERIALIZERS")]) := by
    have := eff_own (out := false) ok (s0 := []) (s1 := [.cls [.var (text! "classname")]])
      (evs := [.cls [] [.var (text! "classname")] [.punct ':', .word ((text! "public").map Tok.ch), .word ((text! "QObject").map Tok.ch)],
        .label [.cls [.var (text! "classname")]] kwObject,
        .func [.cls [.var (text! "classname")]] ((text! "Q_DECLARE_PROTOBUF_SERIALIZERS").map Tok.ch)])
      (t := tProtoClassDeclarationBeginTemplate) (q := false) (by decide +kernel)
    have hb : [SLex.punct ':', .word ((text! "public").map Tok.ch), .word ((text! "QObject").map Tok.ch)].flatMap (inst (own o c m)) =
        objectBases := by
      simp only [List.flatMap_cons, List.flatMap_nil, inst, val_chars]
      decide +kernel
    have hc : val (own o c m) [.var (text! "classname")] = className m := by simp [val, tokVal, own_classname, className]
    have e1 : (SFrame.cls [.var (text! "classname")] :: ([] : List SFrame)).map (instF (own o c m)) = [Frame.cls (className m)] := by
      simp only [List.map_cons, List.map_nil, instF, hc]
    rw [e1] at this
    refine this.congr fun st => ?_
    simp only [List.flatMap_cons, List.flatMap_nil, instE, hb, hc, e1, val_chars, inClass, scopeOf, List.map_nil, List.nil_append,
      List.cons_append, if_true, List.append_nil]
  have h2 := printClassBody_eff ok hn (className m)
  have h3 := encloseClass_eff (out := false) (className m)
  have h4 : Quiet false [.print (own o c m) tComplexListTypeUsingTemplate] := q_own ok (by decide +kernel)
  have := (((Eff.append (comments_quiet ok) h1).append h2).append h3).append h4
  refine this.congr fun st => ?_
  simp [scopeOf]

end

end QtPb.TextProof
