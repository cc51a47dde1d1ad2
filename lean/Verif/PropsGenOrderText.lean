import Verif.PropsGenModes
import Verif.PropsGenOrder
/-
C99: the order of declarations that C99 is about is the order in the printed text.
-/
namespace QtPb.SpecCpp

/-- The classes that are declared in a text, in order: with body (true) or without (false). -/
def orderIn (es : List Event) : List (Bool × List Text) :=
  es.filterMap fun
    | .forward s n => some (false, s ++ [n])
    | .cls s n _ => some (true, s ++ [n])
    | _ => none

end QtPb.SpecCpp

namespace QtPb.Gen.Spec

/-- The class that is declared in a line of a header, if one is: with body or without. -/
def Line.declares {κ : Type} : Line κ → Option (Bool × List Str)
  | .decl (.fwd n) => some (false, n)
  | .decl (.gadget n) => some (true, n)
  | .decl (.cls n _ _) => some (true, n)
  | .decl (.list _) => none
  | .incl _ => none

end QtPb.Gen.Spec

namespace QtPb.TextProof
open QtPb.Gen QtPb.Gen.Text QtPb.SpecCpp QtPb.Gen.Text.Spec
open QtPb.Gen.Spec (Decl Line)

theorem parts_order : Parts orderIn := ⟨rfl, fun a b => by simp [orderIn]⟩

theorem order_none {l : List Event} (h1 : classesIn l = []) (h2 : forwardsIn l = []) : orderIn l = [] := by
  induction l with
  | nil => rfl
  | cons e l ih =>
    rw [← List.singleton_append, parts_classes.append] at h1
    rw [← List.singleton_append, parts_forwards.append] at h2
    have k1 := List.append_eq_nil_iff.1 h1
    have k2 := List.append_eq_nil_iff.1 h2
    rw [← List.singleton_append, parts_order.append, ih k1.2 k2.2]
    cases e with
    | cls => simp [classesIn] at k1
    | forward => simp [forwardsIn] at k2
    | _ => rfl

theorem order_class (o : Options) (c : Ctx) {b : Printed × List FieldD} (h : b.1.cpp ≠ []) : orderIn (classEvents o c b) = [(true, b.1.cpp)] := by
  rw [classEvents_parts parts_order (fun _ _ => rfl) (fun _ _ => rfl), order_none (bodyEvents_calls _).1 (bodyEvents_calls _).2.1]
  simpa [orderIn] using dropLast_getLastD h

theorem order_own {o : Options} {c : Ctx} (hf : PlainFile o c) {m : Msg} (h : PlainMsg m) :
    orderIn (ownEvents o c m) = (bodies (around o c) c.package m).map fun b => (true, b.1.cpp) := by
  unfold ownEvents
  rw [parts_order.append, parts_order.flatMap, parts_order.flatMap,
    flatMap_nil' (f := fun b : Path × List FieldD => orderIn (metaEvents [] (ownMetas o c ⟨b.1, b.2⟩)))
      (fun b _ => metaEvents_none parts_order (fun _ _ => rfl) _ _), List.append_nil, List.map_eq_flatMap]
  exact flatMap_congr' fun b hb => order_class o c (bodies_ok hf m _ _ h hf.package b hb).2

/-! ### The declarations of the model of the order -/

mutual
theorem declares_classes : ∀ (m : Msg) (ns : List Str) (path : Path),
    (declareDecls ns path m).filterMap (fun d => (Line.decl (κ := Str) d).declares) = (bodies ns path m).map fun b => (true, b.1.cpp)
  | .mk name fields nested e, ns, path => by
    rw [declareDecls, bodies, List.filterMap_append, declaresList_classes nested (ns ++ [nestedNs name]) (path ++ [name]) fields, List.map_append]
    rfl
theorem declaresList_classes : ∀ (l : List Msg) (ns : List Str) (path : Path) (fields : List FieldD),
    (declareDeclsList ns path fields l).filterMap (fun d => (Line.decl (κ := Str) d).declares) = (bodiesList ns path fields l).map fun b => (true, b.1.cpp)
  | [], ns, path, fields => by rw [declareDeclsList, bodiesList]; rfl
  | n :: l, ns, path, fields => by
    rw [declareDeclsList, bodiesList, List.filterMap_append, List.map_append, declaresList_classes l ns path fields]
    split
    · rw [declares_classes n ns path]
    · rfl
end

mutual
theorem declares_forwards : ∀ (m : Msg) (ns : List Str) (path : Path),
    (forwardDecls ns path m).filterMap (fun d => (Line.decl (κ := Str) d).declares) = (bodies ns path m).map fun b => (false, b.1.cpp)
  | .mk name fields nested e, ns, path => by
    rw [forwardDecls, bodies, List.filterMap_append, List.map_append]
    refine congrArg₂' (· ++ ·) ?_ rfl
    cases hh : hasNested (path ++ [name]) fields nested with
    | true => rw [if_pos rfl]; exact declaresList_forwards nested (ns ++ [nestedNs name]) (path ++ [name]) fields
    | false => rw [if_neg (by simp), bodiesList_none nested (noNested hh)]; rfl
theorem declaresList_forwards : ∀ (l : List Msg) (ns : List Str) (path : Path) (fields : List FieldD),
    (forwardDeclsList ns path fields l).filterMap (fun d => (Line.decl (κ := Str) d).declares) = (bodiesList ns path fields l).map fun b => (false, b.1.cpp)
  | [], ns, path, fields => by rw [forwardDeclsList, bodiesList]; rfl
  | n :: l, ns, path, fields => by
    rw [forwardDeclsList, bodiesList, List.filterMap_append, List.map_append, declaresList_forwards l ns path fields]
    split
    · rw [declares_forwards n ns path]
    · rfl
end

end QtPb.TextProof

namespace QtPb.Gen.Text
open QtPb.Gen QtPb.SpecCpp QtPb.Gen.Text.Spec QtPb.TextProof
open QtPb.Gen.Spec (Decl Line)

/-- A file as the model of the order has it. -/
structure SameFile (u : Sources) (f : ProtoFile) : Prop where
  package : f.package = u.c.package
  messages : f.messages = u.msgs
  enums : f.enums = u.enums.map (·.name)

/-- In single-file mode the classes that are declared in the printed header, with and without body, are those of `singleLines`, in this order. -/
theorem C99_single_text {u : Sources} (hu : u.Plain) {f : ProtoFile} (hf : SameFile u f) :
    ∃ text evs, u.headerText = some text ∧ read text = some evs ∧ orderIn evs = (singleLines u.o.extra f).filterMap Line.declares := by
  obtain ⟨text, h1, h2⟩ := header_eff hu.file hu.external hu.internal hu.enums hu.msgs
  refine ⟨text, _, h1, h2, ?_⟩
  have hmm := plainMsgs_mem hu.msgs
  unfold headerEvents singleLines
  rw [hf.package, hf.messages, hf.enums, parts_order.append, parts_order.append, List.filterMap_append, List.filterMap_map, List.filterMap_map,
    List.filterMap_append, List.filterMap_append]
  have e0 : (List.filter (fun d => decide (d ≠ kQtCore ∧ d ≠ kQtGui)) f.deps).filterMap (Line.declares ∘ Line.incl) = [] := by
    simp [Function.comp_def, Line.declares]
  rw [e0, List.nil_append]
  refine congrArg₂' (· ++ ·) (congrArg₂' (· ++ ·) ?_ ?_) ?_
  · rw [parts_order.flatMap, List.map_map, List.filterMap_map]
    rw [show (Line.declares ∘ Line.decl (κ := Str)) ∘ (gadgetDecl u.o.extra u.c.package ∘ fun (e : EnumD) => e.name) =
      fun e => some (true, gadgetClass u.o u.c e) from rfl, List.filterMap_eq_map', List.map_eq_flatMap]
    refine flatMap_congr' fun e _ => ?_
    simp [enumEvents, gadgetMems, Mem.event, orderIn, gadgetClass, show outerNs u.o u.c = around u.o u.c from rfl]
  · rw [parts_order.flatMap, List.filterMap_flatMap]
    refine flatMap_congr' fun m hm => ?_
    have := declares_forwards m (fileNs u.o.extra u.c.package) u.c.package
    refine Eq.trans ?_ this.symm
    rw [parts_order.map, List.map_eq_flatMap]
    refine flatMap_congr' fun b hb => ?_
    have hne := (bodies_ok hu.file m _ _ (hmm m hm) hu.file.package b hb).2
    simpa [orderIn, forwardEvent] using dropLast_getLastD hne
  · rw [parts_order.flatMap, List.filterMap_flatMap]
    refine flatMap_congr' fun m hm => ?_
    have := declares_classes m (fileNs u.o.extra u.c.package) u.c.package
    refine Eq.trans ?_ this.symm
    exact order_own hu.file (hmm m hm)

/-- The same for the header of a message in multi-file mode. -/
theorem C99_multi_text {u : Sources} (hu : u.Plain) {pkgOf : Path → List Str} (hp : PlainPackages pkgOf) {m : Msg} (hm : m ∈ u.msgs) (headers : List Str) :
    ∃ text evs, printed (Text.multiHeader u.o u.c pkgOf m) = some text ∧ read text = some evs ∧
      orderIn evs = (multiLines u.o.extra pkgOf headers u.c.package m).filterMap Line.declares := by
  have hpm := plainMsgs_mem hu.msgs m hm
  obtain ⟨text, h1, h2⟩ := read_printed ((multiTop_eff (o := u.o) (c := u.c) hp hpm).append (classDeclaration_eff hu.file hpm))
  refine ⟨text, _, h1, h2, ?_⟩
  unfold multiLines
  rw [parts_order.append, List.filterMap_append, List.filterMap_map, List.filterMap_map, List.filterMap_append]
  have e0 : (List.filterMap (opened headers (concat ['/'] u.c.package)) (multiIncludes pkgOf u.c.package m)).filterMap (Line.declares ∘ Line.incl) = [] := by
    simp [Function.comp_def, Line.declares]
  rw [e0, List.nil_append]
  refine congrArg₂' (· ++ ·) ?_ ?_
  · rw [parts_order.flatMap, List.filterMap_flatMap]
    refine flatMap_congr' fun q hq => ?_
    unfold forwardDep
    split
    · rfl
    · simp [orderIn, Line.declares, scopeOf, depNamespaces]
  · have := declares_classes m (fileNs u.o.extra u.c.package) u.c.package
    refine Eq.trans ?_ this.symm
    exact order_own hu.file hpm

end QtPb.Gen.Text

namespace QtPb.Gen.Text
open QtPb.Gen QtPb.SpecCpp QtPb.Gen.Text.Spec QtPb.TextProof
open QtPb.Gen.Spec (Decl Line)

namespace Sample

/-- The file of the examples as the model of the order has it. -/
def orderFile : ProtoFile := { name := text! "f", package := file.c.package, messages := file.msgs, enums := file.enums.map (·.name), services := [], deps := [] }

end Sample

open Sample in
/-- The file of the examples, with enumerations and messages in messages. -/
example : file.Plain ∧ SameFile file orderFile ∧ ((singleLines file.o.extra orderFile).filterMap Line.declares).length ≥ 5 :=
  ⟨filePlain, ⟨rfl, rfl, rfl⟩, by decide +kernel⟩

open Sample in
example : file.Plain ∧ PlainPackages (fun _ => sub) ∧ outer ∈ file.msgs ∧
    ((multiLines file.o.extra (fun _ => sub) [] file.c.package outer).filterMap Line.declares).length ≥ 2 :=
  ⟨filePlain, packages, List.mem_cons_self .., by decide +kernel⟩

end QtPb.Gen.Text
