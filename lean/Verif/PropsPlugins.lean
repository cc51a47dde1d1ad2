import Verif.SpecPlugins
/-
C30: the serializer registry.
-/
namespace QtPb.Plugins

/-! ### Lemmas -/

/-- The state after a history: the entry of every name. -/
def Holds (s : State) (history : List Op) : Prop :=
  ∀ plugin, s.plugins plugin =
    if plugin = "Default" then some (some Record.new.createDefaultImpl)
    else (Spec.firstLoaded plugin history).map fun lib => some ((Record.new.loadPluginMetadata lib).loadPlugin lib)

theorem holds_start : Holds start [] := by
  intro plugin
  simp only [start, put, Spec.firstLoaded, Option.map_none]

theorem fold_put (make : String → Ser) (types : List String) (m : String → Option Ser) (id : String) :
    types.foldl (fun m t => put m t (make t)) m id = if id ∈ types then some (make id) else m id := by
  induction types generalizing m with
  | nil => simp
  | cons t ts ih =>
    simp only [List.foldl_cons]
    rw [ih]
    by_cases h : id ∈ ts
    · simp [h]
    · by_cases ht : id = t
      · subst ht; simp [h, put]
      · simp [h, ht, put]

theorem record_serializers (lib : Lib) (id : String) :
    ((Record.new.loadPluginMetadata lib).loadPlugin lib).serializers id = Spec.libSerializer lib id := by
  obtain ⟨md, inst⟩ := lib
  cases md with
  | none => cases inst <;> rfl
  | some m =>
    cases inst with
    | none => rfl
    | some make =>
      simp only [Record.loadPluginMetadata, Record.loadPlugin, Spec.libSerializer]
      rw [fold_put]
      rfl

theorem record_meta (lib : Lib) :
    ((Record.new.loadPluginMetadata lib).loadPlugin lib).metaData = lib.metaData := by
  obtain ⟨md, inst⟩ := lib
  cases md <;> cases inst <;> rfl

theorem default_serializers (id : String) :
    (Record.new.createDefaultImpl).serializers id = Spec.builtin id := by
  have hrec : (Record.new.createDefaultImpl).serializers =
      put (put (fun _ => none) "protobuf" .protobuf) "json" .json := rfl
  rw [hrec]
  by_cases h1 : id = "json"
  · subst h1; rfl
  · by_cases h2 : id = "protobuf"
    · subst h2; rfl
    · simp only [put, h1, h2, if_false, Spec.builtin]

theorem name_eq (lib : Lib) : (Record.new.loadPluginMetadata lib).pluginLoadedName = Spec.registeredName lib := by
  obtain ⟨md, inst⟩ := lib
  cases md <;> rfl

theorem firstLoaded_append (plugin : String) (h : List Op) (op : Op) :
    Spec.firstLoaded plugin (h ++ [op]) =
      (Spec.firstLoaded plugin h).or (Spec.firstLoaded plugin [op]) := by
  induction h with
  | nil => simp [Spec.firstLoaded]
  | cons a h ih =>
    cases a <;> simp only [List.cons_append, Spec.firstLoaded]
    case load =>
      split
      · simp
      · exact ih
    all_goals exact ih

theorem getSerializer_default {s : State} {h : List Op} (hs : Holds s h) (id : String) :
    getSerializer s id "Default" = (s, Spec.orThrow (Spec.builtin id)) := by
  have := hs "Default"
  simp only [if_true] at this
  simp only [getSerializer, index, this, default_serializers]
  cases Spec.builtin id <;> rfl

theorem getSerializer_loaded {s : State} {h : List Op} (hs : Holds s h) {plugin : String}
    (hp : ¬ plugin = "Default") {lib : Lib} (hl : Spec.firstLoaded plugin h = some lib) (id : String) :
    getSerializer s id plugin = (s, Spec.orThrow (Spec.libSerializer lib id)) := by
  have := hs plugin
  simp only [hp, if_false, hl, Option.map_some] at this
  simp only [getSerializer, index, this, record_serializers]
  cases Spec.libSerializer lib id <;> rfl

theorem info_eq {s : State} {h : List Op} (hs : Holds s h) (plugin : String) (empty : Answer)
    (value : Meta → Answer) : info s plugin empty value = (s, Spec.metaAnswer h plugin empty value) := by
  have := hs plugin
  by_cases hp : plugin = "Default"
  · subst hp
    simp only [if_true] at this
    simp only [info, index, this, Spec.metaAnswer, if_true]
    rfl
  · simp only [hp, if_false] at this
    simp only [Spec.metaAnswer, hp, if_false]
    cases hl : Spec.firstLoaded plugin h with
    | none => simp only [hl, Option.map_none] at this; simp only [info, this, Option.bind_none]
    | some lib =>
      simp only [hl, Option.map_some] at this
      simp only [info, index, this, record_meta, Option.bind_some]
      cases lib.metaData <;> rfl

theorem exec_spec {s : State} {h : List Op} (hs : Holds s h) (op : Op) {a : Res Answer}
    (ha : Spec.answer h op = some a) : (exec s op).2 = a ∧ Holds (exec s op).1 (h ++ [op]) ∧
      (Spec.IsLookup op → (exec s op).1 = s) := by
  have keep : Spec.IsLookup op → Holds s (h ++ [op]) := by
    intro hl plugin
    rw [firstLoaded_append]
    have : Spec.firstLoaded plugin [op] = none := by
      cases op <;> first | rfl | exact hl.elim
    rw [this, Option.or_none]
    exact hs plugin
  cases op with
  | load file lib =>
    simp only [Spec.answer] at ha
    split at ha
    · cases ha
    · rename_i hf
      simp only [Option.some.injEq] at ha
      subst ha
      have hn := name_eq lib
      have hcur := hs (Spec.registeredName lib)
      refine ⟨?_, ?_, fun h => h.elim⟩
      · simp only [exec, loadPlugin, hf, if_false, hn]
        split <;> rfl
      · intro plugin
        simp only [exec, loadPlugin, hf, if_false, hn]
        rw [firstLoaded_append]
        by_cases hd : plugin = "Default"
        · have h1 := hs plugin
          simp only [hd, if_true] at h1 ⊢
          split
          · rename_i hnone
            simp only [put]
            split
            · rename_i he; rw [← he, h1] at hnone; cases hnone
            · exact h1
          · exact h1
        · simp only [hd, if_false]
          have h1 := hs plugin
          simp only [hd, if_false] at h1
          split
          · rename_i hnone
            simp only [put]
            by_cases he : plugin = Spec.registeredName lib
            · rw [← he, h1] at hnone
              simp only [Option.map_eq_none_iff] at hnone
              rw [if_pos he, hnone]
              simp only [Spec.firstLoaded, Option.none_or]
              rw [if_pos he.symm]; rfl
            · rw [if_neg he, h1]
              simp only [Spec.firstLoaded]
              rw [if_neg (Ne.symm he), Option.or_none]
          · rename_i r hsome
            rw [h1]
            cases hl : Spec.firstLoaded plugin h with
            | some l => simp
            | none =>
              simp only [Option.none_or, Option.map_none, Spec.firstLoaded]
              split
              · rename_i he
                rw [he, h1, hl] at hsome
                cases hsome
              · rfl
  | getDefault id =>
    simp only [Spec.answer, Option.some.injEq] at ha
    subst ha
    simp only [exec, getSerializer_default hs]
    exact ⟨trivial, keep trivial, fun _ => trivial⟩
  | getSerializer id plugin =>
    by_cases hp : plugin = "Default"
    · subst hp
      simp only [Spec.answer, if_true, Option.some.injEq] at ha
      subst ha
      simp only [exec, getSerializer_default hs]
      exact ⟨trivial, keep trivial, fun _ => trivial⟩
    · simp only [Spec.answer, hp, if_false, Option.map_eq_some_iff] at ha
      obtain ⟨lib, hl, rfl⟩ := ha
      simp only [exec, getSerializer_loaded hs hp hl]
      exact ⟨trivial, keep trivial, fun _ => trivial⟩
  | version plugin =>
    simp only [Spec.answer, Option.some.injEq] at ha
    subst ha
    simp only [exec, info_eq hs]
    exact ⟨trivial, keep trivial, fun _ => trivial⟩
  | serializers plugin =>
    simp only [Spec.answer, Option.some.injEq] at ha
    subst ha
    simp only [exec, info_eq hs]
    exact ⟨trivial, keep trivial, fun _ => trivial⟩
  | protobufVersion plugin =>
    simp only [Spec.answer, Option.some.injEq] at ha
    subst ha
    simp only [exec, info_eq hs]
    exact ⟨trivial, keep trivial, fun _ => trivial⟩
  | rating plugin =>
    simp only [Spec.answer, Option.some.injEq] at ha
    subst ha
    simp only [exec, info_eq hs]
    exact ⟨trivial, keep trivial, fun _ => trivial⟩

theorem run_snoc (s : State) (h : List Op) (op : Op) :
    run s (h ++ [op]) = ((exec (run s h).1 op).1, (run s h).2 ++ [(exec (run s h).1 op).2]) := by
  induction h generalizing s with
  | nil => rfl
  | cons a h ih => simp only [List.cons_append, run, ih]

theorem run_spec {h : List Op} {as : List (Res Answer)} (hp : Spec.Proper h as) :
    (run start h).2 = as ∧ Holds (run start h).1 h := by
  induction hp with
  | nil => exact ⟨rfl, holds_start⟩
  | snoc _ ha ih =>
    obtain ⟨h1, h2⟩ := ih
    obtain ⟨h3, h4, _⟩ := exec_spec h2 _ ha
    rw [run_snoc]
    exact ⟨by rw [h1, h3], h4⟩

/-! ### C30 -/

/-- C30: the answers to any history of calls are those of the specification, which looks only at the
history: every plugin is answered for by the first library loaded under its name, "Default" by the
built-in serializers; a serializer id that is not there throws; questions about an unknown plugin get
zero or the empty list. -/
theorem C30_answers {h : List Op} {as : List (Res Answer)} (hp : Spec.Proper h as) : (run start h).2 = as :=
  (run_spec hp).1

/-- C30: lookups change nothing: taking out a lookup leaves the answers of all later calls as they are. -/
theorem C30_lookup_harmless {h : List Op} {as : List (Res Answer)} (hp : Spec.Proper h as) {op : Op}
    (hl : Spec.IsLookup op) {a : Res Answer} (ha : Spec.answer h op = some a) (later : List Op) :
    (run start (h ++ [op] ++ later)).2 = (run start h).2 ++ [a] ++ (run (run start h).1 later).2 := by
  have happ : ∀ (s : State) (as bs : List Op), (run s (as ++ bs)).2 = (run s as).2 ++ (run (run s as).1 bs).2 := by
    intro s as bs
    induction as generalizing s with
    | nil => rfl
    | cons x as ih => simp only [List.cons_append, run, ih]
  obtain ⟨_, hh⟩ := run_spec hp
  obtain ⟨h1, _, h2⟩ := exec_spec hh op ha
  rw [happ, run_snoc, h1, h2 hl]

/-- C30: the default serializers answer after every proper history, and nothing else is in "Default". -/
theorem C30_default {h : List Op} {as : List (Res Answer)} (hp : Spec.Proper h as) (id : String) :
    (exec (run start h).1 (.getDefault id)).2 =
      if id = "protobuf" then .ok (.serializer .protobuf) else if id = "json" then .ok (.serializer .json)
      else .throw .outOfRange := by
  rw [(exec_spec (run_spec hp).2 (.getDefault id) rfl).1]
  split
  · rename_i h; subst h; rfl
  · split
    · rename_i h; subst h; rfl
    · rename_i h1 h2; simp only [Spec.builtin, h1, h2]; rfl

/-- C30: once a plugin is loaded, later loads do not change the answers about it. -/
theorem C30_first_stays {h : List Op} {as : List (Res Answer)} (hp : Spec.Proper h as) {plugin : String} {lib : Lib}
    (hl : Spec.firstLoaded plugin h = some lib) {later : List Op} {bs : List (Res Answer)}
    (hp2 : Spec.Proper (h ++ later) bs) (id : String) :
    (exec (run start (h ++ later)).1 (.getSerializer id plugin)).2 =
      (exec (run start h).1 (.getSerializer id plugin)).2 := by
  have hl2 : Spec.firstLoaded plugin (h ++ later) = some lib := by
    have happ : ∀ later : List Op, Spec.firstLoaded plugin (h ++ later) =
        (Spec.firstLoaded plugin h).or (Spec.firstLoaded plugin later) := by
      intro later
      clear hp hl hp2
      induction h with
      | nil => simp [Spec.firstLoaded]
      | cons a h ih =>
        cases a <;> simp only [List.cons_append, Spec.firstLoaded]
        case load => split <;> first | rfl | exact ih
        all_goals exact ih
    rw [happ, hl]; rfl
  by_cases hd : plugin = "Default"
  · subst hd
    simp only [exec, getSerializer_default (run_spec hp).2, getSerializer_default (run_spec hp2).2]
  · simp only [exec, getSerializer_loaded (run_spec hp).2 hd hl, getSerializer_loaded (run_spec hp2).2 hd hl2]

/-- C30 is violated for a serializer of a plugin that was never loaded: instead of an exception, a null
pointer is dereferenced. This happens after every proper history. -/
theorem C30_unknown_plugin_violated {h : List Op} {as : List (Res Answer)} (hp : Spec.Proper h as)
    {plugin : String} (hd : plugin ≠ "Default") (hn : Spec.firstLoaded plugin h = none) (id : String) :
    (exec (run start h).1 (.getSerializer id plugin)).2 = .ub := by
  have := (run_spec hp).2 plugin
  simp only [hd, if_false, hn, Option.map_none] at this
  simp only [exec, getSerializer, index, this]

/-- A plugin with two serializers, and a second one with the same name. -/
def demoLib : Lib := ⟨some ⟨"demo", ["protobuf", "json", ""], 7, 3, 10⟩, some fun t => .made t.length⟩
def demoLib2 : Lib := ⟨some ⟨"demo", ["other"], 8, 3, 20⟩, some fun _ => .made 99⟩

/-- The hypotheses of C30 are met by a history with two libraries of the same name and lookups. -/
example : ∃ as, Spec.Proper [.load "a" demoLib, .load "b" demoLib2, .getSerializer "json" "demo",
      .getSerializer "other" "demo", .rating "demo", .rating "nothing", .serializers "demo"] as ∧
    as = [.ok (.name "demo"), .ok (.name "demo"), .ok (.serializer (.made 4)), .throw .outOfRange,
      .ok (.number 10), .ok (.number 0), .ok (.names ["protobuf", "json"])] := by
  refine ⟨_, ?_, rfl⟩
  have h1 := Spec.Proper.nil.snoc (op := .load "a" demoLib) (a := .ok (.name "demo")) rfl
  have h2 := h1.snoc (op := .load "b" demoLib2) (a := .ok (.name "demo")) rfl
  have h3 := h2.snoc (op := .getSerializer "json" "demo") (a := .ok (.serializer (.made 4))) rfl
  have h4 := h3.snoc (op := .getSerializer "other" "demo") (a := .throw .outOfRange) rfl
  have h5 := h4.snoc (op := .rating "demo") (a := .ok (.number 10)) rfl
  have h6 := h5.snoc (op := .rating "nothing") (a := .ok (.number 0)) rfl
  exact h6.snoc (op := .serializers "demo") (a := .ok (.names ["protobuf", "json"])) rfl

end QtPb.Plugins
