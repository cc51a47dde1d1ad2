import Verif.TextItems
import Verif.TextFile
/-
The lexemes of the templates of sources: the values of the variables, put in. (Helpers for the theorems about generated sources.)
-/
namespace QtPb.TextProof
open QtPb.Gen QtPb.Gen.Text QtPb.Gen.Text.Spec QtPb.SpecCpp

/-- The lexemes of a template with the values put in, and whether it ends with a word. -/
def putAll (keys single : List Str) (σ : Str → Text) (t : Str) : Option (List Lexeme × Bool) :=
  (symb (fun _ => true) keys t).map fun r => (r.1.flatMap (put single σ), r.2)

theorem lx_put {vars : Vars} {keys single : List Str} {σ : Str → Text} {t : Str} {ls : List Lexeme} {b : Bool}
    (hg : GoodL vars) (hv : Values vars keys single σ) (h : putAll keys single σ t = some (ls, b)) : Lx false b [.print vars t] ls := by
  unfold putAll at h
  cases hs : symb (fun _ => true) keys t with
  | none => simp [hs] at h
  | some r =>
    simp only [hs, Option.map_some, Option.some.injEq, Prod.mk.injEq] at h
    obtain ⟨rfl, rfl⟩ := h
    exact lx_values hg.good.fits hv hs

theorem Values.of {vars : Vars} {keys single : List Str} {σ : Str → Text} (hk : ∀ x ∈ keys, (vars.get x).isSome = true)
    (he : ∀ x ∈ keys, vars.val x = σ x) (hs : ∀ x ∈ keys, x ∈ single → IsId (σ x)) : Values vars keys single σ := by
  refine ⟨fun x hx => ?_, hs⟩
  have h1 := hk x hx
  have h2 := he x hx
  unfold Vars.val at h2
  cases hg : vars.get x with
  | none => simp [hg] at h1
  | some v => simp [hg] at h2; rw [h2]

/-- Text without variables. -/
theorem lx_nil {t : Str} {ls : List Lexeme} {b : Bool} (h : putAll [] [] (fun _ => []) t = some (ls, b)) : Lx false b [.print [] t] ls :=
  lx_put .nil (.of (by simp) (by simp) (by simp)) h

/-! ### The message -/

/-- The values of the variables of a message. -/
def ownSub (o : Options) (c : Ctx) (m : Cur) (x : Str) : Text :=
  if x = text! "classname" then className m
  else if x = text! "type" then className m
  else if x = text! "list_type" then className m ++ kRepeated
  else (own o c m).val x

def ownSingle : List Str := [text! "classname", text! "type", text! "list_type"]

/-- The values of the variables of a field. -/
def fieldSub (o : Options) (c : Ctx) (m : Cur) (f : FieldD) (x : Str) : Text :=
  if x = text! "property_name" then f.prop
  else if x = text! "property_name_cap" then upperCaseName f.prop
  else if x = text! "classname" then className m
  else (pv o c m f).val x

def fieldSingle : List Str := [text! "property_name", text! "property_name_cap", text! "classname"]

section
variable {o : Options} {c : Ctx} {m : Cur} (ok : MsgOk o c m)
include ok

theorem class_id : IsId (className m) := name_id (good_last ok.path).2

theorem own_values : Values (own o c m) ownKeys ownSingle (ownSub o c m) := by
  refine .of (own_keys o c m) (fun x _ => ?_) (fun x _ hs => ?_)
  · unfold ownSub
    split
    · rename_i h; subst h; rfl
    · split
      · rename_i h; subst h; rfl
      · split
        · rename_i h; subst h; rfl
        · rfl
  · have hc := class_id ok
    simp only [ownSingle, List.mem_cons, List.not_mem_nil, or_false] at hs
    rcases hs with rfl | rfl | rfl
    · exact hc
    · exact hc
    · exact name_id (name_repeated hc)

omit ok in
theorem pv_classname (f : FieldD) : (pv o c m f).val (text! "classname") = className m := by
  unfold pv propertyVars
  (repeat' split) <;> rfl

theorem pv_values {f : FieldD} (hf : f ∈ m.fields) : Values (pv o c m f) propKeys fieldSingle (fieldSub o c m f) := by
  refine .of (propertyVars_keys o c m.path f) (fun x _ => ?_) (fun x _ hs => ?_)
  · unfold fieldSub
    split
    · rename_i h; subst h; exact (pv_name f).1
    · split
      · rename_i h; subst h; exact (pv_name f).2
      · split
        · rename_i h; subst h; exact pv_classname f
        · rfl
  · simp only [fieldSingle, List.mem_cons, List.not_mem_nil, or_false] at hs
    rcases hs with rfl | rfl | rfl
    · exact name_id (ok.fields f hf).prop.1
    · exact name_id (ok.fields f hf).prop.2
    · exact class_id ok

theorem lx_own {t : Str} {ls : List Lexeme} {b : Bool} (h : putAll ownKeys ownSingle (ownSub o c m) t = some (ls, b)) :
    Lx false b [.print (own o c m) t] ls := lx_put (own_good ok) (own_values ok) h

theorem lx_pv {f : FieldD} (hf : f ∈ m.fields) {t : Str} {ls : List Lexeme} {b : Bool}
    (h : putAll propKeys fieldSingle (fieldSub o c m f) t = some (ls, b)) : Lx false b [.print (pv o c m f) t] ls :=
  lx_put (pv_good ok hf) (pv_values ok hf) h

end

end QtPb.TextProof
