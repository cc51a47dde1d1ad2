import Verif.SerializeLemmas
import Verif.DecodeLemmas
import Verif.Demo
/-
C51: repeated bool fields can be written and read. They cannot: no handlers are registered for them.
-/
namespace QtPb
open Spec
variable {env : Env}

/-- C51 is violated in every schema: no object of a message type with a repeated bool field can be
serialized, whatever its contents and also if the list is empty. -/
theorem C51_never_serialized_violated (ho : ValidOrder env) {m : Nat} {f : Field} (hf : f ∈ env.sch m)
    (hty : f.ty = .list .bool) {o : Obj} (hw : WellTyped env m o) (n : Nat) (bs : Bytes) :
    serializeMessage env n m o ≠ .ok bs := by
  intro hb
  cases n with
  | zero => simp [serializeMessage] at hb
  | succ n =>
    obtain ⟨i, hi⟩ := List.mem_iff_getElem?.mp hf
    cases hw with
    | msg hl hh =>
      have hio : i < (env.sch m).length := (List.getElem?_eq_some_iff.mp hi).1
      obtain ⟨v, hv⟩ : ∃ v, o[i]? = some v := ⟨o[i]'(by omega), by simp [hl, hio]⟩
      have hmem : i ∈ env.ord m := (ho m).mem_iff.mpr (List.mem_range.mpr hio)
      simp only [serializeMessage] at hb
      obtain ⟨c, hc⟩ := concatRes_mem hb _ (List.mem_map.mpr ⟨i, hmem, rfl⟩)
      have hv' := hh i f v hi hv
      rw [hty] at hv'
      simp only [hi, hv, hty] at hc
      cases hv' with
      | scList _ => simp [serializeProperty, Kind.hasListHandler] at hc

/-- C51 is violated in every schema: reading a record of a repeated bool field ends with
`std::bad_function_call`, whatever the payload. -/
theorem C51_never_read_violated (hv : ValidSchema env) {m i : Nat} {f : Field}
    (hf : (env.sch m)[i]? = some f) (hty : f.ty = .list .bool) {hdr rest : Bytes} {wt : Nat}
    (ht : Tag hdr f.num wt) (hwt : wt = 0 ∨ wt = 1 ∨ wt = 2 ∨ wt = 5) (n : Nat) :
    (deserializeMessage env (n + 1) m (hdr ++ rest)).1 = .throw .badFunctionCall := by
  have hne : hdr ≠ [] := by
    intro h
    rw [h] at ht
    cases ht.1.1
  have hd := decodeHeader_of (it := It.start (hdr ++ rest)) (rest := rest) ht hwt
    (by simp [It.start, It.rest])
  have hff := findField_of (hv m).1 hf
  have hio : i < (env.sch m).length := (List.getElem?_eq_some_iff.mp hf).1
  have ho : ∃ v, (defaultObj env m)[i]? = some v := by
    simp [defaultObj, hf]
  obtain ⟨v, ho⟩ := ho
  simp only [deserializeMessage, messageLoop]
  rw [if_neg (by
    have := List.length_pos_iff.mpr hne
    simp only [It.start, List.length_append]
    omega)]
  simp [deserializeProperty, hd, hff, hf, ho, hty, deserializeValue, deserializeScalarList]

/-- A schema with a repeated bool field: `message M { repeated bool flags = 1; }`. -/
def boolListEnv : Env := { demoEnv with sch := fun _ => [⟨1, .list .bool⟩], ord := fun _ => [0] }

/-- The hypotheses of C51 are met, and the call throws `std::bad_function_call`. -/
example : ValidOrder boolListEnv ∧ ValidSchema boolListEnv ∧ WellTyped boolListEnv 0 [.scList [.bool true]] ∧
    serializeMessage boolListEnv 1 0 [.scList [.bool true]] = .throw .badFunctionCall ∧
    Tag [10] 1 2 := by
  refine ⟨fun m => List.Perm.refl _, fun m => ⟨by simp [boolListEnv], by simp [boolListEnv]⟩, ?_, rfl, ?_⟩
  · refine .msg rfl ?_
    intro i f v hf hv
    cases i with
    | zero => cases hf; cases hv; exact .scList (by simp [Kind.holds])
    | succ i => simp at hv
  · exact ⟨⟨.last 10 (by decide), by decide⟩, by decide, by decide⟩

end QtPb
