import Verif.QmlList
/-
C48: the QML list property of a repeated message field.
-/
namespace QtPb.QmlList

/-- The list as a QML author sees it: `append` adds at the end, `at` gives the element with that index, `reset`
empties the list. Returns the list and what the operation answers. -/
def Spec.next (l : List Nat) : Op → List Nat × Answer
  | .append v => (l ++ [v], .nothing)
  | .count => (l, .number l.length)
  | .at i => (l, .object (l.getD i.toNat 0))
  | .reset => ([], .nothing)

def Spec.run : List Nat → List Op → List Nat × List Answer
  | l, [] => (l, [])
  | l, op :: ops =>
    let r := Spec.next l op
    let q := Spec.run r.1 ops
    (q.1, r.2 :: q.2)

/-- Every index that is asked for lies in the list as it is then. -/
def Spec.inRange : List Nat → List Op → Prop
  | _, [] => True
  | l, op :: ops => (match op with | .at i => 0 ≤ i ∧ i < l.length | _ => True) ∧ Spec.inRange (Spec.next l op).1 ops

/-- The objects that are appended. -/
def Spec.appended (ops : List Op) : List Nat := ops.filterMap fun | .append v => some v | _ => none

theorem destroy_ok (vs dead : List Nat) (h1 : vs.Nodup) (h2 : ∀ v ∈ vs, v ∉ dead) :
    destroy vs dead = .ok (vs.reverse ++ dead) := by
  induction vs generalizing dead with
  | nil => rfl
  | cons v vs ih =>
    rw [List.nodup_cons] at h1
    unfold destroy
    rw [if_neg (h2 v (by simp)), ih _ h1.2]
    · simp
    · intro w hw hm
      rcases List.mem_cons.mp hm with rfl | hm
      · exact h1.1 hw
      · exact h2 w (by simp [hw]) hm

theorem run_spec (ops : List Op) (s : State) (h1 : (s.elements ++ Spec.appended ops).Nodup)
    (h2 : ∀ v ∈ s.elements ++ Spec.appended ops, v ∉ s.dead) (hr : Spec.inRange s.elements ops) :
    ∃ s', run s ops = .ok (s', (Spec.run s.elements ops).2) ∧ s'.elements = (Spec.run s.elements ops).1 := by
  induction ops generalizing s with
  | nil => exact ⟨s, rfl, rfl⟩
  | cons op ops ih =>
    cases op with
    | append v =>
      have hv : v ∉ s.dead := h2 v (by simp [Spec.appended])
      obtain ⟨s', e1, e2⟩ := ih { s with elements := s.elements ++ [v] } (by simpa [Spec.appended] using h1)
        (by simpa [Spec.appended] using h2) hr.2
      refine ⟨s', ?_, e2⟩
      simp only [run, step, if_neg hv, Res.bind, e1]
      rfl
    | count =>
      obtain ⟨s', e1, e2⟩ := ih s h1 h2 hr.2
      exact ⟨s', by simp only [run, step, Res.bind, e1]; rfl, e2⟩
    | «at» i =>
      obtain ⟨s', e1, e2⟩ := ih s h1 h2 hr.2
      obtain ⟨⟨hi, hl⟩, _⟩ := hr
      have hlt : i.toNat < s.elements.length := by omega
      refine ⟨s', ?_, e2⟩
      have hd : s.elements.getD i.toNat 0 = s.elements[i.toNat] := by simp [hlt]
      simp only [run, step, if_neg (show ¬ i < 0 by omega), List.getElem?_eq_getElem hlt, Res.bind, e1, Spec.run, Spec.next, hd]
    | reset =>
      have hn : s.elements.Nodup := (List.nodup_append.mp h1).1
      have hdis := (List.nodup_append.mp h1).2.2
      have hd := destroy_ok s.elements s.dead hn (fun v hv => h2 v (by simp [hv]))
      obtain ⟨s', e1, e2⟩ := ih ⟨[], s.elements.reverse ++ s.dead⟩ (by simpa [Spec.appended] using (List.nodup_append.mp h1).2.1)
        (by
          intro v hv hm
          have hv' : v ∈ Spec.appended (Op.reset :: ops) := by simpa [Spec.appended] using hv
          rcases List.mem_append.mp hm with hm | hm
          · exact hdis v (List.mem_reverse.mp hm) v hv' rfl
          · exact h2 v (List.mem_append_right _ hv') hm) hr.2
      refine ⟨s', ?_, e2⟩
      simp only [run, step, hd, Res.bind, e1]
      rfl

/-- Every sequence of operations in which no object is appended twice and every index is valid gets the answers
of the list, and leaves the field with its contents. -/
theorem C48_list_partial (ops : List Op) (hn : (Spec.appended ops).Nodup) (hr : Spec.inRange [] ops) :
    ∃ s, run ⟨[], []⟩ ops = .ok (s, (Spec.run [] ops).2) ∧ s.elements = (Spec.run [] ops).1 :=
  run_spec ops ⟨[], []⟩ (by simpa using hn) (by simp) hr

example : Spec.run [] [.append 3, .append 5, .count, .at 1, .at 0, .reset, .append 4, .count] =
    ([4], [.nothing, .nothing, .number 2, .object 5, .object 3, .nothing, .nothing, .number 1]) := by decide

/-- What is missing: an object that is in the list twice is deleted twice when the list is cleared. -/
theorem C48_twice_violated (v : Nat) : run ⟨[], []⟩ [.append v, .append v, .reset] = .ub := by
  simp [run, step, destroy]

/-- An index outside of the list is not answered with null but undefined, in every state. -/
theorem C48_index_violated (s : State) (i : Int) (h : i < 0 ∨ s.elements.length ≤ i) : step s (.at i) = .ub := by
  unfold step
  by_cases hi : i < 0
  · simp [hi]
  · have : s.elements[i.toNat]? = none := by rw [List.getElem?_eq_none_iff]; omega
    simp [hi, this]

end QtPb.QmlList
