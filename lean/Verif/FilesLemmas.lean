import Verif.SpecFiles
import Verif.GenLemmas
namespace QtPb.Gen
open Spec

theorem concat_dirOf : ∀ p : List Str, concat ['/'] p = dirOf p
  | [] => rfl
  | a :: p => by simp [concat, dirOf, concat_dirOf p]

theorem messageHeader_folder (p : List Str) (n : Str) : messageHeader true p n = headerOf p n := by
  simp [messageHeader, generateBaseName, headerOf, concat_dirOf, toLower, kH]

theorem lower_slash {c : Char} (h : c.toLower = '/') : c = '/' := by
  have hv : (c.toLower).val = ('/' : Char).val := by rw [h]
  by_cases hu : c.isUpper
  · exfalso
    simp only [Char.isUpper, Bool.and_eq_true, decide_eq_true_eq] at hu
    have h1 : c.toLower.toNat = '/'.toNat := by rw [h]
    obtain ⟨ha, hb⟩ := hu
    have ha' : 65 ≤ c.toNat := ha
    have hb' : c.toNat ≤ 90 := hb
    have hval : ∀ k : Fin 26, (Char.ofNat (65 + k.val)).toLower ≠ '/' := by decide +kernel
    have hc : c = Char.ofNat (65 + (c.toNat - 65)) := by
      have : 65 + (c.toNat - 65) = c.toNat := by omega
      rw [this, Char.ofNat_toNat]
    exact hval ⟨c.toNat - 65, by omega⟩ (by rw [← hc]; exact h)
  · have : c.toLower = c := by
      simp only [Char.isUpper, Bool.and_eq_true, decide_eq_true_eq] at hu
      unfold Char.toLower
      split
      · rename_i h'; exact absurd h' (by simpa [Char.isUpper] using hu)
      · rfl
    rw [this] at h; exact h

theorem noSlash_lower {s : Str} (h : NoSlash s) : NoSlash (s.map Char.toLower) := by
  intro hm
  obtain ⟨c, hc, e⟩ := List.mem_map.mp hm
  exact h (lower_slash e ▸ hc)

theorem toLower_idem (c : Char) : c.toLower.toLower = c.toLower := by
  by_cases hu : 65 ≤ c.toNat ∧ c.toNat ≤ 90
  · have hval : ∀ k : Fin 26, (Char.ofNat (65 + k.val)).toLower.toLower = (Char.ofNat (65 + k.val)).toLower := by decide +kernel
    have hc : c = Char.ofNat (65 + (c.toNat - 65)) := by
      have : 65 + (c.toNat - 65) = c.toNat := by omega
      rw [this, Char.ofNat_toNat]
    have := hval ⟨c.toNat - 65, by omega⟩
    rw [← hc] at this; exact this
  · have : c.toLower = c := by
      unfold Char.toLower
      split
      · rename_i h'
        exact absurd ⟨h'.1, h'.2⟩ hu
      · rfl
    rw [this, this]

theorem lower_idem (s : Str) : (s.map Char.toLower).map Char.toLower = s.map Char.toLower := by
  simp [toLower_idem]

/-- A path is split into directory and name in one way. -/
theorem dirOf_inj : ∀ (p p' : List Str) (n n' : Str), (∀ a ∈ p, NoSlash a) → (∀ a ∈ p', NoSlash a) → NoSlash n → NoSlash n' →
    dirOf p ++ n = dirOf p' ++ n' → p = p' ∧ n = n'
  | [], [], _, _, _, _, _, _, h => ⟨rfl, h⟩
  | [], b :: p', n, n', _, _, hn, _, h => by
    exfalso; apply hn
    have : n = b ++ '/' :: (dirOf p' ++ n') := by simpa [dirOf] using h
    rw [this]; simp
  | a :: p, [], n, n', _, _, _, hn', h => by
    exfalso; apply hn'
    have : n' = a ++ '/' :: (dirOf p ++ n) := by simpa [dirOf] using h.symm
    rw [this]; simp
  | a :: p, b :: p', n, n', ha, hb, hn, hn', h => by
    have h1 : a ++ '/' :: (dirOf p ++ n) = b ++ '/' :: (dirOf p' ++ n') := by simpa [dirOf] using h
    have key : ∀ (a b x y : Str), '/' ∉ a → '/' ∉ b → a ++ '/' :: x = b ++ '/' :: y → a = b ∧ x = y := by
      intro a
      induction a with
      | nil =>
        intro b x y _ hb h
        cases b with
        | nil => simpa using h
        | cons c b => simp at h; exact absurd (by simp [← h.1]) hb
      | cons c a ih =>
        intro b x y ha hb h
        cases b with
        | nil => simp at h; exact absurd (by simp [h.1]) ha
        | cons d b =>
          simp only [List.cons_append, List.cons.injEq] at h
          obtain ⟨e1, e2⟩ := ih b x y (fun hm => ha (by simp [hm])) (fun hm => hb (by simp [hm])) h.2
          exact ⟨by rw [h.1, e1], e2⟩
    obtain ⟨e1, e2⟩ := key _ _ _ _ (ha a (by simp)) (hb b (by simp)) h1
    obtain ⟨e3, e4⟩ := dirOf_inj p p' n n' (fun c hc => ha c (by simp [hc])) (fun c hc => hb c (by simp [hc])) hn hn' e2
    exact ⟨by rw [e1, e3], e4⟩

/-! ### The set of existing includes -/

/-- The text `t` is in the set only if it has been printed as an include directive with quotes. -/
def Faithful (t : Str) (st : List Str × List Inc) : Prop := t ∈ st.1 → .internal t ∈ st.2

theorem emit_mono {st : List Str × List Inc} {n : Str} {inc : Option Inc} {i : Inc} (h : i ∈ st.2) : i ∈ (emit st n inc).2 := by
  unfold emit; split <;> simp [h]

theorem emit_faithful {t : Str} {st : List Str × List Inc} {n : Str} {inc : Option Inc} (h : Faithful t st)
    (hn : n = t → inc = some (.internal t)) : Faithful t (emit st n inc) := by
  unfold emit
  split
  · exact h
  · intro ht
    simp only [List.mem_cons] at ht
    rcases ht with e | ht
    · simp [hn e.symm]
    · simp [h ht]

theorem emit_internal {t : Str} {st : List Str × List Inc} (h : Faithful t st) : .internal t ∈ (emit st t (some (.internal t))).2 := by
  unfold emit
  split
  · rename_i hc; exact h (by simpa using hc)
  · simp

variable {pkgOf : Path → List Str}

theorem includeFlat_mono {package : List Str} {message : Path} {st : List Str × List Inc} {f : FieldD} {i : Inc} (h : i ∈ st.2) :
    i ∈ (includeFlat pkgOf package message st f).2 := by
  unfold includeFlat; split
  · exact h
  · exact emit_mono h

theorem fold_mono {α : Type} {step : List Str × List Inc → α → List Str × List Inc} {i : Inc}
    (hs : ∀ (st : List Str × List Inc) (a : α), i ∈ st.2 → i ∈ (step st a).2) : ∀ (l : List α) (st : List Str × List Inc), i ∈ st.2 → i ∈ (l.foldl step st).2
  | [], _, h => h
  | a :: l, st, h => fold_mono hs l (step st a) (hs st a h)

theorem fold_faithful {α : Type} {step : List Str × List Inc → α → List Str × List Inc} {t : Str} :
    ∀ (l : List α) (_ : ∀ (st : List Str × List Inc) (a : α), a ∈ l → Faithful t st → Faithful t (step st a))
      (st : List Str × List Inc), Faithful t st → Faithful t (l.foldl step st)
  | [], _, _, h => h
  | a :: l, hs, st, h => fold_faithful l (fun st b hb => hs st b (by simp [hb])) (step st a) (hs st a (by simp) h)

theorem printInclude_mono {package : List Str} {message : Path} {nested : List Msg} {st : List Str × List Inc} {f : FieldD} {i : Inc}
    (h : i ∈ st.2) : i ∈ (printInclude pkgOf package message nested st f).2 := by
  unfold printInclude
  split
  · exact emit_mono (fold_mono (fun st a => includeFlat_mono) _ _ h)
  · exact includeFlat_mono h

theorem includeDep_mono {package : List Str} {st : List Str × List Inc} {q : Path} {i : Inc} (h : i ∈ st.2) :
    i ∈ (includeDep pkgOf package st q).2 := emit_mono h

theorem includeDep_faithful {package : List Str} {st : List Str × List Inc} {q : Path} {t : Str} (h : Faithful t st) :
    Faithful t (includeDep pkgOf package st q) := emit_faithful h (by rintro rfl; rfl)

end QtPb.Gen
