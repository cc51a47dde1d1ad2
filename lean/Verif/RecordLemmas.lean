import Verif.SpecRecords
import Verif.DecodeLemmas
namespace QtPb
open Spec

variable {env : Env} {Sub : Nat → Bytes → Obj → Prop} {m : Nat}

theorem stream_of_recs {rs : List (Nat × Bytes)} {o o' : Obj} (h : Recs env Sub m rs o o') :
    Stream env Sub m (bytesOf rs) o o' := by
  induction h with
  | nil o => exact .nil o
  | cons h _ ih =>
    cases h with
    | known hf ho hr =>
      obtain ⟨hdr, payload, wt, v, rfl, ht, he, rfl⟩ := hr
      exact .known hf ht ho he ih
    | unknown hu =>
      obtain ⟨hn, hdr, payload, wt, rfl, ht, hs⟩ := hu
      exact .unknown hn ht hs ih

theorem recs_of_stream {bs : Bytes} {o o' : Obj} (h : Stream env Sub m bs o o') :
    ∃ rs, bytesOf rs = bs ∧ Recs env Sub m rs o o' := by
  induction h with
  | nil o => exact ⟨[], rfl, .nil o⟩
  | @known hdr payload rest wt i f o o' old new hf ht ho he _ ih =>
    obtain ⟨rs, rfl, hr⟩ := ih
    exact ⟨(f.num, hdr ++ payload) :: rs, by simp [bytesOf],
      .cons (.known hf ho ⟨hdr, payload, wt, new, rfl, ht, he, rfl⟩) hr⟩
  | @unknown hdr payload rest num wt o o' hn ht hs _ ih =>
    obtain ⟨rs, rfl, hr⟩ := ih
    exact ⟨(num, hdr ++ payload) :: rs, by simp [bytesOf],
      .cons (.unknown ⟨hn, hdr, payload, wt, rfl, ht, hs⟩) hr⟩

theorem recs_inserted {rs rs' : List (Nat × Bytes)} (hi : Inserted env m rs rs') :
    ∀ {o o' : Obj}, Recs env Sub m rs o o' → Recs env Sub m rs' o o' := by
  induction hi with
  | nil => intro o o' h; exact h
  | keep r _ ih =>
    intro o o' h
    cases h with
    | cons h1 h2 => exact .cons h1 (ih h2)
  | insert hu _ ih => intro o o' h; exact .cons (.unknown hu) (ih h)

theorem nodup_field {fs : List Field} (hnd : (fs.map (·.num)).Nodup) {i j : Nat} {f g : Field}
    (hf : fs[i]? = some f) (hg : fs[j]? = some g) (h : f.num = g.num) : i = j := by
  have h1 := findField_of hnd hf
  have h2 := findField_of hnd hg
  rw [h, h2] at h1
  exact (Option.some.inj h1).symm

theorem ofField_cons_eq (num : Nat) (bs : Bytes) (rs : List (Nat × Bytes)) :
    ofField num ((num, bs) :: rs) = bs :: ofField num rs := by simp [ofField]

theorem ofField_cons_ne {num num' : Nat} (h : num' ≠ num) (bs : Bytes) (rs : List (Nat × Bytes)) :
    ofField num ((num', bs) :: rs) = ofField num rs := by simp [ofField, h]

/-- Records act field by field. -/
theorem recs_iff (hnd : ((env.sch m).map (·.num)).Nodup) {rs : List (Nat × Bytes)} {o o' : Obj}
    (hlen : o.length = (env.sch m).length) :
    Recs env Sub m rs o o' ↔ o'.length = o.length ∧
      (∀ r ∈ rs, (∀ f ∈ env.sch m, f.num ≠ r.1) → UnknownRecord env m r.1 r.2) ∧
      (∀ (i : Nat) (f : Field) (v v' : Val), (env.sch m)[i]? = some f → o[i]? = some v →
        o'[i]? = some v' → FieldRecs env Sub f (ofField f.num rs) v v') := by
  induction rs generalizing o with
  | nil =>
    constructor
    · intro h
      cases h
      refine ⟨rfl, by simp, fun i f v v' _ h1 h2 => ?_⟩
      rw [h1] at h2; cases h2; exact .nil v
    · rintro ⟨hl, -, h⟩
      have : o' = o := by
        apply List.ext_getElem? 
        intro i
        by_cases hi : i < o.length
        · have h1 : o[i]? = some o[i] := by simp [hi]
          have h2 : o'[i]? = some (o'[i]'(by omega)) := by simp [hl ▸ hi]
          have h3 : (env.sch m)[i]? = some ((env.sch m)[i]'(by omega)) := by simp [hlen ▸ hi]
          have := h i _ _ _ h3 h1 h2
          simp only [ofField, List.filter_nil, List.map_nil] at this
          rw [h1, h2]
          generalize o[i] = a at this
          generalize o'[i]'(by omega) = b at this
          cases this; rfl
        · rw [List.getElem?_eq_none (by omega), List.getElem?_eq_none (by omega)]
      subst this
      exact .nil o'
  | cons r rs ih =>
    obtain ⟨num, bs⟩ := r
    constructor
    · intro h
      cases h with
      | @cons _ _ _ _ o1 _ h1 h2 =>
        cases h1 with
        | @known _ i f _ old new hf ho hr =>
          have hlen1 : (o.set i new).length = (env.sch m).length := by simp [hlen]
          obtain ⟨hl, hu, hfs⟩ := (ih hlen1).mp h2
          refine ⟨by simpa using hl, ?_, ?_⟩
          · intro r hr' hn
            rcases List.mem_cons.mp hr' with rfl | hr'
            · exact absurd rfl (hn f (List.mem_of_getElem? hf))
            · exact hu r hr' hn
          · intro j g v v' hg hv hv'
            by_cases hij : i = j
            · subst hij
              rw [hf] at hg; cases hg
              rw [ho] at hv; cases hv
              rw [ofField_cons_eq]
              refine .cons hr (hfs i f new v' hf ?_ hv')
              have := (List.getElem?_eq_some_iff.mp ho).1
              simp [this]
            · have hne : f.num ≠ g.num := fun hc => hij (nodup_field hnd hf hg hc)
              rw [ofField_cons_ne hne]
              exact hfs j g v v' hg (by simp [hij, hv]) hv'
        | unknown hu1 =>
          obtain ⟨hl, hu, hfs⟩ := (ih hlen).mp h2
          refine ⟨hl, ?_, ?_⟩
          · intro r hr' hn
            rcases List.mem_cons.mp hr' with rfl | hr'
            · exact hu1
            · exact hu r hr' hn
          · intro j g v v' hg hv hv'
            rw [ofField_cons_ne (Ne.symm (hu1.1 g (List.mem_of_getElem? hg)))]
            exact hfs j g v v' hg hv hv'
    · rintro ⟨hl, hu, hfs⟩
      by_cases hk : ∃ f ∈ env.sch m, f.num = num
      · obtain ⟨f, hfm, rfl⟩ := hk
        obtain ⟨i, hi, rfl⟩ := List.getElem_of_mem hfm
        have hf : (env.sch m)[i]? = some (env.sch m)[i] := by simp [hi]
        have ho : o[i]? = some (o[i]'(by omega)) := by simp [hlen, hi]
        have ho' : o'[i]? = some (o'[i]'(by omega)) := by simp [hl, hlen, hi]
        have h0 := hfs i _ _ _ hf ho ho'
        rw [ofField_cons_eq] at h0
        generalize (env.sch m)[i] = f at *
        cases h0 with
        | @cons _ _ _ v1 _ h1 h2 =>
          refine .cons (.known hf ho h1) ?_
          have hlen1 : (o.set i v1).length = (env.sch m).length := by simp [hlen]
          refine (ih hlen1).mpr ⟨by simpa using hl, fun r hr => hu r (List.mem_cons_of_mem _ hr), ?_⟩
          intro j g v v' hg hv hv'
          by_cases hij : i = j
          · subst hij
            rw [hf] at hg; cases hg
            rw [ho'] at hv'; cases hv'
            simp only [List.getElem?_set_self (by omega : i < o.length), Option.some.injEq] at hv
            subst hv; exact h2
          · have hne : f.num ≠ g.num := fun hc => hij (nodup_field hnd hf hg hc)
            rw [← ofField_cons_ne hne bs]
            refine hfs j g v v' hg ?_ hv'
            simpa [List.getElem?_set, hij] using hv
      · have hn : ∀ f ∈ env.sch m, f.num ≠ num := fun f hf hc => hk ⟨f, hf, hc⟩
        refine .cons (.unknown (hu _ List.mem_cons_self hn)) ?_
        refine (ih hlen).mpr ⟨hl, fun r hr => hu r (List.mem_cons_of_mem _ hr), ?_⟩
        intro j g v v' hg hv hv'
        rw [← ofField_cons_ne (Ne.symm (hn g (List.mem_of_getElem? hg))) bs]
        exact hfs j g v v' hg hv hv'

theorem ofField_mem {num : Nat} {rs : List (Nat × Bytes)} {bs : Bytes} :
    bs ∈ ofField num rs ↔ (num, bs) ∈ rs := by
  simp only [ofField, List.mem_map, List.mem_filter, beq_iff_eq]
  constructor
  · rintro ⟨⟨a, b⟩, ⟨h1, h2⟩, h3⟩; simp only at h2 h3; subst h2 h3; exact h1
  · intro h; exact ⟨(num, bs), ⟨h, rfl⟩, rfl⟩

/-- Reordering records of different fields does not change the effect. -/
theorem recs_reorder (hnd : ((env.sch m).map (·.num)).Nodup) {rs rs' : List (Nat × Bytes)} {o o' : Obj}
    (hlen : o.length = (env.sch m).length) (hsame : ∀ num, ofField num rs' = ofField num rs)
    (h : Recs env Sub m rs o o') : Recs env Sub m rs' o o' := by
  rw [recs_iff hnd hlen] at h ⊢
  obtain ⟨h1, h2, h3⟩ := h
  refine ⟨h1, fun r hr hn => h2 r ?_ hn, fun i f v v' hf hv hv' => ?_⟩
  · rw [← ofField_mem, ← hsame, ofField_mem]; exact hr
  · rw [hsame]; exact h3 i f v v' hf hv hv'

end QtPb
