import Verif.ArriveLemmas
/-
When `serialize` returns: for schemas whose singular message fields do not form a cycle.
-/
namespace QtPb
open Spec

variable {env : Env}

/-- From some budget on the result is `a`. -/
def Yields {α : Type} (P : Nat → Res α) (a : α) : Prop := ∃ N, ∀ n, N ≤ n → P n = .ok a

theorem Yields.pure {α : Type} (a : α) : Yields (fun _ => Res.ok a) a := ⟨0, fun _ _ => rfl⟩

theorem Yields.bind {α β : Type} {P : Nat → Res α} {a : α} {Q : Nat → α → Res β} {b : β}
    (h : Yields P a) (hQ : Yields (fun n => Q n a) b) : Yields (fun n => (P n >>= Q n)) b := by
  obtain ⟨N, hN⟩ := h
  obtain ⟨M, hM⟩ := hQ
  refine ⟨max N M, fun n hn => ?_⟩
  have h1 := hN n (by omega)
  have h2 := hM n (by omega)
  simp only [Res.bind_eq, h1, Res.bind]
  exact h2

theorem Yields.shift {α : Type} {P Q : Nat → Res α} {a : α} (h : Yields P a)
    (hs : ∀ n, Q (n + 1) = P n) : Yields Q a := by
  obtain ⟨N, hN⟩ := h
  refine ⟨N + 1, fun n hn => ?_⟩
  cases n with
  | zero => omega
  | succ n => rw [hs]; exact hN n (by omega)

theorem yields_concat {ps : List (Nat → Res Bytes)} (h : ∀ p ∈ ps, ∃ b, Yields p b) :
    ∃ b, Yields (fun n => concatRes (ps.map fun p => p n)) b := by
  induction ps with
  | nil => exact ⟨[], Yields.pure _⟩
  | cons p ps ih =>
    obtain ⟨b, hb⟩ := h p (by simp)
    obtain ⟨c, hc⟩ := ih fun q hq => h q (List.mem_cons_of_mem _ hq)
    refine ⟨b ++ c, ?_⟩
    obtain ⟨N, hN⟩ := hb
    obtain ⟨M, hM⟩ := hc
    refine ⟨max N M, fun n hn => ?_⟩
    have h1 := hN n (by omega)
    have h2 := hM n (by omega)
    simp only [List.map_cons, concatRes, Res.bind_eq, h1, h2, Res.bind]

/-- The object can be serialized. -/
def CanSer (env : Env) (m : Nat) (o : Obj) : Prop := ∃ b, Yields (fun n => serializeMessage env n m o) b

theorem canSer_obj {m : Nat} {o : Obj}
    (h : ∀ (i : Nat) (f : Field) (v : Val), (env.sch m)[i]? = some f → o[i]? = some v →
      ∃ b, Yields (fun n => serializeProperty env (serializeMessage env n) f.num f.ty v) b) :
    CanSer env m o := by
  have hc := yields_concat (ps := (env.ord m).map fun i n => match (env.sch m)[i]?, o[i]? with
      | some f, some v => serializeProperty env (serializeMessage env n) f.num f.ty v
      | _, _ => .ok []) (by
    intro p hp
    obtain ⟨i, _, rfl⟩ := List.mem_map.mp hp
    cases hf : (env.sch m)[i]? with
    | none => exact ⟨[], Yields.pure _⟩
    | some f =>
      cases hv : o[i]? with
      | none => exact ⟨[], Yields.pure _⟩
      | some v => exact h i f v hf hv)
  obtain ⟨b, hb⟩ := hc
  refine ⟨b, hb.shift fun n => ?_⟩
  simp only [serializeMessage, List.map_map]
  rfl

theorem canSer_frame {num m : Nat} {o : Obj} (h : CanSer env m o) :
    ∃ b, Yields (fun n => (serializeMessage env n m o >>= fun body => .ok (frameObject num body))) b := by
  obtain ⟨b, hb⟩ := h
  exact ⟨frameObject num b, hb.bind (Yields.pure _)⟩

theorem canSer_msgList {num m : Nat} {l : List Val} (h : ∀ o, .msg o ∈ l → CanSer env m o) :
    ∃ b, Yields (fun n => serializeMsgList (serializeMessage env n) num m l) b := by
  induction l with
  | nil => exact ⟨[], Yields.pure _⟩
  | cons v l ih =>
    obtain ⟨c, hc⟩ := ih fun o ho => h o (List.mem_cons_of_mem _ ho)
    cases v with
    | msg o =>
      obtain ⟨b, hb⟩ := h o (by simp)
      exact ⟨frameObject num b ++ c, hb.bind (hc.bind (Yields.pure _))⟩
    | _ => exact ⟨c, hc⟩

theorem canSer_mapValue {vt : MapVal} {v : Val} (h : ∀ m o, vt = .msg m → v = .msg o → CanSer env m o) :
    ∃ b, Yields (fun n => serializeMapValue env (serializeMessage env n) vt v) b := by
  cases vt with
  | scalar k => cases v <;> exact ⟨_, Yields.pure _⟩
  | enum => cases v <;> exact ⟨_, Yields.pure _⟩
  | msg m =>
    cases v with
    | msg o => exact canSer_frame (h m o rfl rfl)
    | _ => exact ⟨_, Yields.pure _⟩

theorem canSer_map {num : Nat} {kk : Kind} {vt : MapVal} {es : List (Scalar × Val)}
    (h : ∀ m o key, vt = .msg m → (key, .msg o) ∈ es → CanSer env m o) :
    ∃ b, Yields (fun n => serializeMap env (serializeMessage env n) num kk vt es) b := by
  induction es with
  | nil => exact ⟨[], Yields.pure _⟩
  | cons e es ih =>
    obtain ⟨key, v⟩ := e
    obtain ⟨c, hc⟩ := ih fun m o key hm ho => h m o key hm (List.mem_cons_of_mem _ ho)
    obtain ⟨b, hb⟩ := canSer_mapValue (env := env) (vt := vt) (v := v) fun m o hm ho =>
      h m o key hm (by simp [ho])
    cases v with
    | msgNull => exact ⟨c, hc⟩
    | _ => exact ⟨_, hb.bind (hc.bind (Yields.pure _))⟩

/-- `Acyclic` and `NoRepeatedBool` together: singular message fields lead to types of smaller rank, and there is no repeated bool field. -/
def Ranked (env : Env) (rank : Nat → Nat) : Prop :=
  ∀ m, ∀ f ∈ env.sch m, (∀ m', f.ty = .msg m' → rank m' < rank m) ∧ f.ty ≠ .list .bool

theorem canSer_default {rank : Nat → Nat} (hr : Ranked env rank) : ∀ (r m : Nat), rank m < r →
    CanSer env m (defaultObj env m) := by
  intro r
  induction r with
  | zero => intro m hm; omega
  | succ r ih =>
    intro m hm
    refine canSer_obj fun i f v hf hv => ?_
    have hfr := hr m f (List.mem_of_getElem? hf)
    rw [defaultObj_field hf hv]
    cases hty : f.ty with
    | msg m' => exact canSer_frame (ih m' (by have := hfr.1 m' hty; omega))
    | list k =>
      have : k.hasListHandler = true := by
        cases k <;> first | rfl | exact absurd hty hfr.2
      refine ⟨withHeader f.num wtLengthDelimited (serializeListType env k [] f.num), ?_⟩
      simp only [serializeProperty, defaultVal, this, if_true]; exact Yields.pure _
    | _ => exact ⟨_, Yields.pure _⟩

/-- With ranked singular messages every object can be serialized. -/
theorem canSer_ranked {rank : Nat → Nat} (hr : Ranked env rank) {m : Nat} {o : Obj}
    (h : WellTyped env m o) : CanSer env m o := by
  have key : ∀ {ty : FieldTy} {v : Val}, HasTy env ty v →
      (ty ≠ .list .bool → ∀ num, ∃ b, Yields (fun n =>
        serializeProperty env (serializeMessage env n) num ty v) b) ∧
      (∀ m o, ty = .msg m → v = .msg o → CanSer env m o) := by
    intro ty v h
    induction h with
    | sc => exact ⟨fun _ num => ⟨_, Yields.pure _⟩, fun m o h => by cases h⟩
    | @scList k l =>
      refine ⟨fun hb num => ?_, fun m o h => by cases h⟩
      have : k.hasListHandler = true := by
        cases k <;> first | rfl | exact absurd rfl hb
      refine ⟨withHeader num wtLengthDelimited (serializeListType env k l num), ?_⟩
      simp only [serializeProperty, this, if_true]; exact Yields.pure _
    | enum => exact ⟨fun _ num => ⟨_, Yields.pure _⟩, fun m o h => by cases h⟩
    | enumList => exact ⟨fun _ num => ⟨_, Yields.pure _⟩, fun m o h => by cases h⟩
    | null m =>
      exact ⟨fun _ num => canSer_frame (canSer_default hr _ m (Nat.lt_succ_self _)),
        fun m o _ h => by cases h⟩
    | @msg m o hl _ ih =>
      have hc : CanSer env m o := canSer_obj fun i f v hf hv =>
        (ih i f v hf hv).1 (hr m f (List.mem_of_getElem? hf)).2 f.num
      exact ⟨fun _ num => canSer_frame hc, fun m' o' h1 h2 => by cases h1; cases h2; exact hc⟩
    | msgList _ ih =>
      exact ⟨fun _ num => canSer_msgList fun o ho => (ih _ ho).2 _ o rfl rfl,
        fun m o h => by cases h⟩
    | map hk _ hs ih =>
      exact ⟨fun _ num => canSer_map fun m o key hm ho => (ih _ ho).2 m o (by rw [hm]; rfl) rfl,
        fun m o h => by cases h⟩
  exact (key h).2 m o rfl rfl

/-! ### Cycles of singular messages -/

theorem concatRes_mem {l : List (Res Bytes)} {b : Bytes} (h : concatRes l = .ok b) :
    ∀ r ∈ l, ∃ c, r = .ok c := by
  induction l generalizing b with
  | nil => simp
  | cons x l ih =>
    simp only [concatRes, Res.bind_eq, Res.bind_eq_ok] at h
    obtain ⟨a, ha, c, hc, _⟩ := h
    intro r hr
    rcases List.mem_cons.mp hr with rfl | hr
    · exact ⟨a, ha⟩
    · exact ih hc r hr

/-- When each type of a set has a singular field of a type of the set, serialization of an object of
such a type never returns. -/
theorem serialize_cycle (ho : ValidOrder env) {S : Nat → Prop}
    (hS : ∀ m, S m → ∃ f ∈ env.sch m, ∃ m', f.ty = .msg m' ∧ S m') (n : Nat) :
    ∀ {m : Nat} {o : Obj}, S m → WellTyped env m o → ∀ b, serializeMessage env n m o ≠ .ok b := by
  induction n with
  | zero => intro m o _ _ b; simp [serializeMessage]
  | succ n ih =>
    intro m o hm hw b hb
    obtain ⟨f, hf, m', hty, hm'⟩ := hS m hm
    obtain ⟨i, hi⟩ := List.mem_iff_getElem?.mp hf
    cases hw with
    | msg hl hh =>
      have hio : i < (env.sch m).length := (List.getElem?_eq_some_iff.mp hi).1
      obtain ⟨v, hv⟩ : ∃ v, o[i]? = some v := ⟨o[i]'(by omega), by simp [hl, hio]⟩
      have hmem : i ∈ env.ord m := (ho m).mem_iff.mpr (List.mem_range.mpr hio)
      simp only [serializeMessage] at hb
      obtain ⟨c, hc⟩ := concatRes_mem hb _ (List.mem_map.mpr ⟨i, hmem, rfl⟩)
      have hv' : HasTy env (.msg m') v := by rw [← hty]; exact hh i f v hi hv
      simp only [hi, hv, hty] at hc
      have hmat : WellTyped env m' (materialize env m' v) := by
        cases hv' with
        | null => exact default_hasTy env m'
        | msg h1 h2 => exact .msg h1 h2
      have : serializeProperty env (serializeMessage env n) f.num (.msg m') v
          = serializeMsgField env (serializeMessage env n) f.num m' v := by cases v <;> rfl
      rw [this] at hc
      simp only [serializeMsgField, Res.bind_eq, Res.bind_eq_ok] at hc
      obtain ⟨body, hbody, _⟩ := hc
      exact ih hm' hmat body hbody

/-! ### More budget does not change the result -/

/-- `q` is what `p` becomes with more budget. -/
def Extends {α : Type} (p q : Res α) : Prop := p = .fuel ∨ q = p

theorem Extends.refl {α : Type} (p : Res α) : Extends p p := Or.inr rfl

theorem Extends.bind {α β : Type} {p q : Res α} {f g : α → Res β} (h : Extends p q)
    (hf : ∀ a, Extends (f a) (g a)) : Extends (p >>= f) (q >>= g) := by
  rcases h with rfl | rfl
  · exact Or.inl rfl
  · cases q with
    | ok a => exact hf a
    | _ => exact Or.inr rfl

theorem extends_msgList {r r' : Nat → Obj → Res Bytes} (h : ∀ m o, Extends (r m o) (r' m o))
    (num m : Nat) (l : List Val) : Extends (serializeMsgList r num m l) (serializeMsgList r' num m l) := by
  induction l with
  | nil => exact .refl _
  | cons v l ih =>
    cases v with
    | msg o => exact (h m o).bind fun b => ih.bind fun c => .refl _
    | _ => exact ih

theorem extends_map {r r' : Nat → Obj → Res Bytes} (h : ∀ m o, Extends (r m o) (r' m o))
    (num : Nat) (kk : Kind) (vt : MapVal) (es : List (Scalar × Val)) :
    Extends (serializeMap env r num kk vt es) (serializeMap env r' num kk vt es) := by
  induction es with
  | nil => exact .refl _
  | cons e es ih =>
    obtain ⟨key, v⟩ := e
    have hv : Extends (serializeMapValue env r vt v) (serializeMapValue env r' vt v) := by
      cases vt with
      | msg m => cases v <;> first | exact .refl _ | exact (h m _).bind fun b => .refl _
      | _ => cases v <;> exact .refl _
    cases v with
    | msgNull => exact ih
    | _ => exact hv.bind fun b => ih.bind fun c => .refl _

theorem extends_property {r r' : Nat → Obj → Res Bytes} (h : ∀ m o, Extends (r m o) (r' m o))
    (num : Nat) (ty : FieldTy) (v : Val) :
    Extends (serializeProperty env r num ty v) (serializeProperty env r' num ty v) := by
  cases ty with
  | msg m =>
    have e1 : ∀ r, serializeProperty env r num (.msg m) v = serializeMsgField env r num m v := by
      intro r; cases v <;> rfl
    rw [e1, e1]
    exact (h m _).bind fun b => .refl _
  | msgList m => cases v <;> first | exact .refl _ | exact extends_msgList h num m _
  | map kk vt => cases v <;> first | exact .refl _ | exact extends_map h num kk vt _
  | _ => cases v <;> exact .refl _

theorem extends_concat {α : Type} {f g : α → Res Bytes} (h : ∀ a, Extends (f a) (g a)) (l : List α) :
    Extends (concatRes (l.map f)) (concatRes (l.map g)) := by
  induction l with
  | nil => exact .refl _
  | cons a l ih => exact (h a).bind fun b => ih.bind fun c => .refl _

theorem extends_serialize (n k m : Nat) (o : Obj) :
    Extends (serializeMessage env n m o) (serializeMessage env (n + k) m o) := by
  induction n generalizing m o with
  | zero => exact Or.inl rfl
  | succ n ih =>
    rw [show n + 1 + k = (n + k) + 1 by omega]
    refine extends_concat (fun i => ?_) _
    cases (env.sch m)[i]? with
    | none => exact .refl _
    | some f =>
      cases o[i]? with
      | none => exact .refl _
      | some v => exact extends_property ih f.num f.ty v

/-- The result does not depend on the budget. -/
theorem serialize_mono {n k m : Nat} {o : Obj} {b : Bytes} (hnk : n ≤ k)
    (h : serializeMessage env n m o = .ok b) : serializeMessage env k m o = .ok b := by
  obtain ⟨d, rfl⟩ := Nat.exists_eq_add_of_le hnk
  rcases extends_serialize (env := env) n d m o with h' | h'
  · rw [h] at h'; cases h'
  · rw [h', h]

end QtPb
