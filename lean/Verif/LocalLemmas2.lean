import Verif.LocalLemmas
/-
`LocalLemmas` continued: lists, map entries, sub-messages, records and messages.
-/
namespace QtPb
open Spec

variable {env : Env}

theorem Spec.NoNegativeLength.suffix {c r : Bytes} (h : NoNegativeLength env (c ++ r)) :
    NoNegativeLength env r := by
  intro pre tag l rest t n he
  exact h (c ++ pre) tag l rest t n (by rw [he]; simp)

theorem Spec.NoNegativeLength.prefix {c r : Bytes} (h : NoNegativeLength env (c ++ r)) :
    NoNegativeLength env c := by
  intro pre tag l rest t n he
  exact h pre tag l (rest ++ r) t n (by rw [he]; simp)

theorem Spec.NoNegativeLength.lenOk {tag r : Bytes} {t : Nat} (h : NoNegativeLength env (tag ++ r))
    (hv : Varint tag t) (hs : startsWithLength env (t % 2 ^ 32 / 8) (t % 8)) : LenOk r := by
  intro l n rest he hl
  exact h [] tag l rest t n (by rw [he]; rfl) hv hs hl

/-! ### Packed lists -/

/-- One turn of `packedLoop`. -/
def packStep (env : Env) (k : Kind) (acc : List Scalar) (it : It) : Res (List Scalar × It) :=
  deserializeBasic env k it >>= fun x => .ok (acc ++ [x.1], x.2)

theorem packStep_loop (k : Kind) (last n : Nat) (acc : List Scalar) (it : It) :
    stepLoop (packStep env k) last n acc it =
      (packedLoop env k last n it >>= fun x => .ok (acc ++ x.1, x.2)) := by
  induction n generalizing acc it with
  | zero => rfl
  | succ n ih =>
    simp only [stepLoop, packedLoop, packStep]
    split
    · simp [Res.bind_eq, Res.bind]
    · simp only [Res.bind_eq]
      cases h1 : deserializeBasic env k it with
      | ok x =>
        simp only [Res.bind]
        rw [ih]
        simp only [Res.bind_eq]
        cases h2 : packedLoop env k last n x.2 <;> simp [Res.bind]
      | _ => rfl

theorem deserializePacked_eq (k : Kind) (n : Nat) (it : It) :
    deserializePacked env k n it = lengthLoop (packStep env k) n [] it := by
  simp only [deserializePacked, lengthLoop, Res.bind_eq]
  cases h1 : deserializeVarint 32 it with
  | ok x =>
    simp only [Res.bind]
    cases h2 : x.2.plus (toInt32 x.1) with
    | ok last =>
      simp only
      rw [packStep_loop]
      simp only [Res.bind_eq]
      cases h3 : packedLoop env k last.pos n x.2 <;> simp [Res.bind]
    | _ => rfl
  | _ => rfl

theorem packStep_local {k : Kind} (hk : ¬ hasLength (.scalar k)) (acc : List Scalar) :
    LocalOp (fun _ => True) (fun c _ => 0 < c.length) (packStep env k acc) :=
  ((deserializeBasic_local k).map (fun v => acc ++ [v]) (fun _ _ h => h)).weaken
    (fun _ _ h => absurd h hk) (fun _ _ h => h)

theorem packStep_ends (k : Kind) (acc : List Scalar) (it : It) : packStep env k acc it ≠ .fuel :=
  bind_ne_fuel (deserializeBasic_ends k it) (fun _ _ => by simp)

theorem deserializePacked_local {k : Kind} (hk : ¬ hasLength (.scalar k)) (n : Nat) :
    LocalOp LenOk (fun c _ => 0 < c.length) (deserializePacked env k n) :=
  ((lengthLoop_local (P := fun _ => True) (packStep_local hk) (fun _ _ _ => trivial) n []).weaken
    (fun _ h => ⟨trivial, h⟩) (fun _ _ h => h)).congr fun it => (deserializePacked_eq k n it).symm

theorem deserializePacked_ends {k : Kind} (hk : ¬ hasLength (.scalar k)) {n : Nat} {it : It} {r : Bytes}
    (hat : At it r) (hn : r.length ≤ n) : deserializePacked env k n it ≠ .fuel := by
  rw [deserializePacked_eq]
  exact lengthLoop_ends (P := fun _ => True) (packStep_local hk) (fun _ _ _ => trivial)
    (B := r.length + 1) (fun s it r _ _ _ => packStep_ends k s it) hat trivial (by omega) hn

theorem deserializePacked_mono {k : Kind} {n n' : Nat} {it : It} (hn : n ≤ n')
    (h : deserializePacked env k n it ≠ .fuel) :
    deserializePacked env k n' it = deserializePacked env k n it := by
  rw [deserializePacked_eq] at h ⊢
  rw [deserializePacked_eq]
  exact lengthLoop_mono hn h

theorem deserializeScalarList_local (k : Kind) (n : Nat) (prev : List Scalar) :
    LocalOp LenOk (fun c _ => 0 < c.length) (deserializeScalarList env k n prev) := by
  have app : LocalOp LenOk (fun c (_ : List Scalar) => 0 < c.length)
      (fun it => deserializeBasic env k it >>= fun x => .ok (prev ++ [x.1], x.2)) :=
    ((deserializeBasic_local k).map (fun v => prev ++ [v]) (fun _ _ h => h)).weaken
      (fun _ h _ => h) (fun _ _ h => h)
  cases k
  case string => exact app.congr fun it => rfl
  case bytes => exact app.congr fun it => rfl
  case bool =>
    exact ⟨fun _ _ h => by simp [deserializeScalarList] at h, fun _ _ _ h => h⟩
  all_goals exact (deserializePacked_local (by simp [hasLength]) n).congr fun it => rfl

theorem deserializeScalarList_ends (k : Kind) {n : Nat} (prev : List Scalar) {it : It} {r : Bytes}
    (hat : At it r) (hn : r.length ≤ n) : deserializeScalarList env k n prev it ≠ .fuel := by
  cases k
  case string => exact bind_ne_fuel (deserializeBasic_ends _ it) (fun _ _ => by simp)
  case bytes => exact bind_ne_fuel (deserializeBasic_ends _ it) (fun _ _ => by simp)
  case bool => simp [deserializeScalarList]
  all_goals exact deserializePacked_ends (by simp [hasLength]) hat hn

theorem deserializeScalarList_mono {k : Kind} {n n' : Nat} {prev : List Scalar} {it : It} (hn : n ≤ n')
    (h : deserializeScalarList env k n prev it ≠ .fuel) :
    deserializeScalarList env k n' prev it = deserializeScalarList env k n prev it := by
  cases k
  case string => rfl
  case bytes => rfl
  case bool => rfl
  all_goals exact deserializePacked_mono hn h

theorem bind_mono {α β : Type} {x x' : Res α} {f : α → Res β} (h : (x >>= f) ≠ .fuel)
    (hx : x ≠ .fuel → x' = x) : (x' >>= f) = (x >>= f) := by
  rw [hx]
  rintro rfl
  exact h rfl

/-! ### Sub-messages and map entries -/

section
variable {rec : Nat → Bytes → MsgResult}

/-- The result of a sub-message. -/
def ofSub : MsgResult → Res Obj
  | (.ok (), o) => .ok o
  | (.throw e, _) => .throw e
  | (.ub, _) => .ub
  | (.fuel, _) => .fuel

theorem deserializeObject_eq (m : Nat) (it : It) : deserializeObject rec m it =
    (deserializeLengthDelimited it >>= fun x => ofSub (rec m x.1) >>= fun o => .ok (o, x.2)) := by
  simp only [deserializeObject, Res.bind_eq]
  cases h1 : deserializeLengthDelimited it with
  | ok x =>
    simp only [Res.bind]
    generalize rec m x.1 = y
    obtain ⟨a, o⟩ := y
    cases a <;> rfl
  | _ => rfl

theorem deserializeObject_local (m : Nat) :
    LocalOp LenOk (fun c _ => 0 < c.length) (deserializeObject rec m) := by
  refine (LocalOp.bind (g := fun body it => ofSub (rec m body) >>= fun o => .ok (o, it))
    (Q := fun _ _ => True) (S := fun _ c _ => c = []) deserializeLengthDelimited_local ?_
    (fun _ _ _ _ _ => trivial) ?_).congr fun it => (deserializeObject_eq m it).symm
  · intro body
    constructor
    · intro it it' r v hat _ h
      cases h1 : ofSub (rec m body) with
      | ok o =>
        rw [h1] at h
        simp only [Res.bind_eq, Res.bind, Res.ok.injEq, Prod.mk.injEq] at h
        obtain ⟨rfl, rfl⟩ := h
        exact ⟨[], r, rfl, rfl, rfl, fun it2 post hat2 => by simp [Res.bind_eq, Res.bind]⟩
      | _ => rw [h1] at h; simp [Res.bind_eq, Res.bind] at h
    · intro it it2 r e hat hat2 _ h
      cases h1 : ofSub (rec m body) with
      | throw e' => rw [h1] at h; exact h
      | _ => rw [h1] at h; simp [Res.bind_eq, Res.bind] at h
  · rintro c1 c2 v w ⟨l, N, rfl, hv, _⟩ rfl
    have := hv.pos
    simp; omega

theorem ofSub_ends {x : MsgResult} (h : x.1 ≠ .fuel) : ofSub x ≠ .fuel := by
  obtain ⟨a, o⟩ := x
  cases a <;> simp_all [ofSub]

/-- Sub-messages of fewer than `B` bytes do not run out of steps. -/
def RecEnds (env : Env) (rec : Nat → Bytes → MsgResult) (B : Nat) : Prop :=
  ∀ m body, NoNegativeLength env body → body.length < B → body.length < 2 ^ 31 → (rec m body).1 ≠ .fuel

theorem deserializeObject_ends {B : Nat} (hrec : RecEnds env rec B) (m : Nat) :
    Ends B (fun r => NoNegativeLength env r ∧ LenOk r) (deserializeObject rec m) := by
  intro it r hat ⟨hr, hl⟩ hB
  rw [deserializeObject_eq]
  refine bind_ne_fuel (deserializeLengthDelimited_ends it) fun x hx => ?_
  obtain ⟨body, it1⟩ := x
  obtain ⟨c, r', rfl, ⟨l, N, rfl, _, _⟩, rfl, _⟩ := deserializeLengthDelimited_local.ok hat hl hx
  have h1 := hat.len
  have h2 := hat.1
  simp only [List.length_append] at hB h1
  refine bind_ne_fuel (ofSub_ends (hrec m body ?_ (by omega) (by omega))) fun o _ => by simp
  rw [List.append_assoc] at hr
  exact hr.suffix.prefix

/-- Precondition for the value of a map entry. -/
def MapValOk (vt : MapVal) (r : Bytes) : Prop := hasLength (MapVal.toTy vt) → LenOk r

theorem deserializeMapValue_local (vt : MapVal) :
    LocalOp (MapValOk vt) (fun c _ => 0 < c.length) (deserializeMapValue env rec vt) := by
  cases vt with
  | scalar k =>
    exact (((deserializeBasic_local k).map (fun v => Val.sc v) (fun _ _ h => h)).weaken
      (fun r (h : MapValOk (.scalar k) r) => h) (fun _ _ h => h)).congr fun it => rfl
  | enum =>
    exact ((deserializeEnum_local.map (fun v => Val.enum v) (fun _ _ h => h)).weaken
      (fun r _ => trivial) (fun _ _ h => h)).congr fun it => rfl
  | msg m =>
    exact (((deserializeObject_local m).map (fun v => Val.msg v) (fun _ _ h => h)).weaken
      (fun r (h : MapValOk (.msg m) r) => h trivial) (fun _ _ h => h)).congr fun it => rfl

theorem deserializeMapValue_ends {B : Nat} (hrec : RecEnds env rec B) (vt : MapVal) :
    Ends B (fun r => NoNegativeLength env r ∧ MapValOk vt r) (deserializeMapValue env rec vt) := by
  intro it r hat ⟨h1, h2⟩ hB
  cases vt with
  | scalar k => exact bind_ne_fuel (deserializeBasic_ends k it) fun _ _ => by simp
  | enum => exact bind_ne_fuel (deserializeEnum_ends it) fun _ _ => by simp
  | msg m => exact bind_ne_fuel (deserializeObject_ends hrec m it r hat ⟨h1, h2 trivial⟩ hB) fun _ _ => by simp

/-- One turn of `mapPairLoop`. -/
def mapStep (env : Env) (rec : Nat → Bytes → MsgResult) (kk : Kind) (vt : MapVal) (kv : Scalar × Val)
    (it : It) : Res ((Scalar × Val) × It) :=
  decodeHeader it >>= fun x =>
    if x.1.num = 1 then deserializeBasic env kk x.2 >>= fun y => .ok ((y.1, kv.2), y.2)
    else deserializeMapValue env rec vt x.2 >>= fun y => .ok ((kv.1, y.1), y.2)

theorem mapStep_loop (kk : Kind) (vt : MapVal) (last n : Nat) (key : Scalar) (v : Val) (it : It) :
    stepLoop (mapStep env rec kk vt) last n (key, v) it =
      (mapPairLoop env rec kk vt last n key v it >>= fun x => .ok ((x.1, x.2.1), x.2.2)) := by
  induction n generalizing key v it with
  | zero => rfl
  | succ n ih =>
    simp only [stepLoop, mapPairLoop, mapStep]
    split
    · simp [Res.bind_eq, Res.bind]
    · simp only [Res.bind_eq]
      cases h1 : decodeHeader it with
      | ok x =>
        simp only [Res.bind]
        by_cases hn : x.1.num = 1
        · simp only [if_pos hn]
          cases h2 : deserializeBasic env kk x.2 with
          | ok y => simp only; rw [ih]; rfl
          | _ => rfl
        · simp only [if_neg hn]
          cases h2 : deserializeMapValue env rec vt x.2 with
          | ok y => simp only; rw [ih]; rfl
          | _ => rfl
      | _ => rfl

theorem deserializeMapPair_eq (kk : Kind) (vt : MapVal) (n : Nat) (it : It) :
    (deserializeMapPair env rec kk vt n it >>= fun x => Res.ok ((x.1, x.2.1), x.2.2)) =
      lengthLoop (mapStep env rec kk vt) n (defaultScalar kk, defaultMapVal vt) it := by
  simp only [deserializeMapPair, lengthLoop, Res.bind_eq]
  cases h1 : deserializeVarint 32 it with
  | ok x =>
    simp only [Res.bind]
    cases h2 : x.2.plus (toInt32 x.1) with
    | ok last =>
      simp only
      rw [mapStep_loop]
      simp only [Res.bind_eq, Res.bind]
    | _ => rfl
  | _ => rfl

/-- `kk` and `vt` are the types of some map field. -/
def InSchema (env : Env) (kk : Kind) (vt : MapVal) : Prop := ∃ m, ∃ f ∈ env.sch m, f.ty = .map kk vt

theorem inSchema_len {kk : Kind} {vt : MapVal} (h : InSchema env kk vt) {num wt : Nat}
    (hs : (num = 1 ∧ hasLength (.scalar kk)) ∨ (num ≠ 1 ∧ hasLength (MapVal.toTy vt))) :
    startsWithLength env num wt := by
  obtain ⟨m, f, hf, ht⟩ := h
  exact .inr (.inr ⟨m, f, hf, kk, vt, ht, hs⟩)

theorem mapStep_local {kk : Kind} {vt : MapVal} (hin : InSchema env kk vt) (kv : Scalar × Val) :
    LocalOp (NoNegativeLength env) (fun c _ => 0 < c.length) (mapStep env rec kk vt kv) := by
  refine (LocalOp.bind (g := fun (h : Header) it =>
      if h.num = 1 then deserializeBasic env kk it >>= fun y => .ok ((y.1, kv.2), y.2)
      else deserializeMapValue env rec vt it >>= fun y => .ok ((kv.1, y.1), y.2))
    (Q := fun h r => if h.num = 1 then BasicOk kk r else MapValOk vt r) (S := fun _ c _ => 0 < c.length)
    (decodeHeader_local.weaken (fun _ _ => trivial) (fun _ _ h => h)) ?_ ?_ ?_).congr fun it => rfl
  · intro h
    by_cases hn : h.num = 1
    · simp only [hn, if_true]
      exact (deserializeBasic_local kk).map (fun y => (y, kv.2)) (fun _ _ h => h)
    · simp only [hn, if_false]
      exact (deserializeMapValue_local vt).map (fun y => (kv.1, y)) (fun _ _ h => h)
  · rintro c h r' ⟨t, hv, h1, h2⟩ hr
    split
    · rename_i hn
      exact fun hl => hr.lenOk hv (inSchema_len hin (.inl ⟨h1 ▸ hn, hl⟩))
    · rename_i hn
      exact fun hl => hr.lenOk hv (inSchema_len hin (.inr ⟨h1 ▸ hn, hl⟩))
  · rintro c1 c2 v w ⟨t, hv, _⟩ _
    have := hv.pos
    simp only [List.length_append]; omega

theorem mapStep_ends {B : Nat} (hrec : RecEnds env rec B) {kk : Kind} {vt : MapVal}
    (hin : InSchema env kk vt) (kv : Scalar × Val) :
    Ends B (NoNegativeLength env) (mapStep env rec kk vt kv) := by
  intro it r hat hr hB
  refine bind_ne_fuel (decodeHeader_ends it) fun x hx => ?_
  obtain ⟨h, it1⟩ := x
  obtain ⟨c, r', rfl, ⟨t, hv, h1, h2⟩, rfl, _⟩ := decodeHeader_local.ok hat trivial hx
  simp only
  simp only [List.length_append] at hB
  split
  · exact bind_ne_fuel (deserializeBasic_ends kk _) fun _ _ => by simp
  · rename_i hn
    refine bind_ne_fuel (deserializeMapValue_ends hrec vt _ r' hat.adv ⟨hr.suffix, fun hl =>
      hr.lenOk hv (inSchema_len hin (.inr ⟨h1 ▸ hn, hl⟩))⟩ (by omega)) fun _ _ => by simp

theorem deserializeMapPair_local {kk : Kind} {vt : MapVal} (hin : InSchema env kk vt) (n : Nat) :
    LocalOp (fun r => NoNegativeLength env r ∧ LenOk r) (fun c _ => 0 < c.length)
      (fun it => deserializeMapPair env rec kk vt n it >>= fun x => Res.ok ((x.1, x.2.1), x.2.2)) :=
  (lengthLoop_local (mapStep_local hin) (fun _ _ h => h.suffix) n _).congr
    fun it => (deserializeMapPair_eq kk vt n it).symm

theorem deserializeMapPair_ends {B : Nat} (hrec : RecEnds env rec B) {kk : Kind} {vt : MapVal}
    (hin : InSchema env kk vt) {n : Nat} {it : It} {r : Bytes} (hat : At it r)
    (hr : NoNegativeLength env r) (hB : r.length < B) (hn : r.length ≤ n) :
    deserializeMapPair env rec kk vt n it ≠ .fuel := by
  intro h
  have h1 := deserializeMapPair_eq (env := env) (rec := rec) kk vt n it
  rw [h] at h1
  exact lengthLoop_ends (mapStep_local hin) (fun _ _ h => h.suffix) (mapStep_ends hrec hin) hat hr hB hn
    h1.symm

theorem deserializeMapPair_mono {kk : Kind} {vt : MapVal} {n n' : Nat} {it : It} (hn : n ≤ n')
    (h : deserializeMapPair env rec kk vt n it ≠ .fuel) :
    deserializeMapPair env rec kk vt n' it = deserializeMapPair env rec kk vt n it := by
  have h1 := deserializeMapPair_eq (env := env) (rec := rec) kk vt n it
  have h2 := deserializeMapPair_eq (env := env) (rec := rec) kk vt n' it
  rw [lengthLoop_mono hn, ← h1] at h2
  · simp only [Res.bind_eq] at h2
    cases h3 : deserializeMapPair env rec kk vt n it <;>
      cases h4 : deserializeMapPair env rec kk vt n' it <;> rw [h3, h4] at h2 <;>
      simp [Res.bind] at h2 ⊢
    · rename_i a b
      obtain ⟨a1, a2, a3⟩ := a
      obtain ⟨b1, b2, b3⟩ := b
      simp_all
    · exact h2
  · rw [← h1]
    exact bind_ne_fuel h fun _ _ => by simp

/-! ### Values, skipped fields and records -/

/-- Precondition for a field value. -/
def ValueOk (env : Env) (ty : FieldTy) (r : Bytes) : Prop :=
  NoNegativeLength env r ∧ (hasLength ty → LenOk r)

theorem deserializeValue_local {ty : FieldTy} (hin : ∀ kk vt, ty = .map kk vt → InSchema env kk vt)
    (n : Nat) (cur : Val) :
    LocalOp (ValueOk env ty) (fun _ _ => True) (deserializeValue env rec ty n cur) := by
  cases ty with
  | scalar k =>
    exact (((deserializeBasic_local k).map (fun v => Val.sc v) (T := fun _ _ => True) (fun _ _ _ => trivial)).weaken
      (fun r h => h.2) (fun _ _ _ => trivial)).congr fun it => rfl
  | list k =>
    exact (((deserializeScalarList_local k n _).map (fun v => Val.scList v) (T := fun _ _ => True) (fun _ _ _ => trivial)).weaken
      (fun r h => h.2 trivial) (fun _ _ _ => trivial)).congr fun it => rfl
  | enum =>
    exact ((deserializeEnum_local.map (fun v => Val.enum v) (T := fun _ _ => True) (fun _ _ _ => trivial)).weaken
      (fun r h => trivial) (fun _ _ _ => trivial)).congr fun it => rfl
  | enumList =>
    refine (((deserializePacked_local (env := env) (k := .int64) (by simp [hasLength]) n).map
      (fun v => Val.enumList ((match cur with | .enumList l => l | _ => []) ++ v.map enumOfScalar))
      (T := fun _ _ => True) (fun _ _ _ => trivial)).weaken (fun r h => h.2 trivial) (fun _ _ _ => trivial)).congr fun it => ?_
    simp only [deserializeValue, deserializeEnumList, Res.bind_eq]
    cases deserializePacked env .int64 n it <;> rfl
  | msg m =>
    exact (((deserializeObject_local m).map (fun v => Val.msg v) (T := fun _ _ => True) (fun _ _ _ => trivial)).weaken
      (fun r h => h.2 trivial) (fun _ _ _ => trivial)).congr fun it => rfl
  | msgList m =>
    exact (((deserializeObject_local m).map (fun v => Val.msgList (_ ++ [.msg v])) (T := fun _ _ => True) (fun _ _ _ => trivial)).weaken
      (fun r h => h.2 trivial) (fun _ _ _ => trivial)).congr fun it => rfl
  | map kk vt =>
    refine (((deserializeMapPair_local (rec := rec) (hin kk vt rfl) n).map
      (fun kv => Val.map (mapInsert kk kv.1 kv.2 (match cur with | .map l => l | _ => [])))
      (T := fun _ _ => True) (fun _ _ _ => trivial)).weaken (fun r h => ⟨h.1, h.2 trivial⟩) (fun _ _ _ => trivial)).congr fun it => ?_
    simp only [deserializeValue, Res.bind_eq]
    cases deserializeMapPair env rec kk vt n it <;> rfl

theorem deserializeValue_ends {B : Nat} (hrec : RecEnds env rec B) {ty : FieldTy}
    (hin : ∀ kk vt, ty = .map kk vt → InSchema env kk vt) {n : Nat} {cur : Val} {it : It} {r : Bytes}
    (hat : At it r) (hr : ValueOk env ty r) (hB : r.length < B) (hn : r.length ≤ n) :
    deserializeValue env rec ty n cur it ≠ .fuel := by
  cases ty with
  | scalar k => exact bind_ne_fuel (deserializeBasic_ends k it) fun _ _ => by simp
  | list k => exact bind_ne_fuel (deserializeScalarList_ends k _ hat hn) fun _ _ => by simp
  | enum => exact bind_ne_fuel (deserializeEnum_ends it) fun _ _ => by simp
  | enumList =>
    exact bind_ne_fuel (bind_ne_fuel (deserializePacked_ends (by simp [hasLength]) hat hn)
      fun _ _ => by simp) fun _ _ => by simp
  | msg m =>
    exact bind_ne_fuel (deserializeObject_ends hrec m it r hat ⟨hr.1, hr.2 trivial⟩ hB) fun _ _ => by simp
  | msgList m =>
    exact bind_ne_fuel (deserializeObject_ends hrec m it r hat ⟨hr.1, hr.2 trivial⟩ hB) fun _ _ => by simp
  | map kk vt =>
    exact bind_ne_fuel (deserializeMapPair_ends hrec (hin kk vt rfl) hat hr.1 hB hn) fun _ _ => by simp

theorem deserializeValue_mono {ty : FieldTy} {n n' : Nat} {cur : Val} {it : It} (hn : n ≤ n')
    (h : deserializeValue env rec ty n cur it ≠ .fuel) :
    deserializeValue env rec ty n' cur it = deserializeValue env rec ty n cur it := by
  cases ty with
  | scalar k => rfl
  | list k => exact bind_mono h fun h => deserializeScalarList_mono hn h
  | enum => rfl
  | enumList => exact bind_mono h fun h => bind_mono h fun h => deserializePacked_mono hn h
  | msg m => rfl
  | msgList m => rfl
  | map kk vt => exact bind_mono h fun h => deserializeMapPair_mono hn h

theorem bind_throw {α β : Type} {x : Res α} {f g : α → Res β} {e : Exn} (h : (x >>= f) = .throw e)
    (hf : ∀ a, f a ≠ .throw e) : (x >>= g) = .throw e := by
  cases x with
  | ok a => exact absurd h (hf a)
  | _ => exact h

theorem deserializeValue_cur {ty : FieldTy} {n : Nat} {cur cur' : Val} {it : It} {e : Exn}
    (h : deserializeValue env rec ty n cur it = .throw e) :
    deserializeValue env rec ty n cur' it = .throw e := by
  cases ty with
  | scalar k => exact h
  | list k =>
    simp only [deserializeValue] at h ⊢
    cases k
    case string =>
      simp only [deserializeScalarList] at h ⊢
      cases h1 : deserializeBasic env .string it <;> rw [h1] at h <;> simp_all [Res.bind_eq, Res.bind]
    case bytes =>
      simp only [deserializeScalarList] at h ⊢
      cases h1 : deserializeBasic env .bytes it <;> rw [h1] at h <;> simp_all [Res.bind_eq, Res.bind]
    all_goals exact h
  | enum => exact h
  | enumList =>
    simp only [deserializeValue, deserializeEnumList] at h ⊢
    cases h1 : deserializePacked env .int64 n it <;> rw [h1] at h <;> simp_all [Res.bind_eq, Res.bind]
  | msg m => exact h
  | msgList m =>
    exact bind_throw h fun _ => by simp
  | map kk vt => exact bind_throw h fun _ => by simp

theorem skipVarintLoop_inv {bs : Bytes} {n : Nat} (h : skipVarintLoop bs = .ok n) :
    ∃ l rest, bs = l ++ rest ∧ l.length = n ∧ ∀ post, skipVarintLoop (l ++ post) = .ok n := by
  induction bs generalizing n with
  | nil => simp [skipVarintLoop] at h
  | cons b tl ih =>
    simp only [skipVarintLoop] at h
    split at h
    · rename_i hb
      simp only [Res.ok.injEq] at h
      subst h
      exact ⟨[b], tl, rfl, rfl, fun post => by simp [skipVarintLoop, hb]⟩
    · rename_i hb
      simp only [Res.bind_eq, Res.bind_eq_ok, Res.ok.injEq] at h
      obtain ⟨n', h1, rfl⟩ := h
      obtain ⟨l, rest, rfl, rfl, hp⟩ := ih h1
      refine ⟨b :: l, rest, rfl, rfl, fun post => ?_⟩
      simp only [List.cons_append, skipVarintLoop, if_neg hb, hp post, Res.bind_eq, Res.bind]

/-- Skipping, as a reader without result. -/
def skipOp (wt : Nat) (it : It) : Res (Unit × It) := skipField it wt >>= fun it => .ok ((), it)

theorem add_local (n : Nat) : LocalOp (fun _ => True) (fun _ _ => True)
    (fun it => it.add (n : Int) >>= fun it => .ok ((), it)) := by
  constructor
  · intro it it' r v hat _ h
    rw [add_nat hat] at h
    split at h
    · rename_i hle
      simp only [Res.bind_eq, Res.bind, Res.ok.injEq, Prod.mk.injEq] at h
      obtain ⟨_, rfl⟩ := h
      have hlen : (r.take n).length = n := by simp; omega
      refine ⟨r.take n, r.drop n, by simp, trivial, by simp only [hlen], fun it2 post hat2 => ?_⟩
      rw [add_nat hat2, if_pos (by simp; omega)]
      simp [Res.bind_eq, Res.bind, hlen]
    · simp [Res.bind_eq, Res.bind] at h
  · intro it it2 r e hat hat2 _ h
    rw [add_nat hat] at h
    rw [add_nat hat2]
    split at h
    · simp [Res.bind_eq, Res.bind] at h
    · rename_i hle
      rw [if_neg hle]; exact h

theorem skipOp_local (wt : Nat) :
    LocalOp (fun r => wt = 2 → LenOk r) (fun _ _ => True) (skipOp wt) := by
  unfold skipOp skipField
  simp only [wtVarint, wtFixed32, wtFixed64, wtLengthDelimited]
  by_cases h0 : wt = 0
  · subst h0
    simp only [if_true]
    constructor
    · intro it it' r v hat _ h
      simp only [skipVarint, Res.bind_eq] at h
      cases h1 : skipVarintLoop it.rest with
      | ok n =>
        rw [h1] at h
        simp only [Res.bind, Res.ok.injEq, Prod.mk.injEq] at h
        obtain ⟨_, rfl⟩ := h
        obtain ⟨l, rest, hl, rfl, hp⟩ := skipVarintLoop_inv h1
        refine ⟨l, rest, hat.2.2.symm.trans hl, trivial, rfl, fun it2 post hat2 => ?_⟩
        simp only [skipVarint, hat2.2.2, hp post, Res.bind_eq, Res.bind]
      | _ => rw [h1] at h; simp [Res.bind] at h
    · intro it it2 r e hat hat2 _ h
      simp only [skipVarint, hat.2.2, hat2.2.2, Res.bind_eq] at h ⊢
      cases h1 : skipVarintLoop r <;> rw [h1] at h <;> simp_all [Res.bind]
  · by_cases h5 : wt = 5
    · subst h5
      simp only [if_neg h0, if_true]
      exact (add_local 4).weaken (fun _ _ => trivial) (fun _ _ h => h)
    · by_cases h1 : wt = 1
      · subst h1
        simp only [if_neg h0, if_neg h5, if_true]
        exact (add_local 8).weaken (fun _ _ => trivial) (fun _ _ h => h)
      · by_cases h2 : wt = 2
        · subst h2
          simp only [if_neg h0, if_neg h1, if_neg h5, if_true]
          refine (LocalOp.bind (g := fun len it => it.add (toInt32 len) >>= fun it => .ok ((), it))
            (Q := fun len _ => len < 2 ^ 31) (S := fun _ _ _ => True) (T := fun _ _ => True)
            ((deserializeVarint_local (w := 32) (by omega)).weaken (P' := fun r => True → LenOk r)
              (fun _ _ => trivial) (fun _ _ h => h))
            ?_ ?_ (fun _ _ _ _ _ _ => trivial)).congr fun it => ?_
          · intro len
            by_cases hlen : len < 2 ^ 31
            · rw [toInt32_of_lt hlen]
              exact (add_local len).weaken (fun _ _ => trivial) (fun _ _ h => h)
            · exact (LocalOp.absurd _).weaken (fun r h => hlen h) (fun _ _ h => h)
          · rintro c v r' ⟨N, hv, rfl⟩ hP
            exact lenOk_of hv (hP trivial)
          · simp only [skipLengthDelimited, Res.bind_eq]
            cases deserializeVarint 32 it <;> rfl
        · simp only [h0, h1, h5, h2, if_false]
          exact ⟨fun _ _ h => by simp [Res.bind_eq, Res.bind] at h, fun _ _ _ h => h⟩

theorem skipVarintLoop_ends (bs : Bytes) : skipVarintLoop bs ≠ .fuel := by
  induction bs with
  | nil => simp [skipVarintLoop]
  | cons b tl ih =>
    simp only [skipVarintLoop]
    split
    · simp
    · exact bind_ne_fuel ih fun _ _ => by simp

theorem skipField_ends (it : It) (wt : Nat) : skipField it wt ≠ .fuel := by
  unfold skipField
  repeat' split
  · exact bind_ne_fuel (skipVarintLoop_ends _) fun _ _ => by simp
  · exact add_ends _ _
  · exact add_ends _ _
  · exact bind_ne_fuel (deserializeVarint_ends _ _) fun _ _ => add_ends _ _
  · simp

theorem findField_some {fs : List Field} {num i : Nat} (h : findField fs num = some i) :
    ∃ f, fs[i]? = some f ∧ f ∈ fs ∧ f.num = num := by
  unfold findField at h
  rw [List.findIdx?_eq_some_iff_getElem] at h
  obtain ⟨hi, h1, _⟩ := h
  exact ⟨fs[i], by simp [hi], by simp, by simpa using h1⟩

theorem propertyOp_local (m n : Nat) (obj : Obj) :
    LocalOp (NoNegativeLength env) (fun c _ => 0 < c.length)
      (fun it => deserializeProperty env rec m n it obj >>= fun x => .ok (x.2, x.1)) := by
  refine (LocalOp.bind (g := fun (h : Header) it =>
      (if !h.valid then .throw .invalidArgument
      else match findField (env.sch m) h.num with
        | none => skipField it h.wt >>= fun it => .ok (it, obj)
        | some i =>
          match (env.sch m)[i]?, obj[i]? with
          | some f, some cur => deserializeValue env rec f.ty n cur it >>= fun x =>
              .ok (x.2, obj.set i (writeVal f.ty cur x.1))
          | _, _ => (.ub : Res (It × Obj))) >>= fun x => .ok (x.2, x.1))
    (Q := fun h r => NoNegativeLength env r ∧ (startsWithLength env h.num h.wt → LenOk r))
    (S := fun _ _ _ => True) (T := fun c _ => 0 < c.length)
    (decodeHeader_local.weaken (fun _ _ => trivial) (fun _ _ h => h)) ?_ ?_ ?_).congr fun it => ?_
  · intro h
    by_cases hvl : h.valid = true
    · simp only [hvl, Bool.not_true, if_neg Bool.false_ne_true]
      cases hfd : findField (env.sch m) h.num with
      | none =>
        simp only
        refine (((skipOp_local h.wt).map (fun _ => obj) (T := fun _ _ => True) (fun _ _ _ => trivial)).weaken
          (fun r hr h2 => hr.2 (.inl h2)) (fun _ _ _ => trivial)).congr fun it => ?_
        simp only [skipOp, Res.bind_eq]
        cases skipField it h.wt <;> rfl
      | some i =>
        simp only
        obtain ⟨f, hf, hmem, hnum⟩ := findField_some hfd
        rw [hf]
        cases ho : obj[i]? with
        | none => exact ⟨fun _ _ h => by simp [Res.bind_eq, Res.bind] at h,
            fun _ _ _ h => by simp [Res.bind_eq, Res.bind] at h⟩
        | some cur =>
          simp only
          refine (((deserializeValue_local (rec := rec) (ty := f.ty) (fun kk vt ht => ⟨m, f, hmem, ht⟩) n cur).map
            (fun v => obj.set i (writeVal f.ty cur v)) (T := fun _ _ => True)
            (fun _ _ _ => trivial)).weaken (fun r hr => ⟨hr.1, fun hl => hr.2 (.inr (.inl ⟨m, f, hmem, hnum, hl⟩))⟩)
            (fun _ _ _ => trivial)).congr fun it => ?_
          simp only [Res.bind_eq]
          cases deserializeValue env rec f.ty n cur it <;> rfl
    · simp only [hvl]
      exact ⟨fun _ _ h => by simp [Res.bind_eq, Res.bind] at h, fun _ _ _ h => h⟩
  · rintro c h r' ⟨t, hv, h1, h2⟩ hr
    refine ⟨hr.suffix, fun hl => hr.lenOk hv ?_⟩
    rwa [← h1, ← h2]
  · rintro c1 c2 v w ⟨t, hv, _⟩ _
    have := hv.pos
    simp only [List.length_append]; omega
  · simp only [deserializeProperty, Res.bind_eq]
    cases decodeHeader it <;> rfl

theorem deserializeProperty_ends {B : Nat} (hrec : RecEnds env rec B) {m n : Nat} {obj : Obj} {it : It}
    {r : Bytes} (hat : At it r) (hr : NoNegativeLength env r) (hB : r.length ≤ B) (hn : r.length ≤ n) :
    deserializeProperty env rec m n it obj ≠ .fuel := by
  refine bind_ne_fuel (decodeHeader_ends it) fun x hx => ?_
  obtain ⟨h, it1⟩ := x
  obtain ⟨c, r', rfl, ⟨t, hv, h1, h2⟩, rfl, _⟩ := decodeHeader_local.ok hat trivial hx
  have hpos := hv.pos
  simp only [List.length_append] at hB hn
  simp only
  split
  · simp
  · split
    · exact bind_ne_fuel (skipField_ends _ _) fun _ _ => by simp
    · rename_i i hfd
      obtain ⟨f, hf, hmem, hnum⟩ := findField_some hfd
      rw [hf]
      cases ho : obj[i]? with
      | none => simp
      | some cur =>
        refine bind_ne_fuel (deserializeValue_ends hrec (fun kk vt ht => ⟨m, f, hmem, ht⟩) hat.adv
          ⟨hr.suffix, fun hl => hr.lenOk hv ?_⟩ (by omega) (by omega)) fun _ _ => by simp
        rw [← h1]
        exact .inr (.inl ⟨m, f, hmem, hnum, hl⟩)

theorem deserializeProperty_length {m n : Nat} {obj obj' : Obj} {it it' : It}
    (h : deserializeProperty env rec m n it obj = .ok (it', obj')) : obj'.length = obj.length := by
  simp only [deserializeProperty, Res.bind_eq, Res.bind_eq_ok] at h
  obtain ⟨x, _, h⟩ := h
  split at h
  · simp at h
  · split at h
    · simp only [Res.bind_eq_ok, Res.ok.injEq, Prod.mk.injEq] at h
      obtain ⟨_, _, _, rfl⟩ := h; rfl
    · split at h
      · simp only [Res.bind_eq_ok, Res.ok.injEq, Prod.mk.injEq] at h
        obtain ⟨_, _, _, rfl⟩ := h; simp
      · simp at h

theorem deserializeProperty_throws {m n n' : Nat} {obj obj' : Obj} {it : It} {e : Exn} (hn : n ≤ n')
    (hl : (env.sch m).length ≤ obj'.length)
    (h : deserializeProperty env rec m n it obj = .throw e) :
    deserializeProperty env rec m n' it obj' = .throw e := by
  simp only [deserializeProperty, Res.bind_eq] at h ⊢
  cases h1 : decodeHeader it with
  | ok x =>
    rw [h1] at h
    simp only [Res.bind] at h ⊢
    by_cases hx : x.1.valid = true
    · simp only [hx, Bool.not_true, if_neg Bool.false_ne_true] at h ⊢
      cases hfd : findField (env.sch m) x.1.num with
      | none =>
        rw [hfd] at h
        simp only at h ⊢
        cases hs : skipField x.2 x.1.wt <;> rw [hs] at h <;> simp_all
      | some i =>
        rw [hfd] at h
        simp only at h ⊢
        obtain ⟨f, hf, hmem, hnum⟩ := findField_some hfd
        rw [hf] at h ⊢
        have hi : i < (env.sch m).length := by
          rw [List.getElem?_eq_some_iff] at hf; exact hf.1
        have ho' : obj'[i]? = some (obj'[i]'(by omega)) := by simp
        rw [ho']
        cases ho : obj[i]? with
        | none => rw [ho] at h; simp at h
        | some cur =>
          rw [ho] at h
          simp only at h ⊢
          have hv : deserializeValue env rec f.ty n cur x.2 = .throw e := by
            cases hd : deserializeValue env rec f.ty n cur x.2 <;> rw [hd] at h <;> simp_all
          have hv' := deserializeValue_cur (cur' := obj'[i]'(by omega)) hv
          rw [deserializeValue_mono hn (by rw [hv']; simp), hv']
    · simp only [hx] at h ⊢
      exact h
  | throw e' => rw [h1] at h; exact h
  | ub => rw [h1] at h; simp [Res.bind] at h
  | fuel => rw [h1] at h; simp [Res.bind] at h

/-! ### Messages -/

theorem at_end {it : It} {r : Bytes} (hat : At it r) : it.pos = it.data.length ↔ r = [] := by
  have := hat.len
  rw [← List.length_eq_zero_iff]
  omega

theorem property_local {m n : Nat} {obj obj' : Obj} {it it' : It} {r : Bytes} (hat : At it r)
    (hr : NoNegativeLength env r) (h : deserializeProperty env rec m n it obj = .ok (it', obj')) :
    ∃ c r', r = c ++ r' ∧ 0 < c.length ∧ it' = ⟨it.data, it.pos + c.length⟩ ∧ ∀ it2 post,
      At it2 (c ++ post) →
      deserializeProperty env rec m n it2 obj = .ok (⟨it2.data, it2.pos + c.length⟩, obj') := by
  obtain ⟨c, r', h1, h2, h3, h4⟩ := (propertyOp_local (rec := rec) m n obj).ok (v := obj') (it' := it') hat hr
    (by rw [h]; rfl)
  refine ⟨c, r', h1, h2, h3, fun it2 post hat2 => ?_⟩
  have := h4 it2 post hat2
  simp only [Res.bind_eq, Res.bind_eq_ok, Res.ok.injEq, Prod.mk.injEq] at this
  obtain ⟨⟨a, b⟩, h5, h6, h7⟩ := this
  rw [h5, ← h6, ← h7]

theorem property_fail {m n : Nat} {obj : Obj} {it it2 : It} {r : Bytes} {e : Exn} (hat : At it r)
    (hat2 : At it2 r) (hr : NoNegativeLength env r)
    (h : deserializeProperty env rec m n it obj = .throw e) :
    deserializeProperty env rec m n it2 obj = .throw e := by
  have := (propertyOp_local (rec := rec) m n obj).fail (e := e) hat hat2 hr (by rw [h]; rfl)
  cases h1 : deserializeProperty env rec m n it2 obj <;> rw [h1] at this <;>
    simp_all [Res.bind_eq, Res.bind]

theorem messageLoop_ends {B : Nat} (hrec : RecEnds env rec B) {m n : Nat} {obj : Obj} {it : It} {r : Bytes}
    (hat : At it r) (hr : NoNegativeLength env r) (hB : r.length ≤ B) (hn : r.length < n) :
    (messageLoop env rec m n it obj).1 ≠ .fuel := by
  induction n generalizing it r obj with
  | zero => omega
  | succ n ih =>
    simp only [messageLoop]
    split
    · simp
    · cases h1 : deserializeProperty env rec m n it obj with
      | ok x =>
        obtain ⟨it', obj'⟩ := x
        obtain ⟨c, r', rfl, hc, rfl, _⟩ := property_local hat hr h1
        simp only [List.length_append] at hB hn
        exact ih hat.adv hr.suffix (by omega) (by omega)
      | throw e => simp
      | ub => simp
      | fuel => exact absurd h1 (deserializeProperty_ends hrec hat hr hB (by omega))

theorem messageLoop_throws {m n : Nat} {obj obj' : Obj} {it : It} {r : Bytes} {e : Exn} (hat : At it r)
    (hr : NoNegativeLength env r) (h : messageLoop env rec m n it obj = (.throw e, obj')) :
    ∃ p r', r = p ++ r' ∧ (∀ it2, At it2 p → messageLoop env rec m n it2 obj = (.ok (), obj')) ∧
      r' ≠ [] ∧ obj'.length = obj.length ∧ ∃ k, k < n ∧
      ∀ it2, At it2 r' → deserializeProperty env rec m k it2 obj' = .throw e := by
  induction n generalizing it r obj with
  | zero => simp [messageLoop] at h
  | succ n ih =>
    simp only [messageLoop] at h
    split at h
    · simp at h
    · rename_i hend
      rw [at_end hat] at hend
      cases h1 : deserializeProperty env rec m n it obj with
      | ok x =>
        rw [h1] at h
        obtain ⟨it', obj1⟩ := x
        obtain ⟨c, r', rfl, hc, rfl, hloc⟩ := property_local hat hr h1
        obtain ⟨p, r2, rfl, hp, hne, hlen, k, hk, hf⟩ := ih hat.adv hr.suffix h
        refine ⟨c ++ p, r2, by simp, fun it2 hat2 => ?_, hne, hlen.trans (deserializeProperty_length h1),
          k, by omega, hf⟩
        simp only [messageLoop]
        rw [if_neg (by rw [at_end hat2]; intro h0; simp at h0; simp [h0.1] at hc), hloc _ _ hat2]
        exact hp _ hat2.adv
      | throw e' =>
        rw [h1] at h
        simp only [Prod.mk.injEq, Res.throw.injEq] at h
        obtain ⟨rfl, rfl⟩ := h
        refine ⟨[], r, rfl, fun it2 hat2 => ?_, hend, rfl, n, by omega,
          fun it2 hat2 => property_fail hat hat2 hr h1⟩
        simp only [messageLoop]
        rw [if_pos ((at_end hat2).2 rfl)]
      | ub => rw [h1] at h; simp at h
      | fuel => rw [h1] at h; simp at h

end

theorem deserializeMessage_ends (n m : Nat) (data : Bytes) (hr : NoNegativeLength env data)
    (hlen : data.length < 2 ^ 31) (hn : data.length < n) : (deserializeMessage env n m data).1 ≠ .fuel := by
  induction n generalizing m data with
  | zero => omega
  | succ n ih =>
    exact messageLoop_ends (B := n) (fun m body h1 h2 h3 => ih m body h1 h3 h2) (At.start hlen) hr
      (by omega) hn

theorem defaultObj_length (m : Nat) : (defaultObj env m).length = (env.sch m).length := by
  simp [defaultObj]

theorem deserializeMessage_throws {n m : Nat} {data : Bytes} {e : Exn} {o : Obj}
    (hr : NoNegativeLength env data) (hlen : data.length < 2 ^ 31)
    (h : deserializeMessage env n m data = (.throw e, o)) :
    ∃ p rest, data = p ++ rest ∧ deserializeMessage env n m p = (.ok (), o) ∧
      deserializeMessage env n m rest = (.throw e, defaultObj env m) := by
  cases n with
  | zero => simp [deserializeMessage] at h
  | succ n =>
    simp only [deserializeMessage] at h ⊢
    obtain ⟨p, r', rfl, hp, hne, hl, k, hk, hf⟩ := messageLoop_throws (At.start hlen) hr h
    simp only [List.length_append] at hlen
    refine ⟨p, r', rfl, hp _ (At.start (by omega)), ?_⟩
    have hat := At.start (data := r') (by omega)
    simp only [messageLoop]
    rw [if_neg (by rw [at_end hat]; exact hne),
      deserializeProperty_throws (by omega) (Nat.le_of_eq (defaultObj_length m).symm) (hf _ hat)]

end QtPb
