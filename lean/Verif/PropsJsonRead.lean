import Verif.JsonTripLemmas
import Verif.JsonReadDemo
/-
C64: the JSON serializer reads the message a document stands for. C65: it reads what it writes.
-/
namespace QtPb.Json
open Spec

variable {env : REnv}

theorem readTy_of (hb : NoRepeatedBool env.toEnv) (hk : NoBoolKeys env.toEnv) (m : Nat) : ∀ f ∈ env.sch m, ReadTy f.ty :=
  fun f hf => ⟨hb m f hf, hk m f hf⟩

theorem document_read (hm : ReadsJson env) (hq : QtReads env) (ho : ValidOrder env.toEnv) (hn : DistinctNames env.toJEnv)
    (hb : NoRepeatedBool env.toEnv) (hk : NoBoolKeys env.toEnv) (hnull : NoNullName env) {m : Nat} {t : Bytes} {j : JVal} {o : Obj}
    (ht : readJson t = some j) (h : Means env quoteEscape 0 0 (.msg m) j (.msg o)) :
    ∃ N, ∀ n, N ≤ n → deserializeMessage env n m t = (.ok (), o) := by
  have hr := means_read hm hq ho hn (readTy_of hb hk) hnull h ⟨by simp, by simp⟩
  cases j with
  | obj ms =>
    obtain ⟨N, hN⟩ := hr.2 .object t ⟨rfl, ht⟩
    refine ⟨N, fun n hn => ?_⟩
    have := hN n hn
    simp only [deserializeValue] at this
    split at this
    · simp at this
    · simp only [readMessage, Res.bind_eq] at this
      generalize deserializeMessage env n m t = x at this
      obtain ⟨x1, x2⟩ := x
      cases x1 <;> simp [Res.bind] at this
      rw [this]
  | _ => cases h

/-- **C64**, partial. A JSON document that stands for a message, with members in any order and with white space, members that mean
nothing and `null` anywhere, is read as that message, and the object it is read into becomes that message. Missing: escape
sequences other than `\"`, "NaN" and "Infinity", message types with repeated bool fields or map keys of type bool, and an enumeration
value named "null"; see the `_violated` theorems. -/
theorem C64_reads_partial (hm : ReadsJson env) (hq : QtReads env) (ho : ValidOrder env.toEnv) (hn : DistinctNames env.toJEnv)
    (hb : NoRepeatedBool env.toEnv) (hk : NoBoolKeys env.toEnv) (hnull : NoNullName env) {m : Nat} {t : Bytes} {o : Obj}
    (h : Document env quoteEscape m t o) :
    ∃ N, ∀ n, N ≤ n → deserializeMessage env n m t = (.ok (), o) ∧
      ∃ K, ∀ k, K ≤ k → ∃ r, deserialize env n k m t (defaultObj env.toEnv m) = ⟨.ok (), .ok r⟩ ∧
        Mirrors env.toEnv (.msg m) (.msg r) (.msg o) := by
  obtain ⟨j, h1, h2⟩ := h
  obtain ⟨N, hN⟩ := document_read hm hq ho hn hb hk hnull h1 h2
  refine ⟨N, fun n hn => ⟨hN n hn, ?_⟩⟩
  obtain ⟨K, hK⟩ := target_fresh_json (hN n hn) (means_safe h2)
  exact ⟨K, fun k hk => by obtain ⟨r, g1, g2, _⟩ := hK k hk; exact ⟨r, g1, g2⟩⟩

/-- **C65**, partial. For every message of the kind `Exact`: the JSON serializer writes it, reads what it wrote without an exception, and
the object read is the same as the message and compares equal to it. Missing: the messages of `C65_digits_violated`, of the
`C47_..._violated` theorems, and types with repeated bool fields or map keys of type bool. -/
theorem C65_roundtrip_partial (hm : ReadsJson env) (hq : QtReads env) (hp : QtNumbers env.toJEnv) (ho : ValidOrder env.toEnv)
    (hd : DistinctNames env.toJEnv) (hn : ExactNames env) (hb : NoRepeatedBool env.toEnv) (hk : NoBoolKeys env.toEnv)
    (hnull : NoNullName env) {m : Nat} {o : Obj} (h : Exact env 0 0 (.msg m) (.msg o)) :
    ∃ N bs, (∀ n, N ≤ n → serializeObject env.toJEnv n m o = .ok bs) ∧
      ∃ N', ∀ n, N' ≤ n → ∃ K, ∀ k, K ≤ k → ∃ r, deserialize env n k m bs (defaultObj env.toEnv m) = ⟨.ok (), .ok r⟩ ∧
        Same env.toEnv (.msg m) (.msg o) (.msg r) ∧
        ∃ M, ∀ j, M ≤ j → objEq env.toEnv j m r o = .ok true ∧ objEq env.toEnv j m o r = .ok true := by
  obtain ⟨N, bs, j, h1, h2, h3⟩ := C47_document_partial ho hp (exact_printable hn h)
  obtain ⟨v', g1, g2⟩ := exact_back ho hp hd hn h j h3
  have hplain := exact_isPlain h
  cases g1 with
  | @msg _ _ _ ms o' vs a1 a2 a3 a4 a5 a6 a7 =>
  have hmeans : Means env quoteEscape 0 0 (.msg m) (.obj ms) (.msg o') := .msg vs a1 a2 a3 a4 a5 a6 a7
  obtain ⟨N', hN'⟩ := document_read hm hq ho hd hb hk hnull h2 hmeans
  refine ⟨N, bs, h1, N', fun n hn' => ?_⟩
  obtain ⟨K, hK⟩ := target_fresh_json (hN' n hn') (means_safe hmeans)
  refine ⟨K, fun k hk' => ?_⟩
  obtain ⟨r, hr, hmir, hrs⟩ := hK k hk'
  have hor : Same env.toEnv (.msg m) (.msg o) (.msg r) :=
    g2.trans (hmir.toSame (g2.plain_right hplain (means_safe hmeans))).symm hplain.safe (means_safe hmeans) hrs
  refine ⟨r, hr, hor, ?_⟩
  obtain ⟨M1, hM1⟩ := same_equal hor hplain.safe hrs
  obtain ⟨M2, hM2⟩ := same_equal hor.symm hrs hplain.safe
  exact ⟨max M1 M2, fun j hj => ⟨hM2 j (by omega), hM1 j (by omega)⟩⟩

/-! ### Cases that meet the hypotheses -/

/-- Message types with fields of type `tys`, named `a`, `b`, ...; numbers other than integers are all 1500. -/
def demoR (tys : Nat → List FieldTy) : REnv where
  toJEnv := { demoJ with
    sch := fun m => (tys m).mapIdx fun i ty => ⟨i + 1, ty⟩
    ord := fun m => (List.range (tys m).length).reverse }
  objectOf := microMembers
  arrayOf := microItems
  entriesOf := microMembers
  elementsOf := microItems
  toInteger := qtInteger
  toFloat t := if isNumber t then (0x44bb8000, true) else (0, false)
  toDouble t := if isNumber t then (0x4097700000000000, true) else (0, false)
  enumValue _ _ name := if name = [90] then some 0 else if name = [79, 78] then some 1 else none
  enumFirst _ _ := 0

section demo
variable (tys : Nat → List FieldTy)

theorem demoR_json : ReadsJson (demoR tys) := micro_reads rfl rfl rfl rfl

theorem demoR_qt : QtReads (demoR tys) := qt_reads rfl rfl

theorem demoR_numbers : QtNumbers (demoR tys).toJEnv := ⟨demoJ_numbers.1, demoJ_numbers.2, demoJ_numbers.3⟩

theorem demoR_order : ValidOrder (demoR tys).toEnv := by
  intro m
  have : ((demoR tys).sch m).length = (tys m).length := by simp [demoR]
  rw [this]
  exact List.reverse_perm _

theorem demoR_null : NoNullName (demoR tys) := by
  intro m i
  rfl

theorem letter_name : ∀ a : Fin 26, (Char.ofNat (97 + a.val)).toNat = 97 + a.val := by decide +kernel

theorem demoR_names (h : ∀ m, (tys m).length ≤ 26) : DistinctNames (demoR tys).toJEnv := by
  intro m a b ha hb e
  have hl : ((demoR tys).sch m).length = (tys m).length := by simp [demoR]
  have := h m
  rw [hl] at ha hb
  have e' : Char.ofNat (97 + a) = Char.ofNat (97 + b) := by simpa [demoR, demoJ] using e
  have h1 := letter_name ⟨a, by omega⟩
  have h2 := letter_name ⟨b, by omega⟩
  simp only at h1 h2
  rw [e', h2] at h1
  omega

theorem demoR_exact (h : ∀ m, (tys m).length ≤ 26) : ExactNames (demoR tys) where
  plain m i hi := by
    have hl : ((demoR tys).sch m).length = (tys m).length := by simp [demoR]
    have := h m
    rw [hl] at hi
    have key : ∀ a : Fin 26, ∀ b ∈ demoEnv.toUtf8 [Char.ofNat (97 + a.val)], 0x20 ≤ b ∧ b ≠ 0x22 ∧ b ≠ 0x5c := by decide +kernel
    exact key ⟨i, by omega⟩
  exact m i hi := by
    have hl : ((demoR tys).sch m).length = (tys m).length := by simp [demoR]
    have := h m
    rw [hl] at hi
    have key : ∀ a : Fin 26, demoEnv.fromUtf8 (demoEnv.toUtf8 [Char.ofNat (97 + a.val)]) = [Char.ofNat (97 + a.val)] := by decide +kernel
    exact key ⟨i, by omega⟩
  enums m i e name h := by
    have h : (if e = 0 then some [90] else if e = 1 then some [79, 78] else none) = some name := h
    split at h
    · rename_i he; cases h; subst he; exact ⟨by simp, rfl⟩
    · split at h
      · rename_i he; cases h; subst he; exact ⟨by simp, rfl⟩
      · cases h

end demo

/-- Type 0 has a field of each form, type 1 is a leaf. -/
def demoTys (m : Nat) : List FieldTy :=
  if m = 0 then [.scalar .int32, .scalar .string, .list .uint64, .enum, .msg 1, .msgList 1, .map .string (.scalar .int64), .map .sint32 (.msg 1),
    .enumList, .scalar .double]
  else if m = 1 then [.scalar .float, .scalar .bytes] else []

theorem demoTys_short (m : Nat) : (demoTys m).length ≤ 26 := by
  unfold demoTys
  split
  · decide
  · split <;> decide

theorem demoTys_fields {P : FieldTy → Prop} (h0 : ∀ ty ∈ demoTys 0, P ty) (h1 : ∀ ty ∈ demoTys 1, P ty) (m : Nat) :
    ∀ f ∈ (demoR demoTys).sch m, P f.ty := by
  intro f hf
  obtain ⟨i, hi⟩ := List.mem_iff_getElem?.mp hf
  simp only [demoR, List.getElem?_mapIdx, Option.map_eq_some_iff] at hi
  obtain ⟨ty, hty, rfl⟩ := hi
  have hty := List.mem_of_getElem? hty
  match m with
  | 0 => exact h0 _ hty
  | 1 => exact h1 _ hty
  | m + 2 => simp [demoTys] at hty

theorem demoTys_lists : NoRepeatedBool (demoR demoTys).toEnv := demoTys_fields (P := fun ty => ty ≠ .list .bool) (by decide) (by decide)

def hasBoolKeys : FieldTy → Bool
  | .map .bool _ => true
  | _ => false

theorem demoTys_maps : NoBoolKeys (demoR demoTys).toEnv := by
  intro m f hf vt e
  have := demoTys_fields (P := fun ty => hasBoolKeys ty = false) (by decide) (by decide) m f hf
  rw [e] at this
  cases this

theorem demoR_clean {b : Bytes} (h : (b.all fun x => decide (0x20 ≤ x ∧ x ≠ 0x22 ∧ x ≠ 0x5c)) = true) : NoEscapes b :=
  fun x hx => of_decide_eq_true (List.all_eq_true.mp h x hx)

/-- `{ "b":"q\"", "zz":[1,{}], "a" : -5, "g":{"y":7,"x":"-1"}, "c":null, "e":{"b":"AQI="} }` -/
def demoDoc : Bytes :=
  [123, 32, 34, 98, 34, 58, 34, 113, 92, 34, 34, 44, 32, 34, 122, 122, 34, 58, 91, 49, 44, 123, 125, 93, 44, 32, 34, 97, 34, 32, 58, 32, 45, 53, 44,
    32, 34, 103, 34, 58, 123, 34, 121, 34, 58, 55, 44, 34, 120, 34, 58, 34, 45, 49, 34, 125, 44, 32, 34, 99, 34, 58, 110, 117, 108, 108, 44, 32, 34,
    101, 34, 58, 123, 34, 98, 34, 58, 34, 65, 81, 73, 61, 34, 125, 32, 125]

def demoDocVal : JVal :=
  .obj [([98], .str [113, 92, 34]), ([122, 122], .arr [.num [49], .obj []]), ([97], .num [45, 53]),
    ([103], .obj [([121], .num [55]), ([120], .str [45, 49])]), ([99], .null), ([101], .obj [([98], .str [65, 81, 73, 61])])]

def demoDocObj : Obj :=
  [.sc (.w32 (-5)), .sc (.str (some ['q', '"'])), .scList [], .enum 0, .msg [.sc (.w32 0), .sc (.bytes (some [1, 2]))], .msgList [],
    .map [(.str (some ['x']), .sc (.w64 (-1))), (.str (some ['y']), .sc (.w64 7))], .map [], .enumList [], .sc (.w64 0)]

theorem demoDoc_reads : readJson demoDoc = some demoDocVal := by with_unfolding_all rfl

/-- A member name that is one letter names the field of that letter only. -/
theorem demo_index {tys : Nat → List FieldTy} (h : ∀ m, (tys m).length ≤ 26) {m i k : Nat} {f : Field} {name : Bytes} {P : Prop}
    (hf : ((demoR tys).sch m)[i]? = some f) (hi : (demoR tys).fromUtf8 name = (demoR tys).jsonName m i) (hk : k < ((demoR tys).sch m).length)
    (hn : (demoR tys).fromUtf8 name = (demoR tys).jsonName m k) (hp : i = k → P) : P :=
  hp (demoR_names tys h m i k (get_lt hf) hk (hi.symm.trans hn))

theorem demoLeaf_means (i : Nat) : Means (demoR demoTys) quoteEscape 0 i (.msg 1) (.obj [([98], .str [65, 81, 73, 61])])
    (.msg [.sc (.w32 0), .sc (.bytes (some [1, 2]))]) := by
  refine .msg (fun _ => .sc (.bytes (some [1, 2]))) (by simp) ?_ rfl ?_ ?_ ?_ ?_
  · intro q hq
    rcases List.mem_singleton.mp hq with rfl
    exact demoR_clean rfl
  · intro i' f hf hx
    match i', hf, hx with
    | 0, hf, hx => cases hf; rfl
    | 1, hf, hx => exact absurd rfl (hx _ List.mem_cons_self)
    | i' + 2, hf, hx => cases hf
  · intro i' f name hf hm _
    simp at hm
  · intro i' f name j hf hm hname _
    simp only [List.mem_singleton, Prod.mk.injEq] at hm
    obtain ⟨rfl, rfl⟩ := hm
    refine demo_index (k := 1) demoTys_short hf hname (by decide) rfl ?_
    rintro rfl
    cases hf
    exact .sc ⟨_, _, rfl, rfl, by decide +kernel⟩
  · intro i' f name j hf hm hname _
    simp only [List.mem_singleton, Prod.mk.injEq] at hm
    obtain ⟨rfl, rfl⟩ := hm
    refine demo_index (k := 1) demoTys_short hf hname (by decide) rfl ?_
    rintro rfl
    cases hf
    rfl

theorem demoMap_means (i : Nat) : Means (demoR demoTys) quoteEscape 0 i (.map .string (.scalar .int64)) (.obj [([121], .num [55]), ([120], .str [45, 49])])
    (.map [(.str (some ['x']), .sc (.w64 (-1))), (.str (some ['y']), .sc (.w64 7))]) := by
  refine .map (es := [(.str (some ['y']), .sc (.w64 7)), (.str (some ['x']), .sc (.w64 (-1)))]) rfl ?_ ?_ (by decide +kernel) (List.Perm.swap ..) (by decide +kernel)
  · intro p q e hq he
    match p, hq, he with
    | 0, hq, he => cases hq; cases he; exact ⟨_, _, rfl, rfl, _, unescape_plain (demoR_clean rfl), rfl⟩
    | 1, hq, he => cases hq; cases he; exact ⟨_, _, rfl, rfl, _, unescape_plain (demoR_clean rfl), rfl⟩
    | p + 2, hq, he => cases hq
  · intro p q e hq he
    match p, hq, he with
    | 0, hq, he => cases hq; cases he; exact .sc ⟨_, Or.inl rfl, by decide +kernel, by decide +kernel⟩
    | 1, hq, he => cases hq; cases he; exact .sc ⟨_, Or.inr rfl, by decide +kernel, by decide +kernel⟩
    | p + 2, hq, he => cases hq

theorem demoDoc_means : Document (demoR demoTys) quoteEscape 0 demoDoc demoDocObj := by
  refine ⟨_, demoDoc_reads, .msg (fun i => demoDocObj.getD i .msgNull) ?_ ?_ rfl ?_ ?_ ?_ ?_⟩
  · show List.Pairwise (fun a b : Bytes × JVal => latin a.1 ≠ latin b.1) _
    decide +kernel
  · intro q hq
    simp only [List.mem_cons, List.not_mem_nil, or_false] at hq
    rcases hq with rfl | rfl | rfl | rfl | rfl | rfl <;> exact demoR_clean rfl
  · intro i' f hf hx
    match i', hf, hx with
    | 0, hf, hx => exact absurd rfl (hx ([97], .num [45, 53]) (by simp))
    | 1, hf, hx => exact absurd rfl (hx ([98], .str [113, 92, 34]) (by simp))
    | 2, hf, hx => cases hf; rfl
    | 3, hf, hx => cases hf; rfl
    | 4, hf, hx => exact absurd rfl (hx ([101], .obj [([98], .str [65, 81, 73, 61])]) (by simp))
    | 5, hf, hx => cases hf; rfl
    | 6, hf, hx => exact absurd rfl (hx ([103], .obj [([121], .num [55]), ([120], .str [45, 49])]) (by simp))
    | 7, hf, hx => cases hf; rfl
    | 8, hf, hx => cases hf; rfl
    | 9, hf, hx => cases hf; rfl
    | i' + 10, hf, hx => cases hf
  · intro i' f name hf hm hname
    simp only [List.mem_cons, List.not_mem_nil, or_false, Prod.mk.injEq, reduceCtorEq, and_false, and_true, false_or] at hm
    subst hm
    refine demo_index (k := 2) demoTys_short hf hname (by decide) rfl ?_
    rintro rfl
    cases hf
    rfl
  · intro i' f name j hf hm hname hne
    simp only [List.mem_cons, List.not_mem_nil, or_false, Prod.mk.injEq] at hm
    rcases hm with ⟨rfl, rfl⟩ | ⟨rfl, rfl⟩ | ⟨rfl, rfl⟩ | ⟨rfl, rfl⟩ | ⟨rfl, rfl⟩ | ⟨rfl, rfl⟩
    · refine demo_index (k := 1) demoTys_short hf hname (by decide) rfl ?_
      rintro rfl
      cases hf
      exact .sc ⟨_, _, rfl, rfl, [113, 34], .plain (by decide) (by decide) (by decide) (.escape rfl .nil), rfl⟩
    · exact absurd (congrArg List.length hname) (by simp [demoR, demoJ, demoEnv])
    · refine demo_index (k := 0) demoTys_short hf hname (by decide) rfl ?_
      rintro rfl
      cases hf
      exact .sc ⟨_, Or.inl rfl, by decide +kernel, by decide +kernel⟩
    · refine demo_index (k := 6) demoTys_short hf hname (by decide) rfl ?_
      rintro rfl
      cases hf
      exact demoMap_means 6
    · exact absurd rfl hne
    · refine demo_index (k := 4) demoTys_short hf hname (by decide) rfl ?_
      rintro rfl
      cases hf
      exact demoLeaf_means 4
  · intro i' f name j hf hm hname hne
    simp only [List.mem_cons, List.not_mem_nil, or_false, Prod.mk.injEq] at hm
    rcases hm with ⟨rfl, rfl⟩ | ⟨rfl, rfl⟩ | ⟨rfl, rfl⟩ | ⟨rfl, rfl⟩ | ⟨rfl, rfl⟩ | ⟨rfl, rfl⟩
    · refine demo_index (k := 1) demoTys_short hf hname (by decide) rfl ?_
      rintro rfl
      cases hf
      rfl
    · exact absurd (congrArg List.length hname) (by simp [demoR, demoJ, demoEnv])
    · refine demo_index (k := 0) demoTys_short hf hname (by decide) rfl ?_
      rintro rfl
      cases hf
      rfl
    · refine demo_index (k := 6) demoTys_short hf hname (by decide) rfl ?_
      rintro rfl
      cases hf
      rfl
    · exact absurd rfl hne
    · refine demo_index (k := 4) demoTys_short hf hname (by decide) rfl ?_
      rintro rfl
      cases hf
      rfl

example : ∃ N, ∀ n, N ≤ n → deserializeMessage (demoR demoTys) n 0 demoDoc = (.ok (), demoDocObj) ∧
    ∃ K, ∀ k, K ≤ k → ∃ r, deserialize (demoR demoTys) n k 0 demoDoc (defaultObj (demoR demoTys).toEnv 0) = ⟨.ok (), .ok r⟩ ∧
      Mirrors (demoR demoTys).toEnv (.msg 0) (.msg r) (.msg demoDocObj) :=
  C64_reads_partial (demoR_json _) (demoR_qt _) (demoR_order _) (demoR_names _ demoTys_short) demoTys_lists demoTys_maps (demoR_null _) demoDoc_means

/-- A message with a value in each field. -/
def demoTrip : Obj :=
  [.sc (.w32 5), .sc (.str (some ['h', 'i'])), .scList [.w64 1, .w64 (-1)], .enum 1, .msg [.sc (.w32 0x44bb8000), .sc (.bytes none)],
    .msgList [.msg [.sc (.w32 0x44bb8000), .sc (.bytes (some [1, 2]))]], .map [(.str (some ['k']), .sc (.w64 (-7)))],
    .map [(.w32 3, .msg [.sc (.w32 0x44bb8000), .sc (.bytes (some [9]))])], .enumList [0, 1], .sc (.w64 0x4097700000000000)]

theorem demoLeaf_exact (b : Option Bytes) (m i : Nat) : Exact (demoR demoTys) m i (.msg 1) (.msg [.sc (.w32 0x44bb8000), .sc (.bytes b)]) := by
  refine .msg (by decide) rfl ?_
  intro i f v hf hv
  match i, hf, hv with
  | 0, hf, hv => cases hf; cases hv; exact .sc rfl ⟨by unfold finite32; decide, 0x44bb8000, by decide +kernel, by decide +kernel⟩
  | 1, hf, hv => cases hf; cases hv; exact .sc rfl trivial
  | i + 2, hf, hv => cases hf

theorem demoTrip_exact : Exact (demoR demoTys) 0 0 (.msg 0) (.msg demoTrip) := by
  refine .msg (by decide) rfl ?_
  intro i f v hf hv
  match i, hf, hv with
  | 0, hf, hv => cases hf; cases hv; exact .sc rfl trivial
  | 1, hf, hv => cases hf; cases hv; exact .sc rfl ⟨demoR_clean rfl, by decide +kernel⟩
  | 2, hf, hv =>
    cases hf; cases hv
    refine .scList (by decide) ?_
    intro s hs
    simp only [List.mem_cons, List.not_mem_nil, or_false] at hs
    rcases hs with rfl | rfl <;> exact ⟨rfl, trivial⟩
  | 3, hf, hv => cases hf; cases hv; exact .enum (name := [79, 78]) rfl (demoR_clean rfl)
  | 4, hf, hv => cases hf; cases hv; exact demoLeaf_exact _ _ _
  | 5, hf, hv =>
    cases hf; cases hv
    refine .msgList ?_ ?_ <;>
    · intro v hv
      rcases List.mem_singleton.mp hv with rfl
      first | exact ⟨_, rfl⟩ | exact demoLeaf_exact _ _ _
  | 6, hf, hv =>
    cases hf; cases hv
    refine .map rfl (by decide) ?_ ?_ ?_ (by simp) <;>
    · intro e he
      rcases List.mem_singleton.mp he with rfl
      first | simp; done | exact ⟨rfl, demoR_clean rfl, by decide +kernel⟩ | exact .sc rfl trivial
  | 7, hf, hv =>
    cases hf; cases hv
    refine .map rfl (by decide) ?_ ?_ ?_ (by simp) <;>
    · intro e he
      rcases List.mem_singleton.mp he with rfl
      first | simp; done | exact ⟨rfl, trivial⟩ | exact demoLeaf_exact _ _ _
  | 8, hf, hv =>
    cases hf; cases hv
    refine .enumList ?_
    intro e he
    simp only [List.mem_cons, List.not_mem_nil, or_false] at he
    rcases he with rfl | rfl
    · exact ⟨[90], rfl, demoR_clean rfl⟩
    · exact ⟨[79, 78], rfl, demoR_clean rfl⟩
  | 9, hf, hv => cases hf; cases hv; exact .sc rfl ⟨by unfold finite64; decide, 0x4097700000000000, by decide +kernel, by decide +kernel⟩
  | i + 10, hf, hv => cases hf

example := C65_roundtrip_partial (demoR_json demoTys) (demoR_qt _) (demoR_numbers _) (demoR_order _) (demoR_names _ demoTys_short)
  (demoR_exact _ demoTys_short) demoTys_lists demoTys_maps (demoR_null _) demoTrip_exact

/-! ### Where the full properties fail -/

/-- One message type with one field `a`. -/
def oneTy (ty : FieldTy) (m : Nat) : List FieldTy := if m = 0 then [ty] else []

theorem oneTy_short (ty : FieldTy) (m : Nat) : (oneTy ty m).length ≤ 26 := by
  unfold oneTy
  split <;> simp

/-- What the theorems assume, except the restrictions on types. -/
theorem oneTy_assumptions (ty : FieldTy) : ReadsJson (demoR (oneTy ty)) ∧ QtReads (demoR (oneTy ty)) ∧ QtNumbers (demoR (oneTy ty)).toJEnv ∧
    ValidOrder (demoR (oneTy ty)).toEnv ∧ DistinctNames (demoR (oneTy ty)).toJEnv ∧ ExactNames (demoR (oneTy ty)) ∧ NoNullName (demoR (oneTy ty)) :=
  ⟨demoR_json _, demoR_qt _, demoR_numbers _, demoR_order _, demoR_names _ (oneTy_short ty), demoR_exact _ (oneTy_short ty), demoR_null _⟩

/-- Environment with the field of `oneTy` and the library of `demoR`. -/
structure OneField (env : REnv) (ty : FieldTy) : Prop where
  sch : env.sch 0 = [⟨1, ty⟩]
  ord : env.ord 0 = [0]
  name : env.jsonName 0 0 = ['a']
  utf8 : env.fromUtf8 = latin
  members : env.objectOf = microMembers

theorem oneTy_field (ty : FieldTy) : OneField (demoR (oneTy ty)) ty := ⟨rfl, rfl, rfl, rfl, rfl⟩

theorem one_means {env : REnv} {esc : UInt8 → Option UInt8} {ty : FieldTy} (h1 : OneField env ty) {t : Bytes} {j : JVal} {v : Val}
    (ht : readJson t = some (.obj [([97], j)])) (hj : j ≠ .null) (h : Means env esc 0 0 ty j v) :
    Document env esc 0 t [store ty (defaultVal ty) v] := by
  have hname : env.fromUtf8 [97] = env.jsonName 0 0 := by rw [h1.utf8, h1.name]; rfl
  refine ⟨_, ht, .msg (fun _ => v) (by simp) ?_ (by rw [h1.sch]; rfl) ?_ ?_ ?_ ?_⟩
  · intro q hq
    rcases List.mem_singleton.mp hq with rfl
    exact demoR_clean rfl
  · intro i' f hf hx
    rw [h1.sch] at hf
    match i', hf, hx with
    | 0, hf, hx => exact absurd hname (hx _ List.mem_cons_self)
    | i' + 1, hf, hx => cases hf
  · intro i' f name hf hm _
    simp only [List.mem_singleton, Prod.mk.injEq] at hm
    exact absurd hm.2.symm hj
  · intro i' f name j' hf hm hname _
    rw [h1.sch] at hf
    simp only [List.mem_singleton, Prod.mk.injEq] at hm
    obtain ⟨rfl, rfl⟩ := hm
    match i', hf with
    | 0, hf => cases hf; exact h
    | i' + 1, hf => cases hf
  · intro i' f name j' hf hm hname _
    rw [h1.sch] at hf
    simp only [List.mem_singleton, Prod.mk.injEq] at hm
    obtain ⟨rfl, rfl⟩ := hm
    match i', hf with
    | 0, hf => cases hf; rfl
    | i' + 1, hf => cases hf

theorem one_read {env : REnv} {ty : FieldTy} (h1 : OneField env ty) {t : Bytes} {p : JType × Bytes} {v : Val} {b : Bool}
    (ht : microMembers t = .ok [([97], p)]) (hp : ¬ (p.2 = kNull ∧ p.1 = .object)) {n : Nat}
    (h : deserializeValue env (deserializeMessage env n) 0 0 ty p.1 p.2 = .ok (v, b)) :
    deserializeMessage env (n + 1) 0 t = (.ok (), [if b then writeVal ty (defaultVal ty) v else defaultVal ty]) := by
  have h2 : findName env 0 [97] = some 0 := by
    rw [findName, h1.ord, h1.utf8]
    simp only [List.find?, h1.name]
    decide +kernel
  have h3 : (env.sch 0)[0]? = some ⟨1, ty⟩ := by rw [h1.sch]; rfl
  have h5 : defaultObj env.toEnv 0 = [defaultVal ty] := by simp [defaultObj, h1.sch]
  simp only [deserializeMessage, h1.members, ht, readMembers, h2, h3, h5, List.getElem?_cons_zero, if_neg hp, h]
  cases b <;> simp

/-- **C64 violated**: an escape sequence other than `\"` is not replaced. The document `{"a":"\n"}` stands for a line break and is read as a
backslash and the letter n. -/
theorem C64_escape_violated : ∃ (env : REnv) (t : Bytes) (o o' : Obj), ReadsJson env ∧ QtReads env ∧ ValidOrder env.toEnv ∧
    DistinctNames env.toJEnv ∧ Document env jsonEscapes 0 t o ∧ (∀ n, deserializeMessage env (n + 1) 0 t = (.ok (), o')) ∧
    o = [.sc (.str (some ['\n']))] ∧ o' = [.sc (.str (some ['\\', 'n']))] := by
  obtain ⟨a1, a2, a3, a4, a5, a6, a7⟩ := oneTy_assumptions (.scalar .string)
  refine ⟨demoR (oneTy (.scalar .string)), [123, 34, 97, 34, 58, 34, 92, 110, 34, 125], _, _, a1, a2, a4, a5, ?_, fun n => ?_, rfl, rfl⟩
  · exact one_means (oneTy_field _) (v := .sc (.str (some ['\n']))) (j := .str [92, 110]) (by with_unfolding_all rfl) (by simp)
      (.sc ⟨_, _, rfl, rfl, [10], .escape rfl .nil, rfl⟩)
  · exact one_read (oneTy_field _) (p := (.string, [92, 110])) (v := .sc (.str (some ['\\', 'n']))) (b := true) (by with_unfolding_all rfl) (by decide) rfl

/-- Document `{"a":x}`. -/
def wrap (x : Bytes) : Bytes := [123, 34, 97, 34, 58] ++ x ++ [125]

theorem wrap_read {x : Bytes} {j : JVal} (h : Text x j) : readJson (wrap x) = some (.obj [([97], j)]) := by
  have := text_readJson (text_object (ps := [([97], x)]) (ms := [([97], j)]) (.cons ⟨rawOk_clean (demoR_clean rfl), rfl, h⟩ .nil))
  rw [← this]
  congr 1

theorem wrap_members {x : Bytes} {j : JVal} (h : Text x j) : microMembers (wrap x) = .ok [([97], typeOf j, contentOf j)] := by
  simp only [microMembers, wrap_read h, List.map_cons, List.map_nil]

/-- **C64 violated**: a JSON number that is no integer, or not in the range of the type, is read as 0 without an error. -/
theorem C64_number_violated : ∃ env : REnv, ReadsJson env ∧ QtReads env ∧ ValidOrder env.toEnv ∧ DistinctNames env.toJEnv ∧
    env.sch 0 = [⟨1, .scalar .int32⟩] ∧ ∀ t, isNumber t = true →
      (decimalValue t = none ∨ ∃ x, IntegerText t x ∧ (x < -2 ^ 31 ∨ 2 ^ 31 - 1 < x)) →
      readJson (wrap t) = some (.obj [([97], .num t)]) ∧ ∀ n, deserializeMessage env (n + 1) 0 (wrap t) = (.ok (), [.sc (.w32 0)]) := by
  obtain ⟨a1, a2, a3, a4, a5, a6, a7⟩ := oneTy_assumptions (.scalar .int32)
  refine ⟨demoR (oneTy (.scalar .int32)), a1, a2, a4, a5, rfl, fun t ht h => ⟨wrap_read (text_number ht), fun n => ?_⟩⟩
  have h0 : (demoR (oneTy (.scalar .int32))).toInteger (-2 ^ 31) (2 ^ 31 - 1) t = none := by
    rcases h with h | ⟨x, h1, h2⟩
    · exact a2.fraction _ _ _ ht h
    · exact a2.range _ _ _ x h1 h2
  refine one_read (oneTy_field _) (p := (.number, t)) (v := .sc (.w32 0)) (b := true) (wrap_members (text_number ht)) (by simp) ?_
  simp only [deserializeValue, deserializeScalar, deserializeInteger, h0, scalarOf]
  rfl

example : isNumber [49, 46, 53] = true ∧ decimalValue [49, 46, 53] = none ∧
    IntegerText [52, 50, 57, 52, 57, 54, 55, 50, 57, 54] 4294967296 := ⟨by decide +kernel, by decide +kernel, by decide +kernel, by decide +kernel⟩

/-- **C64 violated**: "NaN", "Infinity" and "-Infinity", which stand for these values in the JSON mapping, are read as 0 without an error. -/
theorem C64_nan_violated : ∃ env : REnv, ReadsJson env ∧ QtReads env ∧ ValidOrder env.toEnv ∧ DistinctNames env.toJEnv ∧
    env.sch 0 = [⟨1, .scalar .float⟩] ∧
    ∀ t ∈ ([[78, 97, 78], [73, 110, 102, 105, 110, 105, 116, 121], [45, 73, 110, 102, 105, 110, 105, 116, 121]] : List Bytes),
      readJson (wrap (quote t)) = some (.obj [([97], .str t)]) ∧
      ∀ n, deserializeMessage env (n + 1) 0 (wrap (quote t)) = (.ok (), [.sc (.w32 0)]) := by
  obtain ⟨a1, a2, a3, a4, a5, a6, a7⟩ := oneTy_assumptions (.scalar .float)
  refine ⟨demoR (oneTy (.scalar .float)), a1, a2, a4, a5, rfl, fun t ht => ?_⟩
  have hc : NoEscapes t := by
    simp only [List.mem_cons, List.not_mem_nil, or_false] at ht
    rcases ht with rfl | rfl | rfl <;> exact demoR_clean rfl
  refine ⟨wrap_read (text_quote hc), fun n => ?_⟩
  refine one_read (oneTy_field _) (p := (.string, t)) (v := .sc (.w32 0)) (b := true) (wrap_members (text_quote hc)) (by simp) ?_
  have : t ∈ notFinite := ht
  simp only [deserializeValue, deserializeScalar, if_pos this, scalarOf]
  rfl

/-- **C64 violated**: an unknown name of an enumeration value is read as -1 without an error. -/
theorem C64_enum_violated : ∃ env : REnv, ReadsJson env ∧ QtReads env ∧ ValidOrder env.toEnv ∧ DistinctNames env.toJEnv ∧
    env.sch 0 = [⟨1, .enum⟩] ∧ ∀ name, NoEscapes name → name ≠ [] → env.enumValue 0 0 name = none →
      readJson (wrap (quote name)) = some (.obj [([97], .str name)]) ∧
      ∀ n, deserializeMessage env (n + 1) 0 (wrap (quote name)) = (.ok (), [.enum (-1)]) := by
  obtain ⟨a1, a2, a3, a4, a5, a6, a7⟩ := oneTy_assumptions .enum
  refine ⟨demoR (oneTy .enum), a1, a2, a4, a5, rfl, fun t hc hne ht => ⟨wrap_read (text_quote hc), fun n => ?_⟩⟩
  refine one_read (oneTy_field _) (p := (.string, t)) (v := .enum (-1)) (b := true) (wrap_members (text_quote hc)) (by simp) ?_
  simp only [deserializeValue, if_neg hne, enumOfKey, ht]
  rfl

example : NoEscapes [88] ∧ (demoR (oneTy .enum)).enumValue 0 0 [88] = none := ⟨demoR_clean rfl, rfl⟩

/-- **C64 violated**: a value of the wrong JSON type is ignored without an error, here a number for a text. -/
theorem C64_type_violated : ∃ env : REnv, ReadsJson env ∧ QtReads env ∧ ValidOrder env.toEnv ∧ DistinctNames env.toJEnv ∧
    env.sch 0 = [⟨1, .scalar .string⟩] ∧ ∀ t, isNumber t = true → readJson (wrap t) = some (.obj [([97], .num t)]) ∧
      ∀ n, deserializeMessage env (n + 1) 0 (wrap t) = (.ok (), defaultObj env.toEnv 0) := by
  obtain ⟨a1, a2, a3, a4, a5, a6, a7⟩ := oneTy_assumptions (.scalar .string)
  refine ⟨demoR (oneTy (.scalar .string)), a1, a2, a4, a5, rfl, fun t ht => ⟨wrap_read (text_number ht), fun n => ?_⟩⟩
  exact one_read (oneTy_field _) (p := (.number, t)) (v := .sc (.str none)) (b := false) (wrap_members (text_number ht)) (by simp) rfl

/-- **C64 violated**: a repeated bool field is ignored: `{"a":[true]}` is read as the empty list. -/
theorem C64_bool_list_violated : ∃ (env : REnv) (t : Bytes) (o : Obj), ReadsJson env ∧ QtReads env ∧ ValidOrder env.toEnv ∧
    DistinctNames env.toJEnv ∧ NoNullName env ∧ Document env quoteEscape 0 t o ∧ o = [.scList [.bool true]] ∧
    ∀ n, deserializeMessage env (n + 1) 0 t = (.ok (), [.scList []]) := by
  obtain ⟨a1, a2, a3, a4, a5, a6, a7⟩ := oneTy_assumptions (.list .bool)
  have ht : Text [91, 116, 114, 117, 101, 93] (.arr [.bool true]) := text_array (js := [.bool true]) (.cons (text_bool true) .nil)
  refine ⟨demoR (oneTy (.list .bool)), wrap [91, 116, 114, 117, 101, 93], _, a1, a2, a4, a5, a7, ?_, rfl, fun n => ?_⟩
  · exact one_means (oneTy_field _) (v := .scList [.bool true]) (wrap_read ht) (by simp) (.scList (.cons rfl .nil))
  · exact one_read (oneTy_field _) (v := .scList []) (b := false) (wrap_members ht) (by simp [typeOf]) rfl

/-- **C64 violated**: keys of type bool are all read as false: `{"a":{"true":1}}`. -/
theorem C64_bool_keys_violated : ∃ (env : REnv) (t : Bytes) (o : Obj), ReadsJson env ∧ QtReads env ∧ ValidOrder env.toEnv ∧
    DistinctNames env.toJEnv ∧ NoNullName env ∧ Document env quoteEscape 0 t o ∧ o = [.map [(.bool true, .sc (.w32 1))]] ∧
    ∀ n, deserializeMessage env (n + 1) 0 t = (.ok (), [.map [(.bool false, .sc (.w32 1))]]) := by
  obtain ⟨a1, a2, a3, a4, a5, a6, a7⟩ := oneTy_assumptions (.map .bool (.scalar .int32))
  have h1 : Text [49] (.num [49]) := text_number (by decide +kernel)
  have ht : Text [123, 34, 116, 114, 117, 101, 34, 58, 49, 125] (.obj [([116, 114, 117, 101], .num [49])]) :=
    text_object (ps := [([116, 114, 117, 101], [49])]) (ms := [([116, 114, 117, 101], .num [49])]) (.cons ⟨rawOk_clean (demoR_clean rfl), rfl, h1⟩ .nil)
  refine ⟨demoR (oneTy (.map .bool (.scalar .int32))), wrap [123, 34, 116, 114, 117, 101, 34, 58, 49, 125], _, a1, a2, a4, a5, a7, ?_, rfl, fun n => ?_⟩
  · refine one_means (oneTy_field _) (v := .map [(.bool true, .sc (.w32 1))]) (wrap_read ht) (by simp)
      (.map (es := [(.bool true, .sc (.w32 1))]) rfl ?_ ?_ (by simp) (List.Perm.refl _) (by simp))
    · intro p q e hq he
      match p, hq, he with
      | 0, hq, he => cases hq; cases he; rfl
      | p + 1, hq, he => cases hq
    · intro p q e hq he
      match p, hq, he with
      | 0, hq, he => cases hq; cases he; exact .sc ⟨_, Or.inl rfl, by decide +kernel, by decide +kernel⟩
      | p + 1, hq, he => cases hq
  · refine one_read (oneTy_field _) (v := .map [(.bool false, .sc (.w32 1))]) (b := true) (wrap_members ht) (by simp [typeOf, contentOf, print, kNull]) ?_
    have hc : contentOf (.obj [([116, 114, 117, 101], .num [49])]) = [123, 34, 116, 114, 117, 101, 34, 58, 49, 125] := by decide +kernel
    have he : (demoR (oneTy (.map .bool (.scalar .int32)))).entriesOf [123, 34, 116, 114, 117, 101, 34, 58, 49, 125] =
      .ok [([116, 114, 117, 101], .number, [49])] := by with_unfolding_all rfl
    simp only [hc, deserializeValue, he, reduceCtorEq, if_false]
    rfl

/-- **C64 violated**: in a list, the name "null" of an enumeration value is read as the first value. -/
theorem C64_null_name_violated : ∃ (env : REnv) (t : Bytes) (o : Obj), ReadsJson env ∧ QtReads env ∧ ValidOrder env.toEnv ∧
    DistinctNames env.toJEnv ∧ NoRepeatedBool env.toEnv ∧ NoBoolKeys env.toEnv ∧ Document env quoteEscape 0 t o ∧ o = [.enumList [5]] ∧
    ∀ n, deserializeMessage env (n + 1) 0 t = (.ok (), [.enumList [0]]) := by
  obtain ⟨a1, a2, a3, a4, a5, a6, a7⟩ := oneTy_assumptions .enumList
  let env : REnv := { demoR (oneTy .enumList) with enumValue := fun _ _ name => if name = [110, 117, 108, 108] then some 5 else none }
  have h1 : OneField env .enumList := ⟨rfl, rfl, rfl, rfl, rfl⟩
  have ht : Text [91, 34, 110, 117, 108, 108, 34, 93] (.arr [.str [110, 117, 108, 108]]) :=
    text_array (js := [.str [110, 117, 108, 108]]) (.cons (text_quote (demoR_clean rfl)) .nil)
  have hty : ∀ m, ∀ f ∈ env.sch m, f.ty = .enumList := by
    intro m f hf
    match m, hf with
    | 0, hf => rcases List.mem_singleton.mp hf with rfl; rfl
    | m + 1, hf => cases hf
  refine ⟨env, wrap [91, 34, 110, 117, 108, 108, 34, 93], _, ⟨a1.1, a1.2, a1.3, a1.4⟩, ⟨a2.1, a2.2, a2.3, a2.4⟩, a4, a5,
    (fun m f hf => by rw [hty m f hf]; simp), (fun m f hf vt => by rw [hty m f hf]; simp), ?_, rfl, fun n => ?_⟩
  · exact one_means h1 (v := .enumList [5]) (wrap_read ht) (by simp) (.enumList (.cons ⟨_, rfl, rfl⟩ .nil))
  · exact one_read h1 (v := .enumList [0]) (b := true) (wrap_members ht) (by simp [typeOf]) (by with_unfolding_all rfl)

/-- **C65 violated**: floating point numbers are printed with 6 significant digits, and those that differ behind them are printed alike: the
two messages are different, and the same bytes are written for both. -/
theorem C65_digits_violated (env : REnv) {m : Nat} (hm : env.sch m = [⟨1, .scalar .float⟩]) (ho : ValidOrder env.toEnv) {a b : BitVec 32}
    (hab : env.float32g a = env.float32g b) (hne : scalarEq .float (.w32 a) (.w32 b) = false) (n : Nat) :
    serializeObject env.toJEnv (n + 1) m [.sc (.w32 a)] = serializeObject env.toJEnv (n + 1) m [.sc (.w32 b)] ∧
    ¬ Same env.toEnv (.msg m) (.msg [.sc (.w32 a)]) (.msg [.sc (.w32 b)]) := by
  constructor
  · have ho : env.ord m = [0] := by
      have := ho m
      rw [hm] at this
      exact List.perm_singleton.mp this
    have hf : (env.sch m)[0]? = some ⟨1, .scalar .float⟩ := by rw [hm]; rfl
    simp only [serializeObject, ho, members, hf, List.getElem?_cons_zero, serializeProperty, serializeValue, serializeScalar, hab]
  · intro h
    cases h with
    | msg h =>
      have := h 0 ⟨1, .scalar .float⟩ (.sc (.w32 a)) (.sc (.w32 b)) (by rw [hm]; rfl) rfl rfl
      cases this with
      | sc h => rw [hne] at h; cases h

example : (demoR (oneTy (.scalar .float))).float32g 0x3f800000 = (demoR (oneTy (.scalar .float))).float32g 0x3f800001 ∧
    scalarEq .float (.w32 0x3f800000) (.w32 0x3f800001) = false := ⟨by decide +kernel, by decide +kernel⟩

end QtPb.Json
