import Verif.JsonReadLemmas
import Verif.PropsJson
/-
An environment that meets the assumptions of C64 and C65: microjson made of the reader of `Verif/SpecJson.lean` and a printer.
-/
namespace QtPb.Json
open Spec

/-! ### Values the reader returns can be printed -/

theorem stringRest_rawOk : ∀ (n : Nat) (s raw r : Bytes), s.length ≤ n → stringRest s = some (raw, r) → RawOk raw
  | n, [], raw, r, _, h => by unfold stringRest at h; cases h
  | n, b :: s, raw, r, hn, h => by
    unfold stringRest at h
    by_cases hb : b = 0x22
    · rw [if_pos hb] at h
      simp only [Option.some.injEq, Prod.mk.injEq] at h
      rw [← h.1]
      exact rawOk_clean (by simp [NoEscapes])
    · rw [if_neg hb] at h
      cases n with
      | zero => simp at hn
      | succ n =>
        by_cases hc : b = 0x5c
        · rw [if_pos hc] at h
          split at h
          · rename_i h1 h2 h3 h4 r'
            by_cases hx : (isHex h1 && isHex h2 && isHex h3 && isHex h4) = true
            · rw [if_pos hx] at h
              cases hs : stringRest r' with
              | none => rw [hs] at h; cases h
              | some x =>
                rw [hs] at h
                simp only [Option.map_some, Option.some.injEq, Prod.mk.injEq] at h
                have ih := stringRest_rawOk n r' x.1 x.2 (by simp at hn; omega) hs
                rw [← h.1]
                intro rest
                simp only [List.cons_append]
                unfold stringRest
                rw [if_neg (by decide), if_pos rfl]
                simp only [hx, if_true, ih rest, Option.map_some]
            · rw [if_neg hx] at h; cases h
          · rename_i e r' hne
            by_cases he : isEscape e = true
            · rw [if_pos he] at h
              cases hs : stringRest r' with
              | none => rw [hs] at h; cases h
              | some x =>
                rw [hs] at h
                simp only [Option.map_some, Option.some.injEq, Prod.mk.injEq] at h
                have ih := stringRest_rawOk n r' x.1 x.2 (by simp at hn; omega) hs
                rw [← h.1]
                intro rest
                simp only [List.cons_append]
                unfold stringRest
                rw [if_neg (by decide), if_pos rfl]
                split
                · rename_i h1 h2 h3 h4 r'' heq
                  simp only [List.cons.injEq] at heq
                  rw [heq.1] at he
                  exact absurd he (by decide)
                · rename_i e' r'' _ heq
                  simp only [List.cons.injEq] at heq
                  rw [← heq.1, ← heq.2, if_pos he, ih rest]
                  rfl
                · rename_i heq; cases heq
            · rw [if_neg he] at h; cases h
          · cases h
        · rw [if_neg hc] at h
          by_cases hl : b < 0x20
          · rw [if_pos hl] at h; cases h
          · rw [if_neg hl] at h
            cases hs : stringRest s with
            | none => rw [hs] at h; cases h
            | some x =>
              rw [hs] at h
              simp only [Option.map_some, Option.some.injEq, Prod.mk.injEq] at h
              have ih := stringRest_rawOk n s x.1 x.2 (by simp at hn; omega) hs
              rw [← h.1]
              intro rest
              simp only [List.cons_append]
              unfold stringRest
              rw [if_neg hb, if_neg hc, if_neg hl, ih rest]
              rfl

/-- Strings and numbers of the value are those of a JSON text. -/
inductive Good : JVal → Prop
  | null : Good .null
  | bool (b : Bool) : Good (.bool b)
  | num {t : Bytes} : isNumber t = true → Good (.num t)
  | str {raw : Bytes} : RawOk raw → Good (.str raw)
  | arr {js : List JVal} : (∀ j ∈ js, Good j) → Good (.arr js)
  | obj {ms : List (Bytes × JVal)} : (∀ q ∈ ms, RawOk q.1) → (∀ q ∈ ms, Good q.2) → Good (.obj ms)

theorem read_good : ∀ n, (∀ s j r, readValue n s = some (j, r) → Good j) ∧
    (∀ s ms r, Spec.readMembers n s = some (ms, r) → ∀ q ∈ ms, RawOk q.1 ∧ Good q.2) ∧
    (∀ s js r, readItems n s = some (js, r) → ∀ j ∈ js, Good j)
  | 0 => ⟨fun s j r h => by simp [readValue] at h, fun s j r h => by simp [Spec.readMembers] at h, fun s j r h => by simp [readItems] at h⟩
  | n + 1 => by
    obtain ⟨ih1, ih2, ih3⟩ := read_good n
    refine ⟨fun s j r h => ?_, fun s ms r h => ?_, fun s js r h => ?_⟩
    · unfold readValue at h
      split at h
      · split at h
        · cases h; exact .obj (by simp) (by simp)
        · rename_i r0 heq r' _
          cases hm : Spec.readMembers n (skipWs r0) with
          | none => simp [hm] at h
          | some x =>
            simp only [hm, Option.map_some, Option.some.injEq, Prod.mk.injEq] at h
            rw [← h.1]
            exact .obj (fun q hq => (ih2 _ _ _ hm q hq).1) fun q hq => (ih2 _ _ _ hm q hq).2
      · split at h
        · cases h; exact .arr (by simp)
        · rename_i r0 heq r' _
          cases hm : readItems n (skipWs r0) with
          | none => simp [hm] at h
          | some x =>
            simp only [hm, Option.map_some, Option.some.injEq, Prod.mk.injEq] at h
            rw [← h.1]
            exact .arr (ih3 _ _ _ hm)
      · rename_i r' _
        cases hm : stringRest r' with
        | none => simp [hm] at h
        | some x =>
          simp only [hm, Option.map_some, Option.some.injEq, Prod.mk.injEq] at h
          rw [← h.1]
          exact .str (stringRest_rawOk _ _ _ _ (Nat.le_refl _) hm)
      · cases h; exact .bool _
      · cases h; exact .bool _
      · cases h; exact .null
      · split at h
        · rename_i hn
          cases h
          exact .num hn
        · cases h
    · unfold Spec.readMembers at h
      split at h
      · split at h
        · cases h
        · rename_i name r1 hs
          split at h
          · split at h
            · cases h
            · rename_i v r2 hv
              have hname := stringRest_rawOk _ _ _ _ (Nat.le_refl _) hs
              have hval := ih1 _ _ _ hv
              split at h
              · rename_i r3 _
                cases hm : Spec.readMembers n r3 with
                | none => simp [hm] at h
                | some x =>
                  simp only [hm, Option.map_some, Option.some.injEq, Prod.mk.injEq] at h
                  rw [← h.1]
                  intro q hq
                  rcases List.mem_cons.mp hq with rfl | hq
                  · exact ⟨hname, hval⟩
                  · exact ih2 _ _ _ hm q hq
              · cases h
                intro q hq
                rcases List.mem_singleton.mp hq with rfl
                exact ⟨hname, hval⟩
              · cases h
          · cases h
      · cases h
    · unfold readItems at h
      split at h
      · cases h
      · rename_i v r2 hv
        split at h
        · rename_i r3 _
          cases hm : readItems n r3 with
          | none => simp [hm] at h
          | some x =>
            simp only [hm, Option.map_some, Option.some.injEq, Prod.mk.injEq] at h
            rw [← h.1]
            intro q hq
            rcases List.mem_cons.mp hq with rfl | hq
            · exact ih1 _ _ _ hv
            · exact ih3 _ _ _ hm q hq
        · cases h
          intro q hq
          rcases List.mem_singleton.mp hq with rfl
          exact ih1 _ _ _ hv
        · cases h

theorem readJson_good {t : Bytes} {j : JVal} (h : readJson t = some j) : Good j := by
  unfold readJson at h
  split at h
  · rename_i v r hv
    split at h
    · cases h
      exact (read_good _).1 _ _ _ hv
    · cases h
  · cases h

mutual
/-- The text of a value. -/
def print : JVal → Bytes
  | .null => kNull
  | .bool b => boolText b
  | .num t => t
  | .str raw => quote raw
  | .arr js => 91 :: joined (printItems js) ++ [93]
  | .obj ms => 123 :: joined ((printMembers ms).map memberText) ++ [125]
def printItems : List JVal → List Bytes
  | [] => []
  | j :: js => print j :: printItems js
def printMembers : List (Bytes × JVal) → List (Bytes × Bytes)
  | [] => []
  | (name, j) :: ms => (name, print j) :: printMembers ms
end

theorem text_null : Text kNull .null := by
  refine ⟨⟨_, _, rfl, by decide, by decide⟩, ?_⟩
  intro n rest hn hr
  cases n with
  | zero => simp [kNull] at hn
  | succ n => simp [kNull, readValue, skipWs_cons]

mutual
theorem print_text : ∀ j, Good j → Text (print j) j
  | .null, _ => text_null
  | .bool b, _ => text_bool b
  | .num t, h => by cases h with | num h => exact text_number h
  | .str raw, h => by cases h with | str h => exact text_raw h
  | .arr js, h => by
    cases h with
    | arr h => simp only [print]; exact text_array (printItems_text js h)
  | .obj ms, h => by
    cases h with
    | obj h1 h2 => simp only [print]; exact text_object (printMembers_text ms h1 h2)
theorem printItems_text : ∀ js, (∀ j ∈ js, Good j) → Elementwise Text (printItems js) js
  | [], _ => .nil
  | j :: js, h => .cons (print_text j (h j List.mem_cons_self)) (printItems_text js fun j hj => h j (List.mem_cons_of_mem _ hj))
theorem printMembers_text : ∀ ms, (∀ q ∈ ms, RawOk q.1) → (∀ q ∈ ms, Good q.2) → Elementwise MemberOk (printMembers ms) ms
  | [], _, _ => .nil
  | (_, j) :: ms, h1, h2 => .cons ⟨h1 _ List.mem_cons_self, rfl, print_text j (h2 _ List.mem_cons_self)⟩
      (printMembers_text ms (fun q hq => h1 q (List.mem_cons_of_mem _ hq)) fun q hq => h2 q (List.mem_cons_of_mem _ hq))
end

/-! ### The library -/

def typeOf : JVal → JType
  | .null | .obj _ => .object
  | .bool _ => .bool
  | .num _ => .number
  | .str _ => .string
  | .arr _ => .array

def contentOf : JVal → Bytes
  | .str raw => raw
  | j => print j

theorem content_ok {j : JVal} (h : Good j) : Content j (typeOf j) (contentOf j) := by
  cases j with
  | null => exact ⟨rfl, rfl⟩
  | bool b => exact ⟨rfl, rfl⟩
  | num t => exact ⟨rfl, rfl⟩
  | str raw => exact ⟨rfl, rfl⟩
  | arr js => exact ⟨rfl, text_readJson (print_text _ h)⟩
  | obj ms => exact ⟨rfl, text_readJson (print_text _ h)⟩

def microMembers (t : Bytes) : Res (List (Bytes × JType × Bytes)) :=
  match readJson t with
  | some (.obj ms) => .ok (ms.map fun q => (q.1, typeOf q.2, contentOf q.2))
  | _ => .throw .invalidArgument

def microItems (t : Bytes) : Res (List (JType × Bytes)) :=
  match readJson t with
  | some (.arr js) => .ok (js.map fun j => (typeOf j, contentOf j))
  | _ => .throw .invalidArgument

theorem elementwise_mapped {α β : Type} {R : α → β → Prop} {f : β → α} : ∀ {bs : List β}, (∀ b ∈ bs, R (f b) b) → Elementwise R (bs.map f) bs
  | [], _ => .nil
  | b :: _, h => .cons (h b List.mem_cons_self) (elementwise_mapped fun b hb => h b (List.mem_cons_of_mem _ hb))

theorem microMembers_ok {t : Bytes} {ms : List (Bytes × JVal)} (h : readJson t = some (.obj ms)) : ∃ ps, microMembers t = .ok ps ∧
    Elementwise (fun p q => p.1 = q.1 ∧ Content q.2 p.2.1 p.2.2) ps ms := by
  refine ⟨ms.map fun q => (q.1, typeOf q.2, contentOf q.2), by simp only [microMembers, h], elementwise_mapped fun q hq => ⟨rfl, ?_⟩⟩
  cases readJson_good h with
  | obj h1 h2 => exact content_ok (h2 q hq)

theorem microItems_ok {t : Bytes} {js : List JVal} (h : readJson t = some (.arr js)) : ∃ es, microItems t = .ok es ∧
    Elementwise (fun e j => Content j e.1 e.2) es js := by
  refine ⟨js.map fun j => (typeOf j, contentOf j), by simp only [microItems, h], elementwise_mapped fun j hj => ?_⟩
  cases readJson_good h with
  | arr h1 => exact content_ok (h1 j hj)

theorem micro_reads {env : REnv} (h1 : env.objectOf = microMembers) (h2 : env.entriesOf = microMembers) (h3 : env.arrayOf = microItems)
    (h4 : env.elementsOf = microItems) : ReadsJson env where
  object t ms h _ := by
    obtain ⟨ps, g1, g2⟩ := microMembers_ok h
    exact ⟨ps, ps, by rw [h1]; exact g1, List.Perm.refl _, g2⟩
  array t js h := by rw [h3]; exact microItems_ok h
  entries t ms h := by rw [h2]; exact microMembers_ok h
  elements t js h := by rw [h4]; exact microItems_ok h

/-! ### Qt -/

def qtInteger (lo hi : Int) (t : Bytes) : Option Int :=
  match decimalValue t with
  | some x => if lo ≤ x ∧ x ≤ hi then some x else none
  | none => none

/-- Characters by their numbers. -/
def latin (b : Bytes) : List Char := b.map fun x => Char.ofNat x.toNat

theorem latin_char {x c : UInt8} (h : Char.ofNat x.toNat = Char.ofNat c.toNat) : x = c := by
  have hx := x.toNat_lt
  have hc := c.toNat_lt
  have key : ∀ k : Fin 256, (Char.ofNat k.val).toNat = k.val := by decide +kernel
  have h1 := key ⟨x.toNat, by omega⟩
  have h2 := key ⟨c.toNat, by omega⟩
  simp only at h1 h2
  rw [h, h2] at h1
  exact (UInt8.toNat_inj.mp h1).symm

theorem latin_mem {c : UInt8} {a : Bytes} (h : c ∉ a) : Char.ofNat c.toNat ∉ latin a := by
  intro hm
  obtain ⟨x, hx, he⟩ := List.mem_map.mp hm
  rw [latin_char he] at hx
  exact h hx

theorem latin_decodes : Decodes latin latin where
  append a x r _ := by simp [latin]
  quote a h := latin_mem (c := 0x22) h
  backslash a h := latin_mem (c := 0x5c) h

theorem qt_reads {env : REnv} (h1 : env.toInteger = qtInteger) (h2 : env.fromUtf8 = latin) : QtReads env where
  integer lo hi t x h g1 g2 := by rw [h1]; simp [qtInteger, h.1, g1, g2]
  range lo hi t x h g := by
    rw [h1]
    simp only [qtInteger, h.1]
    rw [if_neg (by omega)]
  fraction lo hi t _ h := by rw [h1]; simp only [qtInteger, h]
  text := ⟨latin, rfl, by rw [h2]; exact latin_decodes, latin_decodes⟩

end QtPb.Json
