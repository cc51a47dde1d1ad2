import Verif.SpecQtMediaJson
import Verif.PropsQtMedia
import Verif.PropsQtJson
import Verif.PropsJsonSafe
/-
C127: URLs and images in fields of messages, in JSON.
-/
namespace QtPb.Media
open QtPb QtPb.Spec QtPb.Json
open Media.Spec

variable {env : REnv} {U I : Type} {qt : Qt U I}

theorem media_plain (m : Nat) : ((Media.Spec.proto m).map (·.1)).Nodup ∧ ∀ f ∈ Media.Spec.proto m, ∀ c ∈ f.1.toList,
    0x20 ≤ c.toNat ∧ c.toNat < 128 ∧ c.toNat ≠ 0x22 ∧ c.toNat ≠ 0x5c := by
  match m with
  | 0 | 1 => decide +kernel
  | _ + 2 => simp [Media.Spec.proto]

theorem media_sch (hw : MediaWorld env) : env.sch = mediaSch := by rw [hw.sch, (C118_schema (U := Unit) (I := Unit)).1]

theorem media_name (hw : MediaWorld env) {m i : Nat} (hi : i < (env.sch m).length) :
    ∃ f, (Media.Spec.proto m)[i]? = some f ∧ env.jsonName m i = f.1.toList := by
  rw [hw.sch] at hi
  have hi : i < (Media.Spec.proto m).length := by simpa using hi
  exact ⟨_, List.getElem?_eq_getElem hi, hw.names m i _ (List.getElem?_eq_getElem hi)⟩

theorem media_distinct (hw : MediaWorld env) : DistinctNames env.toJEnv := by
  intro m a b ha hb h
  obtain ⟨f, hf, ef⟩ := media_name hw ha
  obtain ⟨g, hg, eg⟩ := media_name hw hb
  rw [ef, eg] at h
  have h : f.1 = g.1 := String.ext h
  obtain ⟨ha', hf⟩ := List.getElem?_eq_some_iff.mp hf
  obtain ⟨hb', hg⟩ := List.getElem?_eq_some_iff.mp hg
  refine (List.getElem_inj (xs := (Media.Spec.proto m).map (·.1)) (h₀ := by simpa using ha') (h₁ := by simpa using hb') (media_plain m).1).mp ?_
  simp [hf, hg, h]

theorem media_exact (hw : MediaWorld env) : ExactNames env where
  plain m i hi := by
    obtain ⟨f, hf, e⟩ := media_name hw hi
    have h := (media_plain m).2 f (List.mem_of_getElem? hf)
    rw [e, (hw.ascii _ fun c hc => (h c hc).2.1).1]
    exact Qt.plain_escapes h
  exact m i hi := by
    obtain ⟨f, hf, e⟩ := media_name hw hi
    have h := (media_plain m).2 f (List.mem_of_getElem? hf)
    rw [e, (hw.ascii _ fun c hc => (h c hc).2.1).2]
  enums m i e name h := by rw [hw.noEnums] at h; cases h

theorem media_keys (hw : MediaWorld env) : NoBoolKeys env.toEnv := fun m f hf vt h =>
  mediaSch_fields (env := env.toEnv) (P := fun ty => ty ≠ .map .bool vt) (media_sch hw) (by simp) (by simp) m f hf h

theorem message_exact (hw : MediaWorld env) {q : Media U I} (hp : Plain env qt q) : QtPb.Spec.Exact env 0 0 (.msg q.msg) (.msg (toMessage qt q)) := by
  have hs := media_sch hw
  cases q with
  | url u => exact Qt.exact_single (t1 := .scalar .string) (by rw [hs]; rfl) (.sc rfl hp)
  | image x =>
    refine Qt.exact_pair (t1 := .scalar .bytes) (t2 := .scalar .string) (by rw [hs]; rfl) (.sc rfl trivial) (.sc rfl ?_)
    have h : ∀ c ∈ "PNG".toList, 0x20 ≤ c.toNat ∧ c.toNat < 128 ∧ c.toNat ≠ 0x22 ∧ c.toNat ≠ 0x5c := by decide
    have h1 := hw.ascii "PNG".toList fun c hc => (h c hc).2.1
    refine ⟨?_, h1.2⟩
    show NoEscapes (env.toUtf8 "PNG".toList)
    rw [h1.1]
    exact Qt.plain_escapes h

theorem stands_read {o : Obj} {q : Media U I} (h : StandsFor qt o q) : fromMessage qt q.msg o = .ok q := by
  refine fromMessage_stands ?_
  cases q with
  | url u => exact h
  | image i =>
    obtain ⟨d, f, h1, h2, h3⟩ := h
    exact ⟨d, f, h1, by rw [latin1_name h2]; exact h3⟩

theorem media_deserialize {n m : Nat} {t : Bytes} {o : Obj} {q : Media U I} (h : Json.deserializeMessage env n m t = (.ok (), o))
    (hq : fromMessage qt m o = .ok q) (ht : t ≠ []) : jsonDeserialize env qt n m t = .ok (some q) := by
  simp only [jsonDeserialize, if_neg ht, jsonRead, Json.readMessage, h, Res.bind_eq, Res.bind, hq]

/-- What is written is a JSON document in which any program finds, under the names of QtCore.proto and QtGui.proto, the text of the URL, or the PNG file of
the image and the name of the format. -/
theorem C127_written_partial (hw : MediaWorld env) {q : Media U I} (hp : Plain env qt q) :
    ∃ N t j o, (∀ n, N ≤ n → jsonSerialize env.toJEnv qt n q = .ok t) ∧ readJson t = some j ∧
      Shows env.toJEnv 0 0 (.msg (Media.Spec.carrier q)) (.msg o) j ∧ Seen qt o q := by
  rw [← C118_schema.2]
  obtain ⟨N, bs, j, g1, g2, g3⟩ := C47_document_partial hw.order hw.prints (exact_printable (media_exact hw) (message_exact hw hp))
  refine ⟨N, bs, j, _, g1, g2, g3, ?_⟩
  cases q with
  | url u => exact ⟨_, rfl, rfl⟩
  | image i => exact ⟨_, _, rfl, rfl, rfl⟩

/-- Whatever JSON document another program writes for a message with the text of a URL, or with an image file in any format, with members in any order and
with white space, members that mean nothing and `null` anywhere, the handler gives the field the URL that Qt parses from the text, or the image that Qt reads
with a codec of the format. -/
theorem C127_read_partial (hw : MediaWorld env) {q : Media U I} {t : Bytes} {o : Obj} (hd : Document env quoteEscape (Media.Spec.carrier q) t o)
    (h : StandsFor qt o q) : ∃ N, ∀ n, N ≤ n → jsonDeserialize env qt n (Media.Spec.carrier q) t = .ok (some q) := by
  rw [← C118_schema.2] at hd ⊢
  obtain ⟨j, h1, h2⟩ := hd
  obtain ⟨N, hN⟩ := document_read hw.library hw.reads hw.order (media_distinct hw) (mediaSch_lists (media_sch hw)) (media_keys hw)
    (fun m i => hw.noNames m i _) h1 h2
  exact ⟨N, fun n hn => media_deserialize (hN n hn) (stands_read h) (Qt.readJson_ne h1)⟩

theorem twin_text {e : Env} {m i n : Nat} {o o' : Obj} {s : Option (List Char)} (h : Qt.Twin e m o o') (hf : (e.sch m)[i]? = some ⟨n, .scalar .string⟩)
    (hv : o[i]? = some (.sc (.str s))) : Qt.textAt o' i = s.getD [] := by
  obtain ⟨v', h1, h2, _⟩ := Qt.twin_at h hf hv
  cases h2 with
  | @sc _ _ a h2 =>
    cases a <;> simp [scalarEq] at h2
    simp [Qt.textAt, h1, h2]

theorem twin_data {e : Env} {m i n : Nat} {o o' : Obj} {s : Option Bytes} (h : Qt.Twin e m o o') (hf : (e.sch m)[i]? = some ⟨n, .scalar .bytes⟩)
    (hv : o[i]? = some (.sc (.bytes s))) : Qt.bytesAt o' i = s.getD [] := by
  obtain ⟨v', h1, h2, _⟩ := Qt.twin_at h hf hv
  cases h2 with
  | @sc _ _ a h2 =>
    cases a <;> simp [scalarEq] at h2
    simp [Qt.bytesAt, h1, h2]

/-- A URL that Qt gets back from its text, or an image that Qt gets back from its PNG file, arrives: the serializer writes a JSON document, and from this
text the deserializer gets the same value. -/
theorem C127_roundtrip_partial (hw : MediaWorld env) {q : Media U I} (hf : Faithful env.toEnv qt q) (hp : Plain env qt q) :
    ∃ N t, (∃ j, readJson t = some j) ∧ ∀ n, N ≤ n → jsonSerialize env.toJEnv qt n q = .ok t ∧
      jsonDeserialize env qt n (Media.Spec.carrier q) t = .ok (some q) := by
  rw [← C118_schema.2]
  have hs := media_sch hw
  have he := message_exact hw hp
  obtain ⟨N, bs, j, g1, g2, g3⟩ := C47_document_partial hw.order hw.prints (exact_printable (media_exact hw) he)
  obtain ⟨v', k1, k2⟩ := exact_back hw.order hw.prints (media_distinct hw) (media_exact hw) he j g3
  cases k1 with
  | @msg _ _ _ ms o' vs a1 a2 a3 a4 a5 a6 a7 =>
  have hmeans : Means env quoteEscape 0 0 (.msg q.msg) (.obj ms) (.msg o') := .msg vs a1 a2 a3 a4 a5 a6 a7
  obtain ⟨N', hN'⟩ := document_read hw.library hw.reads hw.order (media_distinct hw) (mediaSch_lists hs) (media_keys hw)
    (fun m i => hw.noNames m i _) g2 hmeans
  have ht : Qt.Twin env.toEnv q.msg (toMessage qt q) o' := ⟨k2, means_safe hmeans⟩
  have hq : fromMessage qt q.msg o' = .ok q := by
    cases q with
    | url u =>
      have := twin_text (i := 0) (n := 1) ht (by rw [hs]; rfl) rfl
      simp only [fromMessage, Media.msg, this, Option.getD_some, hf.1]
    | image x =>
      have h0 := twin_data (i := 0) (n := 1) ht (by rw [hs]; rfl) rfl
      have h1 := twin_text (i := 1) (n := 2) ht (by rw [hs]; rfl) rfl
      have h2 : cString (latin1 "PNG".toList) = [0x50, 0x4e, 0x47] := by decide
      have hf : qt.load ((qt.save x).getD []) [0x50, 0x4e, 0x47] = x := hf
      simp only [fromMessage, Media.msg, h0, h1, Option.getD_some, h2, hf]
  exact ⟨max N N', bs, ⟨_, g2⟩, fun n hn => ⟨g1 n (by omega), media_deserialize (hN' n (by omega)) hq (Qt.readJson_ne g2)⟩⟩

/-- Whatever the text, reading a URL or an image from it returns, or throws what the JSON library throws. -/
theorem C127_returns (hl : LibraryReturns env) (ho : ValidOrder env.toEnv) (q : Media U I) {n : Nat} {data : Bytes} (hn : data.length < n) :
    (∃ r, jsonDeserialize env qt n (Media.Spec.carrier q) data = .ok r ∧ ∀ q', r = some q' → Media.Spec.carrier q' = Media.Spec.carrier q) ∨
    ∃ e, jsonDeserialize env qt n (Media.Spec.carrier q) data = .throw e ∧ LibraryThrows env e := by
  unfold jsonDeserialize
  split
  · exact .inl ⟨none, rfl, fun _ h => by cases h⟩
  · rcases readMessage_finishes (message_finishes hl ho n (Media.Spec.carrier q) data hn) with ⟨o, h⟩ | ⟨e, h, he⟩
    · cases q with
      | url u =>
        exact .inl ⟨some (.url (qt.parse (Qt.textAt o 0))), by simp only [jsonRead, h, Res.bind_eq, Res.bind]; rfl, by
          intro q' h; cases h; rfl⟩
      | image i =>
        exact .inl ⟨some (.image (qt.load (Qt.bytesAt o 0) (cString (latin1 (Qt.textAt o 1))))), by
          simp only [jsonRead, h, Res.bind_eq, Res.bind]; rfl, by intro q' h; cases h; rfl⟩
    · exact .inr ⟨e, by simp only [jsonRead, h, Res.bind_eq, Res.bind], he⟩

/-! ### Cases -/

def mediaR : REnv := { demoR (fun m => (Media.Spec.proto m).map (·.2.2)) with
  sch := fun m => (Media.Spec.proto m).map fun f => ⟨f.2.1, f.2.2⟩
  ord := fun m => (List.range ((Media.Spec.proto m).map fun f => (⟨f.2.1, f.2.2⟩ : Field)).length).reverse
  jsonName := fun m i => match (Media.Spec.proto m)[i]? with | some f => f.1.toList | none => []
  enumKey := fun _ _ _ => none
  enumValue := fun _ _ _ => none }

theorem mediaR_world : MediaWorld mediaR where
  sch := rfl
  order m := List.reverse_perm _
  names m i f h := by simp only [mediaR, h]
  noEnums _ _ _ := rfl
  noNames _ _ _ := rfl
  ascii t h := ⟨rfl, Qt.qtEnv_ok.2.2 t h⟩
  library := micro_reads rfl rfl rfl rfl
  reads := qt_reads rfl rfl
  prints := ⟨demoJ_numbers.1, demoJ_numbers.2, demoJ_numbers.3⟩

/-- A library that throws for every text it does not understand. -/
def mediaS : REnv :=
  { mediaR with
    objectOf := fun t => guarded (fun p => p.2.2) t (microMembers t)
    entriesOf := fun t => guarded (fun p => p.2.2) t (microMembers t)
    arrayOf := fun t => guarded (fun p => p.2) t (microItems t)
    elementsOf := fun t => guarded (fun p => p.2) t (microItems t) }

/-- Every text. -/
example (data : Bytes) := C127_returns (env := mediaS) (qt := demoQt)
  ⟨fun t => guarded_returns _ t _, fun t => guarded_returns _ t _, fun t => guarded_returns _ t _, fun t => guarded_returns _ t _⟩
  (fun m => mediaR_world.order m) (.image [1]) (Nat.lt_succ_self data.length)

theorem mediaR_plain : Plain mediaR demoQt (.url "http://qt.io".toList) := ⟨by unfold NoEscapes; decide +kernel, by decide +kernel⟩

example := C127_written_partial mediaR_world mediaR_plain
example := C127_roundtrip_partial mediaR_world (show Faithful mediaR.toEnv demoQt (.url "http://qt.io".toList) from ⟨by decide +kernel, mediaR_plain.2⟩) mediaR_plain
example := C127_roundtrip_partial mediaR_world (qt := demoQt) (q := .image [1, 2, 3]) rfl trivial

set_option maxHeartbeats 2000000 in
/-- A JPEG file from another program, with white space. -/
theorem mediaR_document : Document mediaR quoteEscape 1 "{ \"data\" : \"/9g=\", \"format\" : \"jpg\" }".toUTF8.toList
    [.sc (.bytes (some [255, 216])), .sc (.str (some "jpg".toList))] := by
  refine ⟨.obj [([100, 97, 116, 97], .str [47, 57, 103, 61]), ([102, 111, 114, 109, 97, 116], .str [106, 112, 103])], by with_unfolding_all rfl, ?_⟩
  have two : ∀ {i : Nat} {f : Field}, (mediaR.sch 1)[i]? = some f → i = 0 ∧ f = ⟨1, .scalar .bytes⟩ ∨ i = 1 ∧ f = ⟨2, .scalar .string⟩ := by
    intro i f hf
    match i, hf with
    | 0, hf => cases hf; exact Or.inl ⟨rfl, rfl⟩
    | 1, hf => cases hf; exact Or.inr ⟨rfl, rfl⟩
  have h00 : mediaR.fromUtf8 [100, 97, 116, 97] = mediaR.jsonName 1 0 := by decide +kernel
  have h01 : mediaR.fromUtf8 [100, 97, 116, 97] ≠ mediaR.jsonName 1 1 := by decide +kernel
  have h10 : mediaR.fromUtf8 [102, 111, 114, 109, 97, 116] ≠ mediaR.jsonName 1 0 := by decide +kernel
  have h11 : mediaR.fromUtf8 [102, 111, 114, 109, 97, 116] = mediaR.jsonName 1 1 := by decide +kernel
  refine .msg (m' := 1) (fun i => if i = 0 then .sc (.bytes (some [255, 216])) else .sc (.str (some "jpg".toList))) (by with_unfolding_all decide +kernel) ?_ rfl ?_ ?_ ?_ ?_
  · intro q hq
    simp only [List.mem_cons, List.not_mem_nil, or_false] at hq
    rcases hq with rfl | rfl <;> (unfold NoEscapes; decide +kernel)
  · intro i f hf h
    rcases two hf with ⟨rfl, rfl⟩ | ⟨rfl, rfl⟩
    · exact absurd h00 (h _ List.mem_cons_self)
    · exact absurd h11 (h _ (List.mem_cons_of_mem _ List.mem_cons_self))
  · intro i f name hf h
    simp at h
  · intro i f name j hf h e _
    simp only [List.mem_cons, List.not_mem_nil, or_false, Prod.mk.injEq] at h
    rcases h with ⟨rfl, rfl⟩ | ⟨rfl, rfl⟩ <;> rcases two hf with ⟨rfl, rfl⟩ | ⟨rfl, rfl⟩
    · exact .sc ⟨_, _, rfl, rfl, by decide +kernel⟩
    · exact absurd e h01
    · exact absurd e h10
    · exact .sc ⟨_, "jpg".toList, rfl, rfl, [106, 112, 103],
        .plain (by decide) (by decide) (by decide) (.plain (by decide) (by decide) (by decide) (.plain (by decide) (by decide) (by decide) .nil)), by decide +kernel⟩
  · intro i f name j hf h e _
    rcases two hf with ⟨rfl, rfl⟩ | ⟨rfl, rfl⟩ <;> rfl

example := C127_read_partial mediaR_world (qt := demoQt) (q := .image [255, 216]) mediaR_document ⟨_, _, ⟨_, _, rfl, rfl, rfl⟩, by unfold Name; decide, rfl⟩

/-- The texts of a URL and of an image. -/
example : jsonSerialize mediaR.toJEnv demoQt 3 (.url "http://qt.io".toList) = .ok "{\"url\":\"http://qt.io\"}".toUTF8.toList ∧
    jsonSerialize mediaR.toJEnv demoQt 3 (.image [1, 2, 3]) = .ok "{\"format\":\"PNG\",\"data\":\"iQECAw==\"}".toUTF8.toList :=
  ⟨by decide +kernel, by decide +kernel⟩

end QtPb.Media
