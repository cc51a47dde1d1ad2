import Verif.SpecQtMedia
import Verif.PropsQtPeers
import Verif.PropsOwn
/-
C118: URLs and images in fields of messages.
-/
namespace QtPb.Media
open QtPb QtPb.Spec Media.Spec

variable {env : Env} {U I : Type} {qt : Qt U I}

/-- The message types used for URLs and images are those of QtCore.proto and QtGui.proto. -/
theorem C118_schema : (mediaSch = fun m => (Media.Spec.proto m).map fun f => ⟨f.2.1, f.2.2⟩) ∧ ∀ q : Media U I, q.msg = Media.Spec.carrier q := by
  refine ⟨?_, fun q => by cases q <;> rfl⟩
  funext m
  match m with
  | 0 | 1 => rfl
  | _ + 2 => rfl

theorem mediaSch_fields {P : FieldTy → Prop} (hs : env.sch = mediaSch) (h1 : P (.scalar .string)) (h2 : P (.scalar .bytes)) (m : Nat) : ∀ f ∈ env.sch m, P f.ty := by
  rw [hs]
  match m with
  | 0 => simpa [mediaSch] using h1
  | 1 => simpa [mediaSch] using ⟨h2, h1⟩
  | _ + 2 => simp [mediaSch]

theorem mediaSch_valid (hs : env.sch = mediaSch) : ValidSchema env := by
  intro m
  rw [hs]
  match m with
  | 0 => simp [mediaSch]
  | 1 => simp [mediaSch]
  | _ + 2 => simp [mediaSch]

theorem mediaSch_acyclic (hs : env.sch = mediaSch) : Acyclic env fun _ => 0 := fun m =>
  mediaSch_fields (P := fun ty => ∀ m', ty = .msg m' → 0 < 0) hs (fun _ h => nomatch h) (fun _ h => nomatch h) m

theorem mediaSch_lists (hs : env.sch = mediaSch) : NoRepeatedBool env := fun m => mediaSch_fields (P := fun ty => ty ≠ .list .bool) hs (by simp) (by simp) m

theorem toMessage_typed (hs : env.sch = mediaSch) (q : Media U I) : WellTyped env q.msg (toMessage qt q) := by
  cases q with
  | url u =>
    refine .msg (by rw [hs]; rfl) fun i f v hf hv => ?_
    rw [hs] at hf
    match i with
    | 0 => cases hf; cases hv; exact .sc rfl
    | _ + 1 => simp [mediaSch, Media.msg] at hf
  | image x =>
    refine .msg (by rw [hs]; rfl) fun i f v hf hv => ?_
    rw [hs] at hf
    match i with
    | 0 => cases hf; cases hv; exact .sc rfl
    | 1 => cases hf; cases hv; exact .sc rfl
    | _ + 2 => simp [mediaSch, Media.msg] at hf

theorem pngName (h : ∀ t : List Char, (∀ c ∈ t, c.toNat < 128) → env.fromUtf8 (env.toUtf8 t) = t) : env.fromUtf8 (env.toUtf8 "PNG".toList) = "PNG".toList :=
  h _ (by decide)

/-- What a reader finds in the bytes that were written. -/
theorem delivered_seen (hs : env.sch = mediaSch) (ha : ∀ t : List Char, (∀ c ∈ t, c.toNat < 128) → env.fromUtf8 (env.toUtf8 t) = t) {q : Media U I}
    (hq : ∀ u, q = .url u → env.fromUtf8 (env.toUtf8 (qt.print u)) = qt.print u) {o : Obj}
    (h : Ref.Delivered env (.msg q.msg) (.msg (toMessage qt q)) (.msg o)) : Seen qt o q := by
  cases q with
  | url u =>
    cases h with
    | msg hl h =>
      rw [hs] at hl h
      match o, hl with
      | [y], _ =>
        have h0 := h 0 _ _ y rfl rfl rfl
        cases h0
        exact ⟨_, rfl, by simpa [entryScalar, isAbsent, transmitted] using hq u rfl⟩
  | image x =>
    cases h with
    | msg hl h =>
      rw [hs] at hl h
      match o, hl with
      | [y, z], _ =>
        have h0 := h 0 _ _ y rfl rfl rfl
        have h1 := h 1 _ _ z rfl rfl rfl
        cases h0
        cases h1
        have e : ∃ b, entryScalar env (.bytes (qt.save x)) = .bytes b ∧ b.getD [] = (qt.save x).getD [] := by
          cases qt.save x with
          | none => exact ⟨none, rfl, rfl⟩
          | some b => exact ⟨some b, rfl, rfl⟩
        obtain ⟨b, e1, e2⟩ := e
        refine ⟨b, some "PNG".toList, ?_, e2, rfl⟩
        have e3 : entryScalar env (.str (some "PNG".toList)) = .str (some "PNG".toList) := by
          show Scalar.str (some (env.fromUtf8 (env.toUtf8 (Option.getD (some "PNG".toList) [])))) = _
          rw [Option.getD_some, pngName ha]
        rw [e1, e3]

/-- The value that a message stands for. -/
def standsFor (qt : Qt U I) (o : Obj) : Media U I → Prop
  | .url u => ∃ t, IsUrl o t ∧ qt.parse t = u
  | .image i => ∃ d f, IsFile o d f ∧ qt.load d (cString (latin1 f)) = i

theorem fromMessage_stands {o : Obj} {q : Media U I} (h : standsFor qt o q) : fromMessage qt q.msg o = .ok q := by
  cases q with
  | url u =>
    obtain ⟨t, ⟨s, rfl, rfl⟩, rfl⟩ := h
    rfl
  | image i =>
    obtain ⟨d, f, ⟨b, s, rfl, rfl, rfl⟩, rfl⟩ := h
    rfl

theorem stands_agrees (hs : env.sch = mediaSch) {q : Media U I} {o o2 : Obj} (ha : Agrees env (.msg q.msg) (.msg o2) (.msg o)) (h : standsFor qt o q) :
    standsFor qt o2 q := by
  have str : ∀ {a : Scalar} {s : Option (List Char)}, a = .str s ∨ scalarEq .string a (.str s) = true → ∃ s' : Option (List Char), a = .str s' ∧ s'.getD [] = s.getD [] := by
    rintro a s (rfl | h)
    · exact ⟨s, rfl, rfl⟩
    · cases a <;> simp [scalarEq] at h
      exact ⟨_, rfl, h⟩
  have byt : ∀ {a : Scalar} {s : Option Bytes}, a = .bytes s ∨ scalarEq .bytes a (.bytes s) = true → ∃ s' : Option Bytes, a = .bytes s' ∧ s'.getD [] = s.getD [] := by
    rintro a s (rfl | h)
    · exact ⟨s, rfl, rfl⟩
    · cases a <;> simp [scalarEq] at h
      exact ⟨_, rfl, h⟩
  cases q with
  | url u =>
    obtain ⟨t, ⟨s, rfl, rfl⟩, hu⟩ := h
    cases ha with
    | msg hl _ ha =>
      rw [hs] at hl ha
      match o2, hl with
      | [y], _ =>
        have h0 := ha 0 _ y _ rfl rfl rfl
        cases h0 with
        | sc h0 =>
          obtain ⟨s', rfl, e⟩ := str h0
          exact ⟨_, ⟨s', rfl, e⟩, hu⟩
  | image x =>
    obtain ⟨d, f, ⟨b, s, rfl, rfl, rfl⟩, hu⟩ := h
    cases ha with
    | msg hl _ ha =>
      rw [hs] at hl ha
      match o2, hl with
      | [y, z], _ =>
        have h0 := ha 0 _ y _ rfl rfl rfl
        have h1 := ha 1 _ z _ rfl rfl rfl
        cases h0 with
        | sc h0 =>
          cases h1 with
          | sc h1 =>
            obtain ⟨b', rfl, e⟩ := byt h0
            obtain ⟨s', rfl, e'⟩ := str h1
            exact ⟨_, _, ⟨b', s', rfl, e, e'⟩, hu⟩

theorem latin1_name {f : List Char} (h : Name f) : cString (latin1 f) = f.map fun c => UInt8.ofNat c.toNat := by
  induction f with
  | nil => rfl
  | cons c f ih =>
    have hc := h c (List.mem_cons_self ..)
    have ih := ih fun d hd => h d (List.mem_cons_of_mem _ hd)
    have hz : UInt8.ofNat c.toNat ≠ 0 := by
      intro e
      have := congrArg UInt8.toNat e
      simp at this
      omega
    rw [latin1, if_pos (by omega)]
    simp only [cString, List.cons_append, List.nil_append, List.map_cons] at ih ⊢
    rw [List.takeWhile_cons, if_pos (by simp [hz]), ih]

theorem seen_stands {q : Media U I} (hf : Faithful env qt q) {o : Obj} (h : Seen qt o q) : standsFor qt o q := by
  cases q with
  | url u => exact ⟨_, h, hf.1⟩
  | image i => exact ⟨_, _, h, hf⟩

/-- Reading a message that another implementation wrote. -/
theorem read_stands (hs : env.sch = mediaSch) {q : Media U I} {len body : Bytes} {o : Obj} {d : Nat}
    (hu : Usual env d q.msg body) (hd : Ref.decode env q.msg body = some o) (h : standsFor qt o q) (hl : Varint len body.length)
    {pre rest : Bytes} (hlen : (pre ++ (len ++ body) ++ rest).length < 2 ^ 31) {k : Nat} (hk : body.length < k) :
    handlerDeserialize env qt k q.msg ⟨pre ++ (len ++ body) ++ rest, pre.length⟩ =
      .ok (q, ⟨pre ++ (len ++ body) ++ rest, pre.length + (len ++ body).length⟩) := by
  have hbl : body.length < 2 ^ 31 := by simp only [List.length_append] at hlen; omega
  obtain ⟨o2, o1, h1, h2, h3⟩ := C67_usual_partial (mediaSch_valid hs) hu hbl hk
  rw [hd] at h2
  cases h2
  have h4 := fromMessage_stands (stands_agrees hs h3 h)
  have hat : At ⟨pre ++ (len ++ body) ++ rest, pre.length⟩ (len ++ body ++ rest) := by
    refine ⟨hlen, by simp only [List.length_append]; omega, ?_⟩
    simp [It.rest]
  have hd := deserializeObject_of (n := k) (rec := deserializeMessage env k)
    (Sub := fun m b o => m = q.msg ∧ b = body ∧ o = o2) (by
      rintro m b o ⟨rfl, rfl, rfl⟩ _ _
      exact h1) (m := q.msg) hl ⟨rfl, rfl, rfl⟩ hat hk
  simp only [handlerDeserialize, hd, Res.bind_eq, Res.bind, h4]

/-! ### Theorems -/

/-- C118, what is written: for every URL whose text survives UTF-8 and every image, the library writes a tag, a length and a message in which any protobuf
implementation finds the text of the URL, or the PNG file of the image and the name of the format.
Partial: messages of less than 2 GB. -/
theorem C118_written_partial (hs : env.sch = mediaSch) (ho : ValidOrder env)
    (ha : ∀ t : List Char, (∀ c ∈ t, c.toNat < 128) → env.fromUtf8 (env.toUtf8 t) = t)
    {q : Media U I} (hq : ∀ u, q = .url u → env.fromUtf8 (env.toUtf8 (qt.print u)) = qt.print u) {num : Nat} (hn : 1 ≤ num ∧ num < 2 ^ 29) :
    ∃ N tag len body, (∀ n, N ≤ n → handlerSerialize env qt n num q = .ok (tag ++ len ++ body)) ∧ Tag tag num 2 ∧
      (body.length < 2 ^ 31 → Varint len body.length ∧ ∃ o, Ref.decode env q.msg body = some o ∧ Seen qt o q) := by
  obtain ⟨N, body, hb⟩ := C20_serialize_terminates_partial (mediaSch_acyclic hs) (mediaSch_lists hs) (toMessage_typed (qt := qt) hs q)
  refine ⟨N, encodeHeader num wtLengthDelimited, serializeVarintCommon 32 body.length, body, ?_, encodeHeader_tag hn.1 hn.2 (by decide), ?_⟩
  · intro n hN
    simp only [handlerSerialize, hb n hN, Res.bind_eq, Res.bind, List.append_assoc]
    rfl
  · intro hl
    obtain ⟨o', e1, e2⟩ := C21_reference_exact (mediaSch_valid hs) ho (toMessage_typed hs q) (hb N (Nat.le_refl _)) hl
    exact ⟨prepend_varint (by omega), o', e1, delivered_seen hs ha hq e2⟩

/-- C118, URLs from other programs: whenever an encoder writes the message of a URL with some text in one of the usual ways, the library gives the field
the URL that Qt parses from this text, whatever stands before and after the bytes, and stops exactly behind them. -/
theorem C118_url_partial (hs : env.sch = mediaSch) {text : List Char} {len body : Bytes} {o : Obj} {d : Nat}
    (hu : Usual env d 0 body) (hd : Ref.decode env 0 body = some o) (h : IsUrl o text) (hl : Varint len body.length)
    {pre rest : Bytes} (hlen : (pre ++ (len ++ body) ++ rest).length < 2 ^ 31) {k : Nat} (hk : body.length < k) :
    handlerDeserialize env qt k 0 ⟨pre ++ (len ++ body) ++ rest, pre.length⟩ =
      .ok (.url (qt.parse text), ⟨pre ++ (len ++ body) ++ rest, pre.length + (len ++ body).length⟩) :=
  read_stands (q := .url (qt.parse text)) hs hu hd ⟨text, h, rfl⟩ hl hlen hk

/-- C118, images from other programs, in any format: the library gives the field the image that Qt reads from the file with a codec of this format.
Partial: names of formats in ASCII. -/
theorem C118_image_partial (hs : env.sch = mediaSch) {data : Bytes} {format : List Char} {len body : Bytes} {o : Obj} {d : Nat}
    (hu : Usual env d 1 body) (hd : Ref.decode env 1 body = some o) (h : IsFile o data format) (hf : Name format) (hl : Varint len body.length)
    {pre rest : Bytes} (hlen : (pre ++ (len ++ body) ++ rest).length < 2 ^ 31) {k : Nat} (hk : body.length < k) :
    handlerDeserialize env qt k 1 ⟨pre ++ (len ++ body) ++ rest, pre.length⟩ =
      .ok (.image (qt.load data (format.map fun c => UInt8.ofNat c.toNat)), ⟨pre ++ (len ++ body) ++ rest, pre.length + (len ++ body).length⟩) :=
  read_stands (q := .image (qt.load data (format.map fun c => UInt8.ofNat c.toNat))) hs hu hd ⟨data, format, h, by rw [latin1_name hf]⟩ hl hlen hk

/-- C118, round trip: a URL that Qt gets back from its text, or an image that Qt gets back from its PNG file, arrives: the serializer writes a tag and then bytes
from which the deserializer, whatever stands before and after them, gets the same value, and stops exactly behind them. -/
theorem C118_wire_roundtrip_partial (hs : env.sch = mediaSch) (ho : ValidOrder env)
    (ha : ∀ t : List Char, (∀ c ∈ t, c.toNat < 128) → env.fromUtf8 (env.toUtf8 t) = t)
    {q : Media U I} (hf : Faithful env qt q) {num : Nat} (hn : 1 ≤ num ∧ num < 2 ^ 29) :
    ∃ N tag bs, Tag tag num 2 ∧ (∀ n, N ≤ n → handlerSerialize env qt n num q = .ok (tag ++ bs)) ∧
      ∀ pre rest : Bytes, (pre ++ bs ++ rest).length < 2 ^ 31 → ∀ k, bs.length < k →
        handlerDeserialize env qt k q.msg ⟨pre ++ bs ++ rest, pre.length⟩ = .ok (q, ⟨pre ++ bs ++ rest, pre.length + bs.length⟩) := by
  have ht := toMessage_typed (qt := qt) hs q
  obtain ⟨N, body, hb⟩ := C20_serialize_terminates_partial (mediaSch_acyclic hs) (mediaSch_lists hs) ht
  refine ⟨N, encodeHeader num wtLengthDelimited, prependLengthDelimitedSize body, encodeHeader_tag hn.1 hn.2 (by decide), ?_, ?_⟩
  · intro n hN
    simp only [handlerSerialize, hb n hN, Res.bind_eq, Res.bind]
    rfl
  · intro pre rest hlen k hk
    simp only [prependLengthDelimitedSize] at hlen hk ⊢
    have hbl : body.length < 2 ^ 31 := by simp only [List.length_append] at hlen; omega
    obtain ⟨d, hu⟩ := C79_usual (mediaSch_valid hs) ho ht (hb N (Nat.le_refl _)) hbl
    obtain ⟨o', e1, e2⟩ := C21_reference_exact (mediaSch_valid hs) ho ht (hb N (Nat.le_refl _)) hbl
    exact read_stands hs hu e1 (seen_stands hf (delivered_seen hs ha (by rintro u rfl; exact hf.2) e2)) (prepend_varint (by omega)) hlen
      (by simp only [List.length_append] at hk; omega)

/-- C118, images that are passed on: the claim that a program which reads an image and writes it again writes what it got fails for every image in another
format than PNG, with every codec: the format that is written is PNG. -/
theorem C118_resent_violated {data : Bytes} {format : List Char} (hf : format ≠ ['P', 'N', 'G']) :
    ∃ q, fromMessage qt 1 [.sc (.bytes (some data)), .sc (.str (some format))] = .ok q ∧ ¬ IsFile (toMessage qt q) data format := by
  refine ⟨_, rfl, ?_⟩
  rintro ⟨b, s, h, -, h2⟩
  cases h
  exact hf h2.symm

/-! ### A concrete case -/

def demo : Env where
  sch := mediaSch
  ord := fun m => match m with
    | 0 => [0]
    | 1 => [1, 0]
    | _ => []
  toUtf8 := demoEnv.toUtf8
  fromUtf8 := demoEnv.fromUtf8

/-- URLs are texts in lower case; images are bytes, and their PNG files begin with 137. -/
def demoQt : Qt (List Char) Bytes where
  parse := List.map Char.toLower
  print := id
  save := fun i => some (137 :: i)
  load := fun d f => if f = [0x50, 0x4e, 0x47] then d.drop 1 else d

example : demo.sch = mediaSch ∧ ValidOrder demo ∧ Faithful demo demoQt (.url "http://qt.io".toList) ∧ Faithful demo demoQt (.image [1, 2, 3]) ∧
    Name "jpg".toList := by
  refine ⟨rfl, fun m => ?_, ⟨by decide, by decide⟩, rfl, by unfold Name; decide⟩
  match m with
  | 0 => exact List.Perm.refl _
  | 1 => exact List.Perm.swap 0 1 []
  | _ + 2 => exact List.Perm.refl _

/-- Text in ASCII survives, as Qt's conversions guarantee. -/
example : ∀ t : List Char, (∀ c ∈ t, c.toNat < 128) → demo.fromUtf8 (demo.toUtf8 t) = t := by
  intro t h
  induction t with
  | nil => rfl
  | cons c t ih =>
    have hc := h c (List.mem_cons_self ..)
    have := ih fun d hd => h d (List.mem_cons_of_mem _ hd)
    simp only [demo, demoEnv, List.map_cons, List.map_map] at this ⊢
    rw [this]
    congr 1
    have : (UInt8.ofNat c.toNat).toNat = c.toNat := by simp; omega
    rw [this, Char.ofNat_toNat]

/-- A JPEG file from another program, in the other order of the fields, as field 3. -/
example : handlerDeserialize demo demoQt 20 1 ⟨[0x1a, 9, 0x12, 3, 106, 112, 103, 0x0a, 2, 255, 216], 1⟩ =
    .ok (.image [255, 216], ⟨[0x1a, 9, 0x12, 3, 106, 112, 103, 0x0a, 2, 255, 216], 11⟩) := by rfl

end QtPb.Media
