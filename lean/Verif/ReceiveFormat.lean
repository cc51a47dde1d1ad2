import Verif.ReceivePrefix
/-
The encodings of the wire format are among the inputs that `SpecReceive` says are accepted, with the same contents.
-/
namespace QtPb
open Spec

variable {env : Env}

theorem tag_get {hdr : Bytes} {num wt : Nat} (h : Tag hdr num wt) (hw : wt < 8) (post : Bytes) :
    GetVarint (hdr ++ post) (.value (num * 8 + wt) post) ∧ (num * 8 + wt) % 8 = wt ∧ (num * 8 + wt) % 2 ^ 32 / 8 = num := by
  obtain ⟨h1, h2, h3⟩ := h
  refine ⟨.value h1, by omega, ?_⟩
  rw [Nat.mod_eq_of_lt (by omega)]
  omega

theorem knownWireType_lt {wt : Nat} (h : KnownWireType wt) : wt < 8 := by
  unfold KnownWireType at h
  omega

theorem wireType_known (k : Kind) : KnownWireType (wireType k) := by
  cases k <;> simp [wireType, KnownWireType]

theorem body_get {l body : Bytes} (h : Varint l body.length) (h31 : body.length < 2 ^ 31) (post : Bytes) :
    GetBody (l ++ body ++ post) (.value body post) := by
  have h2 : body.length % 2 ^ 32 = body.length := Nat.mod_eq_of_lt (by omega)
  rw [List.append_assoc]
  exact .read (.value h) (by omega) (.value h2.symm)

theorem readsAll_steps {k : Kind} {body : Bytes} {vs : List Scalar} (h : ReadsAll env k body vs) (h31 : body.length < 2 ^ 31)
    (acc : List Scalar) (done stop : Nat) (hstop : stop = done + body.length) (post : Bytes) :
    GetSteps (GetElement env k) stop done acc (body ++ post) (.value (acc ++ vs) post) := by
  induction h generalizing acc done with
  | nil =>
    simp only [List.length_nil] at hstop
    obtain rfl : stop = done := by omega
    simpa using GetSteps.stop
  | @cons b bs s l hb _ ih =>
    simp only [List.length_append] at hstop h31
    have h1 := reads_scalar hb (by omega) (bs ++ post)
    have hpos := getScalar_pos h1
    simp only [List.length_append] at hpos
    rw [List.append_assoc]
    refine .step (by omega) (.next (g := .value s _) h1) ?_
    have h2 := ih (by omega) (acc ++ [s]) (done + b.length) (by omega)
    simp only [List.length_append, List.append_assoc, List.singleton_append] at h2 ⊢
    have e : b.length + (bs.length + post.length) - (bs.length + post.length) = b.length := by omega
    rw [e]
    exact h2

theorem readsEnums_steps {body : Bytes} {vs : List (BitVec 32)} (h : ReadsEnums body vs)
    (acc : List (BitVec 32)) (done stop : Nat) (hstop : stop = done + body.length) (post : Bytes) :
    GetSteps GetNumber stop done acc (body ++ post) (.value (acc ++ vs) post) := by
  induction h generalizing acc done with
  | nil =>
    simp only [List.length_nil] at hstop
    obtain rfl : stop = done := by omega
    simpa using GetSteps.stop
  | @cons b bs s l hb _ ih =>
    simp only [List.length_append] at hstop
    obtain ⟨n, hv, rfl⟩ := hb
    have h1 : GetVarint (b ++ (bs ++ post)) (.value n (bs ++ post)) := .value hv
    have hpos := getVarint_pos h1
    simp only [List.length_append] at hpos
    rw [List.append_assoc]
    refine .step (by omega) (.next (g := .value n _) h1) ?_
    have h2 := ih (acc ++ [.ofNat 32 n]) (done + b.length) (by omega)
    simp only [List.length_append, List.append_assoc, List.singleton_append] at h2 ⊢
    have e : b.length + (bs.length + post.length) - (bs.length + post.length) = b.length := by omega
    rw [e]
    exact h2

section
variable {Sub : Nat → Bytes → Obj → Prop} {Sub' : Nat → Bytes → Obj → Option Trouble → Prop}
  (hs : ∀ m body o, body.length < 2 ^ 31 → Sub m body o → Sub' m body o none)
include hs

theorem mapValue_get {vt : MapVal} {wt : Nat} {b : Bytes} {v : Val} (h : ReadsMapVal env Sub vt wt b v) (h31 : b.length < 2 ^ 31)
    (post : Bytes) : GetMapValue env Sub' vt (b ++ post) (.value v post) ∧ KnownWireType wt := by
  cases h with
  | scalar h => exact ⟨.scalar (g := .value _ _) (reads_scalar h h31 post), wireType_known _⟩
  | enum h =>
    obtain ⟨n, hv, rfl⟩ := h
    exact ⟨.enum (g := .value _ _) (.value hv), .inl rfl⟩
  | msg hl h =>
    simp only [List.length_append] at h31
    exact ⟨.msg (g := .value _ _) (.value (body_get hl (by omega) post) (hs _ _ _ (by omega) h)), .inr (.inr (.inl rfl))⟩

theorem entry_steps {kk : Kind} {vt : MapVal} {body : Bytes} {kv kv' : Scalar × Val} (h : Entry env Sub kk vt body kv kv')
    (h31 : body.length < 2 ^ 31) (done stop : Nat) (hstop : stop = done + body.length) (post : Bytes) :
    GetSteps (GetPart env Sub' kk vt) stop done kv (body ++ post) (.value kv' post) := by
  induction h generalizing done with
  | nil =>
    simp only [List.length_nil] at hstop
    obtain rfl : stop = done := by omega
    exact .stop
  | @key hdr b bs s kv kv' ht hb _ ih =>
    simp only [List.length_append] at hstop h31
    obtain ⟨h1, h2, h3⟩ := tag_get ht (knownWireType_lt (wireType_known kk)) (b ++ (bs ++ post))
    have h4 := reads_scalar hb (by omega) (bs ++ post)
    have hpos := getVarint_pos h1
    simp only [List.length_append] at hpos
    rw [show hdr ++ b ++ bs ++ post = hdr ++ (b ++ (bs ++ post)) by simp]
    refine .step (by omega) (.key (g := .value s _) h1 h3 h4) ?_
    have h5 := ih (by omega) (done + (hdr.length + b.length)) (by omega)
    simp only [List.length_append] at h5 ⊢
    have e : hdr.length + (b.length + (bs.length + post.length)) - (bs.length + post.length) = hdr.length + b.length := by omega
    rw [e]
    exact h5
  | @val hdr b bs wt v kv kv' ht hb _ ih =>
    simp only [List.length_append] at hstop h31
    obtain ⟨h4, hwt⟩ := mapValue_get hs hb (by omega) (bs ++ post)
    obtain ⟨h1, h2, h3⟩ := tag_get ht (knownWireType_lt hwt) (b ++ (bs ++ post))
    have hpos := getVarint_pos h1
    simp only [List.length_append] at hpos
    rw [show hdr ++ b ++ bs ++ post = hdr ++ (b ++ (bs ++ post)) by simp]
    refine .step (by omega) (.value (g := .value v _) h1 (by omega) h4) ?_
    have h5 := ih (by omega) (done + (hdr.length + b.length)) (by omega)
    simp only [List.length_append] at h5 ⊢
    have e : hdr.length + (b.length + (bs.length + post.length)) - (bs.length + post.length) = hdr.length + b.length := by omega
    rw [e]
    exact h5

theorem fieldEffect_get {ty : FieldTy} {wt : Nat} {b : Bytes} {old new : Val} (h : FieldEffect env Sub ty wt b old new)
    (h31 : b.length < 2 ^ 31) (post : Bytes) : GetValue env Sub' ty old (b ++ post) (.value new post) ∧ KnownWireType wt := by
  have many : ∀ {σ : Type} {Step : σ → Bytes → Got σ → Prop} {s s' : σ} {l body : Bytes}, Varint l body.length →
      body.length < 2 ^ 31 → GetSteps Step body.length 0 s (body ++ post) (.value s' post) →
      GetMany Step s (l ++ body ++ post) (.value s' post) := by
    intro σ Step s s' l body hl hb h
    have h2 : body.length % 2 ^ 32 = body.length := Nat.mod_eq_of_lt (by omega)
    rw [List.append_assoc]
    exact .read (.value hl) (by omega) (by simp; omega) (by rwa [h2])
  cases h with
  | scalar _ h => exact ⟨.scalar (g := .value _ _) (reads_scalar h h31 post), wireType_known _⟩
  | enum _ h =>
    obtain ⟨n, hv, rfl⟩ := h
    exact ⟨.enum (g := .value _ _) (.value hv), .inl rfl⟩
  | append _ hk h => exact ⟨.append (g := .value _ _) hk (reads_scalar h h31 post), .inr (.inr (.inl rfl))⟩
  | packed _ hk hl h =>
    simp only [List.length_append] at h31
    refine ⟨.packed (g := .value _ _) hk (many hl (by omega) ?_), .inr (.inr (.inl rfl))⟩
    simpa using readsAll_steps h (by omega) [] 0 _ (by simp) post
  | enums _ hl h =>
    simp only [List.length_append] at h31
    exact ⟨.enums (g := .value _ _) (many hl (by omega) (readsEnums_steps h _ 0 _ (by simp) post)), .inr (.inr (.inl rfl))⟩
  | msg _ hl h =>
    simp only [List.length_append] at h31
    exact ⟨.msg (g := .value _ _) (.value (body_get hl (by omega) post) (hs _ _ _ (by omega) h)), .inr (.inr (.inl rfl))⟩
  | msgList _ hl h =>
    simp only [List.length_append] at h31
    exact ⟨.msgList (g := .value _ _) (.value (body_get hl (by omega) post) (hs _ _ _ (by omega) h)), .inr (.inr (.inl rfl))⟩
  | map _ hl h =>
    simp only [List.length_append] at h31
    exact ⟨.map (g := .value _ _) (many hl (by omega) (entry_steps hs h (by omega) 0 _ (by simp) post)), .inr (.inr (.inl rfl))⟩

omit hs in
theorem skippable_get {wt : Nat} {b : Bytes} (h : Skippable wt b) (h31 : b.length < 2 ^ 31) (post : Bytes) :
    GetSkipped wt (b ++ post) (.value () post) ∧ KnownWireType wt := by
  cases h with
  | varint hv => exact ⟨.varint hv, .inl rfl⟩
  | fixed32 hb => exact ⟨.fixed (.inl ⟨rfl, rfl⟩) hb, .inr (.inr (.inr rfl))⟩
  | fixed64 hb => exact ⟨.fixed (.inr ⟨rfl, rfl⟩) hb, .inr (.inl rfl)⟩
  | @delimited l body hl =>
    simp only [List.length_append] at h31
    have h2 : body.length % 2 ^ 32 = body.length := Nat.mod_eq_of_lt (by omega)
    rw [List.append_assoc]
    exact ⟨.body (.value hl) h2.symm (by omega), .inr (.inr (.inl rfl))⟩

theorem stream_get {m : Nat} {bs : Bytes} {o o' : Obj} (h : Stream env Sub m bs o o') (h31 : bs.length < 2 ^ 31) :
    GetRecords env Sub' m o bs o' none := by
  induction h with
  | nil => exact .done
  | @known hdr payload rest wt i f o o' old new hf ht ho h _ ih =>
    simp only [List.length_append] at h31
    obtain ⟨h4, hwt⟩ := fieldEffect_get hs h (by omega) rest
    obtain ⟨h1, h2, h3⟩ := tag_get ht (knownWireType_lt hwt) (payload ++ rest)
    rw [List.append_assoc]
    refine .record ?_ (.known (g := .value new rest) h1 (by rwa [h2]) hf h3.symm ho h4) (ih (by omega))
    intro he
    have := getVarint_pos h1
    rw [he] at this
    simp at this
  | @unknown hdr payload rest num wt o o' hn ht h _ ih =>
    simp only [List.length_append] at h31
    obtain ⟨h4, hwt⟩ := skippable_get h (by omega) rest
    obtain ⟨h1, h2, h3⟩ := tag_get ht (knownWireType_lt hwt) (payload ++ rest)
    rw [List.append_assoc]
    refine .record ?_ (.unknown (g := .value () rest) h1 (by rwa [h2]) (by rw [h3]; have := ht.2.1; omega) (by rwa [h3])
      (by rwa [h2])) (ih (by omega))
    intro he
    have := getVarint_pos h1
    rw [he] at this
    simp at this

end

/-- An encoding of a message is received as it. -/
theorem message_received {d m : Nat} {bs : Bytes} {o : Obj} (h : Message env d m bs o) (h31 : bs.length < 2 ^ 31) :
    Received env d m bs o none := by
  induction d generalizing m bs o with
  | zero => exact h.elim
  | succ d ih => exact stream_get (fun m body o hb h => ih h hb) h h31

end QtPb
