import Verif.Http2
import Verif.SpecHttp2
/-
Lemmas about the framing of the HTTP/2 channel.
-/
namespace QtPb.Http2
open Spec

/-- Number of bytes that the frames of `ms` take. -/
def total (ms : List Bytes) : Nat := (ms.map fun m => m.length + 5).sum

@[simp] theorem total_nil : total [] = 0 := rfl
@[simp] theorem total_cons (m : Bytes) (ms : List Bytes) : total (m :: ms) = m.length + 5 + total ms := by
  simp [total]
@[simp] theorem total_append (a b : List Bytes) : total (a ++ b) = total a + total b := by
  simp [total]

theorem fromBigEndian_eq {b0 b1 b2 b3 : UInt8} {n : Nat}
    (h : n = ((b0.toNat * 256 + b1.toNat) * 256 + b2.toNat) * 256 + b3.toNat) (hn : n < 2 ^ 31) :
    qFromBigEndian b0 b1 b2 b3 = n := by
  have e : b0.toNat * 2 ^ 24 + b1.toNat * 2 ^ 16 + b2.toNat * 2 ^ 8 + b3.toNat = n := by omega
  unfold qFromBigEndian
  rw [e, BitVec.toInt_eq_toNat_of_lt]
  · rw [BitVec.toNat_ofNat]; omega
  · rw [BitVec.toNat_ofNat]; omega

theorem expected_of {m size x : Bytes} {t : UInt8} (hs : BigEndian size m.length) (hm : Small m) :
    getExpectedDataSize (t :: (size ++ x)) = .ok ((m.length : Int) + 5) := by
  obtain ⟨b0, b1, b2, b3, rfl, h⟩ := hs
  unfold Small at hm
  have := fromBigEndian_eq h (by omega)
  simp only [getExpectedDataSize, List.cons_append, List.nil_append, List.drop_succ_cons, List.drop_zero, this]
  rw [if_pos (by omega)]

theorem frame_length {m f : Bytes} (h : IsFrame m f) : f.length = m.length + 5 := by
  obtain ⟨size, ⟨b0, b1, b2, b3, rfl, _⟩, rfl⟩ := h
  simp

theorem stream_length {ms : List Bytes} {bs : Bytes} (h : IsStream ms bs) : bs.length = total ms := by
  induction h with
  | nil => rfl
  | cons hf _ ih => simp [frame_length hf, ih]

/-- At least five bytes of a frame tell its size. -/
theorem expected_prefix {m f s buf rest : Bytes} (hf : IsFrame m f) (hm : Small m) (h : buf ++ rest = f ++ s)
    (h5 : 5 ≤ buf.length) : getExpectedDataSize buf = .ok ((m.length : Int) + 5) := by
  obtain ⟨size, hsize, rfl⟩ := hf
  have h4 : size.length = 4 := by obtain ⟨b0, b1, b2, b3, rfl, _⟩ := hsize; rfl
  have : buf = 0 :: (size ++ buf.drop 5) := by
    have h1 : buf.take 5 = ([0] ++ size) := by
      have := congrArg (List.take 5) h
      rw [List.take_append_of_le_length h5] at this
      rw [this, List.append_assoc, List.take_append_of_le_length (by simp [h4])]
      rw [List.take_of_length_le (by simp [h4])]
    calc buf = buf.take 5 ++ buf.drop 5 := (List.take_append_drop 5 buf).symm
      _ = _ := by rw [h1]; rfl
  rw [this]
  exact expected_of hsize hm

theorem boundary_cons {m : Bytes} {ms : List Bytes} {b : Nat} (h : Boundary ms b) :
    Boundary (m :: ms) (m.length + 5 + b) := by
  obtain ⟨x, y, rfl, rfl⟩ := h
  exact ⟨m :: x, y, rfl, by simp⟩

theorem boundary_shift {before ms : List Bytes} {b : Nat} (h : Boundary ms b) :
    Boundary (before ++ ms) (total before + b) := by
  obtain ⟨x, y, rfl, rfl⟩ := h
  exact ⟨before ++ x, y, by simp, by simp [total]⟩

theorem boundary_zero (ms : List Bytes) : Boundary ms 0 := ⟨[], ms, rfl, rfl⟩

/-- What the record of the reply holds between two chunks: `buf` is what has arrived of the frames of
`todo`. -/
def Holds (todo : List Bytes) (buf : Bytes) (record : Option ExpectedData) : Prop :=
  (buf = [] ∧ record = none) ∨
  ∃ m t, todo = m :: t ∧ 5 ≤ buf.length ∧ buf.length < m.length + 5 ∧
    record = some ⟨(m.length : Int) + 5, buf⟩

theorem loop_ok {ms : List Bytes} {S : Bytes} (hS : IsStream ms S) (hsm : ∀ m ∈ ms, Small m) :
    ∀ {m : Bytes} {ms' : List Bytes} {B rest : Bytes} {n : Nat}, ms = m :: ms' → B ++ rest = S → 5 ≤ B.length →
    (∀ b, Boundary ms b → 0 < b → b ≤ B.length → B.length = b ∨ b + 5 < B.length) → B.length < n →
    ∃ out todo buf d, messageLoop false n ⟨(m.length : Int) + 5, B⟩ = .ok (out, d) ∧ ms = out ++ todo ∧
      IsStream todo (buf ++ rest) ∧ total out + buf.length = B.length ∧ d.container = buf ∧
      (buf = [] ∨ ∃ m' t, todo = m' :: t ∧ 5 ≤ buf.length ∧ buf.length < m'.length + 5 ∧
        d.expectedSize = (m'.length : Int) + 5) := by
  induction hS with
  | nil => intro m ms' B rest n h; cases h
  | @cons m f ms' S' hf hS' ih =>
    intro m1 ms1 B rest n heq hB h5 hb hn
    cases heq
    obtain ⟨k, rfl⟩ : ∃ k, n = k + 1 := ⟨n - 1, by omega⟩
    have hfl := frame_length hf
    by_cases hlt : B.length < m.length + 5
    · refine ⟨[], m :: ms', B, ⟨(m.length : Int) + 5, B⟩, ?_, rfl, ?_, by simp, rfl,
        .inr ⟨m, ms', rfl, h5, hlt, rfl⟩⟩
      · rw [messageLoop, if_neg (by simp only; omega)]
      · rw [hB]; exact .cons hf hS'
    · -- the first frame is complete
      have hBf : B = f ++ B.drop f.length := by
        have h1 : B.take f.length = f := by
          have := congrArg (List.take f.length) hB
          rw [List.take_append_of_le_length (by omega), List.take_left] at this
          exact this
        calc B = B.take f.length ++ B.drop f.length := (List.take_append_drop _ _).symm
          _ = _ := by rw [h1]
      generalize hB' : B.drop f.length = B' at hBf
      subst hBf
      have hrest : B' ++ rest = S' := by
        rw [List.append_assoc] at hB
        exact List.append_cancel_left hB
      have hmid : mid (f ++ B') 5 ((m.length : Int) + 5 - 5) = m := by
        obtain ⟨size, ⟨b0, b1, b2, b3, rfl, _⟩, rfl⟩ := hf
        have : ((m.length : Int) + 5 - 5) = m.length := by omega
        rw [mid, this, if_neg (by omega)]
        simp
      have hrem : removeFront (f ++ B') ((m.length : Int) + 5) = B' := by
        have : ((m.length : Int) + 5).toNat = f.length := by omega
        rw [removeFront, if_neg (by omega), this, List.drop_left]
      have hlen : (f ++ B').length = m.length + 5 + B'.length := by simp [hfl]
      have hstep : messageLoop false (k + 1) ⟨(m.length : Int) + 5, f ++ B'⟩ =
          (if B'.length > 5 then getExpectedDataSize B' else .ok ((m.length : Int) + 5)).bind fun e =>
            (messageLoop false k ⟨e, B'⟩).bind fun r => .ok (m :: r.1, r.2) := by
        rw [messageLoop, if_pos ⟨by simp only; omega, rfl⟩]
        simp only [hmid, hrem, Res.bind_eq]
        split <;> rfl
      have hbd := hb (m.length + 5) ⟨[m], ms', rfl, by simp⟩ (by omega) (by omega)
      rcases hbd with hz | hgt
      · -- nothing is left
        have hnil : B' = [] := by
          apply List.length_eq_zero_iff.mp
          omega
        subst hnil
        obtain ⟨j, rfl⟩ : ∃ j, k = j + 1 := ⟨k - 1, by omega⟩
        refine ⟨[m], ms', [], ⟨(m.length : Int) + 5, []⟩, ?_, rfl, ?_, ?_, rfl, .inl rfl⟩
        · have hstop : messageLoop false (j + 1) ⟨(m.length : Int) + 5, []⟩ = .ok ([], ⟨(m.length : Int) + 5, []⟩) := by
            rw [messageLoop, if_neg (by simp only [List.length_nil]; omega)]
          rw [hstep]
          simp only [List.length_nil, gt_iff_lt, Nat.not_lt_zero, if_false, Res.bind, hstop]
        · simp only [List.nil_append] at hrest ⊢
          rw [hrest]; exact hS'
        · simp [hfl]
      · have hgt' : 5 < B'.length := by omega
        cases hS' with
        | nil =>
          have := congrArg List.length hrest
          rw [List.length_append, List.length_nil] at this
          omega
        | @cons m2 f2 ms2 S2 hf2 hS2 =>
          have he := expected_prefix hf2 (hsm m2 (by simp)) hrest (by omega)
          obtain ⟨out, todo, buf, d, h1, h2, h3, h4, h6, h7⟩ :=
            ih (fun x hx => hsm x (List.mem_cons_of_mem _ hx)) (m := m2) (ms' := ms2) (B := B') (rest := rest)
              (n := k) rfl hrest (by omega)
              (fun b hbm hpos hle => by
                have := hb (m.length + 5 + b) (boundary_cons hbm) (by omega) (by omega)
                omega) (by omega)
          refine ⟨m :: out, todo, buf, d, ?_, by rw [h2]; rfl, h3, ?_, h6, h7⟩
          · rw [hstep, if_pos hgt', he]
            simp only [Res.bind, h1]
          · simp only [total_cons, hlen]; omega

theorem readyRead_ok {before todo : List Bytes} {S buf c rest : Bytes} {record : Option ExpectedData} {n : Nat}
    (hS : IsStream todo S) (hsm : ∀ m ∈ todo, Small m) (hsplit : buf ++ c ++ rest = S)
    (hrec : Holds todo buf record)
    (hcut : ∀ b, Boundary (before ++ todo) b →
      (total before + buf.length < b → b ≤ total before + buf.length + c.length →
        total before + buf.length + c.length = b ∨ b + 5 < total before + buf.length + c.length) ∧
      (b = total before + buf.length → 5 ≤ c.length))
    (hn : S.length < n) :
    ∃ out todo' buf' record', readyRead n false record c = .ok (out, record') ∧ todo = out ++ todo' ∧
      IsStream todo' (buf' ++ rest) ∧ total out + buf'.length = buf.length + c.length ∧
      Holds todo' buf' record' := by
  have hlenS := congrArg List.length hsplit
  simp only [List.length_append] at hlenS
  -- the common part: container has at least 5 bytes and the size of the first frame is known
  have main : ∀ {m : Bytes} {t : List Bytes}, todo = m :: t → 5 ≤ (buf ++ c).length →
      ∃ out todo' buf' record', readyRead.proceed n false c ⟨(m.length : Int) + 5, buf⟩ = .ok (out, record') ∧
      todo = out ++ todo' ∧
      IsStream todo' (buf' ++ rest) ∧ total out + buf'.length = buf.length + c.length ∧
      Holds todo' buf' record' := by
    intro m t ht h5
    have hmb : (buf.length < m.length + 5) := by
      rcases hrec with ⟨rfl, _⟩ | ⟨m', t', ht', _, h, _⟩
      · simp
      · rw [ht] at ht'; cases ht'; exact h
    obtain ⟨out, todo', buf', d, h1, h2, h3, h4, h6, h7⟩ := loop_ok hS hsm (m := m) (ms' := t) (B := buf ++ c)
      (rest := rest) (n := n) ht hsplit h5 (fun b hb hpos hle => by
        simp only [List.length_append] at hle ⊢
        have hbb : m.length + 5 ≤ b := by
          obtain ⟨x, y, hxy, rfl⟩ := hb
          cases x with
          | nil => simp at hpos
          | cons a x =>
            rw [ht] at hxy
            cases hxy
            simp
        have := (hcut _ (boundary_shift (before := before) hb)).1 (by omega) (by omega)
        omega) (by simp only [List.length_append]; omega)
    rcases h7 with hnil | ⟨m', t', ht', h5', hlt', he'⟩
    · refine ⟨out, todo', buf', none, ?_, h2, h3, by simpa using h4, .inl ⟨hnil, rfl⟩⟩
      simp only [readyRead.proceed, h1, Res.bind_eq, Res.bind, h6, hnil]
      rfl
    · refine ⟨out, todo', buf', some ⟨(m'.length : Int) + 5, buf'⟩, ?_, h2, h3, by simpa using h4,
        .inr ⟨m', t', ht', h5', hlt', rfl⟩⟩
      simp only [readyRead.proceed, h1, Res.bind_eq, Res.bind, h6]
      rw [if_neg (by simp; omega), ← he', ← h6]
  rcases hrec with ⟨rfl, rfl⟩ | ⟨m, t, ht, h5, hlt, rfl⟩
  · have h5 := (hcut (total before) ⟨before, todo, rfl, rfl⟩).2 (by simp)
    cases hS with
    | nil => simp at hsplit; simp [hsplit] at h5
    | @cons m f t S' hf hS' =>
      have he := expected_prefix hf (hsm m (by simp)) (by simpa using hsplit) h5
      obtain ⟨out, todo', buf', record', h1, h2⟩ := main rfl (by simpa using h5)
      refine ⟨out, todo', buf', record', ?_, h2⟩
      simp only [readyRead, he, Res.bind_eq, Res.bind]
      rw [if_neg (by omega)]
      exact h1
  · obtain ⟨out, todo', buf', record', h1, h2⟩ := main ht (by simp; omega)
    exact ⟨out, todo', buf', record', h1, h2⟩

theorem receive_ok {n : Nat} {rest : Bytes} (cs : List Bytes) :
    ∀ {before todo : List Bytes} {S buf : Bytes} {record : Option ExpectedData},
    IsStream todo S → (∀ m ∈ todo, Small m) → buf ++ cs.flatten ++ rest = S → Holds todo buf record →
    CutWell (before ++ todo) (total before + buf.length) cs → S.length < n →
    ∃ out todo' buf' record', receive n record cs = .ok (out, record') ∧ todo = out ++ todo' ∧
      IsStream todo' (buf' ++ rest) ∧ total out + buf'.length = buf.length + cs.flatten.length ∧
      Holds todo' buf' record' := by
  induction cs with
  | nil =>
    intro before todo S buf record hS _ hsplit hrec _ _
    exact ⟨[], todo, buf, record, rfl, rfl, by
      have e : buf ++ rest = S := by simpa using hsplit
      rw [e]; exact hS, by simp, hrec⟩
  | cons c cs ih =>
    intro before todo S buf record hS hsm hsplit hrec hcut hn
    obtain ⟨hc, hcs⟩ := hcut
    obtain ⟨out, todo', buf', record', h1, h2, h3, h4, h5⟩ := readyRead_ok (before := before) (c := c)
      (rest := cs.flatten ++ rest) hS hsm (by simpa using hsplit) hrec hc hn
    subst h2
    have hl := stream_length h3
    have hl2 := stream_length hS
    simp only [total_append] at hl2
    obtain ⟨out2, todo2, buf2, record2, k1, k2, k3, k4, k5⟩ := ih (before := before ++ out) (todo := todo')
      (S := buf' ++ (cs.flatten ++ rest)) (buf := buf') (record := record') h3
      (fun m hm => hsm m (List.mem_append_right _ hm)) (by simp) h5
      (by
        have : total (before ++ out) + buf'.length = total before + buf.length + c.length := by
          simp only [total_append]; omega
        rw [this, List.append_assoc]
        exact hcs) (by omega)
    refine ⟨out ++ out2, todo2, buf2, record2, ?_, by rw [k2, List.append_assoc], k3, ?_, k5⟩
    · simp only [receive, h1, Res.bind_eq, Res.bind, k1]
    · simp only [total_append, List.flatten_cons, List.length_append]; omega

end QtPb.Http2
