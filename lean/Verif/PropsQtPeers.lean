import Verif.SpecQtPeers
import Verif.PropsQtTypes
import Verif.PropsInterop
/-
C86: Qt values as programs in other languages see them.
-/
namespace QtPb.Qt.Peer
open QtPb Spec Ref

variable {env : Env}

/-- The message types that the library uses for Qt's types are those of QtCore.proto and QtGui.proto, and each Qt type is carried by its
message. -/
theorem C86_schema : qtSch = schema ∧ ∀ q : QtVal, q.msg = carrier q := by
  refine ⟨?_, fun q => by cases q <;> rfl⟩
  funext m
  match m with
  | 0 | 1 | 2 | 3 | 4 | 5 | 6 | 7 | 8 | 9 | 10 | 11 | 12 | 13 | 14 | 15 | 16 | 17 | 18 | 19 => rfl
  | _ + 20 => rfl

/-! ### Writing -/

theorem hexDigit_hexChar {n : Nat} (h : n < 16) : HexDigit (hexChar n) n := by
  have : ∀ n : Fin 16, HexDigit (hexChar n.1) n.1 := by unfold HexDigit; decide
  exact this ⟨n, h⟩

theorem hexBytes_length (l : List UInt8) : (hexBytes l).length = 2 * l.length := by
  induction l with
  | nil => rfl
  | cons b l ih => simp only [hexBytes, List.length_cons, ih]; omega

theorem uuid_shown (u : QUuid) : UuidText u u.text := by
  have e : List.ofFn u.b = [u.b 0, u.b 1, u.b 2, u.b 3, u.b 4, u.b 5, u.b 6, u.b 7, u.b 8, u.b 9, u.b 10, u.b 11, u.b 12, u.b 13, u.b 14, u.b 15] := rfl
  have d1 : ∀ b : UInt8, HexDigit (hexChar (b.toNat / 16)) (b.toNat / 16) := fun b =>
    hexDigit_hexChar (by have := b.toNat_lt; omega)
  have d2 : ∀ b : UInt8, HexDigit (hexChar (b.toNat % 16)) (b.toNat % 16) := fun b => hexDigit_hexChar (by omega)
  unfold QUuid.text
  rw [e]
  refine ⟨rfl, rfl, rfl, rfl, rfl, rfl, rfl, ?_⟩
  intro i
  match i with
  | 0 | 1 | 2 | 3 | 4 | 5 | 6 | 7 | 8 | 9 | 10 | 11 | 12 | 13 | 14 | 15 => exact ⟨_, _, rfl, rfl, d1 _, d2 _⟩
  | ⟨n + 16, h⟩ => omega

theorem rgba_shown (c : QColor) : c.rgba.toNat =
    c.alpha.toNat / 256 * 2 ^ 24 + c.red.toNat / 256 * 2 ^ 16 + c.green.toNat / 256 * 2 ^ 8 + c.blue.toNat / 256 := by
  have a := c.alpha.isLt
  have r := c.red.isLt
  have g := c.green.isLt
  have b := c.blue.isLt
  simp only [QColor.rgba, BitVec.toNat_append, BitVec.extractLsb'_toNat, Nat.shiftRight_eq_div_pow]
  have e1 : c.alpha.toNat / 2 ^ 8 % 2 ^ 8 = c.alpha.toNat / 256 := by omega
  have e2 : c.red.toNat / 2 ^ 8 % 2 ^ 8 = c.red.toNat / 256 := by omega
  have e3 : c.green.toNat / 2 ^ 8 % 2 ^ 8 = c.green.toNat / 256 := by omega
  have e4 : c.blue.toNat / 2 ^ 8 % 2 ^ 8 = c.blue.toNat / 256 := by omega
  rw [e1, e2, e3, e4]
  rw [← Nat.shiftLeft_add_eq_or_of_lt (by omega), ← Nat.shiftLeft_add_eq_or_of_lt (by omega), ← Nat.shiftLeft_add_eq_or_of_lt (by omega)]
  simp only [Nat.shiftLeft_eq]
  omega

theorem extent_shown {a b : BitVec 32} (h : -2 ^ 31 ≤ b.toInt - a.toInt ∧ b.toInt - a.toInt + 1 < 2 ^ 31) :
    ∃ w : BitVec 32, extent a b = .ok w ∧ w.toInt = b.toInt - a.toInt + 1 := by
  obtain ⟨g1, g2⟩ := int32_ok (v := b.toInt - a.toInt) (by omega)
  obtain ⟨g3, g4⟩ := int32_ok (v := b.toInt - a.toInt + 1) (by omega)
  exact ⟨_, by simp only [extent, g1, Res.bind_eq, Res.bind, g2, g3], g4⟩

/-- The conversion of a Qt value gives a message that shows it. -/
theorem C86_message {q : QtVal} (h : Expressible q) : ∃ o, toMessage q = .ok o ∧ Shows q o := by
  cases q with
  | char c =>
    refine ⟨_, rfl, UInt8.ofBitVec (c.extractLsb' 8 8), UInt8.ofBitVec (c.extractLsb' 0 8), rfl, ?_⟩
    have := c.isLt
    simp only [UInt8.toNat_ofBitVec, BitVec.extractLsb'_toNat, Nat.shiftRight_eq_div_pow]
    omega
  | uuid u => exact ⟨_, rfl, _, rfl, uuid_shown u⟩
  | time t => exact ⟨_, rfl, rfl⟩
  | date d =>
    refine ⟨_, rfl, ?_⟩
    obtain ⟨d⟩ := d
    rcases d with _ | ⟨y, m, d⟩ <;> exact ⟨rfl, rfl, rfl⟩
  | dateTime d =>
    refine ⟨_, rfl, Or.inl ⟨_, rfl, ?_⟩, Or.inl ⟨_, rfl, rfl⟩⟩
    obtain ⟨⟨d⟩, t, z⟩ := d
    rcases d with _ | ⟨y, m, d⟩ <;> exact ⟨rfl, rfl, rfl⟩
  | rect r =>
    obtain ⟨w, hw, ew⟩ := extent_shown ⟨h.1, h.2.1⟩
    obtain ⟨k, hk, ek⟩ := extent_shown h.2.2
    refine ⟨[.msg (pointTo ⟨r.x1, r.y1⟩), .msg (sizeTo ⟨w, k⟩)], ?_, Or.inl ⟨_, rfl, rfl, rfl⟩, w, k, ew, ek, Or.inl ⟨_, rfl, rfl, rfl⟩⟩
    simp only [toMessage, rectTo, hw, hk, Res.bind_eq, Res.bind]
  | rectF r => exact ⟨_, rfl, Or.inl ⟨_, rfl, rfl, rfl⟩, Or.inl ⟨_, rfl, rfl, rfl⟩⟩
  | polygon l =>
    refine ⟨_, rfl, l.map pointTo, ?_, by simp, ?_⟩
    · simp [polygonTo, get, proto, List.findIdx?_cons]
    · intro i p o' hp ho
      simp only [List.getElem?_map, hp, Option.map_some, Option.some.injEq] at ho
      subst ho
      exact ⟨rfl, rfl⟩
  | polygonF l =>
    refine ⟨_, rfl, l.map pointFTo, ?_, by simp, ?_⟩
    · simp [polygonFTo, get, proto, List.findIdx?_cons]
    · intro i p o' hp ho
      simp only [List.getElem?_map, hp, Option.map_some, Option.some.injEq] at ho
      subst ho
      exact ⟨rfl, rfl⟩
  | color c => exact ⟨_, rfl, _, rfl, rgba_shown c⟩
  | matrix q =>
    refine ⟨_, rfl, ?_⟩
    intro i j
    match i, j with
    | 0, 0 | 0, 1 | 0, 2 | 0, 3 | 1, 0 | 1, 1 | 1, 2 | 1, 3 | 2, 0 | 2, 1 | 2, 2 | 2, 3 | 3, 0 | 3, 1 | 3, 2 | 3, 3 => rfl
  | transform t => exact ⟨_, rfl, rfl, rfl, rfl, rfl, rfl, rfl, rfl, rfl, rfl⟩
  | quaternion q => exact ⟨_, rfl, rfl, Or.inl ⟨_, rfl, rfl, rfl, rfl⟩⟩
  | vector4 v => exact ⟨_, rfl, rfl, rfl, rfl, rfl⟩
  | vector3 v => exact ⟨_, rfl, rfl, rfl, rfl⟩
  | _ => exact ⟨_, rfl, rfl, rfl⟩

/-- Values without null pointers whose text survives. -/
inductive Intact (env : Env) : Val → Prop
  | sc {s : Scalar} : entryScalar env s = s → Intact env (.sc s)
  | msg {o : Obj} : (∀ v ∈ o, Intact env v) → Intact env (.msg o)
  | msgList {l : List Obj} : (∀ o ∈ l, Intact env (.msg o)) → Intact env (.msgList (l.map .msg))

theorem intact_list {m : Nat} {l : List Obj} (ih : ∀ o ∈ l, ∀ v', Delivered env (.msg m) (.msg o) v' → v' = .msg o) :
    ∀ {vs : List Val}, DeliveredList env m (l.map .msg) vs → vs = l.map .msg := by
  induction l with
  | nil => intro vs h; cases h; rfl
  | cons o l ih2 =>
    intro vs h
    cases h with
    | cons h1 h2 =>
      rw [ih o (by simp) _ h1, ih2 (fun o ho => ih o (by simp [ho])) h2]
      rfl

theorem intact_delivered {v : Val} (h : Intact env v) : ∀ {ty : FieldTy}, HasTy env ty v → ∀ v', Delivered env ty v v' → v' = v := by
  induction h with
  | sc h =>
    intro ty _ v' hd
    cases hd
    rw [h]
  | @msg o _ ih =>
    intro ty ht v' hd
    cases hd with
    | @msg m _ o' hl hh =>
      cases ht with
      | msg hl' ht =>
        congr 1
        apply List.ext_getElem?
        intro i
        by_cases hi : i < (env.sch m).length
        · have e0 := List.getElem?_eq_getElem hi
          have e1 : o[i]? = some (o[i]'(by omega)) := List.getElem?_eq_getElem (by omega)
          have e2 : o'[i]? = some (o'[i]'(by omega)) := List.getElem?_eq_getElem (by omega)
          rw [e1, e2, ih _ (List.getElem_mem _) (ht i _ _ e0 e1) _ (hh i _ _ _ e0 e1 e2)]
        · rw [List.getElem?_eq_none (by omega), List.getElem?_eq_none (by omega)]
  | @msgList l _ ih =>
    intro ty ht v' hd
    cases hd with
    | @msgList m _ l' hh =>
      cases ht with
      | msgList ht =>
        have := intact_list (fun o ho v' hv => ih o ho (ht _ (List.mem_map_of_mem ho)) v' hv) hh
        rw [this]

theorem intact_int32s (l : List (BitVec 32)) : Intact env (.msg (int32s l)) := by
  refine .msg fun v hv => ?_
  simp only [int32s, List.mem_map] at hv
  obtain ⟨b, _, rfl⟩ := hv
  exact .sc rfl

theorem intact_doubles (l : List (BitVec 64)) : Intact env (.msg (doubles l)) := by
  refine .msg fun v hv => ?_
  simp only [doubles, List.mem_map] at hv
  obtain ⟨b, _, rfl⟩ := hv
  exact .sc rfl

theorem intact_pair {a b : Val} (h1 : Intact env a) (h2 : Intact env b) : Intact env (.msg [a, b]) := by
  refine .msg fun v hv => ?_
  simp only [List.mem_cons, List.not_mem_nil, or_false] at hv
  rcases hv with rfl | rfl <;> assumption

theorem intact_one {a : Val} (h1 : Intact env a) : Intact env (.msg [a]) := by
  refine .msg fun v hv => ?_
  simp only [List.mem_cons, List.not_mem_nil, or_false] at hv
  exact hv ▸ h1

theorem toMessage_intact (ha : ∀ u : QUuid, env.fromUtf8 (env.toUtf8 u.text) = u.text) {q : QtVal} {o : Obj}
    (h : toMessage q = .ok o) : Intact env (.msg o) := by
  cases q with
  | char c => cases h; exact intact_one (.sc rfl)
  | uuid u =>
    cases h
    refine intact_one (.sc ?_)
    show Scalar.str (some (env.fromUtf8 (env.toUtf8 u.text))) = _
    rw [ha]
  | time t => cases h; exact intact_int32s _
  | date d => cases h; exact intact_int32s _
  | dateTime d => cases h; exact intact_pair (intact_int32s _) (intact_int32s _)
  | rect r =>
    simp only [toMessage, rectTo, Res.bind_eq] at h
    cases hw : extent r.x1 r.x2 <;> simp only [hw, Res.bind] at h <;> try cases h
    cases hk : extent r.y1 r.y2 <;> simp only [hk, Res.bind] at h <;> try cases h
    exact intact_pair (intact_int32s _) (intact_int32s _)
  | rectF r => cases h; exact intact_pair (intact_doubles _) (intact_doubles _)
  | polygon l =>
    cases h
    refine intact_one ?_
    rw [show (l.map fun p => Val.msg (pointTo p)) = (l.map pointTo).map .msg by simp]
    refine .msgList fun o ho => ?_
    obtain ⟨p, _, rfl⟩ := List.mem_map.mp ho
    exact intact_int32s _
  | polygonF l =>
    cases h
    refine intact_one ?_
    rw [show (l.map fun p => Val.msg (pointFTo p)) = (l.map pointFTo).map .msg by simp]
    refine .msgList fun o ho => ?_
    obtain ⟨p, _, rfl⟩ := List.mem_map.mp ho
    exact intact_doubles _
  | color c => cases h; exact intact_int32s _
  | matrix q => cases h; exact intact_int32s _
  | transform t => cases h; exact intact_doubles _
  | quaternion q => cases h; exact intact_pair (.sc rfl) (intact_int32s _)
  | vector2 v => cases h; exact intact_int32s _
  | vector3 v => cases h; exact intact_int32s _
  | vector4 v => cases h; exact intact_int32s _
  | size v => cases h; exact intact_int32s _
  | sizeF v => cases h; exact intact_doubles _
  | point v => cases h; exact intact_int32s _
  | pointF v => cases h; exact intact_doubles _

/-- What the library writes for a Qt value in field `num`: a tag, a length and a message in which any protobuf implementation, knowing only
QtCore.proto and QtGui.proto, finds the value under the names of the fields, floating point numbers bit for bit. -/
theorem C86_written_partial (hs : env.sch = schema) (ho : ValidOrder env)
    (ha : ∀ t : List Char, (∀ c ∈ t, c.toNat < 128) → env.fromUtf8 (env.toUtf8 t) = t)
    {q : QtVal} (h : Expressible q) {num : Nat} (hn : 1 ≤ num ∧ num < 2 ^ 29) :
    ∃ N tag len body, (∀ n, N ≤ n → handlerSerialize env n num q = .ok (tag ++ len ++ body)) ∧ Tag tag num 2 ∧
      (body.length < 2 ^ 31 → Varint len body.length ∧ ∃ o, Ref.decode env (carrier q) body = some o ∧ Shows q o) := by
  rw [← C86_schema.1] at hs
  rw [← C86_schema.2]
  obtain ⟨o, h1, h2⟩ := C86_message h
  obtain ⟨ht, _⟩ := toMessage_carried hs (fun u => ha _ (ascii_uuid u)) h1
  have hi := toMessage_intact (env := env) (fun u => ha _ (ascii_uuid u)) h1
  obtain ⟨N, body, hb⟩ := C20_serialize_terminates_partial (qtSch_acyclic hs) (qtSch_noBool hs) ht
  refine ⟨N, encodeHeader num wtLengthDelimited, serializeVarintCommon 32 body.length, body, ?_,
    encodeHeader_tag hn.1 hn.2 (by decide), ?_⟩
  · intro n hN
    simp only [handlerSerialize, h1, hb n hN, Res.bind_eq, Res.bind, List.append_assoc]
    rfl
  · intro hl
    obtain ⟨o', e1, e2⟩ := C21_reference_exact (qtSch_valid hs) ho ht (hb N (Nat.le_refl _)) hl
    have := intact_delivered hi ht _ e2
    cases this
    exact ⟨prepend_varint (by omega), o, e1, h2⟩

/-! ### Reading -/

theorem hexValue_hexDigit {n : Nat} {c : Char} (h : HexDigit c n) : hexValue c = some n := by
  have hn : n < 16 := by
    rcases h with h | h <;> exact (List.getElem?_eq_some_iff.mp h).1
  have : ∀ n : Fin 16, ∀ c, HexDigit c n.1 → hexValue c = some n.1 := by
    intro n
    match n with
    | 0 | 1 | 2 | 3 | 4 | 5 | 6 | 7 | 8 | 9 | 10 | 11 | 12 | 13 | 14 | 15 => rintro c (h | h) <;> cases h <;> rfl
    | ⟨n + 16, h⟩ => omega
  exact this ⟨n, hn⟩ c h

theorem uuid_read {u : QUuid} {t : List Char} (h : UuidText u t) : QUuid.ofText t = u := by
  obtain ⟨hl, h0, h9, h14, h19, h24, h37, hd⟩ := h
  match t, hl with
  | c0 :: c1 :: c2 :: c3 :: c4 :: c5 :: c6 :: c7 :: c8 :: c9 :: c10 :: c11 :: c12 :: c13 :: c14 :: c15 :: c16 :: c17 :: c18 :: c19 :: c20 :: c21 :: c22 :: c23 :: c24 :: c25 :: c26 :: c27 :: c28 :: c29 :: c30 :: c31 :: c32 :: c33 :: c34 :: c35 :: c36 :: c37 :: [], _ =>
    have byte : ∀ (i : Fin 16) (a b : Char), [c0, c1, c2, c3, c4, c5, c6, c7, c8, c9, c10, c11, c12, c13, c14, c15, c16, c17, c18, c19, c20, c21, c22, c23, c24, c25, c26, c27, c28, c29, c30, c31, c32, c33, c34, c35, c36, c37][digitAt i.1]? = some a → [c0, c1, c2, c3, c4, c5, c6, c7, c8, c9, c10, c11, c12, c13, c14, c15, c16, c17, c18, c19, c20, c21, c22, c23, c24, c25, c26, c27, c28, c29, c30, c31, c32, c33, c34, c35, c36, c37][digitAt i.1 + 1]? = some b →
        ∃ x y, hexValue a = some x ∧ hexValue b = some y ∧ UInt8.ofNat (16 * x + y) = u.b i := by
      intro i a b ha hb
      obtain ⟨a', b', ha', hb', d1, d2⟩ := hd i
      rw [ha] at ha'
      rw [hb] at hb'
      cases ha'
      cases hb'
      refine ⟨_, _, hexValue_hexDigit d1, hexValue_hexDigit d2, ?_⟩
      apply UInt8.toNat_inj.mp
      have := (u.b i).toNat_lt
      rw [UInt8.toNat_ofNat']
      omega
    cases h0
    cases h9
    cases h14
    cases h19
    cases h24
    cases h37
    obtain ⟨x0, y0, p0, q0, e0⟩ := byte 0 c1 c2 rfl rfl
    obtain ⟨x1, y1, p1, q1, e1⟩ := byte 1 c3 c4 rfl rfl
    obtain ⟨x2, y2, p2, q2, e2⟩ := byte 2 c5 c6 rfl rfl
    obtain ⟨x3, y3, p3, q3, e3⟩ := byte 3 c7 c8 rfl rfl
    obtain ⟨x4, y4, p4, q4, e4⟩ := byte 4 c10 c11 rfl rfl
    obtain ⟨x5, y5, p5, q5, e5⟩ := byte 5 c12 c13 rfl rfl
    obtain ⟨x6, y6, p6, q6, e6⟩ := byte 6 c15 c16 rfl rfl
    obtain ⟨x7, y7, p7, q7, e7⟩ := byte 7 c17 c18 rfl rfl
    obtain ⟨x8, y8, p8, q8, e8⟩ := byte 8 c20 c21 rfl rfl
    obtain ⟨x9, y9, p9, q9, e9⟩ := byte 9 c22 c23 rfl rfl
    obtain ⟨x10, y10, p10, q10, e10⟩ := byte 10 c25 c26 rfl rfl
    obtain ⟨x11, y11, p11, q11, e11⟩ := byte 11 c27 c28 rfl rfl
    obtain ⟨x12, y12, p12, q12, e12⟩ := byte 12 c29 c30 rfl rfl
    obtain ⟨x13, y13, p13, q13, e13⟩ := byte 13 c31 c32 rfl rfl
    obtain ⟨x14, y14, p14, q14, e14⟩ := byte 14 c33 c34 rfl rfl
    obtain ⟨x15, y15, p15, q15, e15⟩ := byte 15 c35 c36 rfl rfl
    have hh : ∀ {a b : Char} {r : List Char} {x y : Nat} {l : List UInt8}, hexValue a = some x → hexValue b = some y → unhex r = some l →
        unhex (a :: b :: r) = some (UInt8.ofNat (16 * x + y) :: l) := by
      intro a b r x y l h1 h2 h3
      simp only [unhex, h1, h2, h3]
    have hu : unhex [c1, c2, c3, c4, c5, c6, c7, c8, c10, c11, c12, c13, c15, c16, c17, c18, c20, c21, c22, c23, c25, c26, c27, c28, c29, c30, c31, c32, c33, c34, c35, c36] = some (List.ofFn u.b) := by
      have e : List.ofFn u.b = [u.b 0, u.b 1, u.b 2, u.b 3, u.b 4, u.b 5, u.b 6, u.b 7, u.b 8, u.b 9, u.b 10, u.b 11, u.b 12, u.b 13, u.b 14, u.b 15] := rfl
      rw [e, ← e0, ← e1, ← e2, ← e3, ← e4, ← e5, ← e6, ← e7, ← e8, ← e9, ← e10, ← e11, ← e12, ← e13, ← e14, ← e15]
      exact hh p0 q0 (hh p1 q1 (hh p2 q2 (hh p3 q3 (hh p4 q4 (hh p5 q5 (hh p6 q6 (hh p7 q7 (hh p8 q8 (hh p9 q9 (hh p10 q10 (hh p11 q11 (hh p12 q12 (hh p13 q13 (hh p14 q14 (hh p15 q15 rfl)))))))))))))))
    unfold QUuid.ofText
    rw [if_pos ⟨rfl, rfl, rfl, rfl, rfl, rfl, rfl⟩]
    show (match unhex [c1, c2, c3, c4, c5, c6, c7, c8, c10, c11, c12, c13, c15, c16, c17, c18, c20, c21, c22, c23, c25, c26, c27, c28, c29, c30, c31, c32, c33, c34, c35, c36] with | some l => (⟨fun i => l.getD i.1 0⟩ : QUuid) | none => ⟨fun _ => 0⟩) = u
    rw [hu]
    obtain ⟨b⟩ := u
    show (⟨fun i => (List.ofFn b).getD i.1 0⟩ : QUuid) = ⟨b⟩
    congr 1
    funext i
    rw [List.getD_eq_getElem?_getD, List.getElem?_ofFn, dif_pos i.2]
    rfl

/-- Unset sub-messages read as blank ones. -/
theorem sub_read (hs : env.sch = qtSch) {m m' i : Nat} {o : Obj} {name : String} {P : Obj → Prop} (hg : get m o name = o[i]?)
    (hb : defaultObj { env with sch := qtSch } m' = blank m') (h : Sub m o name m' P) : P (msgAt env m' o i) := by
  unfold Sub at h
  rw [hg] at h
  unfold msgAt
  rcases h with ⟨o', h, hp⟩ | ⟨h, hp⟩
  · rw [h]
    exact hp
  · rw [h]
    show P (defaultObj env m')
    have : defaultObj env m' = defaultObj { env with sch := qtSch } m' := by unfold defaultObj; rw [hs]
    rw [this, hb]
    exact hp

theorem int32At_of {o : Obj} {i : Nat} {b : BitVec 32} (h : o[i]? = some (.sc (.w32 b))) : int32At o i = b := by
  simp only [int32At, h]
theorem doubleAt_of {o : Obj} {i : Nat} {b : BitVec 64} (h : o[i]? = some (.sc (.w64 b))) : doubleAt o i = b := by
  simp only [doubleAt, h]

theorem point_read {x y : BitVec 32} {o : Obj} (h : ShowsPoint x y o) : pointFrom o = ⟨x, y⟩ := by
  unfold pointFrom
  rw [int32At_of h.1, int32At_of h.2]
theorem size_read {x y : BitVec 32} {o : Obj} (h : ShowsSize x y o) : sizeFrom o = ⟨x, y⟩ := by
  unfold sizeFrom
  rw [int32At_of h.1, int32At_of h.2]
theorem pointF_read {x y : BitVec 64} {o : Obj} (h : ShowsPointF x y o) : pointFFrom o = ⟨x, y⟩ := by
  unfold pointFFrom
  rw [doubleAt_of h.1, doubleAt_of h.2]
theorem sizeF_read {x y : BitVec 64} {o : Obj} (h : ShowsSizeF x y o) : sizeFFrom o = ⟨x, y⟩ := by
  unfold sizeFFrom
  rw [doubleAt_of h.1, doubleAt_of h.2]

theorem date_read {d : QDate} {o : Obj} (hv : d.Valid) (h : ShowsDate d o) : dateFrom o = d := by
  have := date_roundtrip hv
  unfold dateFrom
  obtain ⟨d⟩ := d
  rcases d with _ | ⟨y, m, d⟩
  · rw [int32At_of h.1, int32At_of h.2.1, int32At_of h.2.2]
    exact this
  · rw [int32At_of h.1, int32At_of h.2.1, int32At_of h.2.2]
    exact this

theorem points_read {α : Type} {f : Obj → α} : ∀ {l : List α} {os : List Obj}, os.length = l.length →
    (∀ (i : Nat) (p : α) (o : Obj), l[i]? = some p → os[i]? = some o → f o = p) → derefAll f (os.map .msg) = .ok l := by
  intro l
  induction l with
  | nil => intro os hl _; cases os with | nil => rfl | cons _ _ => cases hl
  | cons p l ih =>
    intro os hl h
    cases os with
    | nil => cases hl
    | cons o os =>
      have h1 := ih (os := os) (by simpa using hl) (fun i p o hp ho => h (i + 1) p o hp ho)
      simp only [List.map_cons, derefAll, h1, Res.bind_eq, Res.bind, h 0 p o rfl rfl]

/-- Whatever message shows a value, the library converts it to that value: for all values that survive a round trip (`Faithful`, C45). -/
theorem C86_read_partial (hs : env.sch = schema) {q : QtVal} {o : Obj} (hf : Faithful q) (h : Shows q o) :
    fromMessage env (carrier q) o = .ok q := by
  rw [← C86_schema.1] at hs
  cases q with
  | char c =>
    obtain ⟨hi, lo, h, hc⟩ := h
    have h : o[0]? = some (.sc (.bytes (some [hi, lo]))) := h
    show Res.ok (QtVal.char (charOf (bytesAt o 0))) = _
    simp only [bytesAt, h, Option.getD_some, charOf]
    congr 2
    apply BitVec.eq_of_toNat_eq
    have := lo.toNat_lt
    rw [BitVec.toNat_append, ← Nat.shiftLeft_add_eq_or_of_lt lo.toBitVec.isLt, Nat.shiftLeft_eq, hc]
    simp only [UInt8.toNat_toBitVec]
    omega
  | uuid u =>
    obtain ⟨t, h, hu⟩ := h
    have h : o[0]? = some (.sc (.str (some t))) := h
    show Res.ok (QtVal.uuid (QUuid.ofText (textAt o 0))) = _
    simp only [textAt, h, Option.getD_some, uuid_read hu]
  | time t =>
    have hf : t.mds ≠ -1 := hf
    have h : o[0]? = some (.sc (.w32 (if t.mds = -1 then 0 else t.mds))) := h
    rw [if_neg hf] at h
    show Res.ok (QtVal.time ⟨int32At o 0⟩) = _
    rw [int32At_of h]
  | date d => show Res.ok (QtVal.date (dateFrom o)) = _; rw [date_read hf h]
  | dateTime d =>
    obtain ⟨hz, hv, hn, ht⟩ := hf
    have h1 := date_read hv (sub_read hs (i := 0) rfl rfl h.1)
    have h2 : int32At (msgAt env 2 o 1) 0 = _ := int32At_of (sub_read hs (i := 1) rfl rfl h.2)
    rw [if_neg hn] at h2
    show Res.ok (QtVal.dateTime (QDateTime.of (dateFrom (msgAt env 3 o 0)) ⟨int32At (msgAt env 2 o 1) 0⟩)) = _
    rw [h1, h2]
    obtain ⟨d, t, z⟩ := d
    cases hz
    simp only [QDateTime.of]
    by_cases hd : d.ymd.isSome = true
    · rw [if_neg (by simp [hd, (isValid_iff t).mpr (ht hd)])]
    · rw [if_neg (by simp [hd])]
  | size s => show Res.ok (QtVal.size (sizeFrom o)) = _; rw [size_read h]
  | sizeF s => show Res.ok (QtVal.sizeF (sizeFFrom o)) = _; rw [sizeF_read h]
  | point s => show Res.ok (QtVal.point (pointFrom o)) = _; rw [point_read h]
  | pointF s => show Res.ok (QtVal.pointF (pointFFrom o)) = _; rw [pointF_read h]
  | rect r =>
    obtain ⟨hp, w, k, hw, hk, hz⟩ := h
    have h1 := point_read (sub_read hs (i := 0) rfl rfl hp)
    have h2 := size_read (sub_read hs (i := 1) rfl rfl hz)
    have far : ∀ {a b w : BitVec 32}, Qt.Fits a b → w.toInt = b.toInt - a.toInt + 1 → farEnd a w = .ok b := by
      intro a b w hfit hw
      unfold Qt.Fits at hfit
      have := a.le_toInt
      have := b.le_toInt
      obtain ⟨g1, g2⟩ := int32_ok (v := a.toInt + w.toInt) (by omega)
      obtain ⟨g3, g4⟩ := int32_ok (v := a.toInt + w.toInt - 1) (by omega)
      simp only [farEnd, g1, Res.bind_eq, Res.bind, g2, g3]
      congr 1
      apply BitVec.eq_of_toInt_eq
      omega
    show (rectFrom env o >>= fun r => Res.ok (QtVal.rect r)) = _
    simp only [rectFrom, mPoint, mSize, h1, h2, far hf.1 hw, far hf.2 hk, Res.bind_eq, Res.bind]
  | rectF r =>
    have h1 := pointF_read (sub_read hs (i := 0) rfl rfl h.1)
    have h2 := sizeF_read (sub_read hs (i := 1) rfl rfl h.2)
    show Res.ok (QtVal.rectF (rectFFrom env o)) = _
    simp only [rectFFrom, mPointF, mSizeF, h1, h2]
  | polygon l =>
    obtain ⟨os, hg, hl, h⟩ := h
    have hg : o[0]? = some (.msgList (os.map .msg)) := hg
    show (derefAll pointFrom (listAt o 0) >>= fun l => Res.ok (QtVal.polygon l)) = _
    simp only [listAt, hg]
    rw [points_read hl (fun i p o' hp ho => point_read (h i p o' hp ho))]
    rfl
  | polygonF l =>
    obtain ⟨os, hg, hl, h⟩ := h
    have hg : o[0]? = some (.msgList (os.map .msg)) := hg
    show (derefAll pointFFrom (listAt o 0) >>= fun l => Res.ok (QtVal.polygonF l)) = _
    simp only [listAt, hg]
    rw [points_read hl (fun i p o' hp ho => pointF_read (h i p o' hp ho))]
    rfl
  | color c =>
    obtain ⟨v, h, hv⟩ := h
    rw [← rgba_shown] at hv
    show Res.ok (QtVal.color (QColor.fromRgba (int32At o 0))) = _
    rw [int32At_of h, BitVec.eq_of_toNat_eq hv, color_roundtrip hf]
  | matrix q =>
    have at' : ∀ (i : Fin 4) (j : Fin 4), int32At o (4 * i.1 + j.1) = q.m ⟨4 * j.1 + i.1, by omega⟩ := by
      intro i j
      have := h i j
      apply int32At_of
      rw [← this]
      match i, j with
      | 0, 0 | 0, 1 | 0, 2 | 0, 3 | 1, 0 | 1, 1 | 1, 2 | 1, 3 | 2, 0 | 2, 1 | 2, 2 | 2, 3 | 3, 0 | 3, 1 | 3, 2 | 3, 3 => rfl
    show Res.ok (QtVal.matrix (matrixFrom o)) = _
    unfold matrixFrom
    rw [show int32At o 0 = _ from at' 0 0, show int32At o 1 = _ from at' 0 1, show int32At o 2 = _ from at' 0 2, show int32At o 3 = _ from at' 0 3, show int32At o 4 = _ from at' 1 0, show int32At o 5 = _ from at' 1 1, show int32At o 6 = _ from at' 1 2, show int32At o 7 = _ from at' 1 3, show int32At o 8 = _ from at' 2 0, show int32At o 9 = _ from at' 2 1, show int32At o 10 = _ from at' 2 2, show int32At o 11 = _ from at' 2 3, show int32At o 12 = _ from at' 3 0, show int32At o 13 = _ from at' 3 1, show int32At o 14 = _ from at' 3 2, show int32At o 15 = _ from at' 3 3]
    congr 2
    obtain ⟨q⟩ := q
    unfold QMatrix4x4.of
    congr 1
    funext i
    match i with
    | 0 | 1 | 2 | 3 | 4 | 5 | 6 | 7 | 8 | 9 | 10 | 11 | 12 | 13 | 14 | 15 => rfl
    | ⟨n + 16, h⟩ => omega
  | vector2 v =>
    show Res.ok (QtVal.vector2 (vector2From o)) = _
    unfold vector2From
    rw [int32At_of h.1, int32At_of h.2]
  | vector3 v =>
    show Res.ok (QtVal.vector3 (vector3From o)) = _
    unfold vector3From
    rw [int32At_of h.1, int32At_of h.2.1, int32At_of h.2.2]
  | vector4 v =>
    show Res.ok (QtVal.vector4 (vector4From o)) = _
    unfold vector4From
    rw [int32At_of h.1, int32At_of h.2.1, int32At_of h.2.2.1, int32At_of h.2.2.2]
  | transform t =>
    obtain ⟨h1, h2, h3, h4, h5, h6, h7, h8, h9⟩ := h
    show Res.ok (QtVal.transform (transformFrom o)) = _
    unfold transformFrom
    rw [doubleAt_of h1, doubleAt_of h2, doubleAt_of h3, doubleAt_of h4, doubleAt_of h5, doubleAt_of h6, doubleAt_of h7, doubleAt_of h8,
      doubleAt_of h9]
  | quaternion q =>
    obtain ⟨h1, h2⟩ := h
    obtain ⟨h3, h4, h5⟩ := sub_read hs (i := 1) rfl rfl h2
    show Res.ok (QtVal.quaternion (quaternionFrom env o)) = _
    simp only [quaternionFrom, vector3From, mVector3]
    rw [int32At_of h1, int32At_of h3, int32At_of h4, int32At_of h5]

/-! ### Reading what other encoders write -/

theorem agree_at {m : Nat} {a b : Obj} (h : Agrees env (.msg m) (.msg a) (.msg b)) {i : Nat} {f : Field} {v : Val}
    (hf : (env.sch m)[i]? = some f) (hv : b[i]? = some v) : ∃ v2, a[i]? = some v2 ∧ Agrees env f.ty v2 v := by
  cases h with
  | msg h1 h2 h3 =>
    have hi : i < (env.sch m).length := (List.getElem?_eq_some_iff.mp hf).1
    have e : a[i]? = some (a[i]'(by omega)) := List.getElem?_eq_getElem (by omega)
    exact ⟨_, e, h3 i f _ v hf e hv⟩

theorem agree_int {k : Kind} (hk : k = .sint32 ∨ k = .uint32) {v : Val} {b : BitVec 32} (h : Agrees env (.scalar k) v (.sc (.w32 b))) :
    v = .sc (.w32 b) := by
  cases h with
  | sc h =>
    rcases h with rfl | h
    · rfl
    · rcases hk with rfl | rfl <;> simp only [scalarEq, beq_iff_eq] at h <;> rw [h]

theorem agree_float {v : Val} {b : BitVec 32} (h : Agrees env (.scalar .float) v (.sc (.w32 b))) :
    ∃ c, v = .sc (.w32 c) ∧ pz32 c = pz32 b := by
  cases h with
  | @sc _ a _ h =>
    rcases h with rfl | h
    · exact ⟨b, rfl, rfl⟩
    · cases a with
      | w32 a =>
        refine ⟨a, rfl, ?_⟩
        simp only [scalarEq, f32Eq, Bool.and_eq_true, Bool.or_eq_true, beq_iff_eq] at h
        rcases h.2 with e | ⟨e1, e2⟩
        · rw [e]
        · have z : ∀ x : BitVec 32, x.toNat % 2 ^ 31 = 0 → pz32 x = 0 := by
            intro x hx
            have := x.isLt
            unfold pz32
            split
            · rfl
            · rename_i hne
              apply BitVec.eq_of_toNat_eq
              have : x.toNat ≠ 2 ^ 31 := fun e => hne (BitVec.eq_of_toNat_eq e)
              show x.toNat = 0
              omega
          rw [z _ e1, z _ e2]
      | _ => simp [scalarEq] at h

theorem agree_double {v : Val} {b : BitVec 64} (h : Agrees env (.scalar .double) v (.sc (.w64 b))) :
    ∃ c, v = .sc (.w64 c) ∧ pz64 c = pz64 b := by
  cases h with
  | @sc _ a _ h =>
    rcases h with rfl | h
    · exact ⟨b, rfl, rfl⟩
    · cases a with
      | w64 a =>
        refine ⟨a, rfl, ?_⟩
        simp only [scalarEq, f64Eq, Bool.and_eq_true, Bool.or_eq_true, beq_iff_eq] at h
        rcases h.2 with e | ⟨e1, e2⟩
        · rw [e]
        · have z : ∀ x : BitVec 64, x.toNat % 2 ^ 63 = 0 → pz64 x = 0 := by
            intro x hx
            have := x.isLt
            unfold pz64
            split
            · rfl
            · rename_i hne
              apply BitVec.eq_of_toNat_eq
              have : x.toNat ≠ 2 ^ 63 := fun e => hne (BitVec.eq_of_toNat_eq e)
              show x.toNat = 0
              omega
          rw [z _ e1, z _ e2]
      | _ => simp [scalarEq] at h

section
variable (hs : env.sch = qtSch)
include hs

/-- The name is the name of field `i`, which has type `ty`. -/
def Named (m : Nat) (name : String) (i : Nat) (ty : FieldTy) : Prop :=
  (∀ o, get m o name = o[i]?) ∧ ∃ n, (qtSch m)[i]? = some ⟨n, ty⟩

theorem agree_named {m i : Nat} {ty : FieldTy} {name : String} {a b : Obj} {v : Val} (hn : Named m name i ty)
    (h : Agrees env (.msg m) (.msg a) (.msg b)) (hg : get m b name = some v) : ∃ v2, get m a name = some v2 ∧ Agrees env ty v2 v := by
  obtain ⟨h1, n, h2⟩ := hn
  rw [h1] at hg ⊢
  exact agree_at h (by rw [hs]; exact h2) hg

theorem agree_number {m i : Nat} {k : Kind} {name : String} {a b : Obj} {x : BitVec 32} (hn : Named m name i (.scalar k))
    (hk : k = .sint32 ∨ k = .uint32) (h : Agrees env (.msg m) (.msg a) (.msg b)) (hg : Number m b name x) : Number m a name x := by
  obtain ⟨v2, h1, h2⟩ := agree_named hs hn h hg
  rw [agree_int hk h2] at h1
  exact h1

theorem agree_f {m i : Nat} {name : String} {a b : Obj} {x : BitVec 32} (hn : Named m name i (.scalar .float))
    (h : Agrees env (.msg m) (.msg a) (.msg b)) (hg : Number m b name x) : ∃ y, Number m a name y ∧ pz32 y = pz32 x := by
  obtain ⟨v2, h1, h2⟩ := agree_named hs hn h hg
  obtain ⟨c, rfl, hc⟩ := agree_float h2
  exact ⟨c, h1, hc⟩

theorem agree_d {m i : Nat} {name : String} {a b : Obj} {x : BitVec 64} (hn : Named m name i (.scalar .double))
    (h : Agrees env (.msg m) (.msg a) (.msg b)) (hg : Double m b name x) : ∃ y, Double m a name y ∧ pz64 y = pz64 x := by
  obtain ⟨v2, h1, h2⟩ := agree_named hs hn h hg
  obtain ⟨c, rfl, hc⟩ := agree_double h2
  exact ⟨c, h1, hc⟩

theorem blank_agrees {m : Nat} (h : ∀ f ∈ proto m, ∃ k, f.2.2 = .scalar k) : Agrees env (.msg m) (.msg (blank m)) (.msg (blank m)) := by
  have hl : (blank m).length = (env.sch m).length := by rw [hs, C86_schema.1]; simp [blank, schema]
  refine .msg hl hl ?_
  intro i f x y hf hx hy
  rw [hx] at hy
  cases hy
  rw [hs, C86_schema.1] at hf
  simp only [schema, blank, List.getElem?_map, Option.map_eq_some_iff] at hf hx
  obtain ⟨g, hg, rfl⟩ := hf
  obtain ⟨g', hg', rfl⟩ := hx
  obtain ⟨k, hk⟩ := h g (List.mem_of_getElem? hg)
  show Agrees env g.2.2 _ _
  rw [hk]
  split <;> exact .sc (Or.inl rfl)

theorem agree_sub {m i m' : Nat} {name : String} {a b : Obj} {P : Obj → Prop} (hn : Named m name i (.msg m'))
    (hb : ∀ f ∈ proto m', ∃ k, f.2.2 = .scalar k) (h : Agrees env (.msg m) (.msg a) (.msg b)) (hg : Sub m b name m' P) :
    ∃ a' b', (∀ P', P' a' → Sub m a name m' P') ∧ Agrees env (.msg m') (.msg a') (.msg b') ∧ P b' := by
  rcases hg with ⟨b', h1, h2⟩ | ⟨h1, h2⟩
  · obtain ⟨v2, h3, h4⟩ := agree_named hs hn h h1
    cases v2 with
    | msg a' => exact ⟨a', b', fun P' hp => Or.inl ⟨_, h3, hp⟩, h4, h2⟩
    | _ => cases h4
  · obtain ⟨v2, h3, h4⟩ := agree_named hs hn h h1
    cases h4
    exact ⟨_, _, fun P' hp => Or.inr ⟨h3, hp⟩, blank_agrees hs hb, h2⟩

theorem agree_points {m' : Nat} {va : Val} {bs : List Obj} (h : Agrees env (.msgList m') va (.msgList (bs.map .msg))) :
    ∃ as : List Obj, va = .msgList (as.map .msg) ∧ as.length = bs.length ∧
      ∀ (i : Nat) (a b : Obj), as[i]? = some a → bs[i]? = some b → Agrees env (.msg m') (.msg a) (.msg b) := by
  cases h with
  | @msgList _ l _ hl hh =>
    rw [List.length_map] at hl
    clear hs
    suffices ∃ as : List Obj, l = as.map .msg ∧ as.length = bs.length ∧
        ∀ (i : Nat) (a b : Obj), as[i]? = some a → bs[i]? = some b → Agrees env (.msg m') (.msg a) (.msg b) by
      obtain ⟨as, rfl, h⟩ := this
      exact ⟨as, rfl, h⟩
    induction bs generalizing l with
    | nil =>
      cases l with
      | nil => exact ⟨[], rfl, rfl, fun i a b h => by simp at h⟩
      | cons _ _ => cases hl
    | cons b bs ih =>
      cases l with
      | nil => cases hl
      | cons x l =>
        have h0 := hh 0 x (.msg b) rfl rfl
        obtain ⟨as, rfl, h1, h2⟩ := ih (l := l) (by simpa using hl) (fun i x y hx hy => hh (i + 1) x y hx (by simpa using hy))
        cases x with
        | msg a =>
          refine ⟨a :: as, rfl, by simp [h1], ?_⟩
          intro i a' b' ha hb
          cases i with
          | zero => cases ha; cases hb; exact h0
          | succ i => exact h2 i a' b' (by simpa using ha) (by simpa using hb)
        | _ => cases h0

/-- What two decoders that agree show is the same up to the signs of zeros. -/
theorem shows_agree {q : QtVal} {a b : Obj} (h : Agrees env (.msg (carrier q)) (.msg a) (.msg b)) (hb : Shows q b) :
    ∃ q', Shows q' a ∧ plusZero q' = plusZero q ∧ carrier q' = carrier q ∧ (Faithful q → Faithful q') := by
  have int : ∀ {m i : Nat} {name : String} {a b : Obj} {x : BitVec 32}, Named m name i (.scalar .sint32) →
      Agrees env (.msg m) (.msg a) (.msg b) → Number m b name x → Number m a name x := fun hn h hg => agree_number hs hn (Or.inl rfl) h hg
  have scalars : ∀ {m : Nat} {k : Kind}, (proto m).all (fun f => f.2.2 == .scalar k) = true → ∀ f ∈ proto m, ∃ k, f.2.2 = .scalar k := by
    intro m k h f hf
    exact ⟨k, by simpa using List.all_eq_true.mp h f hf⟩
  have date : ∀ {d : QDate} {a b : Obj}, Agrees env (.msg 3) (.msg a) (.msg b) → ShowsDate d b → ShowsDate d a := by
    rintro ⟨d⟩ a b h hb
    rcases d with _ | ⟨y, m, d⟩ <;>
      exact ⟨int (i := 0) ⟨fun _ => rfl, _, rfl⟩ h hb.1, int (i := 1) ⟨fun _ => rfl, _, rfl⟩ h hb.2.1, int (i := 2) ⟨fun _ => rfl, _, rfl⟩ h hb.2.2⟩
  have time : ∀ {t : QTime} {a b : Obj}, Agrees env (.msg 2) (.msg a) (.msg b) → ShowsTime t b → ShowsTime t a := by
    intro t a b h hb
    exact int (i := 0) ⟨fun _ => rfl, _, rfl⟩ h hb
  have point : ∀ {x y : BitVec 32} {a b : Obj}, Agrees env (.msg 7) (.msg a) (.msg b) → ShowsPoint x y b → ShowsPoint x y a := by
    intro x y a b h hb
    exact ⟨int (i := 0) ⟨fun _ => rfl, _, rfl⟩ h hb.1, int (i := 1) ⟨fun _ => rfl, _, rfl⟩ h hb.2⟩
  have size : ∀ {x y : BitVec 32} {a b : Obj}, Agrees env (.msg 5) (.msg a) (.msg b) → ShowsSize x y b → ShowsSize x y a := by
    intro x y a b h hb
    exact ⟨int (i := 0) ⟨fun _ => rfl, _, rfl⟩ h hb.1, int (i := 1) ⟨fun _ => rfl, _, rfl⟩ h hb.2⟩
  have pointF : ∀ {x y : BitVec 64} {a b : Obj}, Agrees env (.msg 8) (.msg a) (.msg b) → ShowsPointF x y b →
      ∃ x' y', ShowsPointF x' y' a ∧ pz64 x' = pz64 x ∧ pz64 y' = pz64 y := by
    intro x y a b h hb
    obtain ⟨x', h1, e1⟩ := agree_d hs (i := 0) ⟨fun _ => rfl, _, rfl⟩ h hb.1
    obtain ⟨y', h2, e2⟩ := agree_d hs (i := 1) ⟨fun _ => rfl, _, rfl⟩ h hb.2
    exact ⟨x', y', ⟨h1, h2⟩, e1, e2⟩
  have sizeF : ∀ {x y : BitVec 64} {a b : Obj}, Agrees env (.msg 6) (.msg a) (.msg b) → ShowsSizeF x y b →
      ∃ x' y', ShowsSizeF x' y' a ∧ pz64 x' = pz64 x ∧ pz64 y' = pz64 y := by
    intro x y a b h hb
    obtain ⟨x', h1, e1⟩ := agree_d hs (i := 0) ⟨fun _ => rfl, _, rfl⟩ h hb.1
    obtain ⟨y', h2, e2⟩ := agree_d hs (i := 1) ⟨fun _ => rfl, _, rfl⟩ h hb.2
    exact ⟨x', y', ⟨h1, h2⟩, e1, e2⟩
  cases q with
  | char c =>
    obtain ⟨hi, lo, hg, hc⟩ := hb
    obtain ⟨v2, h1, h2⟩ := agree_named hs (i := 0) (ty := .scalar .bytes) ⟨fun _ => rfl, _, rfl⟩ h hg
    refine ⟨.char c, ⟨hi, lo, ?_, hc⟩, rfl, rfl, id⟩
    cases h2 with
    | @sc _ x _ h2 =>
      rcases h2 with rfl | h2
      · exact h1
      · rcases x with _ | _ | _ | _ | x <;> simp [scalarEq] at h2
        cases x with
        | none => cases h2
        | some x => cases h2; exact h1
  | uuid u =>
    obtain ⟨t, hg, hc⟩ := hb
    obtain ⟨v2, h1, h2⟩ := agree_named hs (i := 0) (ty := .scalar .string) ⟨fun _ => rfl, _, rfl⟩ h hg
    refine ⟨.uuid u, ⟨t, ?_, hc⟩, rfl, rfl, id⟩
    cases h2 with
    | @sc _ x _ h2 =>
      rcases h2 with rfl | h2
      · exact h1
      · rcases x with _ | _ | _ | x | _ <;> simp [scalarEq] at h2
        cases x with
        | none => cases h2; exact absurd hc.1 (by decide)
        | some x => cases h2; exact h1
  | time t => exact ⟨.time t, time h hb, rfl, rfl, id⟩
  | date d => exact ⟨.date d, date h hb, rfl, rfl, id⟩
  | dateTime d =>
    obtain ⟨a1, b1, s1, g1, p1⟩ := agree_sub hs (i := 0) ⟨fun _ => rfl, _, rfl⟩ (scalars (k := .sint32) rfl) h hb.1
    obtain ⟨a2, b2, s2, g2, p2⟩ := agree_sub hs (i := 1) ⟨fun _ => rfl, _, rfl⟩ (scalars (k := .sint32) rfl) h hb.2
    exact ⟨.dateTime d, ⟨s1 _ (date g1 p1), s2 _ (time g2 p2)⟩, rfl, rfl, id⟩
  | size s => exact ⟨.size s, size h hb, rfl, rfl, id⟩
  | point s => exact ⟨.point s, point h hb, rfl, rfl, id⟩
  | sizeF s =>
    obtain ⟨x, y, h1, e1, e2⟩ := sizeF h hb
    exact ⟨.sizeF ⟨x, y⟩, h1, by simp only [plusZero, e1, e2], rfl, id⟩
  | pointF s =>
    obtain ⟨x, y, h1, e1, e2⟩ := pointF h hb
    exact ⟨.pointF ⟨x, y⟩, h1, by simp only [plusZero, e1, e2], rfl, id⟩
  | rect r =>
    obtain ⟨hp, w, k, hw, hk, hz⟩ := hb
    obtain ⟨a1, b1, s1, g1, p1⟩ := agree_sub hs (i := 0) ⟨fun _ => rfl, _, rfl⟩ (scalars (k := .sint32) rfl) h hp
    obtain ⟨a2, b2, s2, g2, p2⟩ := agree_sub hs (i := 1) ⟨fun _ => rfl, _, rfl⟩ (scalars (k := .sint32) rfl) h hz
    exact ⟨.rect r, ⟨s1 _ (point g1 p1), w, k, hw, hk, s2 _ (size g2 p2)⟩, rfl, rfl, id⟩
  | rectF r =>
    obtain ⟨a1, b1, s1, g1, p1⟩ := agree_sub hs (i := 0) ⟨fun _ => rfl, _, rfl⟩ (scalars (k := .double) rfl) h hb.1
    obtain ⟨a2, b2, s2, g2, p2⟩ := agree_sub hs (i := 1) ⟨fun _ => rfl, _, rfl⟩ (scalars (k := .double) rfl) h hb.2
    obtain ⟨x, y, h1, e1, e2⟩ := pointF g1 p1
    obtain ⟨x', y', h2, e3, e4⟩ := sizeF g2 p2
    exact ⟨.rectF ⟨x, y, x', y'⟩, ⟨s1 _ h1, s2 _ h2⟩, by simp only [plusZero, e1, e2, e3, e4], rfl, id⟩
  | polygon l =>
    obtain ⟨os, hg, hl, hp⟩ := hb
    obtain ⟨v2, h1, h2⟩ := agree_named hs (i := 0) (ty := .msgList 7) ⟨fun _ => rfl, _, rfl⟩ h hg
    obtain ⟨as, rfl, ha, hh⟩ := agree_points hs h2
    refine ⟨.polygon l, ⟨as, h1, by omega, ?_⟩, rfl, rfl, id⟩
    intro i p o' hi ho
    have e : os[i]? = some (os[i]'(by have := (List.getElem?_eq_some_iff.mp ho).1; omega)) := List.getElem?_eq_getElem _
    exact point (hh i _ _ ho e) (hp i p _ hi e)
  | polygonF l =>
    obtain ⟨os, hg, hl, hp⟩ := hb
    obtain ⟨v2, h1, h2⟩ := agree_named hs (i := 0) (ty := .msgList 8) ⟨fun _ => rfl, _, rfl⟩ h hg
    obtain ⟨as, rfl, ha, hh⟩ := agree_points hs h2
    have : ∀ (l : List QPointF) (as os : List Obj), os.length = l.length → as.length = os.length →
        (∀ (i : Nat) (a b : Obj), as[i]? = some a → os[i]? = some b → Agrees env (.msg 8) (.msg a) (.msg b)) →
        (∀ (i : Nat) (p : QPointF) (o' : Obj), l[i]? = some p → os[i]? = some o' → ShowsPointF p.x p.y o') →
        ∃ l' : List QPointF, as.length = l'.length ∧ (∀ (i : Nat) (p : QPointF) (o' : Obj), l'[i]? = some p → as[i]? = some o' →
          ShowsPointF p.x p.y o') ∧ l'.map (fun p => QPointF.mk (pz64 p.x) (pz64 p.y)) = l.map (fun p => QPointF.mk (pz64 p.x) (pz64 p.y)) := by
      intro l
      induction l with
      | nil =>
        intro as os h1 h2 _ _
        exact ⟨[], by simpa using h2.trans h1, fun i p o h => by simp at h, rfl⟩
      | cons p l ih =>
        intro as os h1 h2 h3 h4
        cases os with
        | nil => cases h1
        | cons b os =>
          cases as with
          | nil => cases h2
          | cons a as =>
            obtain ⟨l', i1, i2, i3⟩ := ih as os (by simpa using h1) (by simpa using h2) (fun i x y hx hy => h3 (i + 1) x y hx hy)
              (fun i p o hp ho => h4 (i + 1) p o hp ho)
            obtain ⟨x, y, hx, e1, e2⟩ := pointF (h3 0 a b rfl rfl) (h4 0 p b rfl rfl)
            refine ⟨⟨x, y⟩ :: l', by simp [i1], ?_, by simp only [List.map_cons, i3, e1, e2]⟩
            intro i q o' hi ho
            cases i with
            | zero => cases hi; cases ho; exact hx
            | succ i => exact i2 i q o' (by simpa using hi) (by simpa using ho)
    obtain ⟨l', i1, i2, i3⟩ := this l as os hl ha hh hp
    exact ⟨.polygonF l', ⟨as, h1, i1, i2⟩, by simp only [plusZero, i3], rfl, fun _ => trivial⟩
  | color c =>
    obtain ⟨v, hg, hv⟩ := hb
    exact ⟨.color c, ⟨v, agree_number hs (i := 0) ⟨fun _ => rfl, _, rfl⟩ (Or.inr rfl) h hg, hv⟩, rfl, rfl, id⟩
  | matrix q =>
    have : ∀ i j : Fin 4, ∃ y, Number 14 a (element i j) y ∧ pz32 y = pz32 (q.m ⟨4 * j.1 + i.1, by omega⟩) := by
      intro i j
      refine agree_f hs (i := 4 * i.1 + j.1) ?_ h (hb i j)
      match i, j with
      | 0, 0 | 0, 1 | 0, 2 | 0, 3 | 1, 0 | 1, 1 | 1, 2 | 1, 3 | 2, 0 | 2, 1 | 2, 2 | 2, 3 | 3, 0 | 3, 1 | 3, 2 | 3, 3 =>
        exact ⟨fun _ => rfl, _, rfl⟩
    let y (k : Fin 16) : BitVec 32 := (this ⟨k.1 % 4, by omega⟩ ⟨k.1 / 4, by omega⟩).choose
    have hy : ∀ k : Fin 16, Number 14 a (element ⟨k.1 % 4, by omega⟩ ⟨k.1 / 4, by omega⟩) (y k) ∧
        pz32 (y k) = pz32 (q.m ⟨4 * (k.1 / 4) + k.1 % 4, by omega⟩) :=
      fun k => (this ⟨k.1 % 4, by omega⟩ ⟨k.1 / 4, by omega⟩).choose_spec
    refine ⟨.matrix ⟨y⟩, ?_, ?_, rfl, fun _ => trivial⟩
    · intro i j
      have := (hy ⟨4 * j.1 + i.1, by omega⟩).1
      have e1 : (⟨(4 * j.1 + i.1) % 4, by omega⟩ : Fin 4) = i := Fin.ext (by simp only; omega)
      have e2 : (⟨(4 * j.1 + i.1) / 4, by omega⟩ : Fin 4) = j := Fin.ext (by simp only; omega)
      simp only [e1, e2] at this
      exact this
    · simp only [plusZero]
      congr 2
      funext k
      rw [(hy k).2]
      congr 2
      exact Fin.ext (by simp only; omega)
  | vector2 v =>
    obtain ⟨z0, h0, e0⟩ := agree_f hs (i := 0) ⟨fun _ => rfl, _, rfl⟩ h hb.1
    obtain ⟨z1, h1, e1⟩ := agree_f hs (i := 1) ⟨fun _ => rfl, _, rfl⟩ h hb.2
    refine ⟨.vector2 ⟨z0, z1⟩, ⟨h0, h1⟩, ?_, rfl, fun _ => trivial⟩
    simp only [plusZero, e0, e1]
  | vector3 v =>
    obtain ⟨z0, h0, e0⟩ := agree_f hs (i := 0) ⟨fun _ => rfl, _, rfl⟩ h hb.1
    obtain ⟨z1, h1, e1⟩ := agree_f hs (i := 1) ⟨fun _ => rfl, _, rfl⟩ h hb.2.1
    obtain ⟨z2, h2, e2⟩ := agree_f hs (i := 2) ⟨fun _ => rfl, _, rfl⟩ h hb.2.2
    refine ⟨.vector3 ⟨z0, z1, z2⟩, ⟨h0, h1, h2⟩, ?_, rfl, fun _ => trivial⟩
    simp only [plusZero, e0, e1, e2]
  | vector4 v =>
    obtain ⟨z0, h0, e0⟩ := agree_f hs (i := 0) ⟨fun _ => rfl, _, rfl⟩ h hb.1
    obtain ⟨z1, h1, e1⟩ := agree_f hs (i := 1) ⟨fun _ => rfl, _, rfl⟩ h hb.2.1
    obtain ⟨z2, h2, e2⟩ := agree_f hs (i := 2) ⟨fun _ => rfl, _, rfl⟩ h hb.2.2.1
    obtain ⟨z3, h3, e3⟩ := agree_f hs (i := 3) ⟨fun _ => rfl, _, rfl⟩ h hb.2.2.2
    refine ⟨.vector4 ⟨z0, z1, z2, z3⟩, ⟨h0, h1, h2, h3⟩, ?_, rfl, fun _ => trivial⟩
    simp only [plusZero, e0, e1, e2, e3]
  | transform v =>
    obtain ⟨z0, h0, e0⟩ := agree_d hs (i := 0) ⟨fun _ => rfl, _, rfl⟩ h hb.1
    obtain ⟨z1, h1, e1⟩ := agree_d hs (i := 1) ⟨fun _ => rfl, _, rfl⟩ h hb.2.1
    obtain ⟨z2, h2, e2⟩ := agree_d hs (i := 2) ⟨fun _ => rfl, _, rfl⟩ h hb.2.2.1
    obtain ⟨z3, h3, e3⟩ := agree_d hs (i := 3) ⟨fun _ => rfl, _, rfl⟩ h hb.2.2.2.1
    obtain ⟨z4, h4, e4⟩ := agree_d hs (i := 4) ⟨fun _ => rfl, _, rfl⟩ h hb.2.2.2.2.1
    obtain ⟨z5, h5, e5⟩ := agree_d hs (i := 5) ⟨fun _ => rfl, _, rfl⟩ h hb.2.2.2.2.2.1
    obtain ⟨z6, h6, e6⟩ := agree_d hs (i := 6) ⟨fun _ => rfl, _, rfl⟩ h hb.2.2.2.2.2.2.1
    obtain ⟨z7, h7, e7⟩ := agree_d hs (i := 7) ⟨fun _ => rfl, _, rfl⟩ h hb.2.2.2.2.2.2.2.1
    obtain ⟨z8, h8, e8⟩ := agree_d hs (i := 8) ⟨fun _ => rfl, _, rfl⟩ h hb.2.2.2.2.2.2.2.2
    refine ⟨.transform ⟨z0, z1, z2, z3, z4, z5, z6, z7, z8⟩, ⟨h0, h1, h2, h3, h4, h5, h6, h7, h8⟩, ?_, rfl, fun _ => trivial⟩
    simp only [plusZero, e0, e1, e2, e3, e4, e5, e6, e7, e8]
  | quaternion v =>
    obtain ⟨z, h0, e0⟩ := agree_f hs (i := 0) ⟨fun _ => rfl, _, rfl⟩ h hb.1
    obtain ⟨a1, b1, s1, g1, p1⟩ := agree_sub hs (i := 1) ⟨fun _ => rfl, _, rfl⟩ (scalars (k := .float) rfl) h hb.2
    obtain ⟨z1, h1, e1⟩ := agree_f hs (i := 0) ⟨fun _ => rfl, _, rfl⟩ g1 p1.1
    obtain ⟨z2, h2, e2⟩ := agree_f hs (i := 1) ⟨fun _ => rfl, _, rfl⟩ g1 p1.2.1
    obtain ⟨z3, h3, e3⟩ := agree_f hs (i := 2) ⟨fun _ => rfl, _, rfl⟩ g1 p1.2.2
    exact ⟨.quaternion ⟨z, z1, z2, z3⟩, ⟨h0, s1 _ ⟨h1, h2, h3⟩⟩, by simp only [plusZero, e0, e1, e2, e3], rfl, fun _ => trivial⟩

end

/-- Bytes from another protobuf implementation: whenever some encoder writes a message that shows a value in one of the usual ways (C67),
the library reads that value, up to the signs of zeros, whatever stands before and after the bytes, and stops exactly behind them. -/
theorem C86_interop_partial (hs : env.sch = schema) {q : QtVal} (hf : Faithful q) {len body : Bytes} {o : Obj} {d : Nat}
    (hu : Usual env d (carrier q) body) (hd : Ref.decode env (carrier q) body = some o) (h : Shows q o) (hl : Varint len body.length)
    {pre rest : Bytes} (hlen : (pre ++ (len ++ body) ++ rest).length < 2 ^ 31) {k : Nat} (hk : body.length < k) :
    ∃ q', plusZero q' = plusZero q ∧ handlerDeserialize env k (carrier q) ⟨pre ++ (len ++ body) ++ rest, pre.length⟩ =
      .ok (q', ⟨pre ++ (len ++ body) ++ rest, pre.length + (len ++ body).length⟩) := by
  have hs' := hs
  rw [← C86_schema.1] at hs'
  have hbl : body.length < 2 ^ 31 := by simp only [List.length_append] at hlen; omega
  obtain ⟨o2, o1, h1, h2, h3⟩ := C67_usual_partial (qtSch_valid hs') hu hbl hk
  rw [hd] at h2
  cases h2
  obtain ⟨q', g1, g2, g3, g4⟩ := shows_agree hs' h3 h
  refine ⟨q', g2, ?_⟩
  have h4 := C86_read_partial hs (g4 hf) g1
  rw [g3] at h4
  have hat : At ⟨pre ++ (len ++ body) ++ rest, pre.length⟩ (len ++ body ++ rest) := by
    refine ⟨hlen, by simp only [List.length_append]; omega, ?_⟩
    simp [It.rest]
  have hd := deserializeObject_of (n := k) (rec := deserializeMessage env k)
    (Sub := fun m b o => m = carrier q ∧ b = body ∧ o = o2) (by
      rintro m b o ⟨rfl, rfl, rfl⟩ _ _
      exact h1) (m := carrier q) hl ⟨rfl, rfl, rfl⟩ hat hk
  simp only [handlerDeserialize, hd, Res.bind_eq, Res.bind, h4]

/-! ### Where it fails -/

/-- Rectangles wider than 2^31-1 have no message: the library computes their width with signed overflow, which is undefined. -/
theorem C86_wide_rect_violated (a b x1 x2 : BitVec 32) (h : ¬ (-2 ^ 31 ≤ x2.toInt - x1.toInt ∧ x2.toInt - x1.toInt + 1 < 2 ^ 31)) :
    toMessage (.rect ⟨x1, a, x2, b⟩) = .ub := by
  have hu : extent x1 x2 = .ub := by
    by_cases h1 : -2 ^ 31 ≤ x2.toInt - x1.toInt ∧ x2.toInt - x1.toInt < 2 ^ 31
    · obtain ⟨g1, g2⟩ := int32_ok h1
      have h2 : ¬ (-2 ^ 31 ≤ x2.toInt - x1.toInt + 1 ∧ x2.toInt - x1.toInt + 1 < 2 ^ 31) := by omega
      have h3 : int32 (x2.toInt - x1.toInt + 1) = .ub := if_neg h2
      simp only [extent, g1, Res.bind_eq, Res.bind, g2, h3]
    · simp only [extent, int32, if_neg h1, Res.bind_eq, Res.bind]
  simp only [toMessage, rectTo, hu, Res.bind_eq, Res.bind]

example : toMessage (.rect ⟨BitVec.ofInt 32 (-2), 0, 0x7ffffffe, 0⟩) = .ub := C86_wide_rect_violated _ _ _ _ (by decide)

/-! ### Cases -/

/-- The environment of the examples, with the schema of the files. -/
theorem peerEnv_ok : qtEnv.sch = schema := C86_schema.1

-- A rectangle with negative coordinates and its bytes; the message type, its fields back to front.
example := C86_written_partial peerEnv_ok qtEnv_ok.2.1 qtEnv_ok.2.2 (q := .rect ⟨BitVec.ofInt 32 (-5), 7, 100, BitVec.ofInt 32 (-20)⟩)
  (by simp only [Expressible]; decide) (num := 3) (by decide)
example : handlerSerialize qtEnv 5 3 (.rect ⟨BitVec.ofInt 32 (-5), 7, 100, BitVec.ofInt 32 (-20)⟩) =
    .ok [0x1a, 13, 0x12, 5, 0x10, 51, 0x08, 0xd4, 0x01, 0x0a, 4, 0x10, 14, 0x08, 9] := by decide +kernel

-- A date-time at midnight from an encoder that leaves out zeros: the time is unset. The year comes last.
set_option maxRecDepth 8000 in
example : Ref.decode qtEnv 4 [0x0a, 7, 0x18, 58, 0x10, 4, 0x08, 0xd0, 0x1f] =
    some [.msg (int32s [2024, 2, 29]), .msgNull] := by rfl
example : Shows (.dateTime ⟨⟨some (2024, 2, 29)⟩, ⟨0⟩, .local⟩) [.msg (int32s [2024, 2, 29]), .msgNull] :=
  ⟨Or.inl ⟨_, rfl, rfl, rfl, rfl⟩, Or.inr ⟨rfl, rfl⟩⟩
example : Usual qtEnv 2 4 ([0x0a] ++ [7, 0x18, 58, 0x10, 4, 0x08, 0xd0, 0x1f] ++ []) := by
  refine ⟨[(1, .delimited [0x18, 58, 0x10, 4, 0x08, 0xd0, 0x1f])],
    .cons (tag1 0x0a 1 2 (by decide) (by decide) (by decide)) (payload2 7 _ (by decide) (by decide)) .nil, ?_⟩
  intro f hf
  have : f = ⟨1, .msg 3⟩ ∨ f = ⟨2, .msg 2⟩ := by simpa [qtEnv, qtSch, mDate, mTime] using hf
  rcases this with rfl | rfl
  · refine ⟨by decide, ?_⟩
    intro p hp
    have : p = .delimited [0x18, 58, 0x10, 4, 0x08, 0xd0, 0x1f] := by simpa [payloadsOf] using hp
    refine ⟨_, this, ?_⟩
    have c : Cut ([0x18] ++ [58] ++ ([0x10] ++ [4] ++ ([0x08] ++ [0xd0, 0x1f] ++ []))) [(3, .varint 58), (2, .varint 4), (1, .varint 4048)] :=
      .cons (tag1 0x18 3 0 (by decide) (by decide) (by decide)) (payload1 58 58 (by decide) (by decide))
      (.cons (tag1 0x10 2 0 (by decide) (by decide) (by decide)) (payload1 4 4 (by decide) (by decide))
      (.cons (tag1 0x08 1 0 (by decide) (by decide) (by decide)) (.varint ⟨.more 0xd0 [0x1f] 31 (by decide) (.last 0x1f (by decide)), by decide⟩ (by decide)) .nil))
    refine ⟨_, c, ?_⟩
    intro f hf
    have : f = ⟨1, .scalar .sint32⟩ ∨ f = ⟨2, .scalar .sint32⟩ ∨ f = ⟨3, .scalar .sint32⟩ := by
      simpa [qtEnv, qtSch, row, List.range, List.range.loop] using hf
    rcases this with rfl | rfl | rfl <;> intro p hp <;> simp [payloadsOf] at hp <;> subst hp <;> simp [Spec.Fits]
  · exact ⟨by decide, fun p hp => by simp [payloadsOf] at hp⟩

-- A UUID in upper case.
example : UuidText ⟨fun i => UInt8.ofNat (171 + i.1)⟩ "{ABACADAE-AFB0-B1B2-B3B4-B5B6B7B8B9BA}".toList := by
  refine ⟨by decide, by decide, by decide, by decide, by decide, by decide, by decide, ?_⟩
  intro i
  match i with
  | 0 | 1 | 2 | 3 | 4 | 5 | 6 | 7 | 8 | 9 | 10 | 11 | 12 | 13 | 14 | 15 => exact ⟨_, _, rfl, rfl, by unfold HexDigit; decide, by unfold HexDigit; decide⟩
  | ⟨n + 16, h⟩ => omega

end QtPb.Qt.Peer
