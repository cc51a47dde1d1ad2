import Verif.Waiting
/-
C98: what the program does between a request and its answer.
-/
namespace QtPb.Waiting
open Http2 QtPb.Call

variable {A R : Type}

/-! ### Specification -/

mutual
/-- While calls wait that write into the objects `pending`, the program does not destroy the client or one of these objects, and channels it attaches
have the serializer `fmt`. Arguments of further calls can be serialized. -/
def Harmless (sers : Nat → Ser A R) (fmt : (A → Res Bytes) × Deserialize R) (pending : List Nat) : Act A R → Prop
  | .attach n => sers n = some fmt
  | .destroyClient => False
  | .destroyObject k => k ∉ pending
  | .write _ _ => True
  | .call arg object inside _ _ => (∃ b, fmt.1 arg = .ok b) ∧ HarmlessAll sers fmt (object :: pending) inside
def HarmlessAll (sers : Nat → Ser A R) (fmt : (A → Res Bytes) × Deserialize R) (pending : List Nat) : List (Act A R) → Prop
  | [] => True
  | a :: rest => Harmless sers fmt pending a ∧ HarmlessAll sers fmt pending rest
end

/-- What a call reports for an exception of the deserializer. -/
def Reports (thrown : Option Thrown) (s : Status) (errors : List Status) : Prop :=
  match thrown with
  | none => s.code = Status.Ok ∧ errors = []
  | some .invalidArgument => s.code = Status.InvalidArgument ∧ errors = [s]
  | some .outOfRange => s.code = Status.OutOfRange ∧ errors = [s]
  | some .other => s.code = Status.Internal ∧ errors = [s]

/-- A client that is ready: it exists, has a channel with this serializer, and the objects of waiting calls exist. -/
structure Ready (sers : Nat → Ser A R) (fmt : (A → Res Bytes) × Deserialize R) (pending : List Nat) (w : World R) : Prop where
  alive : w.alive = true
  serializer : ∃ n, w.channel = some n ∧ sers n = some fmt
  objects : ∀ k ∈ pending, ∃ r, w.objects k = some r

/-! ### Proofs -/

theorem tryDeserialize_reports (d : Deserialize R) (r : R) (data : Bytes) :
    ∃ s errors, tryDeserialize (some d) r data = ((d r data).1, s, errors) ∧ Reports (d r data).2 s errors := by
  unfold tryDeserialize
  rcases h : d r data with ⟨r', _ | e⟩
  · exact ⟨⟨Status.Ok, ""⟩, [], by simp [h], rfl, rfl⟩
  · cases e
    · exact ⟨⟨Status.InvalidArgument, "Response deserialization failed invalid field found"⟩, [_], by simp only [h], rfl, rfl⟩
    · exact ⟨⟨Status.OutOfRange, "Invalid size of received buffer"⟩, [_], by simp only [h], rfl, rfl⟩
    · exact ⟨⟨Status.Internal, "Unknown exception caught during deserialization"⟩, [_], by simp only [h], rfl, rfl⟩

variable {sers : Nat → Ser A R} {fmt : (A → Res Bytes) × Deserialize R}

theorem ready_serializer {pending : List Nat} {w : World R} (h : Ready sers fmt pending w) : w.serializer sers = some fmt := by
  obtain ⟨n, h1, h2⟩ := h.serializer
  simp [World.serializer, h1, h2]

theorem finish_ready {pending : List Nat} {w : World R} {object : Nat} (h : Ready sers fmt (object :: pending) w) (status : Status) (data : Bytes) :
    ∃ r w' s, w.objects object = some r ∧ finish sers w object status data = .ok (w', s) ∧ Ready sers fmt (object :: pending) w' ∧
      (status.code = Status.Ok → w'.objects object = some (fmt.2 r data).1 ∧ ∃ errors, w'.errors = w.errors ++ errors ∧ Reports (fmt.2 r data).2 s errors) ∧
      (status.code ≠ Status.Ok → w'.objects object = some r ∧ s = status ∧ w'.errors = w.errors ++ [status]) := by
  obtain ⟨r, hr⟩ := h.objects object (by simp)
  by_cases hs : status.code = Status.Ok
  · obtain ⟨s, errors, h1, h2⟩ := tryDeserialize_reports fmt.2 r data
    refine ⟨r, { w with objects := fun n => if n = object then some (fmt.2 r data).1 else w.objects n, errors := w.errors ++ errors }, s, hr, ?_,
      ⟨h.alive, h.serializer, ?_⟩, fun _ => ⟨?_, errors, rfl, h2⟩, fun hn => absurd hs hn⟩
    · unfold finish
      rw [h.alive, ready_serializer h]
      simp only [Bool.not_true, Bool.false_eq_true, if_false, hs, ne_eq, not_true_eq_false, hr, Option.map_some, h1]
    · intro k hk
      by_cases e : k = object
      · exact ⟨_, if_pos e⟩
      · obtain ⟨r', hr'⟩ := h.objects k hk
        exact ⟨r', (if_neg e).trans hr'⟩
    · exact if_pos rfl
  · refine ⟨r, w.emit status, status, hr, ?_, ⟨h.alive, h.serializer, h.objects⟩, fun hn => absurd hn hs, fun _ => ⟨hr, rfl, rfl⟩⟩
    unfold finish
    rw [h.alive]
    simp [hs]

mutual
theorem run_ready : ∀ (l : List (Act A R)) {pending : List Nat} {w : World R}, Ready sers fmt pending w → HarmlessAll sers fmt pending l →
    ∃ w', run sers w l = .ok w' ∧ Ready sers fmt pending w'
  | [], _, w, h, _ => ⟨w, by rw [run], h⟩
  | a :: rest, _, w, h, hl => by
    rw [HarmlessAll] at hl
    obtain ⟨w1, h1, h2⟩ := act_ready a h hl.1
    obtain ⟨w2, h3, h4⟩ := run_ready rest h2 hl.2
    exact ⟨w2, by rw [run, h1]; exact h3, h4⟩
theorem act_ready : ∀ (a : Act A R) {pending : List Nat} {w : World R}, Ready sers fmt pending w → Harmless sers fmt pending a →
    ∃ w', act sers w a = .ok w' ∧ Ready sers fmt pending w'
  | .attach n, _, w, h, ha => by
    rw [Harmless] at ha
    exact ⟨{ w with channel := some n }, by rw [act, if_pos h.alive], h.alive, ⟨n, rfl, ha⟩, h.objects⟩
  | .destroyClient, _, _, _, ha => by rw [Harmless] at ha; exact ha.elim
  | .destroyObject k, _, w, h, ha => by
    rw [Harmless] at ha
    refine ⟨{ w with objects := fun n => if n = k then none else w.objects n }, by rw [act], h.alive, h.serializer, fun n hn => ?_⟩
    obtain ⟨r, hr⟩ := h.objects n hn
    exact ⟨r, (if_neg fun e => ha (by rw [← e]; exact hn)).trans hr⟩
  | .write k r, _, w, h, _ => by
    refine ⟨{ w with objects := fun n => if n = k then (w.objects n).map fun _ => r else w.objects n }, by rw [act], h.alive, h.serializer, fun n hn => ?_⟩
    obtain ⟨r', hr⟩ := h.objects n hn
    by_cases e : n = k
    · exact ⟨r, (if_pos e).trans (by rw [hr]; rfl)⟩
    · exact ⟨r', (if_neg e).trans hr⟩
  | .call arg object inside status data, pending, w, h, ha => by
    rw [Harmless] at ha
    obtain ⟨⟨b, hb⟩, hi⟩ := ha
    rw [act, callWith, h.alive]
    cases ho : w.objects object with
    | none =>
      simp only [Bool.not_true, Bool.false_eq_true, if_false, Option.isNone_none, if_true]
      exact ⟨w.emit _, rfl, h.alive, h.serializer, h.objects⟩
    | some r =>
      simp only [Bool.not_true, Bool.false_eq_true, if_false, Option.isNone_some, ready_serializer h, hb]
      have h' : Ready sers fmt (object :: pending) w := ⟨h.alive, h.serializer, fun k hk => by
        rcases List.mem_cons.1 hk with rfl | hk
        · exact ⟨r, ho⟩
        · exact h.objects k hk⟩
      obtain ⟨w1, h1, h2⟩ := run_ready inside h' hi
      obtain ⟨r', w2, s, -, h3, h4, -⟩ := finish_ready h2 status data
      refine ⟨w2, ?_, h4.alive, h4.serializer, fun k hk => h4.objects k (List.mem_cons_of_mem _ hk)⟩
      rw [show ((Res.ok b).bind fun _ => (run sers w inside).bind fun w => finish sers w object status data) =
        (run sers w inside).bind fun w => finish sers w object status data from rfl, h1,
        show ((Res.ok w1).bind fun w => finish sers w object status data) = finish sers w1 object status data from rfl, h3]
      rfl
end

theorem gone_finish {w w' : World R} {k object : Nat} {status s : Status} {data : Bytes} (h : finish sers w object status data = .ok (w', s))
    (hk : w.objects k = none) : w'.objects k = none := by
  unfold finish at h
  split at h
  · simp at h
  split at h
  · cases h; exact hk
  cases ho : w.objects object with
  | none => rw [ho] at h; simp at h
  | some r =>
    rw [ho] at h
    dsimp only at h
    injection h with h
    injection h with h _
    rw [← h]
    dsimp only
    rw [if_neg]
    · exact hk
    · intro e
      rw [e, ho] at hk
      cases hk

mutual
/-- An object that is gone does not come back. -/
theorem gone_run : ∀ (l : List (Act A R)) {w w' : World R} {k : Nat}, run sers w l = .ok w' → w.objects k = none → w'.objects k = none
  | [], w, w', k, h, hk => by
    rw [run] at h
    cases h
    exact hk
  | a :: rest, w, w', k, h, hk => by
    rw [run] at h
    cases ha : act sers w a with
    | ok w1 =>
      rw [ha] at h
      exact gone_run rest h (gone_act a ha hk)
    | throw e => rw [ha] at h; cases h
    | ub => rw [ha] at h; cases h
    | fuel => rw [ha] at h; cases h
theorem gone_act : ∀ (a : Act A R) {w w' : World R} {k : Nat}, act sers w a = .ok w' → w.objects k = none → w'.objects k = none
  | .attach n, w, w', k, h, hk => by
    rw [act] at h
    split at h
    · cases h; exact hk
    · cases h
  | .destroyClient, w, w', k, h, hk => by
    rw [act] at h
    split at h
    · cases h; exact hk
    · cases h
  | .destroyObject k', w, w', k, h, hk => by
    rw [act] at h
    cases h
    dsimp only
    split
    · rfl
    · exact hk
  | .write k' r, w, w', k, h, hk => by
    rw [act] at h
    cases h
    dsimp only
    rw [hk]
    split <;> rfl
  | .call arg object inside status data, w, w', k, h, hk => by
    rw [act, callWith] at h
    split at h
    · cases h
    split at h
    · cases h; exact hk
    split at h
    · cases h; exact hk
    · rename_i ser d _
      cases hb : ser arg with
      | ok b =>
        rw [hb] at h
        cases hr : run sers w inside with
        | ok w1 =>
          have h : ((finish sers w1 object status data).bind fun r => Res.ok r.1) = .ok w' := by rw [hr] at h; exact h
          cases hf : finish sers w1 object status data with
          | ok r =>
            rw [hf] at h
            cases h
            exact gone_finish (s := r.2) hf (gone_run inside hr hk)
          | throw e => rw [hf] at h; cases h
          | ub => rw [hf] at h; cases h
          | fuel => rw [hf] at h; cases h
        | throw e => rw [hr] at h; cases h
        | ub => rw [hr] at h; cases h
        | fuel => rw [hr] at h; cases h
      | throw e => rw [hb] at h; cases h
      | ub => rw [hb] at h; cases h
      | fuel => rw [hb] at h; cases h
end

theorem run_append (l l' : List (Act A R)) (w : World R) : run sers w (l ++ l') = (run sers w l).bind fun w => run sers w l' := by
  induction l generalizing w with
  | nil => rw [List.nil_append, run]; rfl
  | cons a l ih =>
    rw [List.cons_append, run, run]
    cases act sers w a with
    | ok w' => exact ih w'
    | _ => rfl

/-! ### Theorems -/

/-- C98 for synchronous calls, whatever handlers do while the call waits, further calls included, to any depth: the call returns; if the server has
answered, the object for the reply, with the contents it has then, is given what the serializer of the channel that the call was made over makes of
the answer; otherwise it is left alone and the status is reported. Missing: handlers that destroy the client or the object or attach a channel with another
serializer, see the negations. -/
theorem C98_sync_partial {w : World R} {arg : A} {object : Nat} {inside : List (Act A R)} (h : Ready sers fmt [object] w) (harg : ∃ b, fmt.1 arg = .ok b)
    (hi : HarmlessAll sers fmt [object] inside) (status : Status) (data : Bytes) :
    ∃ w1 r w2 s, run sers w inside = .ok w1 ∧ w1.objects object = some r ∧ syncCall sers w arg object inside status data = .ok (w2, s) ∧
      (status.code = Status.Ok → w2.objects object = some (fmt.2 r data).1 ∧ ∃ errors, w2.errors = w1.errors ++ errors ∧ Reports (fmt.2 r data).2 s errors) ∧
      (status.code ≠ Status.Ok → w2.objects object = some r ∧ s = status ∧ w2.errors = w1.errors ++ [status]) := by
  obtain ⟨b, hb⟩ := harg
  obtain ⟨r0, ho⟩ := h.objects object (by simp)
  obtain ⟨w1, h1, h2⟩ := run_ready inside h hi
  obtain ⟨r, w2, s, h3, h4, -, h5, h6⟩ := finish_ready h2 status data
  refine ⟨w1, r, w2, s, h1, h3, ?_, h5, h6⟩
  rw [syncCall, callWith, h.alive]
  simp only [Bool.not_true, Bool.false_eq_true, if_false, ho, Option.isNone_some, ready_serializer h, hb]
  rw [h1]
  exact h4

/-- C98 for replies: reading a reply makes of its data what the serializer of the client's channel makes of it. Missing: channels with another serializer
that were attached since the call was made. -/
theorem C98_read_partial {w : World R} (h : Ready sers fmt [] w) {inside : List (Act A R)} (hi : HarmlessAll sers fmt [] inside) (fresh : R) (data : Bytes) :
    ∃ w1 w2 s errors, run sers w inside = .ok w1 ∧ read sers w1 fresh data = .ok ((fmt.2 fresh data).1, w2) ∧
      w2.errors = w1.errors ++ errors ∧ Reports (fmt.2 fresh data).2 s errors := by
  obtain ⟨w1, h1, h2⟩ := run_ready inside h hi
  obtain ⟨s, errors, h3, h4⟩ := tryDeserialize_reports fmt.2 fresh data
  refine ⟨w1, { w1 with errors := w1.errors ++ errors }, s, errors, h1, ?_, rfl, h4⟩
  unfold read
  rw [h2.alive, ready_serializer h2]
  simp only [Bool.not_true, Bool.false_eq_true, if_false, Option.map_some, h3]

/-- C98 for streams that write into an object: whether it exists or not, a message changes no other object, and if it is gone one error is emitted. -/
theorem C98_update (w : World R) (object : Nat) (data : Bytes) :
    (∀ k, k ≠ object → (update sers w object data).objects k = w.objects k) ∧
    (w.objects object = none → (update sers w object data).objects object = none ∧ ∃ s : Status, s.code = Status.InvalidArgument ∧ (update sers w object data).errors = w.errors ++ [s]) ∧
    (∀ r, w.objects object = some r → w.serializer sers = some fmt → (update sers w object data).objects object = some (fmt.2 r data).1 ∧
      ∃ s errors, (update sers w object data).errors = w.errors ++ errors ∧ Reports (fmt.2 r data).2 s errors) := by
  refine ⟨fun k hk => ?_, fun h => ?_, fun r h hs => ?_⟩
  · unfold update
    split
    · exact if_neg hk
    · rfl
  · have e : update sers w object data = w.emit ⟨Status.InvalidArgument, "Pointer to return data is null while stream update received"⟩ := by
      unfold update; rw [h]
    rw [e]
    exact ⟨h, _, rfl, rfl⟩
  · obtain ⟨s, errors, h3, h4⟩ := tryDeserialize_reports fmt.2 r data
    unfold update
    rw [h, hs]
    simp only [Option.map_some, h3]
    exact ⟨if_pos trivial, s, errors, rfl, h4⟩

/-- C98 for calls that cannot be made, because the object for the reply is gone or there is no channel with a serializer: they return at once, one
error with the status that is returned is emitted, and nothing else is changed. -/
theorem C98_refused {w : World R} (hw : w.alive = true) {object : Nat} (h : w.objects object = none ∨ ∀ n, w.channel = some n → sers n = none) (arg : A)
    (inside : List (Act A R)) (status : Status) (data : Bytes) :
    ∃ w' s, syncCall sers w arg object inside status data = .ok (w', s) ∧ s.code ≠ Status.Ok ∧ w'.errors = w.errors ++ [s] ∧
      w'.objects = w.objects ∧ w'.channel = w.channel ∧ w'.alive = true ∧ (w.objects object = none → s.code = Status.InvalidArgument) := by
  unfold syncCall callWith
  cases ho : w.objects object with
  | none => exact ⟨w.emit ⟨Status.InvalidArgument, _⟩, ⟨Status.InvalidArgument, _⟩, by simp only [hw]; rfl, by decide, rfl, rfl, rfl, hw, fun _ => rfl⟩
  | some r =>
    have hn : w.serializer sers = none := by
      rcases h with h | h
      · rw [ho] at h; cases h
      · unfold World.serializer
        cases hc : w.channel with
        | none => rfl
        | some n => exact h n hc
    exact ⟨w.emit ⟨Status.Unknown, _⟩, ⟨Status.Unknown, _⟩, by simp only [hw, hn]; rfl, by decide, rfl, rfl, rfl, hw, fun h => by cases h⟩

/-- What is done while a call waits, and then its end. -/
theorem syncCall_eq {w : World R} {arg : A} {object : Nat} (h : Ready sers fmt [object] w) (harg : ∃ b, fmt.1 arg = .ok b) (inside : List (Act A R))
    (status : Status) (data : Bytes) :
    syncCall sers w arg object inside status data = (run sers w inside).bind fun w => finish sers w object status data := by
  obtain ⟨b, hb⟩ := harg
  obtain ⟨r0, ho⟩ := h.objects object (by simp)
  rw [syncCall, callWith, h.alive]
  simp only [Bool.not_true, Bool.false_eq_true, if_false, ho, Option.isNone_some, ready_serializer h, hb]
  rfl

/-- C98 is violated: if a handler that runs while a synchronous call waits destroys the object for the reply, the answer is written through a null
pointer, for every client, argument and answer. -/
theorem C98_object_violated {w : World R} {arg : A} {object : Nat} (h : Ready sers fmt [object] w) (harg : ∃ b, fmt.1 arg = .ok b) {pre post : List (Act A R)}
    (hpre : HarmlessAll sers fmt [] pre) (hpost : HarmlessAll sers fmt [] post) {status : Status} (hs : status.code = Status.Ok) (data : Bytes) :
    syncCall sers w arg object (pre ++ .destroyObject object :: post) status data = .ub := by
  rw [syncCall_eq h harg]
  obtain ⟨w1, h1, h2⟩ := run_ready pre (pending := []) ⟨h.alive, h.serializer, by simp⟩ hpre
  rw [run_append, h1]
  show ((run sers w1 (.destroyObject object :: post)).bind _) = _
  rw [run, act]
  show ((run sers _ post).bind _) = _
  obtain ⟨w3, h3, h4⟩ := run_ready post (pending := []) (w := { w1 with objects := fun n => if n = object then none else w1.objects n }) ⟨h2.alive, h2.serializer, by simp⟩ hpost
  rw [h3]
  show finish sers w3 object status data = .ub
  have gone : w3.objects object = none := gone_run post h3 (if_pos rfl)
  unfold finish
  rw [h4.alive, gone]
  simp [hs]

/-- C98 is violated: if a handler destroys the client while a synchronous call of it waits, the call uses the destroyed client when the answer, or the
failure, arrives. -/
theorem C98_client_violated {w : World R} {arg : A} {object : Nat} (h : Ready sers fmt [object] w) (harg : ∃ b, fmt.1 arg = .ok b) {pre : List (Act A R)}
    (hpre : HarmlessAll sers fmt [object] pre) (status : Status) (data : Bytes) :
    syncCall sers w arg object (pre ++ [.destroyClient]) status data = .ub := by
  rw [syncCall_eq h harg]
  obtain ⟨w1, h1, h2⟩ := run_ready pre h hpre
  rw [run_append, h1]
  show ((run sers w1 [.destroyClient]).bind _) = _
  rw [run, act, if_pos h2.alive]
  show ((run sers { w1 with alive := false } []).bind _) = _
  rw [run]
  rfl

/-- C98 is violated: if a handler attaches a channel with another serializer while a synchronous call waits, the answer, which came through the old
channel and is in its format, is read with the serializer of the new one. -/
theorem C98_format_violated {w : World R} {arg : A} {object n : Nat} (h : Ready sers fmt [object] w) (harg : ∃ b, fmt.1 arg = .ok b) {pre : List (Act A R)}
    (hpre : HarmlessAll sers fmt [object] pre) {fmt' : (A → Res Bytes) × Deserialize R} (hn : sers n = some fmt') {status : Status}
    (hs : status.code = Status.Ok) (data : Bytes) :
    ∃ w1 r w2 s, run sers w pre = .ok w1 ∧ w1.objects object = some r ∧
      syncCall sers w arg object (pre ++ [.attach n]) status data = .ok (w2, s) ∧ w2.objects object = some (fmt'.2 r data).1 := by
  obtain ⟨w1, h1, h2⟩ := run_ready pre h hpre
  obtain ⟨r, w2, s, h3, h4, -, h5, -⟩ := finish_ready (sers := sers) (fmt := fmt') (pending := []) (w := { w1 with channel := some n }) (object := object)
    ⟨h2.alive, ⟨n, rfl, hn⟩, h2.objects⟩ status data
  refine ⟨w1, r, w2, s, h1, h3, ?_, (h5 hs).1⟩
  rw [syncCall_eq h harg, run_append, h1]
  show ((run sers w1 [.attach n]).bind _) = _
  rw [run, act, if_pos h2.alive]
  show ((run sers { w1 with channel := some n } []).bind _) = _
  rw [run]
  exact h4

/-- C98 is violated in the same way for replies of asynchronous calls. -/
theorem C98_read_format_violated {w : World R} {n : Nat} (h : Ready sers fmt [] w) {fmt' : (A → Res Bytes) × Deserialize R} (hn : sers n = some fmt')
    (fresh : R) (data : Bytes) :
    ∃ w1 w2, run sers w [.attach n] = .ok w1 ∧ read sers w1 fresh data = .ok ((fmt'.2 fresh data).1, w2) := by
  refine ⟨{ w with channel := some n }, ?_⟩
  obtain ⟨w1, w2, s, errors, h1, h2, -⟩ := C98_read_partial (sers := sers) (fmt := fmt') (w := { w with channel := some n }) (inside := [])
    ⟨h.alive, ⟨n, rfl, hn⟩, by simp⟩ trivial fresh data
  rw [run] at h1
  cases h1
  refine ⟨w2, ?_, h2⟩
  rw [run, act, if_pos h.alive]
  show run sers { w with channel := some n } [] = _
  rw [run]

/-! ### Concrete cases -/

/-- Two formats of numbers below 65536: the low byte first, the high byte first. -/
def low : (Nat → Res Bytes) × Deserialize Nat :=
  (fun n => .ok [UInt8.ofNat n, UInt8.ofNat (n / 256)], fun r d => match d with | [a, b] => (a.toNat + 256 * b.toNat, none) | _ => (r, some .outOfRange))
def high : (Nat → Res Bytes) × Deserialize Nat :=
  (fun n => .ok [UInt8.ofNat (n / 256), UInt8.ofNat n], fun r d => match d with | [a, b] => (b.toNat + 256 * a.toNat, none) | _ => (r, some .outOfRange))

def formats : Nat → Ser Nat Nat
  | 0 => some low
  | 1 => some low
  | _ => some high

/-- A client with a channel and two objects. -/
def begin : World Nat := ⟨true, some 0, fun k => if k < 2 then some 0 else none, []⟩

theorem begin_ready : Ready formats low [0] begin := ⟨rfl, ⟨0, rfl, rfl⟩, fun k hk => ⟨0, by rw [List.mem_singleton.1 hk]; rfl⟩⟩

/-- A handler that attaches another channel with the same serializer and makes a call, while which yet another handler destroys some other object. -/
def handlers : List (Act Nat Nat) := [.attach 1, .write 1 5, .call 7 1 [.destroyObject 4] ⟨Status.Ok, ""⟩ [3, 1], .destroyObject 1]

example : HarmlessAll formats low [0] handlers := by
  simp [handlers, HarmlessAll, Harmless, formats, low]

/-- The outcome of a call. -/
def outcome (r : Res (World Nat × Status)) : Option (Option Nat × StatusCode × List Status) :=
  match r with
  | .ok (w, s) => some (w.objects 0, s.code, w.errors)
  | _ => none

/-- With these handlers: 258 in the object of the call. -/
example : outcome (syncCall formats begin 9 0 handlers ⟨Status.Ok, ""⟩ [2, 1]) = some (some 258, Status.Ok, []) := by
  decide +kernel

/-- A channel with the other format is attached: 513. -/
example : outcome (syncCall formats begin 9 0 [.attach 2] ⟨Status.Ok, ""⟩ [2, 1]) = some (some 513, Status.Ok, []) := by
  decide +kernel

/-- The object for the reply is gone: nothing inside runs, one error. -/
example : outcome (syncCall formats { begin with objects := fun _ => none } 9 0 handlers ⟨Status.Ok, ""⟩ [2, 1]) =
    some (none, Status.InvalidArgument, [⟨Status.InvalidArgument, "Unable to call method: %1. Pointer to return data is null"⟩]) := by
  decide +kernel

end QtPb.Waiting
