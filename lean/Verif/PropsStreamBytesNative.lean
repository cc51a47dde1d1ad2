import Verif.PropsStreamBytes
import Verif.PropsEndToEndNative
/-
Property theorems: C109 for streams over the native channel, among any other streams, of either kind.
-/
namespace QtPb.StreamBytes
open Http2 Stream Stream.Spec Spec
open QtPb.Spec EndToEnd EndToEnd.Spec

variable {env : Env}

/-- **C109**, partial, for the native channel. Whatever other streams there are, of either kind, before, at the same time and later, and whatever becomes of them: a handler `x` subscribes to a method with an argument message, a
request is sent for this, over the native channel, and it is the only one for this stream. The server receives the same message as the argument. The reply object of the handler is
updated once for each message that was delivered, in order, and is the same message each time; nothing is reported. These are the first ones of those that the thread has read, and all of
them if no signal of the thread is waiting and the stream exists.

Missing: as in `C85_stream_partial`. -/
theorem C109_native_answer_partial (hv : ValidSchema env) (ho : ValidOrder env) {rank : Nat → Nat} (ha : Acyclic env rank) (hb : NoRepeatedBool env) (hm : NoMessageMaps env)
    (hE : env.fromUtf8 (env.toUtf8 []) = []) {mA mR : Nat} {arg ret : QtPb.Obj} (harg : Clean env (.msg mA) (.msg arg))
    (hsmall : ∀ n bs, serializeMessage env n mA arg = .ok bs → bs.length < 2 ^ 31) (hret : Safe env (.msg mR) (.msg ret)) :
    ∃ N argData a, (∀ n, N ≤ n → serializeMessage env n mA arg = .ok argData) ∧ EndToEnd.Native.Spec.Carries env mA (Native.parseQByteArray argData) a ∧
      Same env (.msg mA) (.msg arg) (.msg a) ∧
      ∀ (n : Nat) (entry : Nat → Nat) (as : List Act) (th : Nat) (s : Session) (t : List Seen) (pre post : List Obs) (method : String) (x st q : Nat) (f : QtPb.Obj → List QtPb.Obj),
        run n entry (.new th) as = .ok (s, t) → Apart entry t → obsOf t = pre ++ .subscribed method argData (some x) st :: .started q st .native :: post →
        (∀ m' arg' s', Obs.subscribed m' arg' (some x) s' ∉ pre ∧ Obs.subscribed m' arg' (some x) s' ∉ post) →
        (∀ b k, Obs.started b st k ∉ pre ∧ Obs.started b st k ∉ post) →
        (∀ b, EndToEnd.Native.Spec.Carries env mA (Native.parseQByteArray argData) b → Answering env mR n (arrived q (obsOf t)) (f b)) →
        (∀ o ∈ f a, Plain env (.msg mR) (.msg o)) →
        ∃ there later, f a = there ++ later ∧ heard x (obsOf t) <+: arrived q (obsOf t) ∧
          ((s.client.attempts q).queue = [] → (view (obsOf t)).gone st = false → heard x (obsOf t) = arrived q (obsOf t)) ∧ there.length = (heard x (obsOf t)).length ∧
          ∃ K, ∃ rs : List QtPb.Obj, (∀ k, K ≤ k → updates env n k mR ret (heard x (obsOf t)) = some (rs.map fun r => (r, ⟨Status.Ok, ""⟩, []))) ∧
            rs.length = there.length ∧ ∀ (i : Nat) (r o : QtPb.Obj), rs[i]? = some r → there[i]? = some o → Same env (.msg mR) (.msg r) (.msg o) := by
  obtain ⟨N, argData, a, h1, h2, h3, -⟩ := EndToEnd.Native.carries hv ho ha hb hE harg hsmall
  refine ⟨N, argData, a, h1, h2, h3, ?_⟩
  intro n entry as th s t pre post method x st q f hr hA he hx hst hserver hf
  obtain ⟨hq, hheard⟩ := C109_alone hr hA he hx hst
  obtain ⟨hi, hor, -⟩ := reach hr hA
  obtain ⟨e1, e2⟩ := hserver a h2
  have hpre := hi.rel.queuePrefix q
  have hl : (passedOn q (obsOf t)).length ≤ (f a).length := Nat.le_trans hpre.length_le e1
  rw [hheard]
  refine ⟨(f a).take (passedOn q (obsOf t)).length, (f a).drop (passedOn q (obsOf t)).length, (List.take_append_drop _ _).symm, hpre, fun hempty hgone => ?_, by rw [List.length_take]; omega, ?_⟩
  · obtain ⟨k1, k2, -⟩ := hor.one q st .native (by rw [he]; simp)
    obtain ⟨-, l2, -⟩ := hi.rel.owner q k1
    have := hi.rel.queueNative q (by rw [← hi.rel.gone _ l2, k2]; exact hgone)
    rw [hempty] at this
    simpa [Item.datas] using this.symm
  · obtain ⟨rest, hrest⟩ := hpre
    obtain ⟨K, rs, g1, g2, g3⟩ := updates_usual (n := n) hv hm (passedOn q (obsOf t)) ((f a).take (passedOn q (obsOf t)).length) ret (by rw [List.length_take]; omega)
      (fun i bs o hi ho => e2 i bs o (by rw [← hrest, List.getElem?_append_left (List.getElem?_eq_some_iff.1 hi).1]; exact hi)
        (by rw [List.getElem?_take_of_lt (List.getElem?_eq_some_iff.1 hi).1] at ho; exact ho))
      (fun o ho => hf o (List.mem_of_mem_take ho)) (.inr ⟨hm, hret⟩)
    exact ⟨K, rs, g1, g2, g3⟩

/-! ### An example -/

/-- A stream over HTTP/2, which is cancelled in the middle of a message because a native channel is attached, then two streams over this channel. Their threads read messages, which
are delivered in turn; the second one is aborted. -/
def mixed : List Act := [.other (.attach .http2 1 1), .other (.subscribe "n" [2] (some 8)), .chunk 0 [0, 0, 0, 0, 9, 1, 1], .other (.attach .native 1 1),
  .other (.subscribe "m" [0x1a, 2, 0, 0x0a, 0x08, 255, 255, 255, 255, 15, 0x12, 4, 0x22, 2, 0, 255] (some 7)), .other (.subscribe "o" [3] (some 9)),
  .other (.net 1 (.data [0x22, 1, 7])), .other (.net 2 (.data [6])), .other (.net 1 (.data [0x22, 1, 7])), .other (.loop 1), .chunk 0 [1, 1, 1], .other (.loop 2),
  .other (.loop 1), .other (.abort 2)]

def mixedTrace : List Seen :=
  match run 60 id (.new 1) mixed with
  | .ok r => r.2
  | _ => []

theorem mixedTrace_eq : mixedTrace = [.obs (.subscribed "n" [2] (some 8) 0), .obs (.started 0 0 .http2), .read 0 [0, 0, 0, 0, 9, 1, 1], .obs (.finished 0), .obs (.cancelled 0),
    .obs (.subscribed "m" [0x1a, 2, 0, 0x0a, 0x08, 255, 255, 255, 255, 15, 0x12, 4, 0x22, 2, 0, 255] (some 7) 1), .obs (.started 1 1 .native),
    .obs (.subscribed "o" [3] (some 9) 2), .obs (.started 2 2 .native), .obs (.emitted 1 [0x22, 1, 7]), .obs (.emitted 2 [6]), .obs (.emitted 1 [0x22, 1, 7]),
    .obs (.recv 1 [0x22, 1, 7]), .obs (.handled 1 7 [0x22, 1, 7]), .obs (.notified 1), .obs (.recv 2 [6]), .obs (.handled 2 9 [6]), .obs (.notified 2),
    .obs (.recv 1 [0x22, 1, 7]), .obs (.handled 1 7 [0x22, 1, 7]), .obs (.notified 1), .obs (.finished 2), .obs (.cancelled 2)] := by decide +kernel

/-- The theorem applies to this history: the reply object of the handler 7 is updated for both messages. -/
example : ∃ K, ∃ rs : List QtPb.Obj, (∀ k, K ≤ k → updates EndToEnd.demo 60 k 1 [.sc (.bytes none)] (heard 7 (obsOf mixedTrace)) = some (rs.map fun r => (r, ⟨Status.Ok, ""⟩, []))) ∧
    rs.length = 2 ∧ ∀ (i : Nat) r, rs[i]? = some r → Same EndToEnd.demo (.msg 1) (.msg r) (.msg [.sc (.bytes (some [7]))]) := by
  have hv : ValidSchema EndToEnd.demo := by
    intro m
    match m with
    | 0 => decide
    | 1 => decide
    | _ + 2 => exact ⟨by simp [EndToEnd.demo], by simp [EndToEnd.demo]⟩
  have ho : ValidOrder EndToEnd.demo := by
    intro m
    match m with
    | 0 => decide
    | 1 => decide
    | _ + 2 => exact List.Perm.refl _
  have h3 : ∀ n, serializeMessage EndToEnd.demo (n + 2) 0 demoArg = .ok [0x1a, 2, 0, 0x0a, 0x08, 255, 255, 255, 255, 15, 0x12, 4, 0x22, 2, 0, 255] :=
    fun n => serialize_mono (n := 2) (by omega) (by rfl)
  have hsmall : ∀ n bs, serializeMessage EndToEnd.demo n 0 demoArg = .ok bs → bs.length < 2 ^ 31 := by
    intro n bs h
    have h2 : serializeMessage EndToEnd.demo (n + 2) 0 demoArg = .ok bs := serialize_mono (by omega) h
    rw [h3] at h2
    cases h2
    decide
  have hplain : Plain EndToEnd.demo (.msg 1) (.msg [.sc (.bytes (some [7]))]) := Clean.plain (clean_of_cleanB (n := 4) (by decide))
  obtain ⟨N, argData, a, k1, -, -, k2⟩ := C109_native_answer_partial (env := EndToEnd.demo) (mA := 0) (mR := 1) (arg := demoArg) (ret := [.sc (.bytes none)])
    (rank := fun m => if m = 0 then 1 else 0) hv ho
    (demo_all (by simp [EndToEnd.demo]) (by simp [EndToEnd.demo])) (demo_all (by decide) (by decide)) (demo_all (by simp [EndToEnd.demo]) (by simp [EndToEnd.demo])) rfl
    (clean_of_cleanB (n := 4) (by decide)) hsmall (Clean.plain (clean_of_cleanB (n := 4) (by decide))).safe
  cases (k1 (N + 2) (by omega)).symm.trans (h3 N)
  have hrun : ∃ s, run 60 id (.new 1) mixed = .ok (s, mixedTrace) := by
    have : (match run 60 id (.new 1) mixed with | .ok _ => true | _ => false) = true := by decide +kernel
    cases h : run 60 id (.new 1) mixed with
    | ok r => exact ⟨r.1, by unfold mixedTrace; rw [h]⟩
    | throw e => rw [h] at this; cases this
    | ub => rw [h] at this; cases this
    | fuel => rw [h] at this; cases this
  obtain ⟨s, hrun⟩ := hrun
  have harr : arrived 1 (obsOf mixedTrace) = [[0x22, 1, 7], [0x22, 1, 7]] := by rw [mixedTrace_eq]; rfl
  have hh : heard 7 (obsOf mixedTrace) = [[0x22, 1, 7], [0x22, 1, 7]] := by rw [mixedTrace_eq]; rfl
  have henc : ∀ (i : Nat) (bs : Bytes) (o : QtPb.Obj), [[0x22, 1, 7], [0x22, 1, 7]][i]? = some bs → [[Val.sc (.bytes (some [7]))], [.sc (.bytes (some [7]))]][i]? = some o →
      Encodes EndToEnd.demo 1 bs o ∧ bs.length < 60 := by
    intro i bs o hi ho
    match i with
    | 0 => cases hi; cases ho; exact ⟨demo_encodes, by decide⟩
    | 1 => cases hi; cases ho; exact ⟨demo_encodes, by decide⟩
    | _ + 2 => simp at hi
  obtain ⟨there, later, c1, -, -, c2, K, rs, c3, c4, c5⟩ := k2 60 id mixed 1 s mixedTrace (obsOf (mixedTrace.take 5)) (obsOf (mixedTrace.drop 7)) "m" 7 1 1
    (fun _ => [[.sc (.bytes (some [7]))], [.sc (.bytes (some [7]))]]) hrun (fun pre post b s k e a hab hid => absurd hid hab) (by rw [mixedTrace_eq]; rfl)
    (fun m' arg' s' => ⟨by rw [mixedTrace_eq]; simp [obsOf], by rw [mixedTrace_eq]; simp [obsOf]⟩) (fun b k => ⟨by rw [mixedTrace_eq]; simp [obsOf], by rw [mixedTrace_eq]; simp [obsOf]⟩)
    (fun _ _ => ⟨by rw [harr]; decide, by rw [harr]; exact henc⟩)
    (fun o ho => by
      have : o = [.sc (.bytes (some [7]))] := by simpa using ho
      rw [this]
      exact hplain)
  have h2 : there.length = 2 := by rw [c2, hh]; rfl
  have hl : later = [] := by
    have := congrArg List.length c1
    simp [h2] at this
    exact this
  subst hl
  rw [List.append_nil] at c1
  subst c1
  refine ⟨K, rs, c3, c4, fun i r hi => ?_⟩
  have hlt := (List.getElem?_eq_some_iff.1 hi).1
  rw [c4] at hlt
  match i, hlt with
  | 0, _ => exact c5 0 r _ hi rfl
  | 1, _ => exact c5 1 r _ hi rfl
  | _ + 2, h => simp at h; omega

end QtPb.StreamBytes
