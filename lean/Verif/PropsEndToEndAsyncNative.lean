import Verif.SpecEndToEndAsyncNative
import Verif.PropsEndToEndNative
import Verif.PropsEndToEndAsync
import Verif.PropsNative
/-
C108 over the native channel: asynchronous calls, any number of them at the same time, from the arguments through the server to the messages that are read from
the replies.
-/
namespace QtPb.EndToEnd.Native.Async
open Http2 QtPb.Native Call QtPb.Spec QtPb.EndToEnd.Spec

open Spec

variable {env : Env}

theorem run_length (ser : Nat → Obj → Res Bytes) : ∀ (acts : List Act) {s s' : Session}, run ser s acts = .ok s' → s'.length = s.length + calls acts
  | [], s, s', h => by cases h; rfl
  | a :: rest, s, s', h => by
    simp only [run, Res.bind_eq_ok] at h
    obtain ⟨s1, h1, h2⟩ := h
    have := run_length ser rest h2
    cases a with
    | call method service m arg =>
      simp only [step, Res.bind_eq_ok] at h1
      obtain ⟨bs, -, h1⟩ := h1
      cases h1
      simp [calls] at this ⊢
      omega
    | event i e =>
      have hl : s1.length = s.length := by
        simp only [step] at h1
        split at h1
        · rw [Res.bind_eq_ok] at h1
          obtain ⟨c', -, h1⟩ := h1
          cases h1
          simp
        · cases h1
          rfl
      rw [this, hl]
      simp [calls]

/-- What happens to a call does not depend on the other calls. -/
theorem run_at (ser : Nat → Obj → Res Bytes) : ∀ (acts : List Act) {s s' : Session} {i : Nat} {r : Request} {c : QtPb.Native.State}, run ser s acts = .ok s' →
    s[i]? = some (r, c) → ∃ c', QtPb.Native.run c (eventsOf i acts) = .ok c' ∧ s'[i]? = some (r, c')
  | [], s, s', i, r, c, h, hi => by cases h; exact ⟨c, rfl, hi⟩
  | a :: rest, s, s', i, r, c, h, hi => by
    simp only [run, Res.bind_eq_ok] at h
    obtain ⟨s1, h1, h2⟩ := h
    have hlt := (List.getElem?_eq_some_iff.1 hi).1
    cases a with
    | call method service m arg =>
      simp only [step, Res.bind_eq_ok] at h1
      obtain ⟨bs, -, h1⟩ := h1
      cases h1
      have := run_at ser rest h2 (i := i) (r := r) (c := c) (by rw [List.getElem?_append_left hlt]; exact hi)
      simpa [eventsOf] using this
    | event j e =>
      simp only [step] at h1
      by_cases hj : j = i
      · subst hj
        rw [hi] at h1
        dsimp only at h1
        rw [Res.bind_eq_ok] at h1
        obtain ⟨c1, hc1, h1⟩ := h1
        cases h1
        obtain ⟨c', k1, k2⟩ := run_at ser rest h2 (i := j) (r := r) (c := c1) (by rw [List.getElem?_set_self hlt])
        refine ⟨c', ?_, k2⟩
        have : eventsOf j (.event j e :: rest) = e :: eventsOf j rest := by simp [eventsOf]
        rw [this]
        simp only [QtPb.Native.run, hc1]
        exact k1
      · have hi1 : s1[i]? = some (r, c) := by
          split at h1
          · rw [Res.bind_eq_ok] at h1
            obtain ⟨c1, -, h1⟩ := h1
            cases h1
            rw [List.getElem?_set_ne hj]
            exact hi
          · cases h1
            exact hi
        have := run_at ser rest h2 hi1
        simpa [eventsOf, hj] using this

theorem run_append (ser : Nat → Obj → Res Bytes) : ∀ (xs : List Act) {ys : List Act} {s s' : Session}, run ser s (xs ++ ys) = .ok s' →
    ∃ s1, run ser s xs = .ok s1 ∧ run ser s1 ys = .ok s'
  | [], ys, s, s', h => ⟨s, rfl, h⟩
  | a :: xs, ys, s, s', h => by
    simp only [List.cons_append, run, Res.bind_eq_ok] at h
    obtain ⟨s1, h1, h2⟩ := h
    obtain ⟨s2, h3, h4⟩ := run_append ser xs h2
    exact ⟨s2, by simp only [run, Res.bind_eq_ok]; exact ⟨s1, h1, h3⟩, h4⟩

/-- C108 over the native channel: the calls of a client do not disturb each other. -/
theorem C108_native_own {ser : Nat → Obj → Res Bytes} {before after : List Act} {method service : String} {m : Nat} {arg : Obj} {s : Session}
    (h : run ser [] (before ++ .call method service m arg :: after) = .ok s) :
    ∃ bs c, ser m arg = .ok bs ∧ QtPb.Native.run QtPb.Native.start (eventsOf (calls before) after) = .ok c ∧
      s[calls before]? = some (⟨"/" ++ service ++ "/" ++ method, [bs]⟩, c) := by
  obtain ⟨s1, h1, h2⟩ := run_append ser before h
  have hl := run_length ser before h1
  simp only [List.length_nil, Nat.zero_add] at hl
  simp only [run, step, Res.bind_eq_ok] at h2
  obtain ⟨s2, ⟨bs, hb, e⟩, h3⟩ := h2
  cases e
  obtain ⟨c, k1, k2⟩ := run_at ser after h3 (i := calls before) (r := request method service bs) (c := QtPb.Native.start) (by
    rw [List.getElem?_append_right (by omega), hl, Nat.sub_self]
    rfl)
  exact ⟨bs, c, hb, k1, k2⟩

/-- C108 over the native channel. An asynchronous call, in any history of calls: the server receives the message `a`, the same as the argument. If the library brings an answer of the server with
an encoding of `F a`, in any slices, and this call is not aborted, `finished` is emitted once, no error is emitted, and `read()` returns the same message as `F a`.

Missing: as in `C85_answer_partial`. -/
theorem C108_native_answer_partial (hv : ValidSchema env) (ho : ValidOrder env) {rank : Nat → Nat} (ha : Acyclic env rank) (hb : NoRepeatedBool env)
    (hE : env.fromUtf8 (env.toUtf8 []) = []) {mA mR : Nat} {arg : Obj} (harg : Clean env (.msg mA) (.msg arg))
    (hsmall : ∀ n bs, serializeMessage env n mA arg = .ok bs → bs.length < 2 ^ 31) :
    ∃ N a, Same env (.msg mA) (.msg arg) (.msg a) ∧ a.length = (env.sch mA).length ∧
      ∀ (n : Nat) (ser : Nat → Obj → Res Bytes) (before after : List Act) (method service : String) (s : Session) (F : Obj → Obj), N ≤ n →
        ser mA arg = serializeMessage env n mA arg → run ser [] (before ++ .call method service mA arg :: after) = .ok s →
        Undisturbed (eventsOf (calls before) after) →
        (∀ slices b, Native.Spec.Carries env mA slices b → ((s[calls before]?).map (·.1) = some ⟨"/" ++ service ++ "/" ++ method, slices⟩) →
          ∃ answer : List Bytes, Answered ⟨0, .ok answer⟩ (eventsOf (calls before) after) ∧ Encodes env mR answer.flatten (F b)) →
        Plain env (.msg mR) (.msg (F a)) →
        ∃ slices c, s[calls before]? = some (⟨"/" ++ service ++ "/" ++ method, slices⟩, c) ∧ Native.Spec.Carries env mA slices a ∧
          c.signals = [.finished] ∧ c.clientErrors = [] ∧
          ∃ N', ∀ n', N' ≤ n' → ∃ K, ∀ k, K ≤ k → ∃ r, readReply env n' k mR c = some (r, ⟨Status.Ok, ""⟩, []) ∧
            Same env (.msg mR) (.msg r) (.msg (F a)) ∧ Safe env (.msg mR) (.msg r) := by
  obtain ⟨N, argData, a, h1, h2, h3, hla⟩ := carries hv ho ha hb hE harg hsmall
  refine ⟨N, a, h3, hla, fun n ser before after method service s F hn he hr hu hserver hF => ?_⟩
  obtain ⟨bs, c, hbs, hc, hs⟩ := C108_native_own hr
  cases (hbs.symm.trans he).trans (h1 n hn)
  obtain ⟨answer, e1, e2⟩ := hserver _ a h2 (by rw [hs]; rfl)
  obtain ⟨d1, d2, d3⟩ := C70_delivers hc hu e1 (.good rfl rfl)
  simp only [if_true] at d1 d2 d3
  refine ⟨_, _, hs, h2, d1, d3, answer.flatten.length + 1, fun n' hn' => ?_⟩
  obtain ⟨K, hK⟩ := read_usual (n := n') (old := defaultObj env mR) hv e2 hF (.inl rfl) (by omega)
  refine ⟨K, fun k hk => ?_⟩
  obtain ⟨r, k1, k2, k3⟩ := hK k hk
  refine ⟨r, ?_, k2, k3⟩
  unfold readReply
  rw [d2, k1]
  rfl

/-- C108 over the native channel: a call that the server refuses emits the status once, the client emits the same error once, and there is no data. -/
theorem C108_native_refused {ser : Nat → Obj → Res Bytes} {before after : List Act} {method service : String} {m : Nat} {arg : Obj} {s : Session} {code : Int} {nothing : Except StatusCode (List Bytes)}
    (h : run ser [] (before ++ .call method service m arg :: after) = .ok s) (hu : Undisturbed (eventsOf (calls before) after))
    (hr : Answered ⟨code, nothing⟩ (eventsOf (calls before) after)) (hc : code ≠ 0) :
    ∃ r c, s[calls before]? = some (r, c) ∧ c.signals = [.error code] ∧ c.clientErrors = [code] ∧ c.data = [] := by
  obtain ⟨bs, c, -, hrun, hs⟩ := C108_native_own h
  obtain ⟨d1, d2, d3⟩ := C70_delivers hrun hu hr (.failed hc)
  rw [if_neg hc] at d1 d2 d3
  exact ⟨_, _, hs, d1, d3, d2⟩

/-- The theorems apply: two calls whose threads overlap; the second is refused while the first waits. -/
def demoActs : List Act := [.call "method" "service" 0 demoArg, .call "other" "service" 1 [.sc (.bytes (some [1]))], .event 0 .threadBegin, .event 1 .threadBegin,
  .event 1 (.threadEnd ⟨5, .ok []⟩), .event 0 (.threadEnd ⟨0, .ok [[0x22], [1, 7]]⟩), .event 1 .deliver, .event 0 .deliver, .event 0 .deleteCall]

example : Answered ⟨0, .ok [[0x22], [1, 7]]⟩ (eventsOf 0 demoActs.tail) ∧ Undisturbed (eventsOf 0 demoActs.tail) ∧
    Encodes demo 1 [[0x22], [1, 7]].flatten [.sc (.bytes (some [7]))] ∧
    Answered ⟨5, .ok []⟩ (eventsOf 1 (demoActs.drop 2)) ∧ Undisturbed (eventsOf 1 (demoActs.drop 2)) ∧
    (match run (serializeMessage demo 50) [] demoActs with | .ok s => s.map (fun x => (x.1.path, x.2.signals, x.2.clientErrors, x.2.data)) | _ => []) =
      [("/service/method", [.finished], [], [0x22, 1, 7]), ("/service/other", [.error 5], [5], [])] :=
  ⟨⟨[], [], [], [.deleteCall], rfl, by simp, by simp⟩, by simp [Undisturbed, eventsOf, demoActs], demo_encodes,
    ⟨[], [], [], [], rfl, by simp, by simp⟩, by simp [Undisturbed, eventsOf, demoActs], by decide +kernel⟩

end QtPb.EndToEnd.Native.Async
