import Verif.AssignLemmas
import Verif.Demo
/-
A checker for `Holds`, used only by examples.
-/
namespace QtPb
open Spec

/-- Is every scalar of the value accepted by `p`, with nesting at most `n`? -/
def holdsB (env : Env) (p : Kind → Scalar → Bool) : Nat → FieldTy → Val → Bool
  | 0, _, _ => false
  | n + 1, ty, v =>
    match ty, v with
    | .scalar k, .sc s => p k s
    | .list k, .scList l => l.all (p k)
    | .enum, .enum _ => true
    | .enumList, .enumList _ => true
    | .msg _, .msgNull => true
    | .msg m, .msg o => o.length == (env.sch m).length &&
        (((env.sch m).zip o).all fun x => holdsB env p n x.1.ty x.2)
    | .msgList m, .msgList l =>
        l.all fun v => (match v with | .msgNull => false | _ => true) && holdsB env p n (.msg m) v
    | .map kk vt, .map es =>
        (es.all fun e => p kk e.1 && (match e.2 with | .msgNull => false | _ => true) &&
          holdsB env p n (MapVal.toTy vt) e.2) &&
        decide (es.Pairwise fun a b => keyLt kk a.1 b.1 = true)
    | _, _ => false

theorem holds_of_holdsB {env : Env} {p : Kind → Scalar → Bool} {P : Kind → Scalar → Prop}
    (hp : ∀ k s, p k s = true → P k s) : ∀ {n : Nat} {ty : FieldTy} {v : Val},
    holdsB env p n ty v = true → Holds env P ty v := by
  intro n
  induction n with
  | zero => intro ty v h; simp [holdsB] at h
  | succ n ih =>
    intro ty v h
    unfold holdsB at h
    split at h
    · exact .sc (hp _ _ h)
    · simp only [List.all_eq_true] at h; exact .scList fun s hs => hp _ _ (h s hs)
    · exact .enum _
    · exact .enumList _
    · exact .null _
    · simp only [Bool.and_eq_true, beq_iff_eq, List.all_eq_true] at h
      refine .msg h.1 fun i f v hf hv => ih (h.2 (f, v) ?_)
      refine List.mem_of_getElem? (i := i) ?_
      rw [List.getElem?_zip_eq_some]
      exact ⟨hf, hv⟩
    · simp only [List.all_eq_true, Bool.and_eq_true] at h
      refine .msgList (fun v hv => ?_) fun v hv => ih (h v hv).2
      rintro rfl
      have := (h _ hv).1; simp at this
    · simp only [List.all_eq_true, Bool.and_eq_true, decide_eq_true_eq] at h
      refine .map (fun e he => hp _ _ (h.1 e he).1.1) (fun e he hn => ?_) (fun e he => ih (h.1 e he).2) h.2
      have := (h.1 e he).1.2
      rw [hn] at this; simp at this
    · simp at h

/-- Boolean form of the condition of `Clean`. -/
def cleanB (env : Env) (k : Kind) (s : Scalar) : Bool :=
  k.holds s &&
  (match k, s with
    | .float, .w32 b => !isNaN32 b
    | .double, .w64 b => !isNaN64 b
    | _, _ => true) &&
  (match s with
    | .str s => env.fromUtf8 (env.toUtf8 (s.getD [])) == s.getD []
    | _ => true)

theorem clean_of_cleanB {env : Env} {n : Nat} {ty : FieldTy} {v : Val}
    (h : holdsB env (cleanB env) n ty v = true) : Clean env ty v := by
  refine holds_of_holdsB (fun k s hs => ?_) h
  simp only [cleanB, Bool.and_eq_true] at hs
  refine ⟨hs.1.1, ?_, ?_⟩
  · cases k <;> cases s <;> simp_all [notNaN]
  · cases s <;> simp_all [textExact]

/-- An object of message type 0 of `demoSch` with a value in every field. -/
def demoObj : Obj :=
  [.sc (.w32 0xffffffff#32), .sc (.str (some ['h', 'i'])), .scList [.w32 0#32, .w32 5#32], .enum 0xfffffffe#32,
   .msg [.sc (.w32 0x3f800000#32), .sc (.bytes (some [0, 255]))],
   .msgList [.msg [.sc (.w32 0#32), .sc (.bytes none)], .msg [.sc (.w32 1#32), .sc (.bytes (some [1]))]],
   .map [(.str (some ['a']), .sc (.w64 1#64)), (.str (some ['b']), .sc (.w64 0#64))],
   .map [(.w32 0xffffffff#32, .msg [.sc (.w32 0#32), .sc (.bytes none)]),
     (.w32 1#32, .msg [.sc (.w32 7#32), .sc (.bytes none)])],
   .scList [.str (some []), .str (some ['x'])], .enumList [0#32, 3#32], .sc (.w64 0x3ff0000000000000#64)]

theorem demoObj_clean : Clean demoEnv (.msg 0) (.msg demoObj) :=
  clean_of_cleanB (n := 4) (by decide)

end QtPb
