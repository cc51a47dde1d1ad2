import Verif.ReadLock
/-
C74, second model: handlers at every depth, and data that arrive in event loops started by handlers.
-/
namespace QtPb.ReadLock

/-! ### Specification -/

/-- The operation an action is about. -/
def Op.operation : Op → Nat
  | .read i => i
  | .store i _ => i

/-- The program does something with operation `i`, at any depth. -/
inductive Touches (i : Nat) : Prog → Prop
  | here {op h r} : op.operation = i → Touches i (.act op h r)
  | handlers {op h r} : Touches i h → Touches i (.act op h r)
  | rest {op h r} : Touches i r → Touches i (.act op h r)

/-- Handlers that run while an operation is read leave this operation alone. -/
inductive Careful : Prog → Prop
  | done : Careful .done
  | read {i h r} : ¬ Touches i h → Careful h → Careful r → Careful (.act (.read i) h r)
  | store {i d h r} : Careful h → Careful r → Careful (.act (.store i d) h r)


/-! ### C74 -/

theorem exec_careful {decodes : Bytes → Bool} {p : Prog} (hp : Careful p) (held : List Nat) (hh : ∀ i ∈ held, ¬ Touches i p) (w : World) :
    exec decodes held w p ≠ none := by
  induction hp generalizing held w with
  | done => simp [exec]
  | @read i h r ht _ _ ih1 ih2 =>
    have hi : i ∉ held := fun hm => hh i hm (.here rfl)
    have hr : ∀ j ∈ held, ¬ Touches j r := fun j hj ht => hh j hj (.rest ht)
    rw [exec, if_neg hi]
    split
    · exact ih2 held hr _
    · have h1 := ih1 (i :: held) (fun j hj => by
        rcases List.mem_cons.1 hj with rfl | hj
        · exact ht
        · exact fun ht => hh j hj (.handlers ht)) w
      split
      · rename_i he; exact absurd he h1
      · exact ih2 held hr _
  | @store i d h r _ _ ih1 ih2 =>
    have hi : i ∉ held := fun hm => hh i hm (.here rfl)
    have hr : ∀ j ∈ held, ¬ Touches j r := fun j hj ht => hh j hj (.rest ht)
    rw [exec, if_neg hi]
    have h1 := ih1 held (fun j hj ht => hh j hj (.handlers ht)) (w.store i d)
    split
    · rename_i he; exact absurd he h1
    · exact ih2 held hr _

/-- **C74.** A program returns from all its reads if the handlers of the client's signal `error` leave the operation alone
that is being read, whatever else they do: whatever data arrive, whichever of them can be decoded, at every depth of handlers in handlers.

What is missing: handlers that read the operation again, abort it, or let its next message arrive, see `C74_reread_violated`,
`C74_aborts_reading_violated` and `C74_loop_violated`. -/
theorem C74_program_partial (decodes : Bytes → Bool) {p : Prog} (hp : Careful p) (w : World) : ∃ w', exec decodes [] w p = some w' := by
  cases h : exec decodes [] w p with
  | none => exact absurd h (exec_careful hp [] (fun _ h => by cases h) w)
  | some w' => exact ⟨w', rfl⟩

/-- If all data can be decoded, every program returns: no lock is held while handlers run. -/
theorem C74_decodable (decodes : Bytes → Bool) (hd : ∀ d, decodes d = true) (p : Prog) (w : World) :
    ∃ w', exec decodes [] w p = some w' := by
  induction p generalizing w with
  | done => exact ⟨w, rfl⟩
  | act op h r ih1 ih2 =>
    cases op with
    | read i =>
      rw [exec, if_neg (by simp), if_pos (hd _)]
      exact ih2 _
    | store i d =>
      rw [exec, if_neg (by simp)]
      obtain ⟨w1, h1⟩ := ih1 (w.store i d)
      rw [h1]
      exact ih2 w1

/-- What a read returns: the stored data if they can be decoded. In particular nothing that happens in other operations changes it. -/
theorem C74_stored (decodes : Bytes → Bool) {i : Nat} {d : Bytes} (hd : decodes d = true) (w : World) (p : Prog) {w1 : World}
    (h1 : exec decodes [] (w.store i d) p = some w1) (hp : ¬ Touches i p) (handlers : Prog) :
    ∃ w2, exec decodes [] w1 (.act (.read i) handlers .done) = some w2 ∧ w2.log = w1.log ++ [(i, some d)] := by
  have key : ∀ (p : Prog) (held : List Nat) (w w1 : World), exec decodes held w p = some w1 → ¬ Touches i p → w1.data i = w.data i := by
    intro p
    induction p with
    | done => intro held w w1 h _; rw [exec, Option.some.injEq] at h; rw [h]
    | act op h r ih1 ih2 =>
      intro held w w1 he ht
      have hh : ¬ Touches i h := fun t => ht (.handlers t)
      have hr : ¬ Touches i r := fun t => ht (.rest t)
      cases op with
      | read j =>
        rw [exec] at he
        split at he
        · cases he
        · split at he
          · have := ih2 _ _ _ he hr; exact this
          · split at he
            · cases he
            · rename_i w2 h2
              have := ih2 _ _ _ he hr
              have h3 := ih1 _ _ _ h2 hh
              rw [this]; exact h3
      | store j x =>
        rw [exec] at he
        split at he
        · cases he
        · split at he
          · cases he
          · rename_i w2 h2
            rw [ih2 _ _ _ he hr, ih1 _ _ _ h2 hh]
            have hij : i ≠ j := fun hij => ht (.here (by rw [hij]; rfl))
            simp only [World.store, if_neg hij]
  have hdat : w1.data i = d := by rw [key p [] _ _ h1 hp]; simp [World.store]
  refine ⟨{ w1 with log := w1.log ++ [(i, some d)] }, ?_, rfl⟩
  rw [exec, if_neg (by simp), hdat, if_pos hd, exec]

/-- C74 is violated: if the data cannot be decoded and a handler of the signal `error` reads the reply again, the program never goes on,
whatever the data are and whatever comes after. -/
theorem C74_reread_violated (decodes : Bytes → Bool) (w : World) (i : Nat) (hd : decodes (w.data i) = false) (h r rest : Prog) :
    exec decodes [] w (.act (.read i) (.act (.read i) h r) rest) = none := by
  simp [exec, hd]

/-- The same if the handler aborts the operation. -/
theorem C74_aborts_reading_violated (decodes : Bytes → Bool) (w : World) (i : Nat) (hd : decodes (w.data i) = false) (h r rest : Prog) :
    exec decodes [] w (.act (.read i) (.act (.store i []) h r) rest) = none := by
  simp [exec, hd]

/-- The same if the handler starts an event loop, for example that of a dialog that shows the error, and the next message of the
stream arrives. -/
theorem C74_loop_violated (decodes : Bytes → Bool) (w : World) (i : Nat) (hd : decodes (w.data i) = false) (next : Bytes) (h r rest : Prog) :
    exec decodes [] w (.act (.read i) (.act (.store i next) h r) rest) = none := by
  simp [exec, hd]

/-- A careful program: the handlers of a failed read read another reply, and the handlers of this one abort a third. -/
example : Careful (.act (.store 0 [255]) .done (.act (.read 0) (.act (.read 1) (.act (.store 2 []) .done .done) .done)
    (.act (.read 0) .done .done))) :=
  .store .done (.read (fun h => by
      cases h with
      | here h => cases h
      | handlers h => cases h with
        | here h => cases h
        | handlers h => cases h
        | rest h => cases h
      | rest h => cases h)
    (.read (fun h => by
      cases h with
      | here h => cases h
      | handlers h => cases h
      | rest h => cases h) (.store .done .done) .done) (.read (fun h => by cases h) .done .done))

/-- What it does when nothing but empty data can be decoded. -/
example : (exec (fun d => d == []) [] ⟨fun _ => [7], []⟩ (.act (.store 0 [255]) .done (.act (.read 0) (.act (.read 1)
    (.act (.store 2 []) .done .done) .done) (.act (.read 2) .done .done)))).map (·.log) = some [(1, none), (0, none), (2, some [])] := by
  rfl

end QtPb.ReadLock
