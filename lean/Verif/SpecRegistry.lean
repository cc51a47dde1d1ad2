import Verif.Registry
/-
Specification of the handler registry: what a history of invocations and returns must look like.
-/
namespace QtPb.Registry

variable {H : Type}

/-- What a thread is doing according to the history. -/
inductive Status (H : Type)
  | idle
  | invoked (op : Op H)
  | effected (op : Op H) (r : Option H)

/-- Status of thread `i` after a history (newest event first). `none` if the thread did not go through
invoke, take effect, return, with the same operation and the same result, again and again. -/
inductive HasStatus (i : Nat) : List (Ev H) → Status H → Prop
  | start : HasStatus i [] .idle
  | inv {tr : List (Ev H)} {op : Op H} : HasStatus i tr .idle →
      HasStatus i (.inv i op :: tr) (.invoked op)
  | effect {tr : List (Ev H)} {op : Op H} {r : Option H} : HasStatus i tr (.invoked op) →
      HasStatus i (.effect i op r :: tr) (.effected op r)
  | ret {tr : List (Ev H)} {op : Op H} {r : Option H} : HasStatus i tr (.effected op r) →
      HasStatus i (.ret i op r :: tr) .idle
  | otherInv {tr : List (Ev H)} {st : Status H} {j : Nat} {op : Op H} : j ≠ i →
      HasStatus i tr st → HasStatus i (.inv j op :: tr) st
  | otherEffect {tr : List (Ev H)} {st : Status H} {j : Nat} {op : Op H} {r : Option H} : j ≠ i →
      HasStatus i tr st → HasStatus i (.effect j op r :: tr) st
  | otherRet {tr : List (Ev H)} {st : Status H} {j : Nat} {op : Op H} {r : Option H} : j ≠ i →
      HasStatus i tr st → HasStatus i (.ret j op r :: tr) st

/-- Handlers of the last registration of `ty` that took effect. -/
def lastRegistered (ty : Nat) : List (Ev H) → Option H
  | [] => none
  | .effect _ (.reg t h) _ :: tr => if t = ty then some h else lastRegistered ty tr
  | _ :: tr => lastRegistered ty tr

/-- Every lookup found what was registered last when it took effect. -/
def LookupsCorrect : List (Ev H) → Prop
  | [] => True
  | .effect _ (.look ty) r :: tr => r = lastRegistered ty tr ∧ LookupsCorrect tr
  | _ :: tr => LookupsCorrect tr

/-- The history is linearizable: every operation takes effect at one instant between its invocation and
its return, and seen at these instants the registry is a map. -/
def Linearizable (tr : List (Ev H)) : Prop := (∀ i, ∃ st, HasStatus i tr st) ∧ LookupsCorrect tr

/-- Thread `i` is changing the map. -/
def Writing (s : State H) (i : Nat) : Prop :=
  ∃ ty h old, s.pcs[i]? = some (.regWriting ty h old)

/-- Thread `i` is reading the map. -/
def Reading (s : State H) (i : Nat) : Prop := ∃ ty, s.pcs[i]? = some (.lookReading ty)

/-- Some registration of `ty` has been invoked by `k` and not returned. -/
def Pending (tr : List (Ev H)) (k ty : Nat) : Prop :=
  ∃ h, HasStatus k tr (.invoked (.reg ty h)) ∨ ∃ r, HasStatus k tr (.effected (.reg ty h) r)

/-- No registration of `ty` is invoked in a piece of history. -/
def NoneInvoked (ty : Nat) (tr : List (Ev H)) : Prop := ∀ (k : Nat) (h : H), Ev.inv k (.reg ty h) ∉ tr

/-- All threads are outside. -/
def AllIdle (s : State H) : Prop := ∀ (i : Nat) (pc : Pc H), s.pcs[i]? = some pc → pc = .idle

/-- `k` steps of threads inside operations (no new invocations). -/
inductive Steps : Nat → State H → State H → Prop
  | refl (s : State H) : Steps 0 s s
  | next {k i : Nat} {s s' s'' : State H} : Step i s s' → Steps k s' s'' → Steps (k + 1) s s''

end QtPb.Registry
