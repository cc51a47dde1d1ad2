import Verif.StreamReenter
/-
Specification of handlers that abort their stream while they are called.
-/
namespace QtPb.StreamReenter.Spec

/-- Handlers that do nothing or abort, but do not wait. -/
def NoWait (script : Script) : Prop := ∀ subs ∈ script, ∀ x ∈ subs, x = .abort

/-- The messages up to the first one whose handler aborts, with that one, and whether there is one. -/
def upToAbort : List Bytes → Script → List Bytes × Bool
  | [], _ => ([], false)
  | ms, [] => (ms, false)
  | m :: ms, subs :: script => if subs = [] then (m :: (upToAbort ms script).1, (upToAbort ms script).2) else ([m], true)

end QtPb.StreamReenter.Spec
