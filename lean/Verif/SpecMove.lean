import Verif.SpecCompare
import Verif.Move
/-
Specification of moving messages.
-/
namespace QtPb.Spec

/-- What is assumed of Qt's containers: a moved-from container is still a container of its type, and two containers of pointers
that compare equal have the same contents. -/
structure Containers.Sound (env : Env) (q : Containers) : Prop where
  left : ∀ ty a b, HasTy env ty a → HasTy env ty b → HasTy env ty (q.left ty a b)
  samePtrs : ∀ ty a b, HasTy env ty a → HasTy env ty b → q.samePtrs a b = true → Mirrors env ty a b

/-- The contents of the target and of the source after a move. -/
def targets (r : List Moved) : Obj := r.map fun x => x.target
def sources (r : List Moved) : Obj := r.map fun x => x.source

end QtPb.Spec
