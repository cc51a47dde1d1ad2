import Verif.StatusValue
/-
What a program expects of status objects: each is a code with a message, like a number or a text; only the operations and answers of
`StatusValue` are used here.
-/
namespace QtPb.StatusValue

/-- A status object: it holds a code and a message, or its contents have been moved away. -/
inductive Entry
  | value (code : Int) (message : List Nat)
  | moved
  deriving DecidableEq, Repr

/-- The objects that exist. -/
abbrev World := Nat → Option Entry

/-- No objects. -/
def World.empty : World := fun _ => none

/-- `v` becomes `e`; all others stay what they are. -/
def World.put (w : World) (v : Nat) (e : Option Entry) : World := fun u => if u = v then e else w u

/-- Objects are made once and used only while they exist (the rules of C++). -/
def Lives (w : World) : Op → Prop
  | .create v _ _ => w v = none
  | .copyCreate v u | .moveCreate v u => w v = none ∧ w u ≠ none
  | .copyAssign v u | .moveAssign v u | .equal v u => w v ≠ none ∧ w u ≠ none
  | .destroy v | .code v | .message v | .isCode v _ | .isNotCode v _ => w v ≠ none

/-- The operation asks for the contents of object `v`. -/
def Asks : Op → Nat → Prop
  | .copyCreate _ u, v | .copyAssign _ u, v => v = u
  | .code u, v | .message u, v | .isCode u _, v | .isNotCode u _, v => v = u
  | .equal u u', v => v = u ∨ v = u'
  | _, _ => False

/-- The operation gives `v` new contents by copying. -/
def CopiesInto : Op → Nat → Prop
  | .copyAssign u _, v => v = u
  | _, _ => False

/-- The objects after an operation. -/
def after (w : World) : Op → World
  | .create v c m => w.put v (some (.value c m))
  | .copyCreate v u | .copyAssign v u => w.put v (w u)
  | .moveCreate v u => (w.put u (some .moved)).put v (w u)
  | .moveAssign v u => if v = u then w else (w.put u (some .moved)).put v (w u)
  | .destroy v => w.put v none
  | _ => w

/-- `a` is the right answer to the operation. -/
def Right (w : World) : Op → Option Answer → Prop
  | .code v, a => ∃ c m, w v = some (.value c m) ∧ a = some (.code c)
  | .message v, a => ∃ c m, w v = some (.value c m) ∧ a = some (.message m)
  | .isCode v c, a => ∃ c' m b, w v = some (.value c' m) ∧ a = some (.bool b) ∧ (b = true ↔ c' = c)
  | .isNotCode v c, a => ∃ c' m b, w v = some (.value c' m) ∧ a = some (.bool b) ∧ (b = true ↔ c' ≠ c)
  | .equal v u, a => ∃ c m c' m' b, w v = some (.value c m) ∧ w u = some (.value c' m') ∧ a = some (.bool b) ∧ (b = true ↔ c = c')
  | _, a => a = none

/-- The objects after a history. -/
def afterAll (w : World) : List Op → World
  | [] => w
  | op :: ops => afterAll (after w op) ops

/-- All operations of a history satisfy `P` in the situation in which they are done. -/
def Throughout (P : World → Op → Prop) (w : World) (ops : List Op) : Prop :=
  ∀ pre op post, ops = pre ++ op :: post → P (afterAll w pre) op

/-- The user does not ask a status for contents that have been moved away. -/
def Careful (w : World) (op : Op) : Prop := ∀ v, Asks op v → w v ≠ some .moved

/-- The answers of a history, in order, are right. -/
inductive AllRight : World → List Op → List Answer → Prop
  | nil (w : World) : AllRight w [] []
  | silent {w : World} {op : Op} {ops : List Op} {as : List Answer} :
      Right w op none → AllRight (after w op) ops as → AllRight w (op :: ops) as
  | answer {w : World} {op : Op} {ops : List Op} {a : Answer} {as : List Answer} :
      Right w op (some a) → AllRight (after w op) ops as → AllRight w (op :: ops) (a :: as)

end QtPb.StatusValue
