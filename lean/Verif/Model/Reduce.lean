import Verif.Model.Array
import Mathlib.Algebra.Field.Basic
import Mathlib.Order.Defs.LinearOrder
import Mathlib.Algebra.BigOperators.Group.List.Basic
import Mathlib.Data.List.Perm.Basic

/-!
# Global reductions (`bolt/lib/utils/parallel_reduction_ops.py`)

`loc r` is the list of elements held by process `r`.  The MPI library may combine the contributions in any order and any association, so
the result of `allreduce` is a relation.
-/

namespace Bolt

/-- `comm.allreduce(x, op)`: the operands of all processes combined by any tree, in any order. -/
inductive AllReduce {α : Type} (op : α → α → α) : List α → α → Prop
  | leaf (a : α) : AllReduce op [a] a
  | node (l l1 l2 : List α) (a b : α) : l.Perm (l1 ++ l2) → AllReduce op l1 a → AllReduce op l2 b → AllReduce op l (op a b)

section
variable {K : Type} [Field K] [LinearOrder K]

/-- `np.mean` -/
def npMean (l : List K) : K := l.sum / l.length

/-- `np.min`: raises `ValueError` on an empty array. -/
def npMin : List K → Except PyErr K
  | [] => .error .valueError
  | a :: l => .ok (l.foldl min a)

/-- `global_mean` — `parallel_reduction_ops.py:5-12`.  Simplification: the mean of an empty array, `nan` in NumPy, is 0. -/
def GlobalMean {R : ℕ} (loc : Fin R → List K) (m : K) : Prop :=
  ∃ s, AllReduce (· + ·) (List.ofFn fun r => npMean (loc r)) s ∧ m = s / R

/-- `global_min` — `parallel_reduction_ops.py:14-20`: every process must get past `np.min`. -/
def GlobalMin {R : ℕ} (loc : Fin R → List K) (m : K) : Prop :=
  ∃ v : Fin R → K, (∀ r, npMin (loc r) = .ok (v r)) ∧ AllReduce min (List.ofFn v) m

/-- `global_max` as run by one process — `parallel_reduction_ops.py:22-28`: `np.min` is taken, and `local_min` does not exist. -/
def globalMax (l : List K) : Except PyErr K := do
  let _ ← npMin l
  .error .nameError

end

end Bolt
