import Mathlib.Algebra.Order.Field.Basic
import Mathlib.Algebra.Order.Floor.Semiring
import Mathlib.Analysis.SpecialFunctions.Exp

/-! What the runs of the graphene device are to do. -/

namespace Bolt

/-- Values below `a` are raised to `a`. -/
def raisedTo {C K : Type} [LinearOrder K] (a : K) (f : C → K) : C → K := fun i => max (f i) a

/-- States before each step: the start, raised to the floor; then step by step, where step `i` is made with the clock at `i dt`, the first one with ten
iterations of the collision operator and the others with `iters`; the distribution is raised to the floor after each. -/
def deviceHistory {C R K : Type} [Field K] [LinearOrder K] (solve : ℕ → K → K → (C → K) × R → (C → K) × R) (a dt : K) (iters : ℕ)
    (start : (C → K) × R) : ℕ → (C → K) × R
  | 0 => (raisedTo a start.1, start.2)
  | i + 1 =>
    let x := solve (if i = 0 then 10 else iters) (i * dt) dt (deviceHistory solve a dt iters start i)
    (raisedTo a x.1, x.2)

/-- The Fermi-Dirac occupation of a state of energy `E` and momentum `px` along the drift, in a gas with chemical potential `mu`, thermal energy `kT` and
drift velocity `v`. -/
noncomputable def occupation (kT mu v E px : ℝ) : ℝ := 1 / (Real.exp ((E - v * px - mu) / kT) + 1)

end Bolt
