import Mathlib.Analysis.SpecialFunctions.Exp
import Mathlib.Data.Fin.VecNotation
import Mathlib.Algebra.BigOperators.Fin

/-! Specification vocabulary for the electronic equilibria. -/

namespace Bolt

variable {P : Type} [Fintype P]

/-- By how much the distribution `f` in one cell exceeds the drifting Fermi-Dirac distribution with parameters `(mu, T, vx, vy)`, in particle number (`i = 0`),
energy (`1`) and the two momenta (`2, 3`). -/
noncomputable def imbalance (k : ℝ) (E px py f : P → ℝ) (i : Fin 4) (mu T vx vy : ℝ) : ℝ :=
  ∑ p, (![1, E p, px p, py p] i) * (f p - 1 / (Real.exp ((E p - mu - vx * px p - vy * py p) / (k * T)) + 1))

end Bolt
