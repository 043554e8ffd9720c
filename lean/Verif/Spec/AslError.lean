import Verif.Spec.Convergence
import Mathlib.Analysis.Calculus.ContDiff.Basic
import Mathlib.Analysis.Calculus.IteratedDeriv.Defs

/-! Specification vocabulary for the accuracy of semi-Lagrangian advection. -/

namespace Bolt

/-- A profile in the plane that is periodic in both directions, three times continuously differentiable along each axis, with third
derivatives along the axes bounded by `M1` and `M2`. -/
structure ThriceSmooth (L1 L2 M1 M2 : ℝ) (g : ℝ × ℝ → ℝ) : Prop where
  smooth1 : ∀ y, ContDiff ℝ 3 fun x => g (x, y)
  smooth2 : ∀ x, ContDiff ℝ 3 fun y => g (x, y)
  bound1 : ∀ x y, |iteratedDeriv 3 (fun x => g (x, y)) x| ≤ M1
  bound2 : ∀ x y, |iteratedDeriv 3 (fun y => g (x, y)) y| ≤ M2
  periodic1 : ∀ x y, g (x + L1, y) = g (x, y)
  periodic2 : ∀ x y, g (x, y + L2) = g (x, y)

/-- Root mean square over the cells of the grid. -/
noncomputable def rms {ι : Type} [Fintype ι] (u : ι → ℝ) : ℝ := √((∑ i, u i ^ 2) / Fintype.card ι)

end Bolt
