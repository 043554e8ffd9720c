import Verif.Model.Recon
import Mathlib.Analysis.Calculus.Deriv.Basic

/-! Specification vocabulary for the order of accuracy: data that sample a function on a uniform grid. -/

namespace Bolt

/-- Around cell `i`, the data `x` are the values of `f` at points a distance `h` apart, with cell `i` at `x0`; `e` is the step to the
next cell.  Only the seven cells around `i` matter. -/
def SamplesAround {I : Type} [AddCommGroup I] (f : ℝ → ℝ) (x0 h : ℝ) (e i : I) (x : I → ℝ) : Prop :=
  ∀ k : ℤ, -3 ≤ k → k ≤ 3 → x (i + k • e) = f (x0 + k * h)

/-- The advertised order of accuracy of a reconstruction where the data are smooth and monotone. -/
def Recon.order : Recon → ℕ
  | .piecewiseConstant => 1
  | .minmod => 2
  | .ppm => 4

end Bolt
