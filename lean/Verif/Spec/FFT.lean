import Mathlib.Data.ZMod.ValMinAbs
import Mathlib.Analysis.SpecialFunctions.Complex.CircleAddChar
import Mathlib.Analysis.Complex.Trigonometric

/-! Specification vocabulary for the spectral solver: the trigonometric interpolant of a periodic grid function. -/

namespace Bolt

open Complex Finset

variable {N1 N2 : ℕ} [NeZero N1] [NeZero N2]

/-- Fourier coefficient of a grid function: `x j = ∑ k, coeff x k · exp(2πi (j₁k₁/N₁ + j₂k₂/N₂))`. -/
noncomputable def coeff (x : ZMod N1 × ZMod N2 → ℂ) (k : ZMod N1 × ZMod N2) : ℂ :=
  (∑ j : ZMod N1 × ZMod N2, x j * exp (-(2 * Real.pi * I * (j.1.val * k.1.val / N1 + j.2.val * k.2.val / N2)))) / (N1 * N2)

/-- The mode `k` is at the highest frequency of an axis with an even number of cells, which the grid cannot distinguish from its negative. -/
def Nyquist {N : ℕ} (k : ZMod N) : Prop := 2 * k.val = N

instance {N : ℕ} (k : ZMod N) : Decidable (Nyquist k) := by unfold Nyquist; infer_instance

/-- The wave numbers (radians per length) of mode `k` on a grid with spacing `d`, taking the representative of `k` closest to zero. -/
noncomputable def waveNumber {N : ℕ} (d : ℝ) (k : ZMod N) : ℝ := 2 * Real.pi * k.valMinAbs / (N * d)

/-- The trigonometric interpolant of the grid function `x` at an arbitrary point of the plane. -/
noncomputable def trigInterp (dq1 dq2 : ℝ) (x : ZMod N1 × ZMod N2 → ℝ) (X Y : ℝ) : ℂ :=
  ∑ k : ZMod N1 × ZMod N2, coeff (fun j => (x j : ℂ)) k * exp (I * (waveNumber dq1 k.1 * X + waveNumber dq2 k.2 * Y))

/-- The grid function has no content in unresolved modes. -/
def Resolved (x : ZMod N1 × ZMod N2 → ℝ) : Prop := ∀ k, Nyquist k.1 ∨ Nyquist k.2 → coeff (fun j => (x j : ℂ)) k = 0

end Bolt
