import Verif.Model.Array
import Mathlib.Data.ZMod.ValMinAbs
import Mathlib.Analysis.SpecialFunctions.Complex.CircleAddChar
import Mathlib.Analysis.Complex.Trigonometric

/-!
# Fourier transforms and the spectral Poisson solver
(`bolt/lib/utils/fft_funcs.py`, `bolt/lib/utils/calculate_k.py`, `bolt/lib/nonlinear/fields/electrostatic/fft.py`)
-/

namespace Bolt

open Complex Finset

variable {N1 N2 : ℕ} [NeZero N1] [NeZero N2]

/-- `af.fft2` (ArrayFire primitive): unnormalised forward transform over the first two axes. -/
noncomputable def afFft2 (x : ZMod N1 × ZMod N2 → ℂ) : ZMod N1 × ZMod N2 → ℂ := fun k =>
  ∑ j : ZMod N1 × ZMod N2, x j * exp (-(2 * Real.pi * I * ((j.1.val * k.1.val : ℕ) / N1 + (j.2.val * k.2.val : ℕ) / N2)))

/-- `af.ifft2(x, scale = 1)` (ArrayFire primitive): unnormalised inverse transform. -/
noncomputable def afIfft2 (x : ZMod N1 × ZMod N2 → ℂ) : ZMod N1 × ZMod N2 → ℂ := fun j =>
  ∑ k : ZMod N1 × ZMod N2, x k * exp (2 * Real.pi * I * ((j.1.val * k.1.val : ℕ) / N1 + (j.2.val * k.2.val : ℕ) / N2))

/-- `af.reorder(array, 2, 3, 0, 1)`: swap the first two axes with the last two. -/
def reorder2301 {A B C α : Type} (x : A → B → C → α) : C → A → B → α := fun c a b => x a b c

/-- `fft2(array)` — `fft_funcs.py:15-23`, for an array of shape `(N_p, N_s, N_q1, N_q2)`; the two reorders transform the
position axes for every momentum and species index. -/
noncomputable def fft2 {P S : Type} (x : P → S → ZMod N1 × ZMod N2 → ℂ) : P → S → ZMod N1 × ZMod N2 → ℂ :=
  let a := reorder2301 x
  let b := fun k p s => afFft2 (fun j => a j p s) k
  fun p s k => b k p s

/-- `ifft2(array)` — `fft_funcs.py:25-33`: the unnormalised inverse divided by `shape[0] * shape[1]` of the reordered array.
(`array.shape` drops trailing axes of length one; when `N_q2 = N_p = N_s = 1` line 28 raises `IndexError`. That case is
the first branch; `np`, `ns` are the lengths of the momentum and species axes.) -/
noncomputable def ifft2 {P S : Type} (np ns : ℕ) (x : P → S → ZMod N1 × ZMod N2 → ℂ) :
    Except PyErr (P → S → ZMod N1 × ZMod N2 → ℂ) :=
  if N2 = 1 ∧ np = 1 ∧ ns = 1 then .error .indexError
  else
    let a := reorder2301 x
    let b := fun j p s => afIfft2 (fun k => a k p s) j / ((N1 : ℂ) * N2)
    .ok (fun p s j => b j p s)

/-- `np.fft.fftfreq(N, d)`: `[0, 1, ..., (N-1)//2, -(N//2), ..., -1] / (N d)` — used at `calculate_k.py:12-13`, `fft.py:35-36`. -/
noncomputable def fftfreq (N : ℕ) (d : ℝ) (k : ZMod N) : ℝ :=
  (if k.val < (N - 1) / 2 + 1 then (k.val : ℝ) else (k.val : ℝ) - N) / (N * d)

/-- `calculate_k` — `calculate_k.py:7-24` (the `meshgrid` makes `k_q1` vary along the first position axis and `k_q2` along the
second). -/
noncomputable def calculateK (dq1 dq2 : ℝ) (k : ZMod N1 × ZMod N2) : ℝ × ℝ :=
  (2 * Real.pi * fftfreq N1 dq1 k.1, 2 * Real.pi * fftfreq N2 dq2 k.2)

/-- `fft_poisson(self, rho)` — `fft.py:9-78`, on the bulk of the grid of the single process; returns the values written to
components 0 and 1 of the cell-centred fields.  `rho` is the charge density summed over species.
`rho.shape[1]` at line 36 raises when there is one cell in the second direction (trailing axis dropped).
The division by zero in the mean mode (line 55) is overwritten by line 56. -/
noncomputable def fftPoisson (commSize : ℕ) (dq1 dq2 eps : ℝ) (rho : ZMod N1 × ZMod N2 → ℝ) :
    Except PyErr ((ZMod N1 × ZMod N2 → ℝ) × (ZMod N1 × ZMod N2 → ℝ)) :=
  if commSize ≠ 1 then .error .exception                                                   -- 26-27
  else if N2 = 1 then .error .indexError                                                   -- 36
  else
    let kq1 : ZMod N1 × ZMod N2 → ℝ := fun k => fftfreq N1 dq1 k.1                         -- 35, 38
    let kq2 : ZMod N1 × ZMod N2 → ℝ := fun k => fftfreq N2 dq2 k.2                         -- 36, 38
    let mean := (∑ j, rho j) / ((N1 : ℝ) * N2)
    let rhoHat := afFft2 (fun j => ((rho j - mean : ℝ) : ℂ))                               -- 44-45
    let pot : ZMod N1 × ZMod N2 → ℂ := fun k =>                                            -- 55-56
      if k = 0 then 0 else rhoHat k / ((4 * Real.pi ^ 2 * (kq1 k ^ 2 + kq2 k ^ 2) : ℝ) : ℂ)
    let E1Hat : ZMod N1 × ZMod N2 → ℂ := fun k => -I * 2 * Real.pi * kq1 k * pot k          -- 58
    let E2Hat : ZMod N1 × ZMod N2 → ℂ := fun k => -I * 2 * Real.pi * kq2 k * pot k          -- 59
    let E1 := fun j => (afIfft2 E1Hat j / ((N1 : ℂ) * N2)).re / eps                        -- 62, 65, 68
    let E2 := fun j => (afIfft2 E2Hat j / ((N1 : ℂ) * N2)).re / eps                        -- 63, 66, 69
    .ok (E1, E2)

end Bolt
