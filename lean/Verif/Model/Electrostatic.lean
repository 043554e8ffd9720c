import Verif.Model.FFT
import Verif.Model.Coupled

/-! # The electrostatic fields of a coupled run -/

namespace Bolt

variable {S : Type} [Fintype S] {N1 N2 : ℕ} [NeZero N1] [NeZero N2]

/-- `compute_electrostatic_fields(self, rho)` on the whole periodic grid of a single process — `fields.py:559-566` with `fft.py:68-69`:
the charge density is summed over species and components 0 and 1 of the cell-centred array are overwritten.  Where `fft_poisson`
raises (one cell along q2), the model leaves the state unchanged; the theorems about it assume more than one cell. -/
noncomputable def electrostaticFFT (dq1 dq2 eps : ℝ) (rho : S → ZMod N1 × ZMod N2 → ℝ) (σ : FieldState (ZMod N1 × ZMod N2) ℝ) :
    FieldState (ZMod N1 × ZMod N2) ℝ :=
  match fftPoisson 1 dq1 dq2 eps (fun j => ∑ s, rho s j) with
  | .error _ => σ
  | .ok (E1, E2) => { σ with heap := fun k => if k = σ.cc then { σ.heap σ.cc with E1 := E1, E2 := E2 } else σ.heap k }

end Bolt
