import Verif.Model.Linear

/-! Specification vocabulary for the linear solver. -/

namespace Bolt

open Complex

/-- The order of accuracy advertised by the docstrings (`integrators.py:10, 38, 77`). -/
def LinScheme.order : LinScheme → ℕ
  | .rk2 => 2
  | .rk4 => 4
  | .rk5 => 5

/-- The factor by which an amplitude with `dx/dt = λ x` is multiplied in one step, `z = λ dt`: the Taylor polynomial of the exponential up
to the order of the scheme (and, for the six-stage fifth-order scheme, one more term). -/
noncomputable def LinScheme.poly : LinScheme → ℂ → ℂ
  | .rk2, z => 1 + z + z ^ 2 / 2
  | .rk4, z => 1 + z + z ^ 2 / 2 + z ^ 3 / 6 + z ^ 4 / 24
  | .rk5, z => 1 + z + z ^ 2 / 2 + z ^ 3 / 6 + z ^ 4 / 24 + z ^ 5 / 120 + z ^ 6 / 640

variable {M1 M2 M3 ns N1 N2 : ℕ}

/-- The momentum grid is a product: each momentum coordinate varies along its own axis only. -/
structure LinProductGrid (c : PCoords (Fin ns) (MomIx M1 M2 M3) ℝ) : Prop where
  p1 : ∃ x : Fin ns → ZMod M1 → ℝ, ∀ s p, c.p1 s p = x s p.1
  p2 : ∃ x : Fin ns → ZMod M2 → ℝ, ∀ s p, c.p2 s p = x s p.2.1
  p3 : ∃ x : Fin ns → ZMod M3 → ℝ, ∀ s p, c.p3 s p = x s p.2.2

variable [NeZero M1] [NeZero M2] [NeZero M3] [NeZero N1] [NeZero N2]

/-- `i k · B` of a mode: the amplitude of the divergence of the magnetic field. -/
noncomputable def divBHat (dq1 dq2 : ℝ) (em : LinEM N1 N2) (q : ZMod N1 × ZMod N2) : ℂ :=
  I * (calculateK dq1 dq2 q).1 * em 3 q + I * (calculateK dq1 dq2 q).2 * em 4 q

/-- `i k · E` of a mode: the amplitude of the divergence of the electric field. -/
noncomputable def divEHat (dq1 dq2 : ℝ) (em : LinEM N1 N2) (q : ZMod N1 × ZMod N2) : ℂ :=
  I * (calculateK dq1 dq2 q).1 * em 0 q + I * (calculateK dq1 dq2 q).2 * em 1 q

/-- The amplitude of the charge density: charge times the sum over momentum cells of `f` times the cell volume, over all species. -/
noncomputable def chargeHat (charge dp1 dp2 dp3 : Fin ns → ℝ) (f : LinF M1 M2 M3 ns N1 N2 ℂ) (q : ZMod N1 × ZMod N2) : ℂ :=
  ∑ s, (charge s : ℂ) * ((∑ p, f p s q) * ((dp1 s * dp2 s * dp3 s : ℝ) : ℂ))

end Bolt
