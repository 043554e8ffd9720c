import Mathlib.Analysis.SpecialFunctions.Trigonometric.Deriv
import Mathlib.Analysis.Calculus.Deriv.Basic

/-! Particles in a plane described by polar coordinates; free motion. -/

namespace Bolt

/-- Cartesian position and velocity of a particle with polar coordinates `r`, `θ` and their rates `rd`, `td`. -/
noncomputable def toCartesian (r θ rd td : ℝ) : ℝ × ℝ × ℝ × ℝ :=
  (r * Real.cos θ, r * Real.sin θ, rd * Real.cos θ - r * Real.sin θ * td, rd * Real.sin θ + r * Real.cos θ * td)

/-- The distribution at time `t` of particles that move freely from the distribution `G` (a function of Cartesian position, Cartesian velocity and the
third velocity): the particles found at `x` with velocity `v` started at `x - v t`. -/
noncomputable def freeStream (G : ℝ × ℝ × ℝ × ℝ → ℝ → ℝ) (t r θ rd td pd : ℝ) : ℝ :=
  let c := toCartesian r θ rd td
  G (c.1 - t * c.2.2.1, c.2.1 - t * c.2.2.2, c.2.2.1, c.2.2.2) pd

/-- The left side of the conservation law for velocities `Cq1`, `Cq2` in position and `Cp1`, `Cp2`, `Cp3` in velocity space:
`∂F/∂t + ∂(Cq1 F)/∂r + ∂(Cq2 F)/∂θ + ∂(Cp1 F)/∂rd + ∂(Cp2 F)/∂td + ∂(Cp3 F)/∂pd`. -/
noncomputable def conservationLaw (Cq : ℝ → ℝ → ℝ → ℝ × ℝ) (Cp : ℝ → ℝ → ℝ → ℝ → ℝ → ℝ × ℝ × ℝ) (F : ℝ → ℝ → ℝ → ℝ → ℝ → ℝ → ℝ)
    (t r θ rd td pd : ℝ) : ℝ :=
  deriv (fun t => F t r θ rd td pd) t + deriv (fun r => (Cq rd td pd).1 * F t r θ rd td pd) r + deriv (fun θ => (Cq rd td pd).2 * F t r θ rd td pd) θ +
    deriv (fun rd => (Cp r θ rd td pd).1 * F t r θ rd td pd) rd + deriv (fun td => (Cp r θ rd td pd).2.1 * F t r θ rd td pd) td +
    deriv (fun pd => (Cp r θ rd td pd).2.2 * F t r θ rd td pd) pd

end Bolt
