import Verif.Spec.RungeKutta
import Mathlib.Analysis.Calculus.Deriv.Basic

/-!
# The initial-value problems that the linear solver approximates

The linearised Vlasov–Poisson and Vlasov–Maxwell equations mode by mode, as differential equations in time, and what a uniform plasma oscillation is
measured by.
-/

namespace Bolt

open Complex Matrix

variable {M1 M2 M3 ns N1 N2 : ℕ} [NeZero M1] [NeZero M2] [NeZero M3] [NeZero N1] [NeZero N2]

/-- The electrostatic field of a charge distribution: Gauss's law in every mode but the mean, no curl, no mean electric field, no magnetic field. -/
structure PoissonField (cfg : LinCfg M1 M2 M3 ns N1 N2) (x : LinF M1 M2 M3 ns N1 N2 ℂ) (em : LinEM N1 N2) : Prop where
  gauss : ∀ q, q ≠ 0 → cfg.eps * divEHat cfg.dq1 cfg.dq2 em q = chargeHat cfg.charge cfg.dp1 cfg.dp2 cfg.dp3 x q
  curlFree : ∀ q, waveVec cfg.dq1 cfg.dq2 q ⨯₃ EVec em q = 0
  noMean : EVec em 0 = 0
  noB : ∀ q, BVec em q = 0

/-- A solution of the linearised Vlasov–Poisson equations in a uniform magnetic field `B0`. -/
structure VlasovPoisson (cfg : LinCfg M1 M2 M3 ns N1 N2) (B0 : Fin 3 → ℂ) (f : ℝ → LinF M1 M2 M3 ns N1 N2 ℂ) (em : ℝ → LinEM N1 N2) : Prop where
  field : ∀ t, PoissonField cfg (f t) (em t)
  vlasov : ∀ t, HasDerivAt f (vlasovRate cfg (em t) B0 (f t)) t

/-- A solution of the linearised Vlasov–Maxwell equations in a uniform magnetic field `B0`. -/
structure VlasovMaxwell (cfg : LinCfg M1 M2 M3 ns N1 N2) (B0 : Fin 3 → ℂ) (f : ℝ → LinF M1 M2 M3 ns N1 N2 ℂ) (em : ℝ → LinEM N1 N2) : Prop where
  vlasov : ∀ t, HasDerivAt f (vlasovRate cfg (em t) B0 (f t)) t
  maxwell : ∀ t, HasDerivAt em (maxwellRate cfg (f t) (em t)) t

/-- `Σ (e²/m) ∫ v_i ∂f0/∂v_j dv`: minus the rate at which a unit electric field along `j` changes the current along `i`.  For a plasma of density `n` and
a background that vanishes at the edge of momentum space it is `-(n e²/m) δ_ij`, that is `-eps w² δ_ij` with the plasma frequency `w`. -/
noncomputable def plasmaResponse (cfg : LinCfg M1 M2 M3 ns N1 N2) (i j : Fin 3) : ℂ :=
  ∑ s, ∑ p, ((cfg.charge s ^ 2 / cfg.mass s * (cfg.dp1 s * cfg.dp2 s * cfg.dp3 s) : ℝ) : ℂ) * velVec cfg.coords s p i
    * ![(cfg.dfdp1 p s : ℂ), (cfg.dfdp2 p s : ℂ), (cfg.dfdp3 p s : ℂ)] j

/-- The energy of a uniform plasma oscillation with frequency `w` along axis `i`, up to a factor: `|J|² + (eps w)² |E|²` of the mean mode. -/
noncomputable def oscEnergy (cfg : LinCfg M1 M2 M3 ns N1 N2) (w : ℝ) (i : Fin 3) (f : LinF M1 M2 M3 ns N1 N2 ℂ) (em : LinEM N1 N2) : ℝ :=
  ‖currentVec cfg f 0 i‖ ^ 2 + (cfg.eps * w) ^ 2 * ‖EVec em 0 i‖ ^ 2

end Bolt
