import Verif.Spec.Linear
import Mathlib.LinearAlgebra.CrossProduct

/-!
# Textbook Runge–Kutta methods, the linearised Vlasov equation and Maxwell's equations mode by mode

Reference definitions for the linear solver: a Butcher tableau and what it means, the right-hand sides as vector equations with dot and cross
products.
-/

namespace Bolt

open Complex Matrix

/-- An explicit Runge–Kutta method: for every stage the node `c` and the coefficients of the earlier slopes, then the weights. -/
structure Tableau where
  rows : List (ℝ × List ℝ)
  weights : List ℝ

section tableau

variable {V : Type} [AddCommGroup V] [Module ℝ V]

/-- `a1 k1 + a2 k2 + ...`. -/
def combine : List ℝ → List V → V
  | a :: as, k :: ks => a • k + combine as ks
  | _, _ => 0

/-- The slopes of the stages, in order, for `dx/dt = A t x` from `x0` at time `t`. -/
def slopes (A : ℝ → V → V) (t : ℝ) (x0 : V) (dt : ℝ) : List (ℝ × List ℝ) → List V → List V
  | [], ks => ks
  | (c, a) :: rows, ks => slopes A t x0 dt rows (ks ++ [A (t + c * dt) (x0 + dt • combine a ks)])

/-- One step. -/
def Tableau.step (T : Tableau) (A : ℝ → V → V) (t : ℝ) (x0 : V) (dt : ℝ) : V :=
  x0 + dt • combine T.weights (slopes A t x0 dt T.rows [])

end tableau

/-- The midpoint rule, the classical fourth-order method, and the six-stage fifth-order method of Butcher (1964). -/
noncomputable def LinScheme.tableau : LinScheme → Tableau
  | .rk2 => ⟨[(0, []), (1 / 2, [1 / 2])], [0, 1]⟩
  | .rk4 => ⟨[(0, []), (1 / 2, [1 / 2]), (1 / 2, [0, 1 / 2]), (1, [0, 0, 1])], [1 / 6, 1 / 3, 1 / 3, 1 / 6]⟩
  | .rk5 => ⟨[(0, []), (1 / 4, [1 / 4]), (1 / 4, [1 / 8, 1 / 8]), (1 / 2, [0, -1 / 2, 1]), (3 / 4, [3 / 16, 0, 0, 9 / 16]),
      (1, [-3 / 7, 2 / 7, 12 / 7, -12 / 7, 8 / 7])], [7 / 90, 0, 32 / 90, 12 / 90, 32 / 90, 7 / 90]⟩

variable {M1 M2 M3 ns N1 N2 : ℕ} [NeZero M1] [NeZero M2] [NeZero M3] [NeZero N1] [NeZero N2]

/-- The wave vector of a mode. -/
noncomputable def waveVec (dq1 dq2 : ℝ) (q : ZMod N1 × ZMod N2) : Fin 3 → ℂ := ![(calculateK dq1 dq2 q).1, (calculateK dq1 dq2 q).2, 0]

/-- The electric field of a mode. -/
def EVec (em : LinEM N1 N2) (q : ZMod N1 × ZMod N2) : Fin 3 → ℂ := ![em 0 q, em 1 q, em 2 q]
/-- The magnetic field of a mode. -/
def BVec (em : LinEM N1 N2) (q : ZMod N1 × ZMod N2) : Fin 3 → ℂ := ![em 3 q, em 4 q, em 5 q]

/-- The velocity of a momentum cell. -/
def velVec (c : PCoords (Fin ns) (MomIx M1 M2 M3) ℝ) (s : Fin ns) (p : MomIx M1 M2 M3) : Fin 3 → ℂ := ![c.p1 s p, c.p2 s p, c.p3 s p]

/-- The momentum gradient of one mode (fourth-order differences on the momentum grid). -/
noncomputable def momGrad (dp1 dp2 dp3 : Fin ns → ℝ) (f : LinF M1 M2 M3 ns N1 N2 ℂ) (p : MomIx M1 M2 M3) (s : Fin ns) (q : ZMod N1 × ZMod N2) : Fin 3 → ℂ :=
  ![centralDiff4 axP1 (dp1 s : ℂ) (fun p => f p s q) p, centralDiff4 axP2 (dp2 s : ℂ) (fun p => f p s q) p,
    centralDiff4 axP3 (dp3 s : ℂ) (fun p => f p s q) p]

/-- The linearised Vlasov equation of a mode:
`df/dt = -i k·v f - (e/m) (E + v × B)·∂f0/∂v - (e/m) (v × B0)·∂f/∂v`, with `∂f0/∂v` the background gradient and `B0` a uniform magnetic field. -/
noncomputable def vlasovRate (cfg : LinCfg M1 M2 M3 ns N1 N2) (em : LinEM N1 N2) (B0 : Fin 3 → ℂ) (f : LinF M1 M2 M3 ns N1 N2 ℂ) :
    LinF M1 M2 M3 ns N1 N2 ℂ := fun p s q =>
  let v := velVec cfg.coords s p
  let r : ℂ := cfg.charge s / cfg.mass s;
  -I * (waveVec cfg.dq1 cfg.dq2 q ⬝ᵥ v) * f p s q
    - r * ((EVec em q + v ⨯₃ BVec em q) ⬝ᵥ ![(cfg.dfdp1 p s : ℂ), (cfg.dfdp2 p s : ℂ), (cfg.dfdp3 p s : ℂ)])
    - r * ((v ⨯₃ B0) ⬝ᵥ momGrad cfg.dp1 cfg.dp2 cfg.dp3 f p s q)

/-- The current density of a mode: charge times the momentum sum of `v f` times the cell volume, over all species. -/
noncomputable def currentVec (cfg : LinCfg M1 M2 M3 ns N1 N2) (f : LinF M1 M2 M3 ns N1 N2 ℂ) (q : ZMod N1 × ZMod N2) : Fin 3 → ℂ :=
  ∑ s, ∑ p, ((cfg.charge s * (cfg.dp1 s * cfg.dp2 s * cfg.dp3 s) : ℝ) : ℂ) • f p s q • velVec cfg.coords s p

/-- The six field amplitudes of every mode from their vectors. -/
def emOf (E B : ZMod N1 × ZMod N2 → Fin 3 → ℂ) : LinEM N1 N2 :=
  ![fun q => E q 0, fun q => E q 1, fun q => E q 2, fun q => B q 0, fun q => B q 1, fun q => B q 2]

/-- Maxwell's equations of a mode: `dE/dt = i k × B / (mu eps) - J / eps`, `dB/dt = -i k × E`. -/
noncomputable def maxwellRate (cfg : LinCfg M1 M2 M3 ns N1 N2) (f : LinF M1 M2 M3 ns N1 N2 ℂ) (em : LinEM N1 N2) : LinEM N1 N2 :=
  emOf (fun q => ((cfg.mu * cfg.eps : ℝ) : ℂ)⁻¹ • I • (waveVec cfg.dq1 cfg.dq2 q ⨯₃ BVec em q) - (cfg.eps : ℂ)⁻¹ • currentVec cfg f q)
    (fun q => -(I • (waveVec cfg.dq1 cfg.dq2 q ⨯₃ EVec em q)))

/-- Twice the electromagnetic energy of a mode, `eps |E|^2 + |B|^2 / mu`. -/
noncomputable def emEnergy (eps mu : ℝ) (em : LinEM N1 N2) (q : ZMod N1 × ZMod N2) : ℝ :=
  eps * ∑ i, ‖EVec em q i‖ ^ 2 + (∑ i, ‖BVec em q i‖ ^ 2) / mu

end Bolt
