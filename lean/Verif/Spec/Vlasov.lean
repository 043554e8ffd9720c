import Verif.Spec.Convergence
import Verif.Spec.Transport
import Verif.Model.Boundaries
import Mathlib.Analysis.Calculus.Deriv.Basic
import Mathlib.Data.Fin.VecNotation

/-! Specification vocabulary for transport in phase space: points `(q1, q2, p1, p2, p3)`, smooth solutions of the Vlasov equation with given
velocities and forces, and what the cells of a grid see of them. -/

namespace Bolt

/-- A point of phase space: `(q1, q2, p1, p2, p3)`. -/
abbrev PhasePoint : Type := Fin 5 → ℝ

/-- The point with coordinate `k` replaced by `y`. -/
def moved (x : PhasePoint) (k : Fin 5) (y : ℝ) : PhasePoint := Function.update x k y

/-- A differentiable function that is bounded by `M`, with its derivative, whose derivative has Lipschitz constant `M`. -/
structure SmoothLine (M : ℝ) (g : ℝ → ℝ) : Prop where
  diff : Differentiable ℝ g
  bound : ∀ y, |g y| ≤ M
  bound' : ∀ y, |deriv g y| ≤ M
  lip' : ∀ y z, |deriv g y - deriv g z| ≤ M * |y - z|

/-- The box `[start, start + L]` in phase space. -/
def InBox (start L : PhasePoint) (x : PhasePoint) : Prop := ∀ k, start k ≤ x k ∧ x k ≤ start k + L k

/-- `u` solves `∂u/∂t + ∑ₖ ∂(aₖ u)/∂xₖ = 0` in the box, where `a = (v1, v2, F1, F2, F3)` are the velocity and the force.  `u` is periodic in
every coordinate (which a distribution that vanishes near the ends of the momentum range may be taken to be), `aₖ` in coordinate `k`; along
every coordinate line through the box both are smooth with bound `M`, and so is `u` in time. -/
structure VlasovSolution (start L : PhasePoint) (M : ℝ) (a : Fin 5 → ℝ → PhasePoint → ℝ) (u : ℝ → PhasePoint → ℝ) : Prop where
  periodic : ∀ t k x, u t (moved x k (x k + L k)) = u t x
  periodicVelocity : ∀ t k x, a k t (moved x k (x k + L k)) = a k t x
  smooth : ∀ t k x, InBox start L x → SmoothLine M (fun y => u t (moved x k y))
  smoothVelocity : ∀ t k x, InBox start L x → SmoothLine M (fun y => a k t (moved x k y))
  smoothTime : ∀ x, SmoothLine M (fun t => u t x)
  smoothRate : ∀ t k x y z, InBox start L x →
    |deriv (fun t => u t (moved x k y)) t - deriv (fun t => u t (moved x k z)) t| ≤ M * |y - z|
  equation : ∀ t x, InBox start L x →
    deriv (fun t => u t x) t + ∑ k, deriv (fun y => a k t (moved x k y) * u t (moved x k y)) (x k) = 0

section
variable {N1 N2 Np1 Np2 Np3 : ℕ}

/-- Number of cells along the five axes. -/
def cellsAlong (N1 N2 Np1 Np2 Np3 : ℕ) : Fin 5 → ℕ := ![N1, N2, Np1, Np2, Np3]

/-- Cell size along axis `k`. -/
noncomputable def spacing (N1 N2 Np1 Np2 Np3 : ℕ) (L : PhasePoint) (k : Fin 5) : ℝ := L k / cellsAlong N1 N2 Np1 Np2 Np3 k

/-- Centre of the phase-space cell `(p, q)`. -/
noncomputable def phaseCentre (start L : PhasePoint) (p : PIdx Np1 Np2 Np3) (q : ZMod N1 × ZMod N2) : PhasePoint :=
  ![cellCentre (start 0) (L 0) N1 q.1, cellCentre (start 1) (L 1) N2 q.2, cellCentre (start 2) (L 2) Np1 p.1,
    cellCentre (start 3) (L 3) Np2 p.2.1, cellCentre (start 4) (L 4) Np3 p.2.2]

/-- Centre of the left face of the cell along axis `k`. -/
noncomputable def leftFace (start L : PhasePoint) (k : Fin 5) (p : PIdx Np1 Np2 Np3) (q : ZMod N1 × ZMod N2) : PhasePoint :=
  moved (phaseCentre start L p q) k (phaseCentre start L p q k - spacing N1 N2 Np1 Np2 Np3 L k / 2)

/-- The callbacks return the velocities and forces `a` of time `t` at the left faces of the cells. -/
structure FaceVelocities {S : Type} (start L : PhasePoint) (a : Fin 5 → ℝ → PhasePoint → ℝ) (s : S) (t : ℝ)
    (cb : Callbacks S (PIdx Np1 Np2 Np3) (ZMod N1 × ZMod N2) ℝ) : Prop where
  q1 : ∀ p q, cb.Cq1 s p q = a 0 t (leftFace start L 0 p q)
  q2 : ∀ p q, cb.Cq2 s p q = a 1 t (leftFace start L 1 p q)
  p1 : ∀ p q, cb.Cp1 s p q = a 2 t (leftFace start L 2 p q)
  p2 : ∀ p q, cb.Cp2 s p q = a 3 t (leftFace start L 3 p q)
  p3 : ∀ p q, cb.Cp3 s p q = a 4 t (leftFace start L 4 p q)

/-- The callbacks of every step are evaluated at the time at which the step begins. -/
def TimedVelocities {S : Type} (start L : PhasePoint) (a : Fin 5 → ℝ → PhasePoint → ℝ) (s : S) :
    ℝ → List (ℝ × (Fin 2 → Callbacks S (PIdx Np1 Np2 Np3) (ZMod N1 × ZMod N2) ℝ)) → Prop
  | _, [] => True
  | t, (dt, cb) :: rest => FaceVelocities start L a s t (cb 0) ∧ TimedVelocities start L a s (t + dt) rest

/-- The axes of the phase-space grid. -/
def phaseAxes (N1 N2 Np1 Np2 Np3 : ℕ) : Axes (PIdx Np1 Np2 Np3) (ZMod N1 × ZMod N2) :=
  { p1 := (1, 0, 0), p2 := (0, 1, 0), p3 := (0, 0, 1), q1 := (1, 0), q2 := (0, 1) }

/-- The first-order scheme in both spaces without collisions, fields on, on the grid that divides the box `[start, start + L]`. -/
structure FirstOrderVlasov {S : Type} (N1 N2 Np1 Np2 Np3 : ℕ) (L : PhasePoint) (s : S) (cfg : FVMConfig S ℝ) : Prop where
  methodQ : cfg.solverMethodInQ = "FVM"
  methodP : cfg.solverMethodInP = "FVM"
  fields : cfg.fieldsEnabled = true
  reconQ : cfg.reconstructionInQ = "piecewise-constant"
  reconP : cfg.reconstructionInP = "piecewise-constant"
  noSource : cfg.sourceEnabled = false
  pos : ∀ k, 0 < L k
  dq1 : cfg.dq1 = spacing N1 N2 Np1 Np2 Np3 L 0
  dq2 : cfg.dq2 = spacing N1 N2 Np1 Np2 Np3 L 1
  dp1 : cfg.dp1 s = spacing N1 N2 Np1 Np2 Np3 L 2
  dp2 : cfg.dp2 s = spacing N1 N2 Np1 Np2 Np3 L 3
  dp3 : cfg.dp3 s = spacing N1 N2 Np1 Np2 Np3 L 4

/-- The average over all phase-space cells of the distance between a distribution and a function of phase space. -/
noncomputable def averageError [NeZero N1] [NeZero N2] [NeZero Np1] [NeZero Np2] [NeZero Np3] (start L : PhasePoint)
    (f : PIdx Np1 Np2 Np3 → ZMod N1 × ZMod N2 → ℝ) (g : PhasePoint → ℝ) : ℝ :=
  (∑ p, ∑ q, |f p q - g (phaseCentre start L p q)|) / (N1 * N2 * Np1 * Np2 * Np3)

end

end Bolt
