import Verif.Spec.ArrayProgram
import Verif.Model.BoundaryArrays

/-! Vocabulary for the boundary routines on arrays. -/

namespace Bolt

open Machine

/-- Comparisons of stored numbers are exact (floating-point comparisons are), and the literal 0 is the number zero. -/
structure ExactComparisons (K : Type) [Zero K] [LinearOrder K] [Machine K] : Prop where
  lt_eq : ∀ a b : K, lt a b = decide (a < b)
  zero : (lit 0 : K) = 0

/-- Number of position cells of the process along the normal of a wall, ghost cells included. -/
def GridSizes.width (z : GridSizes) : Wall → ℕ
  | .left => z.M1
  | .right => z.M1
  | .bottom => z.M2
  | .top => z.M2

/-- The array program and the cell model end in the same way: both raise the same exception, or the array holds the cell model's result. -/
def SameOutcome {K : Type} (z : GridSizes) (m : Except PyErr (AfArray K)) (r : Except PyErr (Dist (Fin z.Ns) z.P z.Q K)) : Prop :=
  (∀ f', r = .ok f' → ∃ c, m = .ok c ∧ z.Fits c ∧ z.cells c = f') ∧ ∀ e, r = .error e → m = .error e

section
variable {K : Type} {z : GridSizes}

/-- An advection velocity, on all cells or on the momentum cells only. -/
def VelocityHolds (m : PyExpr K) (F : Dist (Fin z.Ns) z.P z.Q K) : Prop :=
  HoldsDist m F ∨ (momentumOnly z).Holds m fun y => F y.1 y.2.1 y.2.2

/-- The expression is an array of the shape of `self.f`. -/
def GridSizes.FullShape (z : GridSizes) (m : PyExpr K) : Prop := ∃ a, m = .ok (.arr a) ∧ z.Fits a

/-- The advection velocities used by the boundary routines: `velocity_q1`, `velocity_q2`. -/
def ArrBCEnv.vel1 (x : ArrBCEnv K) : PyExpr K := if x.solverMethodInQ = "FVM" then x.Cq1 else x.Aq1
def ArrBCEnv.vel2 (x : ArrBCEnv K) : PyExpr K := if x.solverMethodInQ = "FVM" then x.Cq2 else x.Aq2

/-- At this wall the routine needs the user's values. -/
def ArrBCEnv.Inflow (x : ArrBCEnv K) (w : Wall) : Prop := x.name w = "dirichlet" ∨ x.name w = "mirror+dirichlet"

/-- The arrays read by the boundary routines hold what the cell model prescribes: the velocities on all cells or on the momentum cells, the user's wall values as
an array of the shape of `self.f` or as a number. -/
structure ArrBCEnv.Hold [Zero K] [LinearOrder K] (x : ArrBCEnv K) (env : BCEnv (Fin x.z.Ns) x.z.Np1 x.z.Np2 x.z.Np3 x.z.M1 x.z.M2 K) : Prop where
  g : x.g = env.g
  name : x.name = env.name
  pGrid : x.pGrid = env.pGrid
  start1 : x.start1 = env.start1
  start2 : x.start2 = env.start2
  nLocal1 : x.nLocal1 = env.nLocal1
  nLocal2 : x.nLocal2 = env.nLocal2
  N1 : x.N1 = env.N1
  N2 : x.N2 = env.N2
  vel1 : (∃ w, x.Inflow w) → VelocityHolds (z := x.z) x.vel1 env.velocity.1
  vel2 : (∃ w, x.Inflow w) → VelocityHolds (z := x.z) x.vel2 env.velocity.2
  user : ∀ w a, x.Inflow w → x.z.Fits a →
    HoldsDist (z := x.z) (x.user w a) (env.user w (x.z.cells a)) ∨ ∃ c, x.user w a = .ok (.num c) ∧ env.user w (x.z.cells a) = fun _ _ _ => c
  sheared : ∀ w a, x.name w = "shearing-box" → x.z.Fits a →
    ∃ b, x.sheared w a = .ok b ∧ x.z.Fits b ∧ x.z.cells b = env.sheared w (x.z.cells a)

variable [Machine K]

/-- The ghost zone and the cells mirrored into it lie in the array, at every wall the process has to treat. -/
def ArrBCEnv.WallsFit (x : ArrBCEnv K) : Prop :=
  ∀ w, x.touches w = true → x.name w ≠ "periodic" → x.name w ≠ "none" → 0 < x.g ∧ 2 * x.g ≤ x.z.width w

/-- With one position cell along `q2` (no ghost cells there) velocities have to be given on all cells, if the process has an inflow wall. -/
def ArrBCEnv.VelocitiesFit (x : ArrBCEnv K) : Prop :=
  ∀ w, x.touches w = true → x.Inflow w → x.z.M2 = 1 → x.z.FullShape x.vel1 ∧ x.z.FullShape x.vel2

end

namespace Decomp
variable {K : Type} [Machine K] [Zero K] [LinearOrder K] {N1 N2 : ℕ} [NeZero N1] [NeZero N2] {R : Type} (D : Decomp N1 N2 R) (g1 g2 Np1 Np2 Np3 Ns : ℕ)
  [NeZero Np1] [NeZero Np2] [NeZero Np3] [NeZero Ns]

/-- The arrays handed to the boundary routines and to the slope evaluations of a step hold what the cell model prescribes, and the walls are usable: every process touching a
wall with a condition has a ghost zone there, and velocities have the full shape where the code needs it. -/
structure BcInputsHold (o : BCOptions) (cfg : FVMConfig (Fin Ns) K) (b : Fin 2 → R → ArrBCData K) (x : Fin 2 → R → AfArray K → ArrIn K)
    (dat : Fin 2 → ∀ r, D.LocBCData g1 g2 r (Fin Ns) Np1 Np2 Np3 K) (cb : Fin 2 → ∀ r, Callbacks (Fin Ns) (AslPIdx Np1 Np2 Np3) (D.Loc g1 g2 r) K) : Prop where
  slopes : D.InputsHold g1 g2 Np1 Np2 Np3 Ns cfg x cb
  walls : ∀ k r, (D.arrEnv g1 g2 Np1 Np2 Np3 Ns o r (b k r)).Hold (D.bcEnv g1 g2 o r (dat k r))
  room : ∀ k r, (D.arrEnv g1 g2 Np1 Np2 Np3 Ns o r (b k r)).WallsFit
  velocities : ∀ k r, (D.arrEnv g1 g2 Np1 Np2 Np3 Ns o r (b k r)).VelocitiesFit

end Decomp

end Bolt
