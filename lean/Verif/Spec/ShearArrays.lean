import Verif.Spec.BoundaryArrays
import Verif.Model.ShearArrays

/-! Vocabulary for the shearing-box routine on arrays. -/

namespace Bolt

variable {K : Type}

/-- The array has one element per position cell, and holds the coordinate `q`. -/
def GridSizes.HoldsCoord (z : GridSizes) (a : AfArray K) (q : ℕ → ℕ → K) : Prop :=
  (a.d0 = 1 ∧ a.d1 = 1 ∧ a.d2 = z.M1 ∧ a.d3 = z.M2) ∧ ∀ i j, i < z.M1 → j < z.M2 → a.get 0 0 i j = q i j

/-- Number of position cells of the process along a wall, ghost cells included. -/
def GridSizes.length (z : GridSizes) : Wall → ℕ
  | .left => z.M2
  | .right => z.M2
  | .bottom => z.M1
  | .top => z.M1

variable [Field K] [LinearOrder K] [IsStrictOrderedRing K] [FloorRing K]

/-- At the walls named "shearing-box" the function `sheared` is the routine of the code. -/
def ShearsByCode (z : GridSizes) (sp : ShearParams K) (g : ℕ) (name : Wall → String) (q1 q2 : AfArray K)
    (sheared : Wall → AfArray K → Except PyErr (AfArray K)) : Prop :=
  ∀ w, name w = "shearing-box" → ∀ a, z.Fits a → ∃ b, sheared w a = .ok b ∧ ArrShearingF sp g w q1 q2 a b

namespace Decomp
variable {N1 N2 : ℕ} {R : Type} (D : Decomp N1 N2 R) (g1 g2 Np1 Np2 Np3 Ns : ℕ)

/-- Every process holds its cell centres in the arrays `q1 r`, `q2 r`. -/
def CentresHeld (sp : ShearParams K) (dq1 dq2 : K) (q1 q2 : R → AfArray K) : Prop :=
  ∀ r, (D.sizes Np1 Np2 Np3 Ns g1 g2 r).HoldsCoord (q1 r) (D.coords g1 g2 sp.q1Start sp.q2Start dq1 dq2 r).2.2.2.1 ∧
    (D.sizes Np1 Np2 Np3 Ns g1 g2 r).HoldsCoord (q2 r) (D.coords g1 g2 sp.q1Start sp.q2Start dq1 dq2 r).2.2.2.2

/-- On the arrays of all processes the routine is the code's, with the clock of the step: both stages of a step see the clock of its beginning (`timestep.py:92,153,214`). -/
def ClockedShearArr (sp : ShearParams K) (o : BCOptions) (q1 q2 : R → AfArray K) : K → List (K × (Fin 2 → R → ArrBCData K)) → Prop
  | _, [] => True
  | t, (dt, b) :: rest =>
    (∀ k r, ShearsByCode (D.sizes Np1 Np2 Np3 Ns g1 g2 r) { sp with time := t } o.nGhost o.name (q1 r) (q2 r) (b k r).sheared) ∧ ClockedShearArr sp o q1 q2 (t + dt) rest

/-- Steps of a run: step size, what the boundary routines and the slope evaluations are handed on arrays, the cell-by-cell callbacks, and those of the unbounded grid. -/
abbrev ShearSteps (K : Type) (D : Decomp N1 N2 R) (g1 g2 Np1 Np2 Np3 Ns : ℕ) : Type :=
  List (K × ((Fin 2 → R → ArrBCData K) × (Fin 2 → R → AfArray K → ArrIn K)) × (Fin 2 → ∀ r, Callbacks (Fin Ns) (AslPIdx Np1 Np2 Np3) (D.Loc g1 g2 r) K) ×
    (Fin 2 → Callbacks (Fin Ns) (AslPIdx Np1 Np2 Np3) (ℤ × ℤ) K))

end Decomp

end Bolt
