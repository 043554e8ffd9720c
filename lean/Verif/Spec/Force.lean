import Verif.Model.Boundaries
import Verif.Spec.Nonrel

/-! Specification vocabulary for the balance of momentum and energy. -/

namespace Bolt

variable {S Q K : Type} {N1 N2 N3 : ℕ}

/-- Index of a momentum cell along axis `k`. -/
def momentumIndex (k : Fin 3) (p : PIdx N1 N2 N3) : ℕ := ![p.1.val, p.2.1.val, p.2.2.val] k

/-- There are no particles in the outermost `l` layers of momentum cells at the two ends of momentum axis `k`. -/
def ClearOfEdges [Zero K] (k : Fin 3) (l : ℕ) (f : Dist S (PIdx N1 N2 N3) Q K) : Prop :=
  ∀ s p q, momentumIndex k p < l ∨ ![N1, N2, N3] k ≤ momentumIndex k p + l → f s p q = 0

/-- The acceleration of a particle of charge `e`, mass `m` and velocity `v` in the fields `E`, `B`: `(e/m) (E + v × B)`. -/
def lorentz [Field K] (e m : K) (E B v : Fin 3 → K) : Fin 3 → K :=
  ![e / m * (E 0 + (v 1 * B 2 - v 2 * B 1)), e / m * (E 1 + (v 2 * B 0 - v 0 * B 2)), e / m * (E 2 + (v 0 * B 1 - v 1 * B 0))]

/-- The force density (per unit mass) on a fluid of number density `n` and momentum density `P`: `(e/m) (n E + P × B)`. -/
def forceDensity [Field K] (e m : K) (E B : Fin 3 → K) (n : K) (P : Fin 3 → K) : Fin 3 → K :=
  ![e / m * (n * E 0 + (P 1 * B 2 - P 2 * B 1)), e / m * (n * E 1 + (P 2 * B 0 - P 0 * B 2)), e / m * (n * E 2 + (P 0 * B 1 - P 1 * B 0))]

/-- The force density on the momentum components whose axis is resolved; an axis with a single momentum cell carries no force. -/
def resolvedForce [Field K] (N1 N2 N3 : ℕ) (e m : K) (E B : Fin 3 → K) (n : K) (P : Fin 3 → K) (j : Fin 3) : K :=
  if ![N1, N2, N3] j = 1 then 0 else forceDensity e m E B n P j

/-- The position-space axes are arbitrary; the momentum axes are those of the array. -/
structure MomentumAxes [NeZero N1] [NeZero N2] [NeZero N3] (ax : Axes (PIdx N1 N2 N3) Q) : Prop where
  p1 : ax.p1 = (1, 0, 0)
  p2 : ax.p2 = (0, 1, 0)
  p3 : ax.p3 = (0, 0, 1)

end Bolt
