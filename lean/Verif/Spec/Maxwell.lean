import Verif.Spec.Hybrid

/-!
Specification of Maxwell's equations with the current of the particles, for fields that do not depend on q3.
-/

namespace Bolt

variable {S P Q K : Type} [AddCommGroup Q] [Field K] [Fintype P] [Fintype S]

/-- The velocity of a momentum cell in each direction (the coordinates of the momentum grid are velocities). -/
def velocity (c : CoupledConfig S P Q K) (k : Fin 3) (s : S) (p : P) : K :=
  match k with
  | 0 => c.coords.p1 s p | 1 => c.coords.p2 s p | 2 => c.coords.p3 s p

/-- The current density carried by all species: charge times velocity times number of particles per volume.  `g k` is the distribution at
the location of component `k`. -/
def currentDensity (c : CoupledConfig S P Q K) (g : Fin 3 → Dist S P Q K) (k : Fin 3) (i : Q) : K :=
  ∑ s, c.charge s * ∑ p, velocity c k s p * (g k s p i * (c.dp1 s * c.dp2 s * c.dp3 s))

/-- The curl of the electric field, each difference between the two neighbouring values on either side of the location of the component of
the magnetic field. -/
def curlOfE (q1 q2 : Q) (dq1 dq2 : K) (E : Fin 3 → Q → K) : Fin 3 → Q → K
  | 0 => fun i => (E 2 i - E 2 (i - q2)) / dq2
  | 1 => fun i => -((E 2 i - E 2 (i - q1)) / dq1)
  | 2 => fun i => (E 1 i - E 1 (i - q1)) / dq1 - (E 0 i - E 0 (i - q2)) / dq2

end Bolt
