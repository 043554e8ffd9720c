import Verif.Spec.Energy

/-!
Specification vocabulary for oscillations of a uniform plasma (C110).
-/

namespace Bolt

variable {S P Q K : Type} [AddCommGroup Q] [Field K] [Fintype P] [Fintype S]

/-- The square of the plasma frequency at the cell `0` of the position grid: the sum over the species of `e² n / (m eps)`, with the number density
`n = ∑ f dp₁ dp₂ dp₃`. -/
def plasmaFrequencySq (c : CoupledConfig S P Q K) (m : S → K) (f : Dist S P Q K) : K :=
  ∑ s, c.charge s ^ 2 / (m s * c.eps) * ∑ p, f s p 0 * (c.dp1 s * c.dp2 s * c.dp3 s)

end Bolt
