import Verif.Model.MachineArith
import Verif.Spec.Decomp

/-! Specification vocabulary for machine arithmetic. -/

namespace Bolt

/-- A rounding function of relative accuracy `u` (the unit roundoff). -/
def AccurateTo {K : Type} [Field K] [LinearOrder K] (u : K) (rnd : K → K) : Prop := 0 ≤ u ∧ ∀ x, |rnd x - x| ≤ u * |x|

/-- A number the machine can represent: rounding leaves it alone. -/
def Representable {K : Type} (rnd : K → K) (x : K) : Prop := rnd x = x

/-- A source (collision operator) at a position depends on the distribution at that position only. -/
def LocalSource {S P Q K : Type} (cb : Callbacks S P Q K) : Prop :=
  ∀ (f g : Dist S P Q K) (q : Q), (∀ s p, f s p q = g s p q) → ∀ s p, cb.source f s p q = cb.source g s p q

end Bolt
