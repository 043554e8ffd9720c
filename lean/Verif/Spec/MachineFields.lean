import Verif.Model.CoupledDecomp
import Verif.Spec.CoupledDecomp
import Verif.Spec.Fields

/-! Specification vocabulary for the field solver in machine arithmetic. -/

namespace Bolt

/-- Two sets of fields agree in all cells at most `n` cells away from `i` along each axis. -/
def EMAgreeNear {Q K : Type} [AddCommGroup Q] (q1 q2 : Q) (n : ℕ) (F G : EM Q K) (i : Q) : Prop :=
  ∀ a b : ℤ, |a| ≤ n → |b| ≤ n → ∀ c, F.comp c (i + a • q1 + b • q2) = G.comp c (i + a • q1 + b • q2)

/-- The largest size of the electric field components `E1`, `E2` is at most `ME` and that of `B3` at most `MB`. -/
def GaussBounded {Q K : Type} [Lattice K] [AddGroup K] (ME MB : K) (F : EM Q K) : Prop := ∀ i, |F.E1 i| ≤ ME ∧ |F.E2 i| ≤ ME ∧ |F.B3 i| ≤ MB

/-- The components of the magnetic field in the plane are at most `MB`, and the electric field out of the plane at most `ME`. -/
def MagneticBounded {Q K : Type} [Lattice K] [AddGroup K] (MB ME : K) (F : EM Q K) : Prop := ∀ i, |F.B1 i| ≤ MB ∧ |F.B2 i| ≤ MB ∧ |F.E3 i| ≤ ME

end Bolt
