import Verif.Spec.Maxwell
import Verif.Spec.Force
import Verif.Spec.Coupled
import Verif.Model.NonrelCoupled

/-!
Specification vocabulary for the exchange of energy between particles and fields (C109).  All energies are per cell volume of the
position grid.
-/

namespace Bolt

variable {S P Q K : Type} [AddCommGroup Q] [Field K] [LinearOrder K] [Fintype P] [Fintype S] [Fintype Q]

/-- The energy of the staggered fields, `∑ (eps |E|² + B · B' / mu) / 2`: `E` at a whole step, `B` half a step before and `B'` half a
step after it. -/
def fieldEnergy (eps mu : K) (E B B' : Fin 3 → Q → K) : K :=
  1 / 2 * ∑ i, ∑ k, (eps * E k i ^ 2 + B k i * B' k i / mu)

/-- The kinetic energy of all particles, `∑ m |v|² f / 2` times the volume of a momentum cell. -/
def kineticEnergy (c : CoupledConfig S P Q K) (m : S → K) (f : Dist S P Q K) : K :=
  ∑ q, ∑ s, ∑ p, 1 / 2 * m s * (∑ k, velocity c k s p ^ 2) * (f s p q * (c.dp1 s * c.dp2 s * c.dp3 s))

/-- The power a field `E` delivers to a current `J`. -/
def power (J E : Fin 3 → Q → K) : K := ∑ i, ∑ k, J k i * E k i

section
variable {N1 N2 N3 : ℕ} [NeZero N1] [NeZero N2] [NeZero N3]

/-- The rate of numerical heating of the first-order scheme in momentum space: half the sum of
`m (|a₁| dp₁ + |a₂| dp₂ + |a₃| dp₃) f`, where `a` is the Lorentz acceleration of the momentum cell in the fields `E`, `B`.  An axis with a
single momentum cell contributes nothing. -/
def numericalHeating (c : CoupledConfig S (PIdx N1 N2 N3) Q K) (m : S → K) (f : Dist S (PIdx N1 N2 N3) Q K) (E B : Fin 3 → Q → K) : K :=
  ∑ q, ∑ s, ∑ p, 1 / 2 * m s *
    (∑ k, if ![N1, N2, N3] k = 1 then 0 else
      |lorentz (c.charge s) (m s) (fun j => E j q) (fun j => B j q) (fun j => velocity c j s p) k| * ![c.dp1 s, c.dp2 s, c.dp3 s] k) *
    (f s p q * (c.dp1 s * c.dp2 s * c.dp3 s))

/-- Along every momentum axis, the outermost `l` layers of cells at both ends are empty; an axis with a single cell stands for zero velocity. -/
def Confined (c : CoupledConfig S (PIdx N1 N2 N3) Q K) (l : ℕ) (f : Dist S (PIdx N1 N2 N3) Q K) : Prop :=
  ∀ j, if ![N1, N2, N3] j = 1 then ∀ s p, velocity c j s p = 0 else ClearOfEdges j l f

/-- A run of the bundled nonrelativistic physics with evolving fields from initialised fields: no collisions, the first-order scheme in
momentum space, any scheme in position space.  The coordinates of the momentum cells are those of a uniform grid. -/
structure VlasovMaxwellRun (c : CoupledConfig S (PIdx N1 N2 N3) Q K) (m : S → K) (cor : PCoords S (PIdx N1 N2 N3) K)
    (src : (S → PIdx N1 N2 N3 → K) → S → PIdx N1 N2 N3 → K) (poisson : (S → Q → K) → FieldState Q K → FieldState Q K) (hyb : S) (ini : InitFns Q K)
    (dt : ℕ → K) (st : ℕ → Dist S (PIdx N1 N2 N3) Q K × FieldState Q K) : Prop where
  dynamic : ElectrodynamicFVM c
  kinetic : c.hybrid = false
  collisionless : c.sourceEnabled = false
  firstOrder : c.reconstructionInP = "piecewise-constant"
  spacing : ∀ s, 0 < c.dp1 s ∧ 0 < c.dp2 s ∧ 0 < c.dp3 s
  mass : ∀ s, 0 < m s
  eps : c.eps ≠ 0
  axes : MomentumAxes c.ax
  grid : ∃ s1 s2 s3, c.coords = gridCoords N1 N2 N3 (1 / 2) s1 s2 s3 c.dp1 c.dp2 c.dp3
  start : initFields c.fieldParams ini = .ok (st 0).2
  step : ∀ n, stepCoupled c poisson (fun _ => nonrelCallbacks c.charge m c.coords cor src) hyb (dt n) (st n) = .ok (st (n + 1))

/-- `fh` is the distribution function at the middle of a step: `f` advanced by half a step with the slope at the beginning of the step. -/
def HalfWay (c : CoupledConfig S (PIdx N1 N2 N3) Q K) (m : S → K) (cor : PCoords S (PIdx N1 N2 N3) K)
    (src : (S → PIdx N1 N2 N3 → K) → S → PIdx N1 N2 N3 → K) (poisson : (S → Q → K) → FieldState Q K → FieldState Q K) (hyb : S) (dt : K)
    (st : Dist S (PIdx N1 N2 N3) Q K × FieldState Q K) (fh : Dist S (PIdx N1 N2 N3) Q K) : Prop :=
  ∃ r0, dfdtCoupled c poisson (nonrelCallbacks c.charge m c.coords cor src) hyb dt st.1 st.1 st.2 = .ok r0 ∧
    fh = fun s p q => st.1 s p q + r0.1 s p q * (dt / 2)

end

end Bolt
