import Verif.Spec.Mirror

/-! Specification vocabulary for a change of units. -/

namespace Bolt

variable {Q S P K : Type}

/-- The factors by which the numbers change that measure each kind of quantity. -/
structure UnitChange (K : Type) where
  (length time momentum : K)
  /-- values of the distribution function -/
  dist : K
  (charge fieldE fieldB eps mu temperature : K)

/-- Lengths, times and momenta keep their signs and do not vanish. -/
structure UnitChange.Positive [Field K] [LinearOrder K] (u : UnitChange K) : Prop where
  length : 0 < u.length
  time : 0 < u.time
  momentum : 0 < u.momentum

/-- The factors respect the dimensions of Maxwell's equations: those of Faraday's law, of the displacement current and of the current. -/
structure UnitChange.Maxwell [Field K] (u : UnitChange K) : Prop where
  mu : u.mu ≠ 0
  eps : u.eps ≠ 0
  faraday : u.fieldB * u.length = u.fieldE * u.time
  displacement : u.fieldE * u.mu * u.eps * u.length = u.fieldB * u.time
  current : u.charge * u.momentum ^ 4 * u.dist * u.time = u.fieldE * u.eps

/-- The factors respect the dimensions of Poisson's equation. -/
structure UnitChange.Gauss [Field K] (u : UnitChange K) : Prop where
  eps : u.eps ≠ 0
  gauss : u.charge * u.momentum ^ 3 * u.dist * u.length = u.fieldE * u.eps

/-- Momenta are measured as velocities, and the temperature has the dimension of charge times potential. -/
structure UnitChange.Ohm [Field K] (u : UnitChange K) : Prop where
  charge : u.charge ≠ 0
  dist : u.dist ≠ 0
  velocity : u.momentum * u.time = u.length
  temperature : u.temperature = u.charge * u.fieldE * u.length

/-- Fields in the other units. -/
def EM.inUnits [Mul K] (u : UnitChange K) (F : EM Q K) : EM Q K :=
  ⟨fun i => u.fieldE * F.E1 i, fun i => u.fieldE * F.E2 i, fun i => u.fieldE * F.E3 i,
   fun i => u.fieldB * F.B1 i, fun i => u.fieldB * F.B2 i, fun i => u.fieldB * F.B3 i⟩

/-- The state of the fields solver in the other units. -/
def FieldState.inUnits [Mul K] (u : UnitChange K) (σ : FieldState Q K) : FieldState Q K :=
  σ.mapEM (EM.inUnits u) (EM.inUnits u) (u.time * ·)

/-- The distribution function in the other units. -/
def Dist.inUnits [Mul K] (u : UnitChange K) (f : Dist S P Q K) : Dist S P Q K := fun s p i => u.dist * f s p i

/-- Momentum coordinates in the other units. -/
def PCoords.inUnits [Mul K] (u : UnitChange K) (x : PCoords S P K) : PCoords S P K :=
  ⟨fun s p => u.momentum * x.p1 s p, fun s p => u.momentum * x.p2 s p, fun s p => u.momentum * x.p3 s p⟩

/-- The parameters in the other units. -/
def CoupledConfig.inUnits [Mul K] (u : UnitChange K) (c : CoupledConfig S P Q K) : CoupledConfig S P Q K :=
  { c with
    dq1 := u.length * c.dq1
    dq2 := u.length * c.dq2
    dp1 := fun s => u.momentum * c.dp1 s
    dp2 := fun s => u.momentum * c.dp2 s
    dp3 := fun s => u.momentum * c.dp3 s
    charge := fun s => u.charge * c.charge s
    coords := c.coords.inUnits u
    eps := u.eps * c.eps
    mu := u.mu * c.mu
    Te := u.temperature * c.Te }

/-- The callbacks return velocities, forces and collision rates in the other units. -/
structure CallbacksInUnits [Field K] (u : UnitChange K) (cb' cb : CoupledCallbacks S P Q K) : Prop where
  q1 : ∀ s p i, cb'.Cq1 s p i = u.length / u.time * cb.Cq1 s p i
  q2 : ∀ s p i, cb'.Cq2 s p i = u.length / u.time * cb.Cq2 s p i
  p1 : ∀ F s p i, cb'.Cp1 (F.inUnits u) s p i = u.momentum / u.time * cb.Cp1 F s p i
  p2 : ∀ F s p i, cb'.Cp2 (F.inUnits u) s p i = u.momentum / u.time * cb.Cp2 F s p i
  p3 : ∀ F s p i, cb'.Cp3 (F.inUnits u) s p i = u.momentum / u.time * cb.Cp3 F s p i
  src : ∀ f s p i, cb'.source (f.inUnits u) s p i = u.dist / u.time * cb.source f s p i

end Bolt
