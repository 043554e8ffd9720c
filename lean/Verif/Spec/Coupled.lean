import Verif.Model.Coupled

/-! Specification vocabulary for the coupled kinetic-field system. -/

namespace Bolt

variable {S P Q K : Type} [AddCommGroup P] [AddCommGroup Q] [Field K] [Fintype S] [Fintype P]

/-- Charge density: sum over species and momentum cells of charge times number of particles per unit position-space volume. -/
def chargeDensity (c : CoupledConfig S P Q K) (f : Dist S P Q K) (q : Q) : K :=
  ∑ s, ∑ p, c.charge s * f s p q * (c.dp1 s * c.dp2 s * c.dp3 s)

/-- How far Gauss's law is violated in a cell. -/
def gaussDefect (c : CoupledConfig S P Q K) (f : Dist S P Q K) (F : EM Q K) (q : Q) : K :=
  ((F.E1 (q + c.ax.q1) - F.E1 q) / c.dq1 + (F.E2 (q + c.ax.q2) - F.E2 q) / c.dq2) - chargeDensity c f q / c.eps

/-- The position-space velocities are the momentum coordinates of the cell centres (the nonrelativistic model,
`nonrelativistic_boltzmann/advection_terms.py:94-95`). -/
def Ballistic (c : CoupledConfig S P Q K) (cb : CoupledCallbacks S P Q K) : Prop :=
  (∀ s p q, cb.Cq1 s p q = c.coords.p1 s p) ∧ (∀ s p q, cb.Cq2 s p q = c.coords.p2 s p)

/-- The configuration of an electrodynamic run with finite volumes in position and momentum. -/
def ElectrodynamicFVM (c : CoupledConfig S P Q K) : Prop :=
  c.solverMethodInQ = "FVM" ∧ c.solverMethodInP = "FVM" ∧ c.fieldsEnabled = true ∧ c.fieldsType = "electrodynamic"

end Bolt
