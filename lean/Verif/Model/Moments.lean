import Verif.Model.FVM
import Mathlib.Algebra.BigOperators.Group.Finset.Basic

/-!
# Moments (`bolt/lib/nonlinear/compute_moments.py`, `bolt/src/nonrelativistic_boltzmann/moments.py`, `bolt/src/utils/integral_over_v.py`)
-/

namespace Bolt

variable {S P Q K : Type} [Fintype P] [Field K]

/-- Momentum coordinates of the cell centres, per species — `nonlinear_solver.py` (`p1_center` etc., computed by `calculate_p.py:33-57`). -/
structure PCoords (S P K : Type) where
  (p1 p2 p3 : S → P → K)

/-- `integral_over_v(array, integral_measure)` — `integral_over_v.py:6-7`. -/
def integralOverV (x : Dist S P Q K) (measure : S → K) : S → Q → K := fun s q => (∑ p, x s p q) * measure s

/-- `density` — `moments.py:6-7` -/
def density (c : PCoords S P K) (measure : S → K) (f : Dist S P Q K) : S → Q → K :=
  let _ := c; integralOverV f measure
/-- `mom_v1_bulk` — `moments.py:9-10` -/
def momV1 (c : PCoords S P K) (measure : S → K) (f : Dist S P Q K) : S → Q → K :=
  integralOverV (fun s p q => f s p q * c.p1 s p) measure
/-- `mom_v2_bulk` — `moments.py:12-13` -/
def momV2 (c : PCoords S P K) (measure : S → K) (f : Dist S P Q K) : S → Q → K :=
  integralOverV (fun s p q => f s p q * c.p2 s p) measure
/-- `mom_v3_bulk` — `moments.py:15-16` -/
def momV3 (c : PCoords S P K) (measure : S → K) (f : Dist S P Q K) : S → Q → K :=
  integralOverV (fun s p q => f s p q * c.p3 s p) measure
/-- `energy` — `moments.py:18-22` -/
def energy (c : PCoords S P K) (measure : S → K) (f : Dist S P Q K) : S → Q → K :=
  integralOverV (fun s p q => 1 / 2 * f s p q * (c.p1 s p ^ 2 + c.p2 s p ^ 2 + c.p3 s p ^ 2)) measure
/-- `energy_q1` — `moments.py:24-28` -/
def energyQ1 (c : PCoords S P K) (measure : S → K) (f : Dist S P Q K) : S → Q → K :=
  integralOverV (fun s p q => 1 / 2 * f s p q * c.p1 s p ^ 2) measure
/-- `energy_q2` — `moments.py:30-34` -/
def energyQ2 (c : PCoords S P K) (measure : S → K) (f : Dist S P Q K) : S → Q → K :=
  integralOverV (fun s p q => 1 / 2 * f s p q * c.p2 s p ^ 2) measure
/-- `energy_q3` — `moments.py:36-40` -/
def energyQ3 (c : PCoords S P K) (measure : S → K) (f : Dist S P Q K) : S → Q → K :=
  integralOverV (fun s p q => 1 / 2 * f s p q * c.p3 s p ^ 2) measure
/-- `q_q1` — `moments.py:42-46` -/
def heatFlux1 (c : PCoords S P K) (measure : S → K) (f : Dist S P Q K) : S → Q → K :=
  integralOverV (fun s p q => f s p q * c.p1 s p * (c.p1 s p ^ 2 + c.p2 s p ^ 2 + c.p3 s p ^ 2)) measure
/-- `q_q2` — `moments.py:48-52` -/
def heatFlux2 (c : PCoords S P K) (measure : S → K) (f : Dist S P Q K) : S → Q → K :=
  integralOverV (fun s p q => f s p q * c.p2 s p * (c.p1 s p ^ 2 + c.p2 s p ^ 2 + c.p3 s p ^ 2)) measure
/-- `q_q3` — `moments.py:54-58` -/
def heatFlux3 (c : PCoords S P K) (measure : S → K) (f : Dist S P Q K) : S → Q → K :=
  integralOverV (fun s p q => f s p q * c.p3 s p * (c.p1 s p ^ 2 + c.p2 s p ^ 2 + c.p3 s p ^ 2)) measure

/-- The type of the moment definitions the user passes to `physical_system`. -/
abbrev MomentFn (S P Q K : Type) := PCoords S P K → (S → K) → Dist S P Q K → S → Q → K

/-- `self.dp3 * self.dp2 * self.dp1` — `compute_moments.py:45`. -/
def FVMConfig.measure (cfg : FVMConfig S K) : S → K := fun s => cfg.dp3 s * cfg.dp2 s * cfg.dp1 s

/-- `compute_moments(self, moment_name, f)` — `compute_moments.py:7-59`, with the moment definition looked up. -/
def computeMoments (pSpaceGrid : String) (initialMu : K) (cfg : FVMConfig S K) (c : PCoords S P K) (m : MomentFn S P Q K)
    (f : Dist S P Q K) : Except PyErr (S → Q → K) :=
  if pSpaceGrid = "cartesian" then .ok (m c cfg.measure f)
  else if pSpaceGrid = "polar2D" then .ok fun s q => initialMu * m c cfg.measure f s q
  else .error .notImplemented

end Bolt
