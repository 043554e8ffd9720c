import Verif.Model.Moments
import Mathlib.Analysis.SpecialFunctions.Pow.Real
import Mathlib.Analysis.Real.Pi.Bounds

/-!
# User-side physics shipped with Bolt: nonrelativistic Boltzmann, beam optics, polar coordinates

`bolt/src/nonrelativistic_boltzmann/{advection_terms,collision_operator}.py`, `bolt/src/beam_optics/advection_terms.py`,
`bolt/src/coordinate_transformation/{advection_terms,source_term}.py`.  All are elementwise formulas; arrays enter through `Dist`.
-/

namespace Bolt

section force
variable {K : Type} [Field K]

/-- `A_q`/`C_q` — `nonrelativistic_boltzmann/advection_terms.py:57-60, 94-97`. -/
def nonrelCq (v1 v2 _v3 : K) : K × K := (v1, v2)

/-- `A_p` — `nonrelativistic_boltzmann/advection_terms.py:131-143`; `E`, `B` are what `get_fields()` returned. -/
def nonrelAp (e m : K) (E1 E2 E3 B1 B2 B3 v1 v2 v3 : K) : K × K × K :=
  ((e / m) * (E1 + v2 * B3 - v3 * B2), (e / m) * (E2 + v3 * B1 - v1 * B3), (e / m) * (E3 + v1 * B2 - v2 * B1))

/-- `C_p` — `nonrelativistic_boltzmann/advection_terms.py:179-188`. -/
def nonrelCp (e m : K) (E1 E2 E3 B1 B2 B3 v1 v2 v3 : K) : K × K × K :=
  ((e / m) * (E1 + v2 * B3 - v3 * B2), (e / m) * (E2 + v3 * B1 - v1 * B3), (e / m) * (E3 + v1 * B2 - v2 * B1))

/-- `A_p` — `beam_optics/advection_terms.py:23-35`. -/
def beamAp (e m : K) (E1 E2 E3 B1 B2 B3 p1 p2 p3 : K) : K × K × K :=
  ((e / m) * (E1 + p2 * B3 - p3 * B2), (e / m) * (E2 - p1 * B3 + p3 * B1), (e / m) * (E3 - p2 * B1 + p1 * B2))

/-- `C_q` — `coordinate_transformation/advection_terms.py:7-9`. -/
def polarCq (rdot thetadot _phidot : K) : K × K := (rdot, thetadot)

/-- `C_p` (and `A_p`) — `coordinate_transformation/advection_terms.py:15-35`. -/
def polarCp (r _theta rdot thetadot _phidot : K) : K × K × K :=
  (r * thetadot ^ 2, -2 * rdot * thetadot / r, 0 * r * thetadot)

/-- `source_term` — `coordinate_transformation/source_term.py:7-10`. -/
def polarSource (f r _theta rdot _thetadot _phidot : K) : K := -2 * rdot * f / r

variable {S P Q : Type}

/-- The three arrays `C_p1` at the left, `C_p2` at the bottom and `C_p3` at the back faces of the momentum cells as computed by the finite-volume slope —
`df_dt_fvm.py:251-267` with `C_p` above: `p1_left, p2_left = p2_center, p3_left = p3_center`; `p1_bottom = p1_center, p2_bottom, p3_bottom = p3_center`;
`p1_back = p1_center, p2_back = p2_center, p3_back` (`nonlinear_solver.py:364-398`).  `F k` are the fields returned by call `k` of `get_fields`. -/
def nonrelCallbacksP (e m : S → K) (ctr cor : PCoords S P K) (F : Fin 3 → (Fin 6 → Q → K)) : Dist S P Q K × Dist S P Q K × Dist S P Q K :=
  (fun s p q => (nonrelCp (e s) (m s) (F 0 0 q) (F 0 1 q) (F 0 2 q) (F 0 3 q) (F 0 4 q) (F 0 5 q) (cor.p1 s p) (ctr.p2 s p) (ctr.p3 s p)).1,
   fun s p q => (nonrelCp (e s) (m s) (F 1 0 q) (F 1 1 q) (F 1 2 q) (F 1 3 q) (F 1 4 q) (F 1 5 q) (ctr.p1 s p) (cor.p2 s p) (ctr.p3 s p)).2.1,
   fun s p q => (nonrelCp (e s) (m s) (F 2 0 q) (F 2 1 q) (F 2 2 q) (F 2 3 q) (F 2 4 q) (F 2 5 q) (ctr.p1 s p) (ctr.p2 s p) (cor.p3 s p)).2.2)

end force

section bgk

/-- `f0` — `nonrelativistic_boltzmann/collision_operator.py:16-68`, one entry of the arrays. -/
noncomputable def maxwellian (pdim : ℕ) (m k v1 v2 v3 n T u1 u2 u3 : ℝ) : ℝ :=
  if pdim = 3 then
    n * (m / (2 * Real.pi * k * T)) ^ (3 / 2 : ℝ) * Real.exp (-m * (v1 - u1) ^ 2 / (2 * k * T))
      * Real.exp (-m * (v2 - u2) ^ 2 / (2 * k * T)) * Real.exp (-m * (v3 - u3) ^ 2 / (2 * k * T))
  else if pdim = 2 then
    n * (m / (2 * Real.pi * k * T)) * Real.exp (-m * (v1 - u1) ^ 2 / (2 * k * T)) * Real.exp (-m * (v2 - u2) ^ 2 / (2 * k * T))
  else
    n * Real.sqrt (m / (2 * Real.pi * k * T)) * Real.exp (-m * (v1 - u1) ^ 2 / (2 * k * T))

/-- The floor `eps = 1e-30` — `collision_operator.py:106`. -/
noncomputable def bgkEps : ℝ := 1 / 10 ^ 30

/-- The bulk velocity and temperature from density `n`, momenta `j` and energy `E` — `collision_operator.py:108-116`. -/
noncomputable def bgkBulk (n j : ℝ) : ℝ := j / (n + bgkEps)
@[inherit_doc bgkBulk]
noncomputable def bgkTemperature (pdim : ℕ) (m n j1 j2 j3 E : ℝ) : ℝ :=
  (1 / (pdim : ℝ)) * (2 * (E * m) - (n * m) * bgkBulk n j1 ^ 2 - (n * m) * bgkBulk n j2 ^ 2 - (n * m) * bgkBulk n j3 ^ 2)
    / (n + bgkEps) + bgkEps

variable {S P Q : Type} [Fintype P]

/-- `params` as read by the collision operator. -/
structure BGKParams (S P Q : Type) where
  pdim : ℕ
  mass : S → ℝ
  k : ℝ
  tau : Dist S P Q ℝ

/-- `f_MB` — `collision_operator.py:102-118`: the local Maxwellian built from the moments of `f` (cartesian momentum grid). -/
noncomputable def localMaxwellian (pr : BGKParams S P Q) (c : PCoords S P ℝ) (measure : S → ℝ) (f : Dist S P Q ℝ) : Dist S P Q ℝ :=
  fun s p q =>
    let n := density c measure f s q
    let j1 := momV1 c measure f s q
    let j2 := momV2 c measure f s q
    let j3 := momV3 c measure f s q
    let E := energy c measure f s q
    maxwellian pr.pdim (pr.mass s) pr.k (c.p1 s p) (c.p2 s p) (c.p3 s p) n (bgkTemperature pr.pdim (pr.mass s) n j1 j2 j3 E)
      (bgkBulk n j1) (bgkBulk n j2) (bgkBulk n j3)

/-- `BGK(f, ..., flag)` — `collision_operator.py:70-128`. -/
noncomputable def bgk (pr : BGKParams S P Q) (c : PCoords S P ℝ) (measure : S → ℝ) (flag : Bool) (f : Dist S P Q ℝ) : Dist S P Q ℝ :=
  if flag = false then fun s p q => -(f s p q - localMaxwellian pr c measure f s p q) / pr.tau s p q
  else localMaxwellian pr c measure f

end bgk

end Bolt
