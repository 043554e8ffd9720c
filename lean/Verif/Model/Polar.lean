import Verif.Model.Nonrel
import Verif.Model.Moments
import Verif.Model.System

/-!
# The polar-coordinate package on the grid, and the beam-optics package
(`bolt/src/coordinate_transformation/*.py`, `bolt/src/beam_optics/*.py`)

The moments of `coordinate_transformation/moments.py:6-58` have the text of `nonrelativistic_boltzmann/moments.py:6-58` with `rdot`, `thetadot`,
`phidot` for `v1`, `v2`, `v3`; they are `density`, `momV1`, …, `heatFlux3` of `Verif/Model/Moments.lean`.
-/

namespace Bolt

variable {S P Q K : Type} [Field K]

/-- The arrays the finite-volume slope computes from the polar package: `C_q` (independent of position), `C_p1` at the left, `C_p2` at the bottom and
`C_p3` at the back faces of the momentum cells, the source at the centres — `df_dt_fvm.py:66-77,91-97,251-267` with
`coordinate_transformation/advection_terms.py:7-9,26-35` and `source_term.py:7-10`.  `r`, `theta` are the coordinates of the cell centres. -/
def polarCallbacks (ctr cor : PCoords S P K) (r theta : Q → K) : Callbacks S P Q K where
  Cq1 s p _ := (polarCq (ctr.p1 s p) (ctr.p2 s p) (ctr.p3 s p)).1
  Cq2 s p _ := (polarCq (ctr.p1 s p) (ctr.p2 s p) (ctr.p3 s p)).2
  Cp1 s p q := (polarCp (r q) (theta q) (cor.p1 s p) (ctr.p2 s p) (ctr.p3 s p)).1
  Cp2 s p q := (polarCp (r q) (theta q) (ctr.p1 s p) (cor.p2 s p) (ctr.p3 s p)).2.1
  Cp3 s p q := (polarCp (r q) (theta q) (ctr.p1 s p) (ctr.p2 s p) (cor.p3 s p)).2.2
  source f s p q := polarSource (f s p q) (r q) (theta q) (ctr.p1 s p) (ctr.p2 s p) (ctr.p3 s p)

/-- `A_q` — `coordinate_transformation/advection_terms.py:11-13`. -/
def polarAq (rdot thetadot _phidot : K) : K × K := (rdot, thetadot)

/-- `n(q1, q2)` — `beam_optics/advection_terms.py:6-8`: the refractive index, an array of zeros. -/
def beamN (_q1 _q2 : K) : K := 0

/-- `A_q` of the beam-optics package for refractive index `n` — `beam_optics/advection_terms.py:10-18`. -/
noncomputable def beamAq (n p1 p2 : ℝ) : ℝ × ℝ :=
  (1 / n * (p1 / Real.sqrt (p1 ^ 2 + p2 ^ 2)), 1 / n * (p2 / Real.sqrt (p1 ^ 2 + p2 ^ 2)))

/-- `dir` of `beam_optics/advection_terms.py` (names not starting with `_`). -/
def beamAdvAttrs : List (String × AttrKind) := [("A_p", .function), ("A_q", .function), ("af", .module), ("n", .function)]

/-- `dir` of `beam_optics/moment_defs.py`: two dictionaries. -/
def beamMomentAttrs : List (String × AttrKind) := [("moment_coeffs", .other), ("moment_exponents", .other)]

/-- `dir` of `coordinate_transformation/advection_terms.py`. -/
def polarAdvAttrs : List (String × AttrKind) := [("A_p", .function), ("A_q", .function), ("C_p", .function), ("C_q", .function)]

end Bolt
