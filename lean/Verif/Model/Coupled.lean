import Verif.Model.Fields
import Verif.Model.Moments

/-!
# The finite-volume step coupled to the fields (`df_dt_fvm.py:33-339`, `fvm_operator.py:6-50`)
-/

namespace Bolt

variable {S P Q K : Type} [AddCommGroup P] [AddCommGroup Q] [Field K] [LinearOrder K] [Fintype S] [Fintype P] [Fintype Q]

/-- Further attributes read by `df_dt_fvm` when fields are enabled. -/
structure CoupledConfig (S P Q K : Type) extends FVMConfig S K where
  ax : Axes P Q
  fieldsType : String
  fieldsSolver : String
  charge : S → K
  coords : PCoords S P K
  (eps mu : K)
  hybrid : Bool
  /-- `params.fluid_electron_temperature`, read by the hybrid model only -/
  Te : K

/-- The parameters seen by the fields solver. -/
def CoupledConfig.fieldParams (c : CoupledConfig S P Q K) : FieldParams Q K :=
  ⟨c.ax.q1, c.ax.q2, c.dq1, c.dq2, c.eps, c.mu, c.hybrid⟩

/-- The callbacks of one slope evaluation.  `Cp1 F` is component 0 of `C_p` at the left momentum face when its call of `get_fields`
returned `F`, `Cp2` component 1 at the bottom face, `Cp3` component 2 at the back face (`df_dt_fvm.py:251-267`); `C_p` is assumed to
call `get_fields` once, as `nonrelativistic_boltzmann/advection_terms.py:182` does. -/
structure CoupledCallbacks (S P Q K : Type) where
  (Cq1 Cq2 : Dist S P Q K)
  (Cp1 Cp2 Cp3 : EM Q K → Dist S P Q K)
  source : Dist S P Q K → Dist S P Q K

/-- Upwinded states on the left and bottom faces of the position cells, used for the fluxes and for the currents —
`df_dt_fvm.py:58-80`. -/
def faceLeft (ax : Axes P Q) (m : Recon) (C f : Dist S P Q K) : Dist S P Q K := fun s p q => leftState m ax.q1 (C s p) (f s p) q
@[inherit_doc faceLeft]
def faceBot (ax : Axes P Q) (m : Recon) (C f : Dist S P Q K) : Dist S P Q K := fun s p q => leftState m ax.q2 (C s p) (f s p) q

/-- The currents of the non-hybrid branch, summed over species — `df_dt_fvm.py:214-224`, `fields.py:604-606` (cartesian momentum
grid; the moments are those of `nonrelativistic_boltzmann/moments.py`). -/
def kineticCurrents (c : CoupledConfig S P Q K) (m : Recon) (Cq1 Cq2 f : Dist S P Q K) : Currents Q K where
  J1 := fun q => ∑ s, c.charge s * momV1 c.coords c.measure (faceLeft c.ax m Cq1 f) s q
  J2 := fun q => ∑ s, c.charge s * momV2 c.coords c.measure (faceBot c.ax m Cq2 f) s q
  J3 := fun q => ∑ s, c.charge s * momV3 c.coords c.measure f s q

/-- The hybrid branch — `df_dt_fvm.py:106-210`: currents `curl B / mu` and the electric field of the generalised Ohm's law, from
the staggered fields `Y` (after communication).  `ni` is `compute_moments('density')` of `self.f` (line 173), which
`fvm_operator.py:26,33` also passes as `f`.  All per-species moments are summed with weight one only where the code
does so; this model is for one species (`s`), the only case in which the shapes at lines 206-208 agree. -/
def hybridFields (c : CoupledConfig S P Q K) (s : S) (m : Recon) (Cq1 Cq2 f selff : Dist S P Q K) (Y : EM Q K) :
    Currents Q K × ((Q → K) × (Q → K) × (Q → K)) :=
  let pr := c.fieldParams
  let q1 := c.ax.q1
  let q2 := c.ax.q2
  let J1 : Q → K := fun i => curlB1 pr Y i / c.mu
  let J2 : Q → K := fun i => curlB2 pr Y i / c.mu
  let J3 : Q → K := fun i => curlB3 pr Y i / c.mu
  let fl := faceLeft c.ax m Cq1 f
  let fb := faceBot c.ax m Cq2 f
  let n := fun x => density c.coords c.measure x s
  let v1 := fun x (q : Q) => momV1 c.coords c.measure x s q / n x q
  let v2 := fun x (q : Q) => momV2 c.coords c.measure x s q / n x q
  let v3 := fun x (q : Q) => momV3 c.coords c.measure x s q / n x q
  let B3q2 := afShift q2 (-1) Y.B3
  let B3q1 := afShift q1 (-1) Y.B3
  let B2q1 := afShift q1 (-1) Y.B2
  let B1q2 := afShift q2 (-1) Y.B1
  let vxB1 : Q → K := fun i => 1 / 2 * (B3q2 i + Y.B3 i) * v2 fl i - Y.B2 i * v3 fl i
  let vxB2 : Q → K := fun i => Y.B1 i * v3 fb i - 1 / 2 * (B3q1 i + Y.B3 i) * v1 fb i
  let vxB3 : Q → K := fun i => 1 / 2 * (B2q1 i + Y.B2 i) * v1 f i - 1 / 2 * (B1q2 i + Y.B1 i) * v2 f i
  let JxB1 : Q → K := fun i => 1 / 2 * (B3q2 i + Y.B3 i) *
      (J2 i + afShift q2 (-1) J2 i + afShift q1 1 J2 i + afShift q1 1 (afShift q2 (-1) J2) i) * (1 / 4)
      - Y.B2 i * (afShift q1 1 J3 i + J3 i) * (1 / 2)
  let JxB2 : Q → K := fun i => Y.B1 i * (afShift q2 1 J3 i + J3 i) * (1 / 2)
      - 1 / 2 * (B3q1 i + Y.B3 i) * (J1 i + afShift q2 1 J1 i + afShift q1 (-1) J1 i + afShift q1 (-1) (afShift q2 1 J1) i) * (1 / 4)
  let JxB3 : Q → K := fun i => 1 / 2 * (B2q1 i + Y.B2 i) * (afShift q1 (-1) J1 i + J1 i) * (1 / 2)
      - 1 / 2 * (B1q2 i + Y.B1 i) * (afShift q2 (-1) J2 i + J2 i) * (1 / 2)
  let ni := n selff
  let dn1 : Q → K := fun i => (-afShift q1 (-2) ni i + 8 * afShift q1 (-1) ni i - 8 * afShift q1 1 ni i + afShift q1 2 ni i) / (12 * c.dq1)
  let dn2 : Q → K := fun i => (-afShift q2 (-2) ni i + 8 * afShift q2 (-1) ni i - 8 * afShift q2 1 ni i + afShift q2 2 ni i) / (12 * c.dq2)
  (⟨J1, J2, J3⟩,
   (fun i => -vxB1 i + JxB1 i / (n fl i * c.charge s) - 1 / 2 * c.Te * (dn1 i + afShift q1 1 dn1 i) / (c.charge s * ni i)),
   (fun i => -vxB2 i + JxB2 i / (n fb i * c.charge s) - 1 / 2 * c.Te * (dn2 i + afShift q2 1 dn2 i) / (c.charge s * ni i)),
   (fun i => -vxB3 i + JxB3 i / (n f i * c.charge s)))

/-- `df_dt_fvm(f, self)` on the whole periodic grid, with its effects on the fields solver — `df_dt_fvm.py:33-339`.
`dt` is `self.dt`, `selff` is `self.f`, `poisson` is `compute_electrostatic_fields` (lines 235-242).  The Python raises an
`UnboundLocalError` (a `NameError`) if the currents are needed but the position advection is not finite-volume, since
`f_left` is then unbound. -/
noncomputable def dfdtCoupled (c : CoupledConfig S P Q K) (poisson : (S → Q → K) → FieldState Q K → FieldState Q K)
    (cb : CoupledCallbacks S P Q K) (hyb : S) (dt : K) (selff f : Dist S P Q K) (σ : FieldState Q K) :
    Except PyErr (Dist S P Q K × FieldState Q K) :=
  if c.solverMethodInP = "FVM" ∧ c.fieldsEnabled = true then do
    -- lines 102-233
    let σ1 ←
      if c.fieldsType = "electrodynamic" ∧ σ.flag = false then
        if c.solverMethodInQ = "FVM" then do
          let m ← reconMethod c.reconstructionInQ
          if c.hybrid = true then
            let h := hybridFields c hyb m cb.Cq1 cb.Cq2 f selff σ.yee
            evolveElectrodynamic c.fieldParams id h.1 dt { σ with yee := σ.yee.setE (some h.2) }
          else
            evolveElectrodynamic c.fieldParams id (kineticCurrents c m cb.Cq1 cb.Cq2 f) dt σ
        else .error .nameError
      else pure σ
    -- lines 235-242
    let σ2 := if c.fieldsType = "electrostatic" ∧ c.fieldsSolver = "fft" then
        poisson (fun s q => c.charge s * density c.coords c.measure f s q) σ1 else σ1
    -- lines 251-267: three calls of C_p, each calling get_fields
    let g1 := getFields c.fieldsSolver c.solverMethodInP σ2
    let g2 := getFields c.fieldsSolver c.solverMethodInP g1.2
    let g3 := getFields c.fieldsSolver c.solverMethodInP g2.2
    let k ← dfdtFVM c.ax c.toFVMConfig ⟨cb.Cq1, cb.Cq2, cb.Cp1 g1.1, cb.Cp2 g2.1, cb.Cp3 g3.1, cb.source⟩ f
    return (k, g3.2)
  else do
    let k ← dfdtFVM c.ax c.toFVMConfig ⟨cb.Cq1, cb.Cq2, fun _ _ _ => 0, fun _ _ _ => 0, fun _ _ _ => 0, cb.source⟩ f
    return (k, σ)

/-- `op_fvm(self, dt)` on the whole periodic grid — `fvm_operator.py:6-50` (`self.dt = dt`, `timestep.py:51`).  In the second stage
`self.f` has been rebound to the half-step state (`fvm_operator.py:26`). -/
noncomputable def stepCoupled (c : CoupledConfig S P Q K) (poisson : (S → Q → K) → FieldState Q K → FieldState Q K)
    (cb : Fin 2 → CoupledCallbacks S P Q K) (hyb : S) (dt : K) (st : Dist S P Q K × FieldState Q K) :
    Except PyErr (Dist S P Q K × FieldState Q K) := do
  let r0 ← dfdtCoupled c poisson (cb 0) hyb dt st.1 st.1 st.2
  let fh : Dist S P Q K := fun s p q => st.1 s p q + r0.1 s p q * (dt / 2)
  let r1 ← dfdtCoupled c poisson (cb 1) hyb dt fh fh r0.2
  return (fun s p q => st.1 s p q + r1.1 s p q * dt, r1.2)

/-- Successive steps. -/
noncomputable def runCoupled (c : CoupledConfig S P Q K) (poisson : (S → Q → K) → FieldState Q K → FieldState Q K) (hyb : S) :
    List (K × (Fin 2 → CoupledCallbacks S P Q K)) → Dist S P Q K × FieldState Q K → Except PyErr (Dist S P Q K × FieldState Q K)
  | [], st => .ok st
  | (dt, cb) :: rest, st => do
    let st' ← stepCoupled c poisson cb hyb dt st
    runCoupled c poisson hyb rest st'

end Bolt
