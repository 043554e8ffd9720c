import Verif.Model.MachineFields
import Verif.Model.Coupled

/-!
# The coupled step with the arithmetic of the machine

The finite-volume step with electromagnetic fields (`Model/Coupled`, kinetic electrons: `hybrid_model_enabled = False`) with uninterpreted element
operations, as in `Model/MachineArith` and `Model/MachineFields`.  A reduction `af.sum` along the momentum or the species axis is an uninterpreted
function of the column that is summed.  The electrostatic branch (`df_dt_fvm.py:235-242`) is left out: its FFT solver refuses to run on several processes
(property C21).
-/

namespace Bolt
namespace Mach

open Machine

/-- What `af.sum` makes of a column of numbers: along the momentum axis and along the species axis. -/
structure Sums (S P K : Type) where
  /-- `af.sum(x, 0)` of one column — `integral_over_v.py:7` -/
  overP : (P → K) → K
  /-- `af.sum(x, 1)` of one column — `fields.py:604-606` -/
  overS : (S → K) → K

section fields
variable {Q K : Type} [AddCommGroup Q] [Machine K]

/-- `yee_grid_to_cell_centered_grid(None)` — `fields.py:527-557`. -/
def toCentre (q1 q2 : Q) (Y : EM Q K) : EM Q K where
  E1 := fun i => lit (1 / 2) ⊠ (Y.E1 i ⊞ afShift q1 (-1) Y.E1 i)
  E2 := fun i => lit (1 / 2) ⊠ (Y.E2 i ⊞ afShift q2 (-1) Y.E2 i)
  E3 := Y.E3
  B1 := fun i => lit (1 / 2) ⊠ (Y.B1 i ⊞ afShift q2 (-1) Y.B1 i)
  B2 := fun i => lit (1 / 2) ⊠ (Y.B2 i ⊞ afShift q1 (-1) Y.B2 i)
  B3 := fun i => lit (1 / 4) ⊠ (Y.B3 i ⊞ afShift q2 (-1) Y.B3 i ⊞ afShift q1 (-1) Y.B3 i ⊞ afShift q1 (-1) (afShift q2 (-1) Y.B3) i)

/-- `0.5 * (x + y)`, componentwise — `fields.py:623,642`. -/
def avg (x y : EM Q K) : EM Q K :=
  ⟨fun i => lit (1 / 2) ⊠ (x.E1 i ⊞ y.E1 i), fun i => lit (1 / 2) ⊠ (x.E2 i ⊞ y.E2 i), fun i => lit (1 / 2) ⊠ (x.E3 i ⊞ y.E3 i),
   fun i => lit (1 / 2) ⊠ (x.B1 i ⊞ y.B1 i), fun i => lit (1 / 2) ⊠ (x.B2 i ⊞ y.B2 i), fun i => lit (1 / 2) ⊠ (x.B3 i ⊞ y.B3 i)⟩

/-- `evolve_electrodynamic_fields` after its call of `fdtd`, which leaves the staggered fields `Y` — `fields.py:568-647`, as `Bolt.storeFields`. -/
def storeFields (pr : FieldParams Q K) (dt : K) (Y : EM Q K) (σ : FieldState Q K) : FieldState Q K :=
  let EatN := σ.heap σ.cc                       -- 610
  let σ1 := σ.writeE σ.atN EatN                 -- 611
  let BatNMinusHalf := σ1.heap σ1.atHalf        -- 617
  let BatNPlusHalf := σ1.heap σ1.cc             -- 620
  let BatN := avg BatNMinusHalf BatNPlusHalf    -- 623
  let σ2 := σ1.writeB σ1.atN BatN               -- 624
  let σ3 := σ2.writeB σ2.atHalf BatNPlusHalf    -- 628
  let σ4 : FieldState Q K := { σ3 with
    yee := Y                                    -- 635
    heap := fun k => if k = σ3.cc then toCentre pr.q1 pr.q2 Y else σ3.heap k } -- 636
  let EatNPlusOne := σ4.heap σ4.cc              -- 639
  let EatNPlusHalf := avg EatN EatNPlusOne      -- 642
  let σ5 := σ4.writeE σ4.atHalf EatNPlusHalf    -- 643
  { σ5 with timeElapsed := σ5.timeElapsed ⊞ dt } -- 646

end fields

section slope
variable {S P Q K : Type} [AddCommGroup P] [AddCommGroup Q] [Machine K] (Sm : Sums S P K)

/-- `self.dp3 * self.dp2 * self.dp1` — `compute_moments.py:45`. -/
def measure (cfg : FVMConfig S K) (s : S) : K := cfg.dp3 s ⊠ cfg.dp2 s ⊠ cfg.dp1 s

/-- `mom_v1_bulk` and its fellows with the coordinate array `p` — `moments.py:9-16`, `integral_over_v.py:6-7`. -/
def momV (p : S → P → K) (w : S → K) (f : Dist S P Q K) (s : S) (q : Q) : K := Sm.overP (fun v => f s v q ⊠ p s v) ⊠ w s

/-- The currents summed over species — `df_dt_fvm.py:214-224`, `fields.py:604-606`; `f_left` and `f_bot` as in `Bolt.faceLeft` and `Bolt.faceBot`. -/
def kineticCurrents (c : CoupledConfig S P Q K) (m : Recon) (Cq1 Cq2 f : Dist S P Q K) : Currents Q K where
  J1 := fun q => Sm.overS fun s => c.charge s ⊠ momV Sm c.coords.p1 (measure c.toFVMConfig) (fun s p => leftState m c.ax.q1 (Cq1 s p) (f s p)) s q
  J2 := fun q => Sm.overS fun s => c.charge s ⊠ momV Sm c.coords.p2 (measure c.toFVMConfig) (fun s p => leftState m c.ax.q2 (Cq2 s p) (f s p)) s q
  J3 := fun q => Sm.overS fun s => c.charge s ⊠ momV Sm c.coords.p3 (measure c.toFVMConfig) f s q

/-- The field update inside a slope evaluation on the whole grid — `df_dt_fvm.py:102-233`. -/
def fieldUpdate (c : CoupledConfig S P Q K) (cb : CoupledCallbacks S P Q K) (dt : K) (f : Dist S P Q K) (σ : FieldState Q K) :
    Except PyErr (FieldState Q K) :=
  if c.fieldsType = "electrodynamic" ∧ σ.flag = false then
    if c.solverMethodInQ = "FVM" then do
      let m ← reconMethod c.reconstructionInQ
      pure (storeFields c.fieldParams dt (fdtd c.fieldParams (kineticCurrents Sm c m cb.Cq1 cb.Cq2 f) dt σ.yee) σ)
    else .error .nameError
  else pure σ

/-- `df_dt_fvm(f, self)` on the whole periodic grid — `df_dt_fvm.py:33-339`. -/
def dfdtCoupled (c : CoupledConfig S P Q K) (cb : CoupledCallbacks S P Q K) (dt : K) (f : Dist S P Q K) (σ : FieldState Q K) :
    Except PyErr (Dist S P Q K × FieldState Q K) :=
  if c.solverMethodInP = "FVM" ∧ c.fieldsEnabled = true then do
    let σ1 ← fieldUpdate Sm c cb dt f σ
    let g1 := getFields c.fieldsSolver c.solverMethodInP σ1
    let g2 := getFields c.fieldsSolver c.solverMethodInP g1.2
    let g3 := getFields c.fieldsSolver c.solverMethodInP g2.2
    let k ← dfdtFVM c.ax c.toFVMConfig ⟨cb.Cq1, cb.Cq2, cb.Cp1 g1.1, cb.Cp2 g2.1, cb.Cp3 g3.1, cb.source⟩ f
    return (k, g3.2)
  else do
    let k ← dfdtFVM c.ax c.toFVMConfig ⟨cb.Cq1, cb.Cq2, fun _ _ _ => lit 0, fun _ _ _ => lit 0, fun _ _ _ => lit 0, cb.source⟩ f
    return (k, σ)

/-- `timestep_fvm` on the whole periodic grid — `fvm_operator.py:6-35`. -/
def stepCoupled (c : CoupledConfig S P Q K) (cb : Fin 2 → CoupledCallbacks S P Q K) (dt : K) (st : Dist S P Q K × FieldState Q K) :
    Except PyErr (Dist S P Q K × FieldState Q K) := do
  let r0 ← dfdtCoupled Sm c (cb 0) dt st.1 st.2
  let r1 ← dfdtCoupled Sm c (cb 1) dt (fun s p q => st.1 s p q ⊞ r0.1 s p q ⊠ (dt ⊘ lit 2)) r0.2
  return (fun s p q => st.1 s p q ⊞ r1.1 s p q ⊠ dt, r1.2)

/-- Successive steps. -/
def runCoupled (c : CoupledConfig S P Q K) :
    List (K × (Fin 2 → CoupledCallbacks S P Q K)) → Dist S P Q K × FieldState Q K → Except PyErr (Dist S P Q K × FieldState Q K)
  | [], st => .ok st
  | (dt, cb) :: rest, st => do
    let st' ← stepCoupled Sm c cb dt st
    runCoupled c rest st'

variable {N1 N2 : ℕ} {R : Type} (D : Decomp N1 N2 R) (g1 g2 : ℕ)

/-- The field update inside a slope evaluation on every process, as `Decomp.FieldPhase` — `df_dt_fvm.py:102-233`, `fields.py:568-647`. -/
def FieldPhase (o : BCOptions) (user : ∀ r, D.LocFieldBCs g1 g2 r K)
    (c : CoupledConfig S P Q K) (cb : ∀ r, CoupledCallbacks S P (D.Loc g1 g2 r) K) (dt : K)
    (F : ∀ r, Dist S P (D.Loc g1 g2 r) K) (σ σ' : ∀ r, FieldState (D.Loc g1 g2 r) K) : Prop :=
  (c.fieldsType = "electrodynamic" ∧ (∀ r, (σ r).flag = false) ∧ c.solverMethodInQ = "FVM" ∧
    ∃ m, reconMethod c.reconstructionInQ = .ok m ∧
      ∃ Y', FdtdStep D g1 g2 o user (fun r => (D.locCfg g1 g2 c r).fieldParams)
          (fun r => kineticCurrents Sm (D.locCfg g1 g2 c r) m (cb r).Cq1 (cb r).Cq2 (F r)) dt (fun r => (σ r).yee) Y' ∧
        ∀ r, σ' r = storeFields (D.locCfg g1 g2 c r).fieldParams dt (Y' r) (σ r)) ∨
  (c.fieldsType ≠ "electrodynamic" ∨ ∀ r, (σ r).flag = true) ∧ σ' = σ

/-- `df_dt_fvm(self.f, self)` on every process, as `Decomp.SlopeCoupled` — `df_dt_fvm.py:33-339`. -/
def SlopeCoupled (o : BCOptions) (user : ∀ r, D.LocFieldBCs g1 g2 r K)
    (c : CoupledConfig S P Q K) (cb : ∀ r, CoupledCallbacks S P (D.Loc g1 g2 r) K) (dt : K)
    (F : ∀ r, Dist S P (D.Loc g1 g2 r) K) (σ : ∀ r, FieldState (D.Loc g1 g2 r) K)
    (k : ∀ r, Dist S P (D.Loc g1 g2 r) K) (σ' : ∀ r, FieldState (D.Loc g1 g2 r) K) : Prop :=
  if c.solverMethodInP = "FVM" ∧ c.fieldsEnabled = true then
    ∃ σ1, FieldPhase Sm D g1 g2 o user c cb dt F σ σ1 ∧ ∀ r,
      let h1 := getFields c.fieldsSolver c.solverMethodInP (σ1 r)
      let h2 := getFields c.fieldsSolver c.solverMethodInP h1.2
      let h3 := getFields c.fieldsSolver c.solverMethodInP h2.2
      dfdtFVM (D.locCfg g1 g2 c r).ax c.toFVMConfig
        ⟨(cb r).Cq1, (cb r).Cq2, (cb r).Cp1 h1.1, (cb r).Cp2 h2.1, (cb r).Cp3 h3.1, (cb r).source⟩ (F r) = .ok (k r) ∧
      σ' r = h3.2
  else
    (∀ r, dfdtFVM (D.locCfg g1 g2 c r).ax c.toFVMConfig
      ⟨(cb r).Cq1, (cb r).Cq2, fun _ _ _ => lit 0, fun _ _ _ => lit 0, fun _ _ _ => lit 0, (cb r).source⟩ (F r) = .ok (k r)) ∧ σ' = σ

/-- One `timestep_fvm` with fields on every process — `fvm_operator.py:6-35`; the boundary conditions of the distribution are periodic, so that
`apply_bcs_f` changes nothing after the exchange. -/
def StepCoupled (o : BCOptions) (user : ∀ r, D.LocFieldBCs g1 g2 r K) (c : CoupledConfig S P Q K) (dt : K)
    (cb : Fin 2 → ∀ r, CoupledCallbacks S P (D.Loc g1 g2 r) K)
    (F : ∀ r, Dist S P (D.Loc g1 g2 r) K) (σ : ∀ r, FieldState (D.Loc g1 g2 r) K)
    (F' : ∀ r, Dist S P (D.Loc g1 g2 r) K) (σ' : ∀ r, FieldState (D.Loc g1 g2 r) K) : Prop :=
  ∃ (st0 st1 k0 k1 : ∀ r, Dist S P (D.Loc g1 g2 r) K) (σh : ∀ r, FieldState (D.Loc g1 g2 r) K),
    let F0 := D.exchange g1 g2 .periodic .periodic st0 F
    SlopeCoupled Sm D g1 g2 o user c (cb 0) dt F0 σ k0 σh ∧
    let Fh := D.exchange g1 g2 .periodic .periodic st1 (fun r s p l => F0 r s p l ⊞ k0 r s p l ⊠ (dt ⊘ lit 2))
    SlopeCoupled Sm D g1 g2 o user c (cb 1) dt Fh σh k1 σ' ∧
    F' = fun r s p l => F0 r s p l ⊞ k1 r s p l ⊠ dt

/-- Successive steps on every process. -/
def RunCoupled (o : BCOptions) (user : ∀ r, D.LocFieldBCs g1 g2 r K) (c : CoupledConfig S P Q K) :
    List (K × (Fin 2 → ∀ r, CoupledCallbacks S P (D.Loc g1 g2 r) K)) →
    (∀ r, Dist S P (D.Loc g1 g2 r) K) → (∀ r, FieldState (D.Loc g1 g2 r) K) →
    (∀ r, Dist S P (D.Loc g1 g2 r) K) → (∀ r, FieldState (D.Loc g1 g2 r) K) → Prop
  | [], F, σ, F', σ' => F' = F ∧ σ' = σ
  | (dt, cb) :: rest, F, σ, F', σ' => ∃ G τ, StepCoupled Sm D g1 g2 o user c dt cb F σ G τ ∧ RunCoupled o user c rest G τ F' σ'

end slope

end Mach
end Bolt
