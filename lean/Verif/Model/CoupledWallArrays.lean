import Verif.Model.FieldBoundaryArrays
import Verif.Model.MachineCoupled

/-!
# Coupled runs with walls on blocks of memory

`timestep_fvm` with fields and boundary conditions, as `Model/FieldArrays` (which is for periodic grids) with the boundary routines of `Model/BoundaryArrays` and
`Model/FieldBoundaryArrays`; kinetic electrons.
-/

namespace Bolt

/-- What the user's functions return in one slope evaluation, on every process: to the slope, to the boundary routine of the distribution function and to that of the fields — the
callbacks of `df_dt_fvm.py:33-339`, `nonlinear/boundaries.py:147-225`, `fields/boundaries.py:212-417`. -/
structure ArrWallInput (R K : Type) where
  x : R → ArrCallbacks K
  b : R → ArrBCData K
  user : R → Wall → Fin 6 → AfArray K → PyExpr K

section arrays
open Machine PyExpr
variable {K : Type} [Machine K] (red : List K → K) {N1 N2 : ℕ} {R : Type} (D : Decomp N1 N2 R) (g1 g2 Np1 Np2 Np3 Ns : ℕ) (o : BCOptions)
  {S P Q : Type} (c : CoupledConfig S P Q K)

/-- The field update inside a slope evaluation — `df_dt_fvm.py:102-233`, `fields.py:568-647`. -/
def ArrFieldPhaseWalls (w : ArrWallInput R K) (dt : K) (F : R → AfArray K) (σ σ' : R → ArrFieldState K) : Prop :=
  (c.fieldsType = "electrodynamic" ∧ (∀ r, (σ r).flag = false) ∧ c.solverMethodInQ = "FVM" ∧
    ∃ Y', ArrFdtdWallStep D g1 g2 Np1 Np2 Np3 Ns o w.user c.eps c.mu c.dq1 c.dq2 dt
        (fun r => (arrCurrents red c.reconstructionInQ (w.x r) (.ok (.arr (F r)))).1)
        (fun r => (arrCurrents red c.reconstructionInQ (w.x r) (.ok (.arr (F r)))).2.1)
        (fun r => (arrCurrents red c.reconstructionInQ (w.x r) (.ok (.arr (F r)))).2.2) (fun r => (σ r).yee) Y' ∧
      ∀ r, (σ r).store dt (Y' r) = .ok (σ' r)) ∨
  (c.fieldsType ≠ "electrodynamic" ∨ ∀ r, (σ r).flag = true) ∧ σ' = σ

/-- `df_dt_fvm(self.f, self)` on the arrays of all processes — `df_dt_fvm.py:33-339`; without fields the momentum velocities are not read. -/
def ArrSlopeWalls (w : ArrWallInput R K) (dt : K) (F : R → AfArray K) (σ : R → ArrFieldState K) (k : R → PyExpr K) (σ' : R → ArrFieldState K) : Prop :=
  if c.solverMethodInP = "FVM" ∧ c.fieldsEnabled = true then
    ∃ σ1, ArrFieldPhaseWalls red D g1 g2 Np1 Np2 Np3 Ns o c w dt F σ σ1 ∧ ∀ r,
      let h1 := (σ1 r).getFields c.fieldsSolver c.solverMethodInP
      let h2 := h1.2.getFields c.fieldsSolver c.solverMethodInP
      let h3 := h2.2.getFields c.fieldsSolver c.solverMethodInP
      k r = arrDfdt (D.sizes Np1 Np2 Np3 Ns g1 g2 r) c.toFVMConfig (arrInputs (w.x r) h1.1 h2.1 h3.1 (F r)) (.ok (.arr (F r))) ∧
      σ' r = h3.2
  else
    (∀ r, k r = arrDfdt (D.sizes Np1 Np2 Np3 Ns g1 g2 r) c.toFVMConfig
      (arrInputs (w.x r) (fun _ => const 0) (fun _ => const 0) (fun _ => const 0) (F r)) (.ok (.arr (F r)))) ∧ σ' = σ

/-- One `timestep_fvm` with fields and boundary conditions on the arrays of all processes — `fvm_operator.py:6-35`. -/
def ArrStepWalls (dt : K) (w : Fin 2 → ArrWallInput R K) (F : R → AfArray K) (σ : R → ArrFieldState K) (F' : R → AfArray K) (σ' : R → ArrFieldState K) : Prop :=
  ∃ (F0 H Fh : R → AfArray K) (k0 k1 : R → PyExpr K) (σh : R → ArrFieldState K),
    D.ArrSynced g1 g2 Np1 Np2 Np3 Ns o (w 0).b F F0 ∧
    ArrSlopeWalls red D g1 g2 Np1 Np2 Np3 Ns o c (w 0) dt F0 σ k0 σh ∧
    (∀ r, arrAdvance (.ok (.arr (F0 r))) (k0 r) (dt ⊘ lit 2) = .ok (.arr (H r))) ∧
    D.ArrSynced g1 g2 Np1 Np2 Np3 Ns o (w 1).b H Fh ∧
    ArrSlopeWalls red D g1 g2 Np1 Np2 Np3 Ns o c (w 1) dt Fh σh k1 σ' ∧
    ∀ r, arrAdvance (.ok (.arr (F0 r))) (k1 r) dt = .ok (.arr (F' r))

/-- Successive steps: repeated `timestep_fvm` calls (`fvm_operator.py:6-35`). -/
def ArrRunWalls : List (K × (Fin 2 → ArrWallInput R K)) → (R → AfArray K) → (R → ArrFieldState K) → (R → AfArray K) → (R → ArrFieldState K) → Prop
  | [], F, σ, F', σ' => F' = F ∧ σ' = σ
  | (dt, w) :: rest, F, σ, F', σ' =>
    ∃ G τ, ArrStepWalls red D g1 g2 Np1 Np2 Np3 Ns o c dt w F σ G τ ∧ ArrRunWalls rest G τ F' σ'

end arrays

namespace Mach
open Machine
variable {K : Type} [Machine K] [Zero K] [LinearOrder K] {N1 N2 : ℕ} {R : Type} (D : Decomp N1 N2 R) (g1 g2 : ℕ) {S : Type} {Np1 Np2 Np3 : ℕ}
  (Sm : Sums S (PIdx Np1 Np2 Np3) K) {Q : Type}

/-- One `timestep_fvm` with fields and boundary conditions, cell by cell, on every process, as `Decomp.StepCoupled` — `fvm_operator.py:6-35`; kinetic electrons. -/
def StepWalls (o : BCOptions) (c : CoupledConfig S (PIdx Np1 Np2 Np3) Q K) (dt : K) (inp : D.CoupledInput g1 g2 S Np1 Np2 Np3 K)
    (F : ∀ r, Dist S (PIdx Np1 Np2 Np3) (D.Loc g1 g2 r) K) (σ : ∀ r, FieldState (D.Loc g1 g2 r) K)
    (F' : ∀ r, Dist S (PIdx Np1 Np2 Np3) (D.Loc g1 g2 r) K) (σ' : ∀ r, FieldState (D.Loc g1 g2 r) K) : Prop :=
  ∃ (F0 k0 Fh k1 : ∀ r, Dist S (PIdx Np1 Np2 Np3) (D.Loc g1 g2 r) K) (σh : ∀ r, FieldState (D.Loc g1 g2 r) K),
    D.Synced g1 g2 o (inp.dat 0) F F0 ∧
    SlopeCoupled Sm D g1 g2 o (inp.user 0) c (inp.cb 0) dt F0 σ k0 σh ∧
    D.Synced g1 g2 o (inp.dat 1) (fun r s p l => F0 r s p l ⊞ k0 r s p l ⊠ (dt ⊘ lit 2)) Fh ∧
    SlopeCoupled Sm D g1 g2 o (inp.user 1) c (inp.cb 1) dt Fh σh k1 σ' ∧
    F' = fun r s p l => F0 r s p l ⊞ k1 r s p l ⊠ dt

/-- Successive steps on every process: repeated `timestep_fvm` calls (`fvm_operator.py:6-35`). -/
def RunWalls (o : BCOptions) (c : CoupledConfig S (PIdx Np1 Np2 Np3) Q K) : List (K × D.CoupledInput g1 g2 S Np1 Np2 Np3 K) →
    (∀ r, Dist S (PIdx Np1 Np2 Np3) (D.Loc g1 g2 r) K) → (∀ r, FieldState (D.Loc g1 g2 r) K) →
    (∀ r, Dist S (PIdx Np1 Np2 Np3) (D.Loc g1 g2 r) K) → (∀ r, FieldState (D.Loc g1 g2 r) K) → Prop
  | [], F, σ, F', σ' => F' = F ∧ σ' = σ
  | (dt, inp) :: rest, F, σ, F', σ' => ∃ G τ, StepWalls D g1 g2 Sm o c dt inp F σ G τ ∧ RunWalls o c rest G τ F' σ'

end Mach

end Bolt
