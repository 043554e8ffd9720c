import Verif.Model.Coupled
import Verif.Model.Boundaries

/-!
# The finite-volume step coupled to the fields, on several processes
(`df_dt_fvm.py:33-339`, `fvm_operator.py:6-35`, `fields/electrodynamic/fdtd_explicit.py:141-177`, `communicate.py:40-77`)

Every process runs the Python code on its local arrays; `communicate_f` and `communicate_fields` are collective.  The model is
relational: a step relates the states of all processes before and after it if no process raises.
-/

namespace Bolt
namespace Decomp

variable {N1 N2 : ℕ} {R : Type} (D : Decomp N1 N2 R) (g1 g2 : ℕ) {K : Type}

/-- `communicate_fields` for one component: as `communicate_f`, without species and momentum axes. -/
def exchange1 (bc1 bc2 : PetscBC) (stale F : ∀ r, D.Loc g1 g2 r → K) : ∀ r, D.Loc g1 g2 r → K :=
  fun r => D.exchange g1 g2 bc1 bc2 (S := Unit) (P := Unit) (fun r _ _ => stale r) (fun r _ _ => F r) r () ()

/-- `communicate_fields(self, on_fdtd_grid)` — `communicate.py:40-77`: the six components of the chosen array. -/
def exchangeEM (bc1 bc2 : PetscBC) (stale F : ∀ r, EM (D.Loc g1 g2 r) K) : ∀ r, EM (D.Loc g1 g2 r) K := fun r =>
  ⟨D.exchange1 g1 g2 bc1 bc2 (fun r => (stale r).E1) (fun r => (F r).E1) r,
   D.exchange1 g1 g2 bc1 bc2 (fun r => (stale r).E2) (fun r => (F r).E2) r,
   D.exchange1 g1 g2 bc1 bc2 (fun r => (stale r).E3) (fun r => (F r).E3) r,
   D.exchange1 g1 g2 bc1 bc2 (fun r => (stale r).B1) (fun r => (F r).B1) r,
   D.exchange1 g1 g2 bc1 bc2 (fun r => (stale r).B2) (fun r => (F r).B2) r,
   D.exchange1 g1 g2 bc1 bc2 (fun r => (stale r).B3) (fun r => (F r).B3) r⟩

/-- The user's boundary functions for the fields on process `r`: see `FieldBCEnv.user`. -/
abbrev LocFieldBCs (r : R) (K : Type) : Type :=
  Wall → Fin 6 → (D.Loc g1 g2 r → K) → D.Loc g1 g2 r → K

/-- What `apply_bcs_fields` reads on process `r`. -/
def fieldEnv (o : BCOptions) (r : R) (user : D.LocFieldBCs g1 g2 r K) : FieldBCEnv (D.n1 r + 2 * g1) (D.n2 r + 2 * g2) K :=
  { g := o.nGhost, name := o.name, user := user
    start1 := D.start1 r, start2 := D.start2 r, nLocal1 := D.n1 r, nLocal2 := D.n2 r, N1 := N1, N2 := N2 }

/-- The boundary types the fields solver gives to PETSc lead to ghost widths `g1`, `g2` — `fields.py:127-153`. -/
def FieldTypes (o : BCOptions) (bc1 bc2 : PetscBC) : Prop :=
  petscAxisFields o.nGhost (o.name .left) = (bc1, g1) ∧ petscAxisFields o.nGhost (o.name .bottom) = (bc2, g2)

/-- `communicate_fields(self, True)` alone — `df_dt_fvm.py:108` (hybrid model). -/
def SentFields (o : BCOptions) (F F0 : ∀ r, EM (D.Loc g1 g2 r) K) : Prop :=
  ∃ (bc1 bc2 : PetscBC) (stale : ∀ r, EM (D.Loc g1 g2 r) K), FieldTypes g1 g2 o bc1 bc2 ∧ F0 = D.exchangeEM g1 g2 bc1 bc2 stale F

/-- `communicate_fields(self, True); apply_bcs_fields(self, True)` on every process — `fdtd_explicit.py:169-170,173-174`. -/
def SyncedFields (o : BCOptions) (user : ∀ r, D.LocFieldBCs g1 g2 r K) (F F0 : ∀ r, EM (D.Loc g1 g2 r) K) : Prop :=
  ∃ G, D.SentFields g1 g2 o F G ∧ ∀ r, applyBcsFields (D.fieldEnv g1 g2 o r (user r)) true (G r) = .ok (F0 r)

variable [Field K] [LinearOrder K]

/-- `fdtd(self, dt)` on every process — `fdtd_explicit.py:141-177`. -/
def FdtdStep (o : BCOptions) (user : ∀ r, D.LocFieldBCs g1 g2 r K) (pr : ∀ r, FieldParams (D.Loc g1 g2 r) K)
    [∀ r, Fintype (D.Loc g1 g2 r)] (J : ∀ r, Currents (D.Loc g1 g2 r) K) (dt : K) (Y Y' : ∀ r, EM (D.Loc g1 g2 r) K) : Prop :=
  ∃ Y0 Y1 Y2 : ∀ r, EM (D.Loc g1 g2 r) K,
    D.SyncedFields g1 g2 o user Y Y0 ∧
    (∀ r, evolveE (pr r) (J r) dt (Y0 r) = .ok (Y1 r)) ∧
    D.SyncedFields g1 g2 o user Y1 Y2 ∧
    ∀ r, Y' r = evolveB (pr r) dt (Y2 r)

/-- `evolve_electrodynamic_fields(self, J1, J2, J3, dt)` on every process — `fields.py:568-647`. -/
def EvolveFields (o : BCOptions) (user : ∀ r, D.LocFieldBCs g1 g2 r K) (pr : ∀ r, FieldParams (D.Loc g1 g2 r) K)
    [∀ r, Fintype (D.Loc g1 g2 r)] (J : ∀ r, Currents (D.Loc g1 g2 r) K) (dt : K) (σ σ' : ∀ r, FieldState (D.Loc g1 g2 r) K) : Prop :=
  ∃ Y', D.FdtdStep g1 g2 o user pr J dt (fun r => (σ r).yee) Y' ∧ ∀ r, σ' r = storeFields (pr r) dt (Y' r) (σ r)

variable {S P : Type} [AddCommGroup P] [Fintype S] [Fintype P]

/-- The configuration as process `r` sees it: everything but the index set of its arrays is shared. -/
def locCfg {Q : Type} (c : CoupledConfig S P Q K) (r : R) : CoupledConfig S P (D.Loc g1 g2 r) K :=
  { c with ax := D.locAxes g1 g2 r c.ax.p1 c.ax.p2 c.ax.p3 }

/-- The field update inside a slope evaluation, on every process — `df_dt_fvm.py:102-233`.  The test at lines 102-104 reads the flag
`at_n` of the process's own fields solver; if the flags differed between processes the collective calls would not match, and the relation
does not hold.  `F` is both `self.f` and the argument `f` (`fvm_operator.py:26,33`).  `compute_electrostatic_fields` (lines 235-242) is not
included: its FFT solver raises on more than one process (`fields.py`, property C21). -/
def FieldPhase {Q : Type} [∀ r, Fintype (D.Loc g1 g2 r)] (o : BCOptions) (user : ∀ r, D.LocFieldBCs g1 g2 r K)
    (c : CoupledConfig S P Q K) (hyb : S) (cb : ∀ r, CoupledCallbacks S P (D.Loc g1 g2 r) K) (dt : K)
    (F : ∀ r, Dist S P (D.Loc g1 g2 r) K) (σ σ' : ∀ r, FieldState (D.Loc g1 g2 r) K) : Prop :=
  (c.fieldsType = "electrodynamic" ∧ (∀ r, (σ r).flag = false) ∧ c.solverMethodInQ = "FVM" ∧
    ∃ m, reconMethod c.reconstructionInQ = .ok m ∧
      if c.hybrid = true then
        ∃ Y, D.SentFields g1 g2 o (fun r => (σ r).yee) Y ∧
          D.EvolveFields g1 g2 o user (fun r => (D.locCfg g1 g2 c r).fieldParams)
            (fun r => (hybridFields (D.locCfg g1 g2 c r) hyb m (cb r).Cq1 (cb r).Cq2 (F r) (F r) (Y r)).1) dt
            (fun r => { σ r with
              yee := (Y r).setE (some (hybridFields (D.locCfg g1 g2 c r) hyb m (cb r).Cq1 (cb r).Cq2 (F r) (F r) (Y r)).2) }) σ'
      else
        D.EvolveFields g1 g2 o user (fun r => (D.locCfg g1 g2 c r).fieldParams)
          (fun r => kineticCurrents (D.locCfg g1 g2 c r) m (cb r).Cq1 (cb r).Cq2 (F r)) dt σ σ') ∨
  (c.fieldsType ≠ "electrodynamic" ∨ ∀ r, (σ r).flag = true) ∧ σ' = σ

/-- `df_dt_fvm(self.f, self)` on every process — `df_dt_fvm.py:33-339`: field update, three calls of `get_fields` by `C_p`, slope. -/
def SlopeCoupled {Q : Type} [∀ r, Fintype (D.Loc g1 g2 r)] (o : BCOptions) (user : ∀ r, D.LocFieldBCs g1 g2 r K)
    (c : CoupledConfig S P Q K) (hyb : S) (cb : ∀ r, CoupledCallbacks S P (D.Loc g1 g2 r) K) (dt : K)
    (F : ∀ r, Dist S P (D.Loc g1 g2 r) K) (σ : ∀ r, FieldState (D.Loc g1 g2 r) K)
    (k : ∀ r, Dist S P (D.Loc g1 g2 r) K) (σ' : ∀ r, FieldState (D.Loc g1 g2 r) K) : Prop :=
  if c.solverMethodInP = "FVM" ∧ c.fieldsEnabled = true then
    ∃ σ1, D.FieldPhase g1 g2 o user c hyb cb dt F σ σ1 ∧ ∀ r,
      let h1 := getFields c.fieldsSolver c.solverMethodInP (σ1 r)
      let h2 := getFields c.fieldsSolver c.solverMethodInP h1.2
      let h3 := getFields c.fieldsSolver c.solverMethodInP h2.2
      dfdtFVM (D.locCfg g1 g2 c r).ax c.toFVMConfig
        ⟨(cb r).Cq1, (cb r).Cq2, (cb r).Cp1 h1.1, (cb r).Cp2 h2.1, (cb r).Cp3 h3.1, (cb r).source⟩ (F r) = .ok (k r) ∧
      σ' r = h3.2
  else
    (∀ r, dfdtFVM (D.locCfg g1 g2 c r).ax c.toFVMConfig
      ⟨(cb r).Cq1, (cb r).Cq2, fun _ _ _ => 0, fun _ _ _ => 0, fun _ _ _ => 0, (cb r).source⟩ (F r) = .ok (k r)) ∧ σ' = σ

end Decomp

namespace Decomp

variable {N1 N2 : ℕ} {R : Type} (D : Decomp N1 N2 R) (g1 g2 : ℕ) {K : Type} [Field K] [LinearOrder K] {S : Type} [Fintype S]
  {Np1 Np2 Np3 : ℕ} [Fintype (PIdx Np1 Np2 Np3)]

/-- The callbacks and boundary functions of one step, on every process. -/
structure CoupledInput (S : Type) (Np1 Np2 Np3 : ℕ) (K : Type) where
  cb : Fin 2 → ∀ r, CoupledCallbacks S (PIdx Np1 Np2 Np3) (D.Loc g1 g2 r) K
  /-- callback values for the boundary conditions of the distribution -/
  dat : Fin 2 → ∀ r, D.LocBCData g1 g2 r S Np1 Np2 Np3 K
  /-- boundary functions of the fields -/
  user : Fin 2 → ∀ r, D.LocFieldBCs g1 g2 r K

/-- One `timestep_fvm` with fields on every process — `fvm_operator.py:6-35`. -/
def StepCoupled {Q : Type} [∀ r, Fintype (D.Loc g1 g2 r)] (o : BCOptions) (c : CoupledConfig S (PIdx Np1 Np2 Np3) Q K) (hyb : S) (dt : K)
    (inp : D.CoupledInput g1 g2 S Np1 Np2 Np3 K)
    (F : ∀ r, Dist S (PIdx Np1 Np2 Np3) (D.Loc g1 g2 r) K) (σ : ∀ r, FieldState (D.Loc g1 g2 r) K)
    (F' : ∀ r, Dist S (PIdx Np1 Np2 Np3) (D.Loc g1 g2 r) K) (σ' : ∀ r, FieldState (D.Loc g1 g2 r) K) : Prop :=
  ∃ (F0 k0 Fh k1 : ∀ r, Dist S (PIdx Np1 Np2 Np3) (D.Loc g1 g2 r) K) (σh : ∀ r, FieldState (D.Loc g1 g2 r) K),
    D.Synced g1 g2 o (inp.dat 0) F F0 ∧
    D.SlopeCoupled g1 g2 o (inp.user 0) c hyb (inp.cb 0) dt F0 σ k0 σh ∧
    D.Synced g1 g2 o (inp.dat 1) (fun r s p l => F0 r s p l + k0 r s p l * (dt / 2)) Fh ∧
    D.SlopeCoupled g1 g2 o (inp.user 1) c hyb (inp.cb 1) dt Fh σh k1 σ' ∧
    F' = fun r s p l => F0 r s p l + k1 r s p l * dt

/-- Successive steps on every process. -/
def RunCoupled {Q : Type} [∀ r, Fintype (D.Loc g1 g2 r)] (o : BCOptions) (c : CoupledConfig S (PIdx Np1 Np2 Np3) Q K) (hyb : S) :
    List (K × D.CoupledInput g1 g2 S Np1 Np2 Np3 K) →
    (∀ r, Dist S (PIdx Np1 Np2 Np3) (D.Loc g1 g2 r) K) → (∀ r, FieldState (D.Loc g1 g2 r) K) →
    (∀ r, Dist S (PIdx Np1 Np2 Np3) (D.Loc g1 g2 r) K) → (∀ r, FieldState (D.Loc g1 g2 r) K) → Prop
  | [], F, σ, F', σ' => F' = F ∧ σ' = σ
  | (dt, inp) :: rest, F, σ, F', σ' =>
    ∃ G τ, D.StepCoupled g1 g2 o c hyb dt inp F σ G τ ∧ RunCoupled o c hyb rest G τ F' σ'

end Decomp
end Bolt
