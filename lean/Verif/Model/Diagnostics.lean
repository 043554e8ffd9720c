import Verif.Model.Coupled

/-!
# `df_dt_fvm` called for one of its terms (`df_dt_fvm.py:33,325-339`)
-/

namespace Bolt

variable {S P Q K : Type} [AddCommGroup P] [AddCommGroup Q] [Field K] [LinearOrder K] [Fintype S] [Fintype P] [Fintype Q]

/-- What happens to the fields solver before the momentum fluxes are computed — `df_dt_fvm.py:102-242`.  `dt` is the attribute `self.dt`, which
exists only once a step has been taken or the user has set it (`timestep.py:51,112,173,237`). -/
noncomputable def fieldsForFluxes (c : CoupledConfig S P Q K) (poisson : (S → Q → K) → FieldState Q K → FieldState Q K)
    (cb : CoupledCallbacks S P Q K) (hyb : S) (dt : Option K) (selff f : Dist S P Q K) (σ : FieldState Q K) :
    Except PyErr (FieldState Q K) := do
  let σ1 ←
    if c.fieldsType = "electrodynamic" ∧ σ.flag = false then
      if c.solverMethodInQ = "FVM" then do
        let m ← reconMethod c.reconstructionInQ
        match dt with
        | none => .error .attributeError
        | some dt =>
          if c.hybrid = true then
            let h := hybridFields c hyb m cb.Cq1 cb.Cq2 f selff σ.yee
            evolveElectrodynamic c.fieldParams id h.1 dt { σ with yee := σ.yee.setE (some h.2) }
          else
            evolveElectrodynamic c.fieldParams id (kineticCurrents c m cb.Cq1 cb.Cq2 f) dt σ
      else .error .nameError
    else pure σ
  return if c.fieldsType = "electrostatic" ∧ c.fieldsSolver = "fft" then
    poisson (fun s q => c.charge s * density c.coords c.measure f s q) σ1 else σ1

/-- `df_dt_fvm(f, self, term_to_return)` on the whole periodic grid — `df_dt_fvm.py:33-339`: the array returned and the state in which the
fields solver is left.  The whole slope is computed in any case; lines 325-339 choose what to return.  If the momentum part was
skipped, the three divergences are unbound local variables (an `UnboundLocalError`, which is a `NameError`). -/
noncomputable def dfdtTerm (term : String) (c : CoupledConfig S P Q K) (poisson : (S → Q → K) → FieldState Q K → FieldState Q K)
    (cb : CoupledCallbacks S P Q K) (hyb : S) (dt : Option K) (selff f : Dist S P Q K) (σ : FieldState Q K) :
    Except PyErr (Dist S P Q K × FieldState Q K) :=
  if c.solverMethodInP = "FVM" ∧ c.fieldsEnabled = true then do
    let σ2 ← fieldsForFluxes c poisson cb hyb dt selff f σ
    let g1 := getFields c.fieldsSolver c.solverMethodInP σ2
    let g2 := getFields c.fieldsSolver c.solverMethodInP g1.2
    let g3 := getFields c.fieldsSolver c.solverMethodInP g2.2
    let k ← dfdtFVM c.ax c.toFVMConfig ⟨cb.Cq1, cb.Cq2, cb.Cp1 g1.1, cb.Cp2 g2.1, cb.Cp3 g3.1, cb.source⟩ f
    let m ← reconMethod c.reconstructionInP
    -- lines 325-339
    if term = "d_flux_p1_dp1" then return (dFluxP m c.ax.p1 c.dp1 (cb.Cp1 g1.1) f, g3.2)
    else if term = "d_flux_p2_dp2" then return (dFluxP m c.ax.p2 c.dp2 (cb.Cp2 g2.1) f, g3.2)
    else if term = "d_flux_p3_dp3" then return (dFluxP m c.ax.p3 c.dp3 (cb.Cp3 g3.1) f, g3.2)
    else return (k, g3.2)
  else do
    let k ← dfdtFVM c.ax c.toFVMConfig ⟨cb.Cq1, cb.Cq2, fun _ _ _ => 0, fun _ _ _ => 0, fun _ _ _ => 0, cb.source⟩ f
    if term = "d_flux_p1_dp1" then .error .nameError
    else if term = "d_flux_p2_dp2" then .error .nameError
    else if term = "d_flux_p3_dp3" then .error .nameError
    else return (k, σ)

end Bolt
