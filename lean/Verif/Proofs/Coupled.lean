import Verif.Model.Coupled
import Verif.Proofs.Fields
import Verif.Proofs.FVM

/-! Helper lemmas about the coupled step. -/

set_option linter.unusedSectionVars false

namespace Bolt

open Finset

variable {S P Q K : Type} [AddCommGroup P] [AddCommGroup Q] [Field K] [LinearOrder K] [Fintype S] [Fintype P] [Fintype Q]

theorem getFields_flag {fs : String} (σ : FieldState Q K) : (getFields fs "FVM" σ).2 = { σ with flag := !σ.flag } := by
  simp [getFields]

/-- The effect of `evolve_electrodynamic_fields`. -/
theorem evolveElectrodynamic_ok {pr : FieldParams Q K} {sync : EM Q K → EM Q K} {J : Currents Q K} {dt : K} {σ σ' : FieldState Q K}
    (h : evolveElectrodynamic pr sync J dt σ = .ok σ') :
    fdtd pr sync J dt σ.yee = .ok σ'.yee ∧ σ'.flag = σ.flag ∧ σ'.timeElapsed = σ.timeElapsed + dt ∧
      σ'.cc = σ.cc ∧ σ'.atN = σ.atN ∧ σ'.atHalf = σ.atHalf := by
  simp only [evolveElectrodynamic, bind, Except.bind, pure, Except.pure] at h
  cases h0 : fdtd pr sync J dt σ.yee with
  | error e => simp [h0] at h
  | ok Y =>
    simp only [h0, Except.ok.injEq] at h
    subst h
    exact ⟨rfl, rfl, rfl, rfl, rfl, rfl⟩

theorem evolveElectrodynamic_exists (pr : FieldParams Q K) (hh : pr.hybrid = false) (J : Currents Q K) (dt : K) (σ : FieldState Q K) :
    ∃ σ', evolveElectrodynamic pr id J dt σ = .ok σ' := by
  simp only [evolveElectrodynamic, bind, Except.bind, pure, Except.pure, fdtd_eq pr hh]
  exact ⟨_, rfl⟩

/-- The fields state after the possible field update of a slope evaluation. -/
def FieldUpdate (c : CoupledConfig S P Q K) (cb : CoupledCallbacks S P Q K) (hyb : S) (dt : K) (selff f : Dist S P Q K)
    (σ σ1 : FieldState Q K) : Prop :=
  (c.fieldsType = "electrodynamic" ∧ σ.flag = false ∧ c.solverMethodInQ = "FVM" ∧ ∃ m, reconMethod c.reconstructionInQ = .ok m ∧
    ((c.hybrid = true ∧ ∃ h, h = hybridFields c hyb m cb.Cq1 cb.Cq2 f selff σ.yee ∧
        evolveElectrodynamic c.fieldParams id h.1 dt { σ with yee := σ.yee.setE (some h.2) } = .ok σ1) ∨
      (c.hybrid = false ∧ evolveElectrodynamic c.fieldParams id (kineticCurrents c m cb.Cq1 cb.Cq2 f) dt σ = .ok σ1))) ∨
  (¬ (c.fieldsType = "electrodynamic" ∧ σ.flag = false) ∧ σ1 = σ)

theorem dfdtCoupled_ok {c : CoupledConfig S P Q K} {poisson : (S → Q → K) → FieldState Q K → FieldState Q K}
    {cb : CoupledCallbacks S P Q K} {hyb : S} {dt : K} {selff f : Dist S P Q K} {σ : FieldState Q K}
    {r : Dist S P Q K × FieldState Q K}
    (hp : c.solverMethodInP = "FVM" ∧ c.fieldsEnabled = true) (h : dfdtCoupled c poisson cb hyb dt selff f σ = .ok r) :
    ∃ σ1 σ2, FieldUpdate c cb hyb dt selff f σ σ1 ∧
      σ2 = (if c.fieldsType = "electrostatic" ∧ c.fieldsSolver = "fft" then
        poisson (fun s q => c.charge s * density c.coords c.measure f s q) σ1 else σ1) ∧
      r.2 = { σ2 with flag := !σ2.flag } ∧
      dfdtFVM c.ax c.toFVMConfig ⟨cb.Cq1, cb.Cq2, cb.Cp1 (getFields c.fieldsSolver "FVM" σ2).1,
        cb.Cp2 (getFields c.fieldsSolver "FVM" { σ2 with flag := !σ2.flag }).1,
        cb.Cp3 (getFields c.fieldsSolver "FVM" σ2).1, cb.source⟩ f = .ok r.1 := by
  have fin : ∀ σ1 : FieldState Q K, (do
      let σ2 := if c.fieldsType = "electrostatic" ∧ c.fieldsSolver = "fft" then
        poisson (fun s q => c.charge s * density c.coords c.measure f s q) σ1 else σ1
      let g1 := getFields c.fieldsSolver c.solverMethodInP σ2
      let g2 := getFields c.fieldsSolver c.solverMethodInP g1.2
      let g3 := getFields c.fieldsSolver c.solverMethodInP g2.2
      let k ← dfdtFVM c.ax c.toFVMConfig ⟨cb.Cq1, cb.Cq2, cb.Cp1 g1.1, cb.Cp2 g2.1, cb.Cp3 g3.1, cb.source⟩ f
      return (k, g3.2) : Except PyErr (Dist S P Q K × FieldState Q K)) = .ok r →
      ∃ σ2, σ2 = (if c.fieldsType = "electrostatic" ∧ c.fieldsSolver = "fft" then
        poisson (fun s q => c.charge s * density c.coords c.measure f s q) σ1 else σ1) ∧
      r.2 = { σ2 with flag := !σ2.flag } ∧
      dfdtFVM c.ax c.toFVMConfig ⟨cb.Cq1, cb.Cq2, cb.Cp1 (getFields c.fieldsSolver "FVM" σ2).1,
        cb.Cp2 (getFields c.fieldsSolver "FVM" { σ2 with flag := !σ2.flag }).1,
        cb.Cp3 (getFields c.fieldsSolver "FVM" σ2).1, cb.source⟩ f = .ok r.1 := by
    intro σ1 h
    refine ⟨_, rfl, ?_⟩
    generalize (if c.fieldsType = "electrostatic" ∧ c.fieldsSolver = "fft" then
        poisson (fun s q => c.charge s * density c.coords c.measure f s q) σ1 else σ1) = σ2 at h ⊢
    simp only [hp.1, getFields_flag, Bool.not_not, bind, Except.bind, pure, Except.pure] at h
    split at h
    · cases h
    · rename_i k hk
      simp only [Except.ok.injEq] at h
      subst h
      exact ⟨rfl, hk⟩
  rw [dfdtCoupled, if_pos hp] at h
  by_cases he : c.fieldsType = "electrodynamic" ∧ σ.flag = false
  · rw [if_pos he] at h
    by_cases hq : c.solverMethodInQ = "FVM"
    · rw [if_pos hq] at h
      cases hm : reconMethod c.reconstructionInQ with
      | error e => simp [hm, bind, Except.bind] at h
      | ok m =>
        by_cases hh : c.hybrid = true
        · cases he2 : evolveElectrodynamic c.fieldParams id (hybridFields c hyb m cb.Cq1 cb.Cq2 f selff σ.yee).1 dt
              { σ with yee := σ.yee.setE (some (hybridFields c hyb m cb.Cq1 cb.Cq2 f selff σ.yee).2) } with
          | error e => simp [hm, bind, Except.bind, hh, he2] at h
          | ok σ1 =>
            simp only [hm, bind, Except.bind, hh, he2, if_true] at h
            obtain ⟨σ2, a, b, d⟩ := fin σ1 (by simpa only [bind, Except.bind] using h)
            exact ⟨σ1, σ2, Or.inl ⟨he.1, he.2, hq, m, hm, Or.inl ⟨hh, _, rfl, he2⟩⟩, a, b, d⟩
        · cases he2 : evolveElectrodynamic c.fieldParams id (kineticCurrents c m cb.Cq1 cb.Cq2 f) dt σ with
          | error e => simp [hm, bind, Except.bind, hh, he2] at h
          | ok σ1 =>
            simp only [hm, bind, Except.bind, hh, he2, if_false, Bool.false_eq_true] at h
            obtain ⟨σ2, a, b, d⟩ := fin σ1 (by simpa only [bind, Except.bind] using h)
            exact ⟨σ1, σ2, Or.inl ⟨he.1, he.2, hq, m, hm, Or.inr ⟨by simpa using hh, he2⟩⟩, a, b, d⟩
    · rw [if_neg hq] at h
      simp [bind, Except.bind] at h
  · rw [if_neg he] at h
    simp only [bind, Except.bind, pure, Except.pure] at h
    obtain ⟨σ2, a, b, d⟩ := fin σ (by simpa only [bind, Except.bind, pure, Except.pure] using h)
    exact ⟨σ, σ2, Or.inr ⟨he, rfl⟩, a, b, d⟩

theorem stepCoupled_ok {c : CoupledConfig S P Q K} {poisson : (S → Q → K) → FieldState Q K → FieldState Q K}
    {cb : Fin 2 → CoupledCallbacks S P Q K} {hyb : S} {dt : K} {st st' : Dist S P Q K × FieldState Q K}
    (h : stepCoupled c poisson cb hyb dt st = .ok st') :
    ∃ r0 r1, dfdtCoupled c poisson (cb 0) hyb dt st.1 st.1 st.2 = .ok r0 ∧
      (let fh : Dist S P Q K := fun s p q => st.1 s p q + r0.1 s p q * (dt / 2)
       dfdtCoupled c poisson (cb 1) hyb dt fh fh r0.2 = .ok r1) ∧
      st' = (fun s p q => st.1 s p q + r1.1 s p q * dt, r1.2) := by
  simp only [stepCoupled, bind, Except.bind, pure, Except.pure] at h
  split at h
  · cases h
  · rename_i r0 h0
    split at h
    · cases h
    · rename_i r1 h1
      simp only [Except.ok.injEq] at h
      exact ⟨r0, r1, h0, h1, h.symm⟩

theorem runCoupled_invariant {c : CoupledConfig S P Q K} {poisson : (S → Q → K) → FieldState Q K → FieldState Q K} {hyb : S}
    (I : Dist S P Q K × FieldState Q K → Prop) (steps : List (K × (Fin 2 → CoupledCallbacks S P Q K)))
    (hstep : ∀ stp ∈ steps, ∀ st st', I st → stepCoupled c poisson stp.2 hyb stp.1 st = .ok st' → I st')
    (st st' : Dist S P Q K × FieldState Q K) (h0 : I st) (h : runCoupled c poisson hyb steps st = .ok st') : I st' := by
  induction steps generalizing st with
  | nil => simp only [runCoupled, Except.ok.injEq] at h; exact h ▸ h0
  | cons stp rest ih =>
    obtain ⟨dt, cb⟩ := stp
    simp only [runCoupled, bind, Except.bind] at h
    cases h1 : stepCoupled c poisson cb hyb dt st with
    | error e => simp [h1] at h
    | ok G =>
      simp only [h1] at h
      exact ih (fun s hs => hstep s (by simp [hs])) G (hstep (dt, cb) (by simp) st G h0 h1) h

end Bolt
