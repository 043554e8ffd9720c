import Verif.Proofs.Cover

/-! Maps of states that commute with the coupled step: the conditions on the parts, and the consequence for runs. -/

set_option linter.unusedSectionVars false

namespace Bolt

variable {S P Q S' P' Q' K : Type} [AddCommGroup P] [AddCommGroup Q] [AddCommGroup P'] [AddCommGroup Q'] [Field K] [LinearOrder K]
  [Fintype S] [Fintype P] [Fintype Q] [Fintype S'] [Fintype P'] [Fintype Q']

/-- The evolution of the fields in `dfdtCoupled` once the reconstruction is known — `df_dt_fvm.py:106-233`. -/
noncomputable def evolveBranch (c : CoupledConfig S P Q K) (hyb : S) (m : Recon) (cb : CoupledCallbacks S P Q K) (dt : K)
    (selff f : Dist S P Q K) (σ : FieldState Q K) : Except PyErr (FieldState Q K) :=
  if c.hybrid = true then
    let h := hybridFields c hyb m cb.Cq1 cb.Cq2 f selff σ.yee
    evolveElectrodynamic c.fieldParams id h.1 dt { σ with yee := σ.yee.setE (some h.2) }
  else
    evolveElectrodynamic c.fieldParams id (kineticCurrents c m cb.Cq1 cb.Cq2 f) dt σ

theorem dfdtCoupled_eq (c : CoupledConfig S P Q K) (poisson : (S → Q → K) → FieldState Q K → FieldState Q K)
    (cb : CoupledCallbacks S P Q K) (hyb : S) (dt : K) (selff f : Dist S P Q K) (σ : FieldState Q K) :
    dfdtCoupled c poisson cb hyb dt selff f σ =
      if c.solverMethodInP = "FVM" ∧ c.fieldsEnabled = true then
        (if c.fieldsType = "electrodynamic" ∧ σ.flag = false then
          if c.solverMethodInQ = "FVM" then
            reconMethod c.reconstructionInQ >>= fun m => evolveBranch c hyb m cb dt selff f σ
          else .error .nameError
        else .ok σ) >>= fun σ1 => afterFields c poisson cb f σ1
      else
        dfdtFVM c.ax c.toFVMConfig ⟨cb.Cq1, cb.Cq2, fun _ _ _ => 0, fun _ _ _ => 0, fun _ _ _ => 0, cb.source⟩ f >>= fun k => .ok (k, σ) := by
  unfold dfdtCoupled
  by_cases h : c.solverMethodInP = "FVM" ∧ c.fieldsEnabled = true
  · rw [if_pos h, if_pos h]
    by_cases hB : c.fieldsType = "electrodynamic" ∧ σ.flag = false
    · by_cases hC : c.solverMethodInQ = "FVM"
      · simp only [if_pos hB, if_pos hC]
        cases reconMethod c.reconstructionInQ with
        | error e => rfl
        | ok m => by_cases hH : c.hybrid = true <;> simp only [bind, Except.bind, evolveBranch, if_pos, if_neg, hH] <;> rfl
      · simp only [if_pos hB, if_neg hC]; rfl
    · simp only [if_neg hB]; rfl
  · rw [if_neg h, if_neg h]; rfl

/-- A map of distributions, slopes, fields and time steps under which every part of the coupled step commutes.  `R` relates the callbacks of
the two runs, `I` is a condition on the fields kept by the step. -/
structure StepMap (c : CoupledConfig S P Q K) (c' : CoupledConfig S' P' Q' K)
    (poisson : (S → Q → K) → FieldState Q K → FieldState Q K) (poisson' : (S' → Q' → K) → FieldState Q' K → FieldState Q' K)
    (hyb : S) (hyb' : S') (Tf Tk : Dist S P Q K → Dist S' P' Q' K) (TF : EM Q K → EM Q' K) (Tσ : FieldState Q K → FieldState Q' K)
    (tt : K → K) (R : CoupledCallbacks S' P' Q' K → CoupledCallbacks S P Q K → Prop) (I : FieldState Q K → Prop) : Prop where
  solverQ : c'.solverMethodInQ = c.solverMethodInQ
  solverP : c'.solverMethodInP = c.solverMethodInP
  recQ : c'.reconstructionInQ = c.reconstructionInQ
  enabled : c'.fieldsEnabled = c.fieldsEnabled
  ftype : c'.fieldsType = c.fieldsType
  fsolver : c'.fieldsSolver = c.fieldsSolver
  flag : ∀ σ, (Tσ σ).flag = σ.flag
  half : ∀ dt, tt (dt / 2) = tt dt / 2
  update : ∀ f k dt, Tf (fun s p q => f s p q + k s p q * dt) = fun s p q => Tf f s p q + Tk k s p q * tt dt
  get : ∀ a b σ, getFields a b (Tσ σ) = (TF (getFields a b σ).1, Tσ (getFields a b σ).2)
  getI : ∀ a b σ, I σ → I (getFields a b σ).2
  evolve : ∀ {cb' cb}, R cb' cb → ∀ m dt selff f σ, I σ → c.fieldsType = "electrodynamic" → reconMethod c.reconstructionInQ = .ok m →
    evolveBranch c' hyb' m cb' (tt dt) (Tf selff) (Tf f) (Tσ σ) = (evolveBranch c hyb m cb dt selff f σ).map Tσ
  evolveI : ∀ m cb dt selff f σ σ', I σ → evolveBranch c hyb m cb dt selff f σ = .ok σ' → I σ'
  poissonT : c.fieldsType = "electrostatic" → ∀ f σ, I σ → poisson' (fun s q => c'.charge s * density c'.coords c'.measure (Tf f) s q) (Tσ σ)
    = Tσ (poisson (fun s q => c.charge s * density c.coords c.measure f s q) σ)
  poissonI : ∀ ρ σ, I σ → I (poisson ρ σ)
  slope : ∀ {cb' cb}, R cb' cb → ∀ f (σ : FieldState Q K), I σ →
    (let g1 := getFields c.fieldsSolver c.solverMethodInP σ
     let g2 := getFields c.fieldsSolver c.solverMethodInP g1.2
     let g3 := getFields c.fieldsSolver c.solverMethodInP g2.2
     dfdtFVM c'.ax c'.toFVMConfig ⟨cb'.Cq1, cb'.Cq2, cb'.Cp1 (TF g1.1), cb'.Cp2 (TF g2.1), cb'.Cp3 (TF g3.1), cb'.source⟩ (Tf f)
      = (dfdtFVM c.ax c.toFVMConfig ⟨cb.Cq1, cb.Cq2, cb.Cp1 g1.1, cb.Cp2 g2.1, cb.Cp3 g3.1, cb.source⟩ f).map Tk)
  slope0 : ∀ {cb' cb}, R cb' cb → ∀ f,
    dfdtFVM c'.ax c'.toFVMConfig ⟨cb'.Cq1, cb'.Cq2, fun _ _ _ => 0, fun _ _ _ => 0, fun _ _ _ => 0, cb'.source⟩ (Tf f)
      = (dfdtFVM c.ax c.toFVMConfig ⟨cb.Cq1, cb.Cq2, fun _ _ _ => 0, fun _ _ _ => 0, fun _ _ _ => 0, cb.source⟩ f).map Tk

namespace StepMap

variable {c : CoupledConfig S P Q K} {c' : CoupledConfig S' P' Q' K}
  {poisson : (S → Q → K) → FieldState Q K → FieldState Q K} {poisson' : (S' → Q' → K) → FieldState Q' K → FieldState Q' K}
  {hyb : S} {hyb' : S'} {Tf Tk : Dist S P Q K → Dist S' P' Q' K} {TF : EM Q K → EM Q' K} {Tσ : FieldState Q K → FieldState Q' K}
  {tt : K → K} {R : CoupledCallbacks S' P' Q' K → CoupledCallbacks S P Q K → Prop} {I : FieldState Q K → Prop}
  (h : StepMap c c' poisson poisson' hyb hyb' Tf Tk TF Tσ tt R I)
include h

theorem afterFields {cb cb'} (hR : R cb' cb) (f : Dist S P Q K) (σ : FieldState Q K) (hI : I σ) :
    Bolt.afterFields c' poisson' cb' (Tf f) (Tσ σ) = (Bolt.afterFields c poisson cb f σ).map (fun r => (Tk r.1, Tσ r.2)) ∧
    ∀ r, Bolt.afterFields c poisson cb f σ = .ok r → I r.2 := by
  have key : ∀ τ, I τ → ((let g1 := Bolt.getFields c'.fieldsSolver c'.solverMethodInP (Tσ τ)
      let g2 := Bolt.getFields c'.fieldsSolver c'.solverMethodInP g1.2
      let g3 := Bolt.getFields c'.fieldsSolver c'.solverMethodInP g2.2
      (dfdtFVM c'.ax c'.toFVMConfig ⟨cb'.Cq1, cb'.Cq2, cb'.Cp1 g1.1, cb'.Cp2 g2.1, cb'.Cp3 g3.1, cb'.source⟩ (Tf f) >>=
        fun k => pure (k, g3.2) : Except PyErr _)) =
     (let g1 := Bolt.getFields c.fieldsSolver c.solverMethodInP τ
      let g2 := Bolt.getFields c.fieldsSolver c.solverMethodInP g1.2
      let g3 := Bolt.getFields c.fieldsSolver c.solverMethodInP g2.2
      (dfdtFVM c.ax c.toFVMConfig ⟨cb.Cq1, cb.Cq2, cb.Cp1 g1.1, cb.Cp2 g2.1, cb.Cp3 g3.1, cb.source⟩ f >>= fun k => pure (k, g3.2) :
        Except PyErr _).map (fun r => (Tk r.1, Tσ r.2)))) := by
    intro τ hτ
    have e := h.slope hR f τ hτ
    simp only [h.get, h.fsolver, h.solverP] at e ⊢
    rw [e]
    generalize dfdtFVM c.ax c.toFVMConfig _ f = x
    cases x <;> rfl
  have keyI : ∀ τ, I τ → ∀ r, ((let g1 := Bolt.getFields c.fieldsSolver c.solverMethodInP τ
      let g2 := Bolt.getFields c.fieldsSolver c.solverMethodInP g1.2
      let g3 := Bolt.getFields c.fieldsSolver c.solverMethodInP g2.2
      (dfdtFVM c.ax c.toFVMConfig ⟨cb.Cq1, cb.Cq2, cb.Cp1 g1.1, cb.Cp2 g2.1, cb.Cp3 g3.1, cb.source⟩ f >>= fun k => pure (k, g3.2) :
        Except PyErr _)) = .ok r) → I r.2 := by
    intro τ hτ r hr
    simp only at hr
    revert hr
    generalize dfdtFVM c.ax c.toFVMConfig _ f = x
    intro hr
    cases x with
    | error e => cases hr
    | ok k => cases hr; exact h.getI c.fieldsSolver c.solverMethodInP _ (h.getI c.fieldsSolver c.solverMethodInP _ (h.getI c.fieldsSolver c.solverMethodInP _ hτ))
  unfold Bolt.afterFields
  simp only [h.ftype]
  by_cases hE : c.fieldsType = "electrostatic" ∧ c.fieldsSolver = "fft"
  · have hE' : c.fieldsType = "electrostatic" ∧ c'.fieldsSolver = "fft" := by rwa [h.fsolver]
    simp only [if_pos hE, if_pos hE', h.poissonT hE.1 f σ hI]
    exact ⟨key _ (h.poissonI _ _ hI), keyI _ (h.poissonI _ _ hI)⟩
  · have hE' : ¬(c.fieldsType = "electrostatic" ∧ c'.fieldsSolver = "fft") := by rwa [h.fsolver]
    simp only [if_neg hE, if_neg hE']
    exact ⟨key _ hI, keyI _ hI⟩

theorem dfdtCoupled {cb cb'} (hR : R cb' cb) (dt : K) (selff f : Dist S P Q K) (σ : FieldState Q K) (hI : I σ) :
    Bolt.dfdtCoupled c' poisson' cb' hyb' (tt dt) (Tf selff) (Tf f) (Tσ σ)
      = (Bolt.dfdtCoupled c poisson cb hyb dt selff f σ).map (fun r => (Tk r.1, Tσ r.2)) ∧
    ∀ r, Bolt.dfdtCoupled c poisson cb hyb dt selff f σ = .ok r → I r.2 := by
  rw [dfdtCoupled_eq, dfdtCoupled_eq, h.solverP, h.enabled]
  by_cases hA : c.solverMethodInP = "FVM" ∧ c.fieldsEnabled = true
  · rw [if_pos hA, if_pos hA, h.ftype, h.flag]
    by_cases hB : c.fieldsType = "electrodynamic" ∧ σ.flag = false
    · rw [if_pos hB, if_pos hB, h.solverQ]
      by_cases hC : c.solverMethodInQ = "FVM"
      · rw [if_pos hC, if_pos hC, h.recQ]
        cases hm : reconMethod c.reconstructionInQ with
        | error e => exact ⟨rfl, fun r hr => by cases hr⟩
        | ok m =>
          simp only [bind, Except.bind]
          rw [h.evolve hR m dt selff f σ hI hB.1 hm]
          cases he : evolveBranch c hyb m cb dt selff f σ with
          | error e => exact ⟨rfl, fun r hr => by cases hr⟩
          | ok σ' => exact h.afterFields hR f σ' (h.evolveI _ _ _ _ _ _ _ hI he)
      · rw [if_neg hC, if_neg hC]
        exact ⟨rfl, fun r hr => by cases hr⟩
    · rw [if_neg hB, if_neg hB]
      exact h.afterFields hR f σ hI
  · rw [if_neg hA, if_neg hA, h.slope0 hR]
    cases dfdtFVM c.ax c.toFVMConfig _ f with
    | error e => exact ⟨rfl, fun r hr => by cases hr⟩
    | ok k => exact ⟨rfl, fun r hr => by cases hr; exact hI⟩

theorem stepCoupled {cb : Fin 2 → CoupledCallbacks S P Q K} {cb' : Fin 2 → CoupledCallbacks S' P' Q' K}
    (hcb : ∀ k, R (cb' k) (cb k)) (dt : K) (st : Dist S P Q K × FieldState Q K) (hI : I st.2) :
    Bolt.stepCoupled c' poisson' cb' hyb' (tt dt) (Tf st.1, Tσ st.2)
      = (Bolt.stepCoupled c poisson cb hyb dt st).map (fun r => (Tf r.1, Tσ r.2)) ∧
    ∀ r, Bolt.stepCoupled c poisson cb hyb dt st = .ok r → I r.2 := by
  unfold Bolt.stepCoupled
  obtain ⟨a, b⟩ := h.dfdtCoupled (hcb 0) dt st.1 st.1 st.2 hI
  simp only [a]
  cases h0 : Bolt.dfdtCoupled c poisson (cb 0) hyb dt st.1 st.1 st.2 with
  | error e => exact ⟨rfl, fun r hr => by cases hr⟩
  | ok r0 =>
    simp only [Except.map, bind, Except.bind]
    have hh := h.update st.1 r0.1 (dt / 2)
    rw [h.half] at hh
    rw [← hh]
    obtain ⟨a', b'⟩ := h.dfdtCoupled (hcb 1) dt (fun s p q => st.1 s p q + r0.1 s p q * (dt / 2))
      (fun s p q => st.1 s p q + r0.1 s p q * (dt / 2)) r0.2 (b _ h0)
    rw [a']
    cases h1 : Bolt.dfdtCoupled c poisson (cb 1) hyb dt (fun s p q => st.1 s p q + r0.1 s p q * (dt / 2))
      (fun s p q => st.1 s p q + r0.1 s p q * (dt / 2)) r0.2 with
    | error e => exact ⟨rfl, fun r hr => by cases hr⟩
    | ok r1 =>
      refine ⟨?_, fun r hr => ?_⟩
      · simp only [Except.map, pure, Except.pure, h.update]
      · cases hr
        exact b' r1 h1

/-- The images of related runs are related. -/
theorem run (steps : List (K × (Fin 2 → CoupledCallbacks S P Q K))) (steps' : List (K × (Fin 2 → CoupledCallbacks S' P' Q' K)))
    (hs : List.Forall₂ (fun x' x => x'.1 = tt x.1 ∧ ∀ k, R (x'.2 k) (x.2 k)) steps' steps)
    (f : Dist S P Q K) (σ : FieldState Q K) (hI : I σ) :
    runCoupled c' poisson' hyb' steps' (Tf f, Tσ σ) = (runCoupled c poisson hyb steps (f, σ)).map (fun r => (Tf r.1, Tσ r.2)) := by
  induction hs generalizing f σ with
  | nil => rfl
  | @cons x' x rest' rest hx _ ih =>
    obtain ⟨dt', cb'⟩ := x'
    obtain ⟨dt, cb⟩ := x
    obtain ⟨h1, h2⟩ := hx
    simp only at h1 h2
    subst h1
    obtain ⟨a, b⟩ := h.stepCoupled h2 dt (f, σ) hI
    simp only [runCoupled, a]
    cases hst : Bolt.stepCoupled c poisson cb hyb dt (f, σ) with
    | error e => rfl
    | ok r => exact ih r.1 r.2 (b _ hst)

end StepMap

end Bolt
