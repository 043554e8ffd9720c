import Verif.Proofs.FieldMap
import Verif.Props.Coupled

/-! Exchanging the roles of the two axes. -/

set_option linter.unusedSectionVars false

namespace Bolt

variable {Q S P K : Type} [AddCommGroup P] [AddCommGroup Q] [Field K] [LinearOrder K] [IsStrictOrderedRing K]

theorem dfdtFVM_exchange (ax : Axes P Q) (cfg : FVMConfig S K) (cb : Callbacks S P Q K) (f : Dist S P Q K) :
    dfdtFVM ax.exchange cfg.exchange ⟨cb.Cq2, cb.Cq1, cb.Cp2, cb.Cp1, cb.Cp3, cb.source⟩ f = dfdtFVM ax cfg cb f := by
  have eq : ∀ m, dfdtQ ax.exchange m cfg.exchange.dq1 cfg.exchange.dq2 cb.Cq2 cb.Cq1 f = dfdtQ ax m cfg.dq1 cfg.dq2 cb.Cq1 cb.Cq2 f := fun m => by
    funext s p q
    simp only [dfdtQ, Axes.exchange, FVMConfig.exchange]
    ring
  have ep : ∀ m, dfdtP ax.exchange m cfg.exchange.dp1 cfg.exchange.dp2 cfg.exchange.dp3 cb.Cp2 cb.Cp1 cb.Cp3 f
      = dfdtP ax m cfg.dp1 cfg.dp2 cfg.dp3 cb.Cp1 cb.Cp2 cb.Cp3 f := fun m => by
    funext s p q
    simp only [dfdtP, Axes.exchange, FVMConfig.exchange]
    ring
  have e1 : cfg.exchange.solverMethodInQ = cfg.solverMethodInQ := rfl
  have e2 : cfg.exchange.solverMethodInP = cfg.solverMethodInP := rfl
  have e3 : cfg.exchange.reconstructionInQ = cfg.reconstructionInQ := rfl
  have e4 : cfg.exchange.reconstructionInP = cfg.reconstructionInP := rfl
  have e5 : cfg.exchange.sourceEnabled = cfg.sourceEnabled := rfl
  have e6 : cfg.exchange.fieldsEnabled = cfg.fieldsEnabled := rfl
  unfold dfdtFVM
  simp only [eq, ep, e1, e2, e3, e4, e5, e6]

theorem afShift_comm (e e' : Q) (k l : ℤ) (x : Q → K) : afShift e k (afShift e' l x) = afShift e' l (afShift e k x) := by
  funext i
  simp only [afShift]
  congr 1
  abel

variable [Fintype S] [Fintype P] [Fintype Q]

theorem exchange_fieldMap (c : CoupledConfig S P Q K) : FieldMap c.fieldParams c.exchange.fieldParams EM.exchange EM.exchange id id where
  avg := fun x y => by
    simp only [EM.exchange, EM.avg, EM.mk.injEq, true_and]
    refine ⟨?_, ?_, ?_⟩ <;> funext i <;> ring
  mixE := fun _ _ => rfl
  mixB := fun _ _ => rfl
  centre := fun Y C => by
    simp only [toCentre, CoupledConfig.fieldParams, CoupledConfig.exchange, Axes.exchange, EM.exchange, or_true, if_true, EM.mk.injEq, true_and]
    refine ⟨?_, ?_, ?_⟩ <;> funext i <;> simp only [afShift]
    · ring
    · ring
    · have e : i - (-1 : ℤ) • c.ax.q2 - (-1 : ℤ) • c.ax.q1 = i - (-1 : ℤ) • c.ax.q1 - (-1 : ℤ) • c.ax.q2 := by abel
      rw [e]
      ring
  evolveB := fun dt F => by
    simp only [evolveB, CoupledConfig.fieldParams, CoupledConfig.exchange, Axes.exchange, EM.exchange, FVMConfig.exchange, curlE1, curlE2, curlE3, id,
      EM.mk.injEq, true_and]
    refine ⟨?_, ?_, ?_⟩ <;> funext i <;> simp only [afShift] <;> ring
  time := fun _ _ => rfl

/-- Currents under the new names of the axes. -/
def Currents.exchange (J : Currents Q K) : Currents Q K := ⟨J.J2, J.J1, J.J3⟩

theorem exchange_curls (c : CoupledConfig S P Q K) (F : EM Q K) : curlB1 c.exchange.fieldParams F.exchange = curlB2 c.fieldParams F ∧
    curlB2 c.exchange.fieldParams F.exchange = curlB1 c.fieldParams F ∧ curlB3 c.exchange.fieldParams F.exchange = curlB3 c.fieldParams F := by
  refine ⟨?_, ?_, ?_⟩ <;> funext i <;>
    simp only [curlB1, curlB2, curlB3, CoupledConfig.fieldParams, CoupledConfig.exchange, Axes.exchange, EM.exchange, FVMConfig.exchange, afShift] <;> ring

theorem exchange_evolveE (c : CoupledConfig S P Q K) (J : Currents Q K) (dt : K) (F : EM Q K) :
    evolveE c.exchange.fieldParams J.exchange dt F.exchange = (evolveE c.fieldParams J dt F).map EM.exchange := by
  obtain ⟨c1, c2, c3⟩ := exchange_curls c F
  have eh : c.exchange.fieldParams.hybrid = c.fieldParams.hybrid := rfl
  have em : c.exchange.fieldParams.mu = c.fieldParams.mu := rfl
  have ee : c.exchange.fieldParams.eps = c.fieldParams.eps := rfl
  have ea : addCurlB c.exchange.fieldParams J.exchange dt F.exchange = (addCurlB c.fieldParams J dt F).exchange := by
    simp only [addCurlB, c1, c2, c3, em, ee, Currents.exchange]
    rfl
  unfold evolveE
  rw [eh, em, ea, c1, c2, c3]
  by_cases hh : c.fieldParams.hybrid = true
  · simp only [if_pos hh, Currents.exchange]
    by_cases hs : meanAbsSmall (fun i => J.J1 i - curlB1 c.fieldParams F i / c.fieldParams.mu) ∧
        meanAbsSmall (fun i => J.J2 i - curlB2 c.fieldParams F i / c.fieldParams.mu) ∧ meanAbsSmall (fun i => J.J3 i - curlB3 c.fieldParams F i / c.fieldParams.mu)
    · rw [if_pos hs]
      exact (if_pos ⟨hs.2.1, hs.1, hs.2.2⟩).trans rfl
    · rw [if_neg hs]
      exact (if_neg (fun x => hs ⟨x.2.1, x.1, x.2.2⟩)).trans rfl
  · simp only [if_neg hh]; rfl

theorem exchange_measure (c : CoupledConfig S P Q K) : c.exchange.measure = c.measure := by
  funext s
  simp only [FVMConfig.measure, CoupledConfig.exchange, FVMConfig.exchange]
  ring

theorem exchange_kinetic (c : CoupledConfig S P Q K) (m : Recon) (C1 C2 f : Dist S P Q K) :
    kineticCurrents c.exchange m C2 C1 f = (kineticCurrents c m C1 C2 f).exchange := by
  simp only [kineticCurrents, exchange_measure]
  rfl

theorem exchange_hybrid (c : CoupledConfig S P Q K) (s : S) (m : Recon) (C1 C2 f g : Dist S P Q K) (Y : EM Q K) :
    (hybridFields c.exchange s m C2 C1 f g Y.exchange).1 = (hybridFields c s m C1 C2 f g Y).1.exchange ∧
    Y.exchange.setE (some (hybridFields c.exchange s m C2 C1 f g Y.exchange).2) = (Y.setE (some (hybridFields c s m C1 C2 f g Y).2)).exchange := by
  obtain ⟨c1, c2, c3⟩ := exchange_curls c Y
  have em : c.exchange.mu = c.mu := rfl
  have et : c.exchange.Te = c.Te := rfl
  have ec : c.exchange.charge = c.charge := rfl
  have e1 : c.exchange.ax.q1 = c.ax.q2 := rfl
  have e2 : c.exchange.ax.q2 = c.ax.q1 := rfl
  have d1 : c.exchange.dq1 = c.dq2 := rfl
  have d2 : c.exchange.dq2 = c.dq1 := rfl
  have fl : ∀ C x : Dist S P Q K, faceLeft c.exchange.ax m C x = faceBot c.ax m C x := fun _ _ => rfl
  have fb : ∀ C x : Dist S P Q K, faceBot c.exchange.ax m C x = faceLeft c.ax m C x := fun _ _ => rfl
  have n0 : ∀ x : Dist S P Q K, density c.exchange.coords c.exchange.measure x = density c.coords c.measure x := fun _ => by rw [exchange_measure]; rfl
  have v1 : ∀ x : Dist S P Q K, momV1 c.exchange.coords c.exchange.measure x = momV2 c.coords c.measure x := fun _ => by rw [exchange_measure]; rfl
  have v2 : ∀ x : Dist S P Q K, momV2 c.exchange.coords c.exchange.measure x = momV1 c.coords c.measure x := fun _ => by rw [exchange_measure]; rfl
  have v3 : ∀ x : Dist S P Q K, momV3 c.exchange.coords c.exchange.measure x = momV3 c.coords c.measure x := fun _ => by rw [exchange_measure]; rfl
  constructor
  · simp only [hybridFields, c1, c2, c3, em, Currents.exchange]
  · simp only [hybridFields, c1, c2, c3, em, et, ec, e1, e2, d1, d2, fl, fb, n0, v1, v2, v3, EM.setE]
    simp only [EM.exchange, EM.mk.injEq, and_true]
    refine ⟨?_, ?_, ?_⟩ <;> funext i <;> simp only [afShift]
    · have e : i - (1 : ℤ) • c.ax.q2 - (-1 : ℤ) • c.ax.q1 = i - (-1 : ℤ) • c.ax.q1 - (1 : ℤ) • c.ax.q2 := by abel
      rw [e]
      ring
    · have e : i - (-1 : ℤ) • c.ax.q2 - (1 : ℤ) • c.ax.q1 = i - (1 : ℤ) • c.ax.q1 - (-1 : ℤ) • c.ax.q2 := by abel
      rw [e]
      ring
    · ring

theorem getFields_aliased {σ : FieldState Q K} (h : Aliased σ) (a b : String) : (getFields a b σ).1 = σ.heap σ.cc := by
  simp only [getFields, ← h.1, ← h.2]
  split_ifs <;> rfl

theorem getFields_keeps_aliased {σ : FieldState Q K} (h : Aliased σ) (a b : String) :
    Aliased (getFields a b σ).2 ∧ (getFields a b σ).2.heap = σ.heap ∧ (getFields a b σ).2.cc = σ.cc := by
  simp only [getFields]
  split_ifs <;> exact ⟨h, rfl, rfl⟩

/-- Exchanging the axes commutes with the coupled step. -/
theorem exchangeMap {c : CoupledConfig S P Q K} (hyb : S) {poisson poisson' : (S → Q → K) → FieldState Q K → FieldState Q K}
    (hp : c.fieldsType = "electrostatic" → ∀ ρ σ, poisson' ρ σ.exchange = (poisson ρ σ).exchange)
    (ha : ∀ ρ σ, Aliased σ → Aliased (poisson ρ σ)) :
    StepMap c c.exchange poisson poisson' hyb hyb id id EM.exchange FieldState.exchange id CallbacksExchange Aliased where
  solverQ := rfl
  solverP := rfl
  recQ := rfl
  enabled := rfl
  ftype := rfl
  fsolver := rfl
  flag := fun _ => rfl
  half := fun _ => rfl
  update := fun _ _ _ => rfl
  get := fun a b σ => mapEM_get a b σ
  getI := fun a b σ h => (getFields_keeps_aliased h a b).1
  evolve := by
    intro cb' cb hR m dt selff f σ _ _ _
    have eh : c.exchange.hybrid = c.hybrid := rfl
    unfold evolveBranch
    rw [hR.q1, hR.q2, eh]
    by_cases hH : c.hybrid = true
    · simp only [if_pos hH, id]
      obtain ⟨e1, e2⟩ := exchange_hybrid c hyb m cb.Cq1 cb.Cq2 f selff σ.yee
      rw [show σ.exchange.yee = σ.yee.exchange from rfl, e1, e2]
      exact (exchange_fieldMap c).evolve (dt := dt) (σ := { σ with yee := σ.yee.setE (some (hybridFields c hyb m cb.Cq1 cb.Cq2 f selff σ.yee).2) })
        (exchange_evolveE c _ dt _)
    · simp only [if_neg hH, id, exchange_kinetic]
      exact (exchange_fieldMap c).evolve (exchange_evolveE c _ dt _)
  evolveI := by
    intro m cb dt selff f σ σ' hI h
    obtain ⟨a, b, d⟩ := evolveBranch_refs h
    exact ⟨by rw [a, b]; exact hI.1, by rw [a, d]; exact hI.2⟩
  poissonT := fun he f σ _ => by rw [exchange_measure]; exact hp he _ σ
  poissonI := ha
  slope := by
    intro cb' cb hR f σ hI
    obtain ⟨a1, h1, c1⟩ := getFields_keeps_aliased hI c.fieldsSolver c.solverMethodInP
    obtain ⟨a2, h2, c2⟩ := getFields_keeps_aliased a1 c.fieldsSolver c.solverMethodInP
    simp only [id]
    rw [getFields_aliased hI, getFields_aliased a1, getFields_aliased a2, h2, h1, c2, c1, hR.q1, hR.q2, hR.p1, hR.p2, hR.p3, hR.src]
    rw [show c.exchange.ax = c.ax.exchange from rfl, show c.exchange.toFVMConfig = c.toFVMConfig.exchange from rfl]
    rw [← dfdtFVM_exchange c.ax c.toFVMConfig]
    exact (except_map_id _).symm
  slope0 := by
    intro cb' cb hR f
    rw [hR.q1, hR.q2, hR.src]
    rw [show c.exchange.ax = c.ax.exchange from rfl, show c.exchange.toFVMConfig = c.toFVMConfig.exchange from rfl]
    rw [← dfdtFVM_exchange c.ax c.toFVMConfig]
    exact (except_map_id _).symm

end Bolt
