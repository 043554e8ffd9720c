import Verif.Spec.Mirror
import Verif.Proofs.Exchange

/-! Reversing the first axis. -/

set_option linter.unusedSectionVars false

namespace Bolt

section
variable {I K : Type} [AddCommGroup I] [Field K] [LinearOrder K] [IsStrictOrderedRing K]

theorem reconFaces_neg (m : Recon) (e : I) (x : I → K) : reconFaces m (-e) x = ((reconFaces m e x).2, (reconFaces m e x).1) := by
  have r := C08_reflection m e x
  have c : ∀ i, _ := fun i => reconFaces_congr m (-e) e x (reversed x) i (-i) (fun k _ => by
    simp only [reversed]
    congr 1
    rw [smul_neg]; abel)
  refine Prod.ext ?_ ?_ <;> funext i
  · rw [(c i).1, r]
    simp only [reversed, neg_neg]
  · rw [(c i).2, r]
    simp only [reversed, neg_neg]

theorem leftState_neg (m : Recon) (e : I) {C C' x : I → K} (hC : ∀ i, C' i = -C (i + e)) (i : I) (h : C (i + e) ≠ 0) :
    leftState m (-e) C' x i = leftState m e C x (i + e) := by
  rw [leftState_eq, leftState_eq, reconFaces_neg, hC]
  simp only [sub_neg_eq_add, add_sub_cancel_right]
  rcases lt_or_gt_of_ne h with h | h
  · rw [if_pos (by linarith), if_neg (by linarith)]
  · rw [if_neg (by linarith), if_pos (by linarith)]

theorem fluxDiv_neg (m : Recon) (e : I) (d : K) {C C' x : I → K} (hC : ∀ i, C' i = -C (i + e)) (i : I) :
    fluxDiv m (-e) d C' x i = fluxDiv m e d C x i := by
  have key : ∀ i, C' i * leftState m (-e) C' x i = -(C (i + e) * leftState m e C x (i + e)) := by
    intro i
    by_cases h : C (i + e) = 0
    · rw [hC, h]; ring
    · rw [leftState_neg m e hC i h, hC]; ring
  rw [fluxDiv_eq, fluxDiv_eq, key, key, ← sub_eq_add_neg, sub_add_cancel]
  ring

end

variable {Q S P K : Type} [AddCommGroup P] [AddCommGroup Q] [Field K] [LinearOrder K] [IsStrictOrderedRing K]

theorem dfdtFVM_mirror (ax : Axes P Q) (cfg : FVMConfig S K) (cb cb' : Callbacks S P Q K) (h1 : ∀ s p i, cb'.Cq1 s p i = -cb.Cq1 s p (i + ax.q1))
    (h2 : cb'.Cq2 = cb.Cq2) (h3 : ∀ s p i, cb'.Cp1 s p i = -cb.Cp1 s (p + ax.p1) i) (h4 : cb'.Cp2 = cb.Cp2) (h5 : cb'.Cp3 = cb.Cp3)
    (h6 : cb'.source = cb.source) (f : Dist S P Q K) : dfdtFVM ax.mirror cfg cb' f = dfdtFVM ax cfg cb f := by
  have eq : ∀ m, dfdtQ ax.mirror m cfg.dq1 cfg.dq2 cb'.Cq1 cb'.Cq2 f = dfdtQ ax m cfg.dq1 cfg.dq2 cb.Cq1 cb.Cq2 f := fun m => by
    funext s p q
    simp only [dfdtQ, Axes.mirror, h2]
    rw [fluxDiv_neg m ax.q1 cfg.dq1 (fun i => h1 s p i)]
  have ep : ∀ m, dfdtP ax.mirror m cfg.dp1 cfg.dp2 cfg.dp3 cb'.Cp1 cb'.Cp2 cb'.Cp3 f
      = dfdtP ax m cfg.dp1 cfg.dp2 cfg.dp3 cb.Cp1 cb.Cp2 cb.Cp3 f := fun m => by
    funext s p q
    simp only [dfdtP, Axes.mirror, h4, h5, dFluxP_eq]
    rw [fluxDiv_neg m ax.p1 (cfg.dp1 s) (C := fun p => cb.Cp1 s p q) (C' := fun p => cb'.Cp1 s p q) (fun p => h3 s p q)]
  unfold dfdtFVM
  simp only [eq, ep, h6]

variable [Fintype S] [Fintype P] [Fintype Q]

theorem mirror_fieldMap (c : CoupledConfig S P Q K) : FieldMap c.fieldParams c.mirror.fieldParams EM.mirror (EM.mirrorYee c.ax.q1) id id where
  avg := fun x y => by
    simp only [EM.mirror, EM.avg, EM.mk.injEq, true_and]
    refine ⟨?_, ?_, ?_⟩ <;> funext i <;> ring
  mixE := fun _ _ => rfl
  mixB := fun _ _ => rfl
  centre := fun Y C => by
    simp only [toCentre, CoupledConfig.fieldParams, CoupledConfig.mirror, Axes.mirror, EM.mirror, EM.mirrorYee, or_true, if_true, EM.mk.injEq, true_and]
    refine ⟨?_, ?_, ?_⟩ <;> funext i <;> simp only [afShift, smul_neg, neg_smul, one_smul, neg_neg, sub_neg_eq_add, sub_add_cancel]
    · ring
    · ring
    · have e : i + c.ax.q2 + c.ax.q1 = i + c.ax.q1 + c.ax.q2 := by abel
      have e' : i - c.ax.q1 + c.ax.q2 + c.ax.q1 = i + c.ax.q2 := by abel
      rw [e, e']
      ring
  evolveB := fun dt F => by
    simp only [evolveB, CoupledConfig.fieldParams, CoupledConfig.mirror, Axes.mirror, EM.mirrorYee, curlE1, curlE2, curlE3, id,
      EM.mk.injEq, true_and]
    refine ⟨?_, ?_⟩ <;> funext i <;>
      simp only [afShift, smul_neg, neg_smul, one_smul, neg_neg, sub_neg_eq_add, sub_add_cancel, add_sub_cancel_right]
    · ring
    · have e : i - c.ax.q2 + c.ax.q1 = i + c.ax.q1 - c.ax.q2 := by abel
      rw [e]
      ring
  time := fun _ _ => rfl

/-- Reversing the first axis commutes with the coupled step. -/
theorem mirrorMap {c : CoupledConfig S P Q K} (hyb : S) (hh : c.fieldsType = "electrodynamic" → c.hybrid = false)
    {poisson poisson' : (S → Q → K) → FieldState Q K → FieldState Q K}
    (hp : c.fieldsType = "electrostatic" → ∀ ρ σ, poisson' ρ (σ.mirror c.ax.q1) = (poisson ρ σ).mirror c.ax.q1) :
    StepMap c c.mirror poisson poisson' hyb hyb id id EM.mirror (FieldState.mirror c.ax.q1) id
      (fun cb' cb => CallbacksMirror c.ax cb' cb ∧ (c.fieldsType = "electrodynamic" → ∀ s p i, cb.Cq1 s p i = 0 → c.coords.p1 s p = 0)) (fun _ => True) where
  solverQ := rfl
  solverP := rfl
  recQ := rfl
  enabled := rfl
  ftype := rfl
  fsolver := rfl
  flag := fun _ => rfl
  half := fun _ => rfl
  update := fun _ _ _ => rfl
  get := fun a b σ => mapEM_get a b σ
  getI := fun _ _ _ _ => trivial
  evolve := by
    intro cb' cb hR m dt selff f σ _ he _
    have eh : c.mirror.hybrid = c.hybrid := rfl
    have ht := hR.2 he
    have hR := hR.1
    unfold evolveBranch
    rw [eh, hh he]
    simp only [id, Bool.false_eq_true, if_false]
    refine (mirror_fieldMap c).evolve ?_
    have k1 : ∀ i, (kineticCurrents c.mirror m cb'.Cq1 cb'.Cq2 f).J1 i = -(kineticCurrents c m cb.Cq1 cb.Cq2 f).J1 (i + c.ax.q1) := by
      intro i
      simp only [kineticCurrents, momV1, integralOverV]
      rw [← Finset.sum_neg_distrib]
      refine Finset.sum_congr rfl fun s _ => ?_
      have : (∑ p, faceLeft c.mirror.ax m cb'.Cq1 f s p i * c.mirror.coords.p1 s p)
          = -∑ p, faceLeft c.ax m cb.Cq1 f s p (i + c.ax.q1) * c.coords.p1 s p := by
        rw [← Finset.sum_neg_distrib]
        refine Finset.sum_congr rfl fun p _ => ?_
        by_cases h0 : cb.Cq1 s p (i + c.ax.q1) = 0
        · have z := ht s p _ h0
          have z' : c.mirror.coords.p1 s p = 0 := by
            show -c.coords.p1 s p = 0
            rw [z, neg_zero]
          rw [z, z']; ring
        · have : faceLeft c.mirror.ax m cb'.Cq1 f s p i = faceLeft c.ax m cb.Cq1 f s p (i + c.ax.q1) :=
            leftState_neg m c.ax.q1 (fun i => hR.q1 s p i) i h0
          rw [this]
          show _ * -c.coords.p1 s p = _
          ring
      rw [this]
      show c.charge s * (_ * c.measure s) = _
      ring
    have k2 : (kineticCurrents c.mirror m cb'.Cq1 cb'.Cq2 f).J2 = (kineticCurrents c m cb.Cq1 cb.Cq2 f).J2 := by
      rw [hR.q2]; rfl
    have k3 : (kineticCurrents c.mirror m cb'.Cq1 cb'.Cq2 f).J3 = (kineticCurrents c m cb.Cq1 cb.Cq2 f).J3 := rfl
    have e0 : c.mirror.fieldParams.hybrid = false := hh he
    have e1 : c.fieldParams.hybrid = false := hh he
    unfold evolveE
    rw [e0, e1]
    simp only [Bool.false_eq_true, if_false, Except.map, Except.ok.injEq]
    generalize kineticCurrents c.mirror m cb'.Cq1 cb'.Cq2 f = J' at *
    generalize kineticCurrents c m cb.Cq1 cb.Cq2 f = J at *
    simp only [addCurlB, k1, k2, k3, CoupledConfig.fieldParams, CoupledConfig.mirror, Axes.mirror, EM.mirrorYee, curlB1, curlB2, curlB3, FieldState.mirror,
      FieldState.mapEM, id, EM.mk.injEq, true_and, and_true]
    refine ⟨?_, ?_, ?_⟩ <;> funext i <;>
      simp only [afShift, smul_neg, neg_smul, one_smul, neg_neg, sub_neg_eq_add, sub_add_cancel, add_sub_cancel_right]
    · have e : i + c.ax.q2 + c.ax.q1 = i + c.ax.q1 + c.ax.q2 := by abel
      rw [e]
      ring
    · ring
    · ring
  evolveI := fun _ _ _ _ _ _ _ _ _ => trivial
  poissonT := fun he f σ _ => hp he _ σ
  poissonI := fun _ _ _ => trivial
  slope := by
    intro cb' cb hR f σ _
    simp only [id]
    refine Eq.trans ?_ (except_map_id _).symm
    exact dfdtFVM_mirror c.ax c.toFVMConfig ⟨cb.Cq1, cb.Cq2, cb.Cp1 _, cb.Cp2 _, cb.Cp3 _, cb.source⟩
      ⟨cb'.Cq1, cb'.Cq2, cb'.Cp1 _, cb'.Cp2 _, cb'.Cp3 _, cb'.source⟩ hR.1.q1 hR.1.q2 (hR.1.p1 _) (hR.1.p2 _) (hR.1.p3 _) hR.1.src f
  slope0 := by
    intro cb' cb hR f
    refine Eq.trans ?_ (except_map_id _).symm
    exact dfdtFVM_mirror c.ax c.toFVMConfig ⟨cb.Cq1, cb.Cq2, fun _ _ _ => 0, fun _ _ _ => 0, fun _ _ _ => 0, cb.source⟩
      ⟨cb'.Cq1, cb'.Cq2, fun _ _ _ => 0, fun _ _ _ => 0, fun _ _ _ => 0, cb'.source⟩ hR.1.q1 hR.1.q2 (fun _ _ _ => neg_zero.symm) rfl rfl hR.1.src f

end Bolt
