import Verif.Proofs.FieldMap
import Verif.Props.Cover

/-! Enumerating the momenta in another way. -/

set_option linter.unusedSectionVars false

namespace Bolt

variable {Q S P P' K : Type} [AddCommGroup P] [AddCommGroup P'] [AddCommGroup Q] [Field K] [LinearOrder K] [IsStrictOrderedRing K]

theorem dfdtFVM_onMomenta (ax : Axes P Q) (cfg : FVMConfig S K) (π : P' → P) {e1 e2 e3 : P'}
    (h1 : ∀ p, π (p + e1) = π p + ax.p1) (h2 : ∀ p, π (p + e2) = π p + ax.p2) (h3 : ∀ p, π (p + e3) = π p + ax.p3)
    (cb : Callbacks S P Q K) (src' : Dist S P' Q K → Dist S P' Q K) (f : Dist S P Q K)
    (hs : src' (f.onMomenta π) = (cb.source f).onMomenta π) :
    dfdtFVM ⟨e1, e2, e3, ax.q1, ax.q2⟩ cfg ⟨cb.Cq1.onMomenta π, cb.Cq2.onMomenta π, cb.Cp1.onMomenta π, cb.Cp2.onMomenta π,
      cb.Cp3.onMomenta π, src'⟩ (f.onMomenta π) = (dfdtFVM ax cfg cb f).map (Dist.onMomenta π) := by
  have e : ∀ g : Dist S P Q K, g.onMomenta π = g.split id π (fun _ => 1) := fun g => by
    funext s p q; simp only [Dist.onMomenta, Dist.split, one_mul, id]
  have e' : (Dist.onMomenta π : Dist S P Q K → _) = Dist.split id π (fun _ => 1) := funext e
  rw [e f, e] at hs
  have key := dfdtFVM_split ax ⟨e1, e2, e3, ax.q1, ax.q2⟩ cfg id π (fun _ => 1) rfl rfl (Or.inr ⟨h1, h2, h3⟩) cb src' f hs
  rw [← e'] at key
  exact key

variable [Fintype S] [Fintype P] [Fintype P'] [Fintype Q]

/-- Enumerating the momenta in another way commutes with the coupled step. -/
theorem momentaMap {c : CoupledConfig S P Q K} (hyb : S) {poisson : (S → Q → K) → FieldState Q K → FieldState Q K} (π : P' ≃ P) {e1 e2 e3 : P'}
    (h1 : ∀ p, π (p + e1) = π p + c.ax.p1) (h2 : ∀ p, π (p + e2) = π p + c.ax.p2) (h3 : ∀ p, π (p + e3) = π p + c.ax.p3) :
    StepMap c (c.onMomenta π e1 e2 e3) poisson poisson hyb hyb (Dist.onMomenta π) (Dist.onMomenta π) id id id (CallbacksMomenta π)
      (fun _ => True) where
  solverQ := rfl
  solverP := rfl
  recQ := rfl
  enabled := rfl
  ftype := rfl
  fsolver := rfl
  flag := fun _ => rfl
  half := fun _ => rfl
  update := fun _ _ _ => rfl
  get := fun _ _ _ => rfl
  getI := fun _ _ _ _ => trivial
  evolve := by
    intro cb' cb hR m dt selff f σ _ _ _
    have int : ∀ (g : Dist S P Q K) (w : S → K), integralOverV (g.onMomenta π) w = integralOverV g w := fun g w => by
      funext s q
      simp only [integralOverV, Dist.onMomenta]
      rw [Equiv.sum_comp π (fun p => g s p q)]
    have n0 : ∀ x : Dist S P Q K, density (c.onMomenta π e1 e2 e3).coords (c.onMomenta π e1 e2 e3).measure (x.onMomenta π) = density c.coords c.measure x :=
      fun x => int x _
    have v1 : ∀ x : Dist S P Q K, momV1 (c.onMomenta π e1 e2 e3).coords (c.onMomenta π e1 e2 e3).measure (x.onMomenta π) = momV1 c.coords c.measure x :=
      fun x => int (fun s p q => x s p q * c.coords.p1 s p) _
    have v2 : ∀ x : Dist S P Q K, momV2 (c.onMomenta π e1 e2 e3).coords (c.onMomenta π e1 e2 e3).measure (x.onMomenta π) = momV2 c.coords c.measure x :=
      fun x => int (fun s p q => x s p q * c.coords.p2 s p) _
    have v3 : ∀ x : Dist S P Q K, momV3 (c.onMomenta π e1 e2 e3).coords (c.onMomenta π e1 e2 e3).measure (x.onMomenta π) = momV3 c.coords c.measure x :=
      fun x => int (fun s p q => x s p q * c.coords.p3 s p) _
    have fl : ∀ C x : Dist S P Q K, faceLeft (c.onMomenta π e1 e2 e3).ax m (C.onMomenta π) (x.onMomenta π) = (faceLeft c.ax m C x).onMomenta π := fun _ _ => rfl
    have fb : ∀ C x : Dist S P Q K, faceBot (c.onMomenta π e1 e2 e3).ax m (C.onMomenta π) (x.onMomenta π) = (faceBot c.ax m C x).onMomenta π := fun _ _ => rfl
    have hk : ∀ C1 C2 x : Dist S P Q K, kineticCurrents (c.onMomenta π e1 e2 e3) m (C1.onMomenta π) (C2.onMomenta π) (x.onMomenta π)
        = kineticCurrents c m C1 C2 x := fun C1 C2 x => by
      simp only [kineticCurrents, fl, fb, v1, v2, v3]
      rfl
    have hh : ∀ (C1 C2 x y : Dist S P Q K) Y, hybridFields (c.onMomenta π e1 e2 e3) hyb m (C1.onMomenta π) (C2.onMomenta π) (x.onMomenta π) (y.onMomenta π) Y
        = hybridFields c hyb m C1 C2 x y Y := fun C1 C2 x y Y => by
      simp only [hybridFields, fl, fb, n0, v1, v2, v3]
      rfl
    have e' : (c.onMomenta π e1 e2 e3).fieldParams = c.fieldParams := rfl
    have eh : (c.onMomenta π e1 e2 e3).hybrid = c.hybrid := rfl
    unfold evolveBranch
    rw [hR.q1, hR.q2, eh, e']
    simp only [hk, hh, id]
    exact (except_map_id _).symm
  evolveI := fun _ _ _ _ _ _ _ _ _ => trivial
  poissonT := by
    intro he f σ _
    have : density (c.onMomenta π e1 e2 e3).coords (c.onMomenta π e1 e2 e3).measure (f.onMomenta π) = density c.coords c.measure f := by
      funext s q
      simp only [density, integralOverV, Dist.onMomenta]
      rw [Equiv.sum_comp π (fun p => f s p q)]
      rfl
    rw [this]
    rfl
  poissonI := fun _ _ _ => trivial
  slope := by
    intro cb' cb hR f σ _
    simp only [id, hR.q1, hR.q2, hR.p1, hR.p2, hR.p3]
    exact dfdtFVM_onMomenta c.ax c.toFVMConfig π h1 h2 h3 ⟨cb.Cq1, cb.Cq2, cb.Cp1 _, cb.Cp2 _, cb.Cp3 _, cb.source⟩ cb'.source f (hR.src f)
  slope0 := by
    intro cb' cb hR f
    rw [hR.q1, hR.q2]
    exact dfdtFVM_onMomenta c.ax c.toFVMConfig π h1 h2 h3 ⟨cb.Cq1, cb.Cq2, fun _ _ _ => 0, fun _ _ _ => 0, fun _ _ _ => 0, cb.source⟩
      cb'.source f (hR.src f)

/-- Callbacks in the other enumeration. -/
def CoupledCallbacks.onMomenta (π : P' ≃ P) (cb : CoupledCallbacks S P Q K) : CoupledCallbacks S P' Q K :=
  ⟨cb.Cq1.onMomenta π, cb.Cq2.onMomenta π, fun F => (cb.Cp1 F).onMomenta π, fun F => (cb.Cp2 F).onMomenta π, fun F => (cb.Cp3 F).onMomenta π,
    fun f => (cb.source (f.onMomenta π.symm)).onMomenta π⟩

theorem onMomenta_symm (π : P' ≃ P) (f : Dist S P Q K) : (f.onMomenta π).onMomenta π.symm = f := by
  funext s p q
  simp only [Dist.onMomenta, Equiv.apply_symm_apply]

/-- The run with positions and momenta enumerated in another way. -/
theorem renamed_run {Q' : Type} [AddCommGroup Q'] [Fintype Q'] {c : CoupledConfig S P Q K} (hyb : S)
    {poisson : (S → Q → K) → FieldState Q K → FieldState Q K} {poisson' : (S → Q' → K) → FieldState Q' K → FieldState Q' K} (π : P' ≃ P) {e1 e2 e3 : P'}
    (h1 : ∀ p, π (p + e1) = π p + c.ax.p1) (h2 : ∀ p, π (p + e2) = π p + c.ax.p2) (h3 : ∀ p, π (p + e3) = π p + c.ax.p3)
    {φ : Q' → Q} {q1' q2' : Q'} (hφ : Covers φ q1' q2' c.ax.q1 c.ax.q2)
    (hp : ∀ ρ σ, poisson' (fun s i => ρ s (φ i)) (σ.pull φ) = (poisson ρ σ).pull φ)
    (steps : List (K × (Fin 2 → CoupledCallbacks S P Q K))) (steps' : List (K × (Fin 2 → CoupledCallbacks S P' Q' K)))
    (hs : List.Forall₂ (fun x' x => x'.1 = x.1 ∧ ∀ k, CallbacksRenamed π φ (x'.2 k) (x.2 k)) steps' steps)
    (f : Dist S P Q K) (σ : FieldState Q K) :
    runCoupled ((c.onMomenta π e1 e2 e3).onGrid q1' q2') poisson' hyb steps' (f.renamed π φ, σ.pull φ)
      = (runCoupled c poisson hyb steps (f, σ)).map fun r => (r.1.renamed π φ, r.2.pull φ) := by
  have a := (momentaMap (c := c) (poisson := poisson) hyb π h1 h2 h3).run steps (steps.map fun x => (x.1, fun k => (x.2 k).onMomenta π)) (by
    rw [List.forall₂_map_left_iff, List.forall₂_same]
    refine fun x _ => ⟨rfl, fun k => ⟨rfl, rfl, fun _ => rfl, fun _ => rfl, fun _ => rfl, fun f => ?_⟩⟩
    simp only [CoupledCallbacks.onMomenta, onMomenta_symm]) f σ trivial
  have b := C69_run_on_covering_grid (c := c.onMomenta π e1 e2 e3) hφ hp hyb (steps.map fun x => (x.1, fun k => (x.2 k).onMomenta π)) steps' (by
    rw [List.forall₂_map_right_iff]
    refine hs.imp fun x' x h => ⟨h.1, fun k => ⟨(h.2 k).q1, (h.2 k).q2, (h.2 k).p1, (h.2 k).p2, (h.2 k).p3, fun g => ?_⟩⟩
    have := (h.2 k).src (g.onMomenta π.symm)
    have e : (g.onMomenta π.symm).renamed π φ = g.pull φ := by
      funext s p q
      simp only [Dist.onMomenta, Dist.renamed, Dist.pull, Equiv.symm_apply_apply]
    rw [e] at this
    exact this) (f.onMomenta π) σ
  refine Eq.trans b ?_
  rw [show (f.onMomenta π, σ) = (f.onMomenta π, id σ) from rfl, a]
  cases runCoupled c poisson hyb steps (f, σ) <;> rfl

end Bolt
