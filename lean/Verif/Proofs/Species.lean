import Verif.Spec.Species
import Verif.Proofs.StepMap
import Verif.Props.HighOrder

/-! Runs with different lists of species. -/

set_option linter.unusedSectionVars false

namespace Bolt

variable {S S' P P' Q K : Type} [AddCommGroup P] [AddCommGroup P'] [AddCommGroup Q] [Field K] [LinearOrder K] [IsStrictOrderedRing K]

theorem leftState_smul {I : Type} [AddCommGroup I] (m : Recon) (e : I) (a : K) (C x : I → K) (i : I) :
    leftState m e C (fun j => a * x j) i = a * leftState m e C x i := by
  have h : ∀ j, (reconFaces m e (fun j => a * x j)).1 j = a * (reconFaces m e x).1 j ∧
      (reconFaces m e (fun j => a * x j)).2 j = a * (reconFaces m e x).2 j := by
    intro j
    have := C08_affine m e x a 0 j
    simpa using this
  rw [leftState_eq, leftState_eq, (h _).1, (h _).2]
  split_ifs <;> rfl

theorem fluxDiv_smul {I : Type} [AddCommGroup I] (m : Recon) (e : I) (d a : K) (C x : I → K) (i : I) :
    fluxDiv m e d C (fun j => a * x j) i = a * fluxDiv m e d C x i := by
  simp only [fluxDiv_eq, leftState_smul]; ring

theorem dFluxP_eq (m : Recon) (e : P) (dp : S → K) (C f : Dist S P Q K) (s : S) (p : P) (q : Q) :
    dFluxP m e dp C f s p q = fluxDiv m e (dp s) (fun p => C s p q) (fun p => f s p q) p := by
  simp only [dFluxP, fluxDiv]; rw [mul_one_div]

/-- The slope of the second list is the weighted slope of the first; the momenta may be chosen freely if there is no transport in momentum. -/
theorem dfdtFVM_split (ax : Axes P Q) (ax' : Axes P' Q) (cfg : FVMConfig S K) (τ : S' → S) (π : P' → P) (w : S' → K)
    (hq1 : ax'.q1 = ax.q1) (hq2 : ax'.q2 = ax.q2)
    (hp : ¬(cfg.solverMethodInP = "FVM" ∧ cfg.fieldsEnabled = true) ∨
      ((∀ p, π (p + ax'.p1) = π p + ax.p1) ∧ (∀ p, π (p + ax'.p2) = π p + ax.p2) ∧ (∀ p, π (p + ax'.p3) = π p + ax.p3)))
    (cb : Callbacks S P Q K) (src' : Dist S' P' Q K → Dist S' P' Q K) (f : Dist S P Q K)
    (hs : src' (f.split τ π w) = (cb.source f).split τ π w) :
    dfdtFVM ax' (cfg.take τ) ⟨cb.Cq1.take τ π, cb.Cq2.take τ π, cb.Cp1.take τ π, cb.Cp2.take τ π, cb.Cp3.take τ π, src'⟩ (f.split τ π w)
      = (dfdtFVM ax cfg cb f).map (Dist.split τ π w) := by
  have eq : ∀ m, dfdtQ ax' m cfg.dq1 cfg.dq2 (cb.Cq1.take τ π) (cb.Cq2.take τ π) (f.split τ π w)
      = Dist.split τ π w (dfdtQ ax m cfg.dq1 cfg.dq2 cb.Cq1 cb.Cq2 f) := by
    intro m
    funext s p q
    have a := fluxDiv_smul m ax.q1 cfg.dq1 (w s) (cb.Cq1 (τ s) (π p)) (f (τ s) (π p)) q
    have b := fluxDiv_smul m ax.q2 cfg.dq2 (w s) (cb.Cq2 (τ s) (π p)) (f (τ s) (π p)) q
    show -fluxDiv m ax'.q1 cfg.dq1 (cb.Cq1 (τ s) (π p)) (fun q => w s * f (τ s) (π p) q) q
      - fluxDiv m ax'.q2 cfg.dq2 (cb.Cq2 (τ s) (π p)) (fun q => w s * f (τ s) (π p) q) q
      = w s * (-fluxDiv m ax.q1 cfg.dq1 (cb.Cq1 (τ s) (π p)) (f (τ s) (π p)) q - fluxDiv m ax.q2 cfg.dq2 (cb.Cq2 (τ s) (π p)) (f (τ s) (π p)) q)
    rw [hq1, hq2, a, b]
    ring
  have ep : cfg.solverMethodInP = "FVM" ∧ cfg.fieldsEnabled = true → ∀ m,
      dfdtP ax' m (cfg.take τ).dp1 (cfg.take τ).dp2 (cfg.take τ).dp3 (cb.Cp1.take τ π) (cb.Cp2.take τ π) (cb.Cp3.take τ π) (f.split τ π w)
      = Dist.split τ π w (dfdtP ax m cfg.dp1 cfg.dp2 cfg.dp3 cb.Cp1 cb.Cp2 cb.Cp3 f) := by
    intro hA m
    obtain ⟨h1, h2, h3⟩ := hp.resolve_left (fun h => h hA)
    have one : ∀ (e' : P') (e : P) (he : ∀ p, π (p + e') = π p + e) (d : K) (C : Dist S P Q K) s p q,
        fluxDiv m e' d (fun p => C.take τ π s p q) (fun p => f.split τ π w s p q) p
          = w s * fluxDiv m e d (fun p => C (τ s) p q) (fun p => f (τ s) p q) (π p) := by
      intro e' e he d C s p q
      have a := fluxDiv_congr m e' e d (fun p => C (τ s) (π p) q) (fun p => C (τ s) p q) (fun p => w s * f (τ s) (π p) q)
        (fun p => w s * f (τ s) p q) p (π p) rfl (by simp only [he]) (fun k _ => by simp only [step_zsmul he])
      have b := fluxDiv_smul m e d (w s) (fun p => C (τ s) p q) (fun p => f (τ s) p q) (π p)
      rw [← b]
      exact a
    funext s p q
    simp only [dfdtP, dFluxP_eq, Dist.split]
    have a1 := one ax'.p1 ax.p1 h1 (cfg.dp1 (τ s)) cb.Cp1 s p q
    have a2 := one ax'.p2 ax.p2 h2 (cfg.dp2 (τ s)) cb.Cp2 s p q
    have a3 := one ax'.p3 ax.p3 h3 (cfg.dp3 (τ s)) cb.Cp3 s p q
    simp only [Dist.split] at a1 a2 a3
    simp only [FVMConfig.take, a1, a2, a3]
    ring
  have es : ∀ x : Dist S P Q K, (fun s p q => Dist.split τ π w x s p q + Dist.split τ π w (cb.source f) s p q)
      = Dist.split τ π w (fun s p q => x s p q + cb.source f s p q) := by
    intro x; funext s p q; simp only [Dist.split]; ring
  have ea : ∀ x y : Dist S P Q K, (fun s p q => Dist.split τ π w x s p q + Dist.split τ π w y s p q)
      = Dist.split τ π w (fun s p q => x s p q + y s p q) := by
    intro x y; funext s p q; simp only [Dist.split]; ring
  have ez : (fun _ _ _ => 0 : Dist S' P' Q K) = Dist.split τ π w (fun _ _ _ => 0 : Dist S P Q K) := by
    funext s p q; simp only [Dist.split, mul_zero]
  have e1 : (cfg.take τ).solverMethodInQ = cfg.solverMethodInQ := rfl
  have e2 : (cfg.take τ).solverMethodInP = cfg.solverMethodInP := rfl
  have e3 : (cfg.take τ).reconstructionInQ = cfg.reconstructionInQ := rfl
  have e4 : (cfg.take τ).reconstructionInP = cfg.reconstructionInP := rfl
  have e5 : (cfg.take τ).sourceEnabled = cfg.sourceEnabled := rfl
  have e6 : (cfg.take τ).fieldsEnabled = cfg.fieldsEnabled := rfl
  have e7 : (cfg.take τ).dq1 = cfg.dq1 := rfl
  have e8 : (cfg.take τ).dq2 = cfg.dq2 := rfl
  unfold dfdtFVM
  simp only [e1, e2, e3, e4, e5, e6, e7, e8, eq, hs]
  by_cases hA : cfg.solverMethodInP = "FVM" ∧ cfg.fieldsEnabled = true
  · simp only [ep hA, if_pos hA]
    cases reconMethod cfg.reconstructionInQ <;> cases reconMethod cfg.reconstructionInP <;> split_ifs <;>
      simp only [bind, Except.bind, pure, Except.pure, Except.map, ez, ea]
  · simp only [if_neg hA]
    cases reconMethod cfg.reconstructionInQ <;> cases reconMethod cfg.reconstructionInP <;> split_ifs <;>
      simp only [bind, Except.bind, pure, Except.pure, Except.map, ez, ea]

/-- The total over the second list of a weighted quantity that vanishes for uncharged species. -/
theorem sum_split [Fintype S] [Fintype S'] [DecidableEq S] {τ : S' → S} {w : S' → K} {charge : S → K} (h : SplitsCharge τ w charge)
    (g : S → K) : ∑ s', charge (τ s') * (w s' * g (τ s')) = ∑ s, charge s * g s := by
  have : ∀ s', charge (τ s') * (w s' * g (τ s')) = ∑ s, (if τ s' = s then w s' else 0) * (charge s * g s) := by
    intro s'
    rw [Finset.sum_eq_single (τ s')]
    · simp; ring
    · intro s _ hs; simp [Ne.symm hs]
    · simp
  simp only [this]
  rw [Finset.sum_comm]
  refine Finset.sum_congr rfl fun s _ => ?_
  rw [← Finset.sum_mul]
  rcases eq_or_ne (charge s) 0 with h0 | h0
  · simp [h0]
  · rw [h s h0, one_mul]

variable [Fintype S] [Fintype S'] [Fintype P] [Fintype Q]

theorem integral_split (τ : S' → S) (w : S' → K) (c : CoupledConfig S P Q K) (f : Dist S P Q K) (g : S → P → K) (s : S') (q : Q) :
    integralOverV (fun s p q => Dist.split τ id w f s p q * g (τ s) p) (c.take τ).measure s q
      = w s * integralOverV (fun s p q => f s p q * g s p) c.measure (τ s) q := by
  simp only [integralOverV, Dist.split, id]
  have e : (c.take τ).measure s = c.measure (τ s) := rfl
  rw [e]
  simp only [mul_assoc, ← Finset.mul_sum]

theorem faceLeft_split (τ : S' → S) (w : S' → K) (ax : Axes P Q) (m : Recon) (C f : Dist S P Q K) :
    faceLeft ax m (C.take τ id) (f.split τ id w) = (faceLeft ax m C f).split τ id w := by
  funext s p q
  exact leftState_smul m ax.q1 (w s) (C (τ s) p) (f (τ s) p) q

theorem faceBot_split (τ : S' → S) (w : S' → K) (ax : Axes P Q) (m : Recon) (C f : Dist S P Q K) :
    faceBot ax m (C.take τ id) (f.split τ id w) = (faceBot ax m C f).split τ id w := by
  funext s p q
  exact leftState_smul m ax.q2 (w s) (C (τ s) p) (f (τ s) p) q

theorem density_split (τ : S' → S) (w : S' → K) (c : CoupledConfig S P Q K) (f : Dist S P Q K) (s : S') (q : Q) :
    density (c.take τ).coords (c.take τ).measure (f.split τ id w) s q = w s * density c.coords c.measure f (τ s) q := by
  have := integral_split τ w c f (fun _ _ => 1) s q
  simp only [mul_one] at this
  exact this

theorem momV1_split (τ : S' → S) (w : S' → K) (c : CoupledConfig S P Q K) (f : Dist S P Q K) (s : S') (q : Q) :
    momV1 (c.take τ).coords (c.take τ).measure (f.split τ id w) s q = w s * momV1 c.coords c.measure f (τ s) q :=
  integral_split τ w c f c.coords.p1 s q

theorem momV2_split (τ : S' → S) (w : S' → K) (c : CoupledConfig S P Q K) (f : Dist S P Q K) (s : S') (q : Q) :
    momV2 (c.take τ).coords (c.take τ).measure (f.split τ id w) s q = w s * momV2 c.coords c.measure f (τ s) q :=
  integral_split τ w c f c.coords.p2 s q

theorem momV3_split (τ : S' → S) (w : S' → K) (c : CoupledConfig S P Q K) (f : Dist S P Q K) (s : S') (q : Q) :
    momV3 (c.take τ).coords (c.take τ).measure (f.split τ id w) s q = w s * momV3 c.coords c.measure f (τ s) q :=
  integral_split τ w c f c.coords.p3 s q

theorem kineticCurrents_split [DecidableEq S] {τ : S' → S} {w : S' → K} {c : CoupledConfig S P Q K} (h : SplitsCharge τ w c.charge)
    (m : Recon) (C1 C2 f : Dist S P Q K) :
    kineticCurrents (c.take τ) m (C1.take τ id) (C2.take τ id) (f.split τ id w) = kineticCurrents c m C1 C2 f := by
  have e : (c.take τ).ax = c.ax := rfl
  have e' : ∀ s, (c.take τ).charge s = c.charge (τ s) := fun _ => rfl
  simp only [kineticCurrents, e, e', faceLeft_split, faceBot_split, momV1_split, momV2_split, momV3_split]
  congr 1
  · funext q; exact sum_split h (fun s => momV1 c.coords c.measure (faceLeft c.ax m C1 f) s q)
  · funext q; exact sum_split h (fun s => momV2 c.coords c.measure (faceBot c.ax m C2 f) s q)
  · funext q; exact sum_split h (fun s => momV3 c.coords c.measure f s q)

theorem hybridFields_split {τ : S' → S} {w : S' → K} {c : CoupledConfig S P Q K} {hyb : S} {hyb' : S'} (hh : τ hyb' = hyb) (hw : w hyb' = 1)
    (m : Recon) (C1 C2 f g : Dist S P Q K) (Y : EM Q K) :
    hybridFields (c.take τ) hyb' m (C1.take τ id) (C2.take τ id) (f.split τ id w) (g.split τ id w) Y = hybridFields c hyb m C1 C2 f g Y := by
  have e : (c.take τ).ax = c.ax := rfl
  have e' : (c.take τ).fieldParams = c.fieldParams := rfl
  have e1 : (c.take τ).mu = c.mu := rfl
  have e2 : (c.take τ).dq1 = c.dq1 := rfl
  have e3 : (c.take τ).dq2 = c.dq2 := rfl
  have e4 : (c.take τ).Te = c.Te := rfl
  have e5 : (c.take τ).charge hyb' = c.charge (τ hyb') := rfl
  have d : ∀ f : Dist S P Q K, density (c.take τ).coords (c.take τ).measure (f.split τ id w) hyb' = density c.coords c.measure f (τ hyb') :=
    fun f => funext fun q => by rw [density_split, hw, one_mul]
  subst hh
  unfold hybridFields
  simp only [e, e', e1, e2, e3, e4, e5, faceLeft_split, faceBot_split, momV1_split, momV2_split, momV3_split, d, hw, one_mul]

theorem except_map_id {α : Type} (x : Except PyErr α) : x.map id = x := by cases x <;> rfl

/-- Splitting commutes with the coupled step. -/
theorem splitMap [DecidableEq S] {τ : S' → S} {w : S' → K} {c : CoupledConfig S P Q K} {hyb : S} {hyb' : S'}
    (h : SplitsCharge τ w c.charge) (hh : c.hybrid = true → τ hyb' = hyb ∧ w hyb' = 1)
    {poisson : (S → Q → K) → FieldState Q K → FieldState Q K} {poisson' : (S' → Q → K) → FieldState Q K → FieldState Q K}
    (hp : c.fieldsType = "electrostatic" → SeesTotalCharge poisson poisson') :
    StepMap c (c.take τ) poisson poisson' hyb hyb' (Dist.split τ id w) (Dist.split τ id w) id id id (CallbacksSplit τ w) (fun _ => True) where
  solverQ := rfl
  solverP := rfl
  recQ := rfl
  enabled := rfl
  ftype := rfl
  fsolver := rfl
  flag := fun _ => rfl
  half := fun _ => rfl
  update := by intro f k dt; funext s p q; simp only [Dist.split, id]; ring
  get := fun _ _ _ => rfl
  getI := fun _ _ _ _ => trivial
  evolve := by
    intro cb' cb hR m dt selff f σ _ _ _
    have e' : (c.take τ).fieldParams = c.fieldParams := rfl
    have eh : (c.take τ).hybrid = c.hybrid := rfl
    unfold evolveBranch
    rw [hR.q1, hR.q2, eh, e']
    by_cases hH : c.hybrid = true
    · simp only [if_pos hH, id, hybridFields_split (hh hH).1 (hh hH).2]
      exact (except_map_id _).symm
    · simp only [if_neg hH, id, kineticCurrents_split h]
      exact (except_map_id _).symm
  evolveI := fun _ _ _ _ _ _ _ _ _ => trivial
  poissonT := by
    intro he f σ _
    refine hp he _ _ _ fun q => ?_
    simp only [density_split]
    exact sum_split h (fun s => density c.coords c.measure f s q)
  poissonI := fun _ _ _ => trivial
  slope := by
    intro cb' cb hR f σ _
    simp only [id, hR.q1, hR.q2, hR.p1, hR.p2, hR.p3]
    exact dfdtFVM_split c.ax c.ax c.toFVMConfig τ id w rfl rfl (Or.inr ⟨fun _ => rfl, fun _ => rfl, fun _ => rfl⟩)
      ⟨cb.Cq1, cb.Cq2, cb.Cp1 _, cb.Cp2 _, cb.Cp3 _, cb.source⟩ cb'.source f (hR.src f)
  slope0 := by
    intro cb' cb hR f
    rw [hR.q1, hR.q2]
    exact dfdtFVM_split c.ax c.ax c.toFVMConfig τ id w rfl rfl (Or.inr ⟨fun _ => rfl, fun _ => rfl, fun _ => rfl⟩)
      ⟨cb.Cq1, cb.Cq2, fun _ _ _ => 0, fun _ _ _ => 0, fun _ _ _ => 0, cb.source⟩ cb'.source f (hR.src f)

end Bolt
