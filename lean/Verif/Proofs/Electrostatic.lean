import Verif.Props.Force
import Verif.Props.FFT
import Verif.Proofs.Coupled
import Verif.Model.Electrostatic
import Verif.Model.NonrelCoupled

/-!
# Helper lemmas for C82
-/

set_option linter.unusedSectionVars false

namespace Bolt

open Finset

section force
variable {S Q K : Type} [AddCommGroup Q] [Field K] [LinearOrder K] [IsStrictOrderedRing K] {N1 N2 N3 : ℕ} [NeZero N1] [NeZero N2] [NeZero N3]

/-- The outer layers of an axis and their neighbours. -/
theorem near_edge_layers {N : ℕ} [NeZero N] {l : ℕ} {a : ZMod N} (h : a.val < l ∨ N ≤ a.val + l) :
    (a.val < l + 1 ∨ N ≤ a.val + (l + 1)) ∧ ((a + 1).val < l + 1 ∨ N ≤ (a + 1).val + (l + 1)) ∧
      ((a - 1).val < l + 1 ∨ N ≤ (a - 1).val + (l + 1)) := by
  have c := val_neg_one' (N := N)
  refine ⟨by omega, ?_, ?_⟩
  · by_cases h0 : a = -1
    · left; simp [h0]
    · have h1 := val_sub_one (a + 1) (by rwa [Ne, add_eq_zero_iff_eq_neg])
      rw [add_sub_cancel_right] at h1
      omega
  · by_cases h0 : a = 0
    · right
      rw [h0, zero_sub]; omega
    · have := val_sub_one a h0
      omega

variable {cfg : FVMConfig S K} {ax : Axes (PIdx N1 N2 N3) Q} (s1 s2 s3 : S → K) (e m : S → K)
  (cor : PCoords S (PIdx N1 N2 N3) K) (F : Fin 3 → Fin 6 → Q → K)

/-- One slope moves particles by at most one momentum cell. -/
theorem slope_clear_layers (hax : MomentumAxes ax) (hsrc : cfg.sourceEnabled = false) (hm : cfg.reconstructionInP = "piecewise-constant")
    {cb : Callbacks S (PIdx N1 N2 N3) Q K} {f k : Dist S (PIdx N1 N2 N3) Q K} (hk : dfdtFVM ax cfg cb f = .ok k) (j : Fin 3) (l : ℕ)
    (hj : ClearOfEdges j (l + 1) f) : ClearOfEdges j l k := by
  obtain ⟨a, b, h1, h2, h3⟩ := dfdtFVM_ok hk
  intro s p q hp
  have zero : ∀ e : PIdx N1 N2 N3, e = (1, 0, 0) ∨ e = (0, 1, 0) ∨ e = (0, 0, 1) →
      (∀ q, f s p q = 0) ∧ f s (p + e) q = 0 ∧ f s (p - e) q = 0 := by
    intro e he
    match j, hj, hp with
    | 0, hj, hp =>
      obtain ⟨n1, n2, n3⟩ := near_edge_layers (a := p.1) hp
      rcases he with rfl | rfl | rfl <;> refine ⟨fun q => hj s p q n1, hj s _ q ?_, hj s _ q ?_⟩ <;>
        simp_all [momentumIndex]
    | 1, hj, hp =>
      obtain ⟨n1, n2, n3⟩ := near_edge_layers (a := p.2.1) hp
      rcases he with rfl | rfl | rfl <;> refine ⟨fun q => hj s p q n1, hj s _ q ?_, hj s _ q ?_⟩ <;>
        simp_all [momentumIndex]
    | 2, hj, hp =>
      obtain ⟨n1, n2, n3⟩ := near_edge_layers (a := p.2.2) hp
      rcases he with rfl | rfl | rfl <;> refine ⟨fun q => hj s p q n1, hj s _ q ?_, hj s _ q ?_⟩ <;>
        simp_all [momentumIndex]
  have hfp : f s p = fun _ => (0 : K) := funext fun q => (zero (1, 0, 0) (Or.inl rfl)).1 q
  have ha : a s p q = 0 := by
    rcases h2 with ⟨_, m, _, h⟩ | ⟨_, h⟩
    · rw [h, if_neg (by simp [hsrc])]
      simp [dfdtQ, hfp, fluxDiv_eq, leftState_const]
    · exact h s p q
  have flux : ∀ (e : PIdx N1 N2 N3) (dp : S → K) (C : Dist S (PIdx N1 N2 N3) Q K), e = (1, 0, 0) ∨ e = (0, 1, 0) ∨ e = (0, 0, 1) →
      dFluxP .piecewiseConstant e dp C f s p q = 0 := by
    intro e dp C he
    obtain ⟨z0, z1, z2⟩ := zero e he
    simp [dFluxP, leftFlux, leftState_eq, reconFaces, z0 q, z1, z2]
  have hb : b s p q = 0 := by
    rcases h3 with ⟨_, m, hm', h⟩ | ⟨_, h⟩
    · rw [hm] at hm'
      cases hm'
      rw [h, dfdtP, hax.p1, hax.p2, hax.p3, flux _ _ _ (Or.inl rfl), flux _ _ _ (Or.inr (Or.inl rfl)), flux _ _ _ (Or.inr (Or.inr rfl))]
      simp
    · exact h s p q
  rw [h1, ha, hb, add_zero]

/-- The momentum of a species changes at the rate of the force on it, whatever the fields. -/
theorem total_slope_fields [Fintype Q] (hax : MomentumAxes ax) (hdp : ∀ s, cfg.dp1 s ≠ 0 ∧ cfg.dp2 s ≠ 0 ∧ cfg.dp3 s ≠ 0)
    (hp : cfg.solverMethodInP = "FVM" ∧ cfg.fieldsEnabled = true) (hsrc : cfg.sourceEnabled = false)
    (hm : cfg.reconstructionInP = "piecewise-constant")
    {cb : Callbacks S (PIdx N1 N2 N3) Q K} (hC : (cb.Cp1, cb.Cp2, cb.Cp3) = nonrelCallbacksP e m (centres cfg s1 s2 s3) cor F)
    {f k : Dist S (PIdx N1 N2 N3) Q K} (hk : dfdtFVM ax cfg cb f = .ok k) (j : Fin 3) (hj : ClearOfEdges j 1 f) (s : S) :
    totalMomentum (centres cfg s1 s2 s3) cfg.measure k s j =
      ∑ q, forceDensity (e s) (m s) (fieldE F j q) (fieldB F j q) (density (centres cfg s1 s2 s3) cfg.measure f s q)
        (momentumDensity (centres cfg s1 s2 s3) cfg.measure f s q) j := by
  obtain ⟨a, b, h1, h2, h3⟩ := dfdtFVM_ok hk
  have ha : ∀ p, ∑ q, a s p q = 0 := by
    intro p
    rcases h2 with ⟨_, m, _, h⟩ | ⟨_, h⟩
    · simp [h, hsrc, sum_dfdtQ]
    · simp [h]
  have hb : ∀ p q, b s p q = dfdtP ax .piecewiseConstant cfg.dp1 cfg.dp2 cfg.dp3 cb.Cp1 cb.Cp2 cb.Cp3 f s p q := by
    intro p q
    rcases h3 with ⟨_, m, hm', h⟩ | ⟨hn, _⟩
    · rw [hm] at hm'
      cases hm'
      exact h s p q
    · exact absurd hp hn
  have wt : ∀ w : PIdx N1 N2 N3 → K, ∑ q, (∑ p, k s p q * w p) * cfg.measure s = ∑ q, (∑ p, b s p q * w p) * cfg.measure s := by
    intro w
    have : ∑ q, (∑ p, a s p q * w p) = 0 := by
      rw [sum_comm]
      exact sum_eq_zero fun p _ => by rw [← sum_mul, ha, zero_mul]
    simp only [h1, add_mul, sum_add_distrib]
    rw [← sum_mul, this, zero_mul, zero_add]
  have e0 : totalMomentum (centres cfg s1 s2 s3) cfg.measure k s j =
      ∑ q, (∑ p, b s p q * cellVelocity (centres cfg s1 s2 s3) s p j) * cfg.measure s := by
    rw [← wt]
    exact sum_congr rfl fun q _ => momentumDensity_eq _ _ _ _ _ _
  rw [e0]
  simp only [hb, fun q => (moments_dfdtP s1 s2 s3 e m cor F hax hdp hC f s q j hj).1]
  fin_cases j <;>
  · simp only [lorentz, forceDensity, fieldE, fieldB, momentumDensity, density, momV1, momV2, momV3,
      integralOverV, cellVelocity, Fin.zero_eta, Fin.mk_one, Fin.reduceFinMk, Matrix.cons_val_zero, Matrix.cons_val_one, Matrix.cons_val]
    simp only [sum_mul, mul_sum, ← sum_add_distrib, ← sum_sub_distrib]
    exact sum_congr rfl fun q _ => sum_congr rfl fun p _ => by ring

theorem totalMomentum_linear [Fintype Q] (c : PCoords S (PIdx N1 N2 N3) K) (ms : S → K) (g k g' : Dist S (PIdx N1 N2 N3) Q K) (x : K)
    (hg : ∀ s p q, g' s p q = g s p q + k s p q * x) (s : S) (j : Fin 3) :
    totalMomentum c ms g' s j = totalMomentum c ms g s j + x * totalMomentum c ms k s j := by
  simp only [totalMomentum, momentumDensity_eq, hg, sum_mul, mul_sum, ← sum_add_distrib]
  exact sum_congr rfl fun q _ => sum_congr rfl fun p _ => by ring

end force

section fft
variable {N1 N2 : ℕ} [NeZero N1] [NeZero N2]

/-- The pairing of a real array with the real part of an inverse transform. -/
theorem sum_mul_ifft_re (x : ZMod N1 × ZMod N2 → ℝ) (z : ZMod N1 × ZMod N2 → ℂ) :
    ∑ j, x j * (afIfft2 z j / ((N1 : ℂ) * N2)).re =
      (∑ k, (z k * (starRingEnd ℂ) (afFft2 (fun j => (x j : ℂ)) k) / ((N1 : ℂ) * N2)).re) := by
  have h : ∀ j, x j * (afIfft2 z j / ((N1 : ℂ) * N2)).re = ((x j : ℂ) * (afIfft2 z j / ((N1 : ℂ) * N2))).re := fun j => by
    rw [Complex.re_ofReal_mul]
  simp only [h]
  rw [← Complex.re_sum, ← Complex.re_sum]
  congr 1
  simp only [afIfft2_eq, afFft2_eq, map_sum, map_mul, Complex.conj_ofReal, conj_chi, neg_neg, sum_div, mul_sum]
  rw [sum_comm]
  exact sum_congr rfl fun k _ => sum_congr rfl fun j _ => by ring

theorem no_self_force_component (rho : ZMod N1 × ZMod N2 → ℝ) (m : ℝ) (w d : ZMod N1 × ZMod N2 → ℝ) (eps : ℝ) (g : ZMod N1 × ZMod N2 → ℂ)
    (hg : ∀ k ≠ 0, g k = afFft2 (fun j => (rho j : ℂ)) k / (d k : ℂ)) (h0 : g 0 = 0) :
    ∑ j, rho j * ((afIfft2 (fun k => -Complex.I * 2 * Real.pi * w k * g k) j / ((N1 : ℂ) * N2)).re / eps) = 0 := by
  have e : ∀ j, rho j * ((afIfft2 (fun k => -Complex.I * 2 * Real.pi * w k * g k) j / ((N1 : ℂ) * N2)).re / eps) =
      rho j * (afIfft2 (fun k => -Complex.I * 2 * Real.pi * w k * g k) j / ((N1 : ℂ) * N2)).re / eps := fun j => by ring
  simp only [e]
  rw [← sum_div, sum_mul_ifft_re, sum_eq_zero, zero_div]
  intro k _
  by_cases hk : k = 0
  · rw [hk, h0]; simp
  · rw [hg k hk]
    generalize afFft2 (fun j => (rho j : ℂ)) k = R
    have : -Complex.I * 2 * (Real.pi : ℂ) * (w k : ℂ) * (R / (d k : ℂ)) * (starRingEnd ℂ) R / ((N1 : ℂ) * N2) =
        ((-(2 * Real.pi * w k * Complex.normSq R / d k / (N1 * N2)) : ℝ) : ℂ) * Complex.I := by
      push_cast
      rw [← Complex.mul_conj]
      ring
    rw [this, Complex.re_ofReal_mul, Complex.I_re, mul_zero]

end fft

end Bolt
