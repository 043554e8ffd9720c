import Verif.Spec.Nonrel
import Verif.Props.FVM
import Mathlib.Analysis.Calculus.Deriv.Mul
import Mathlib.Analysis.SpecialFunctions.Pow.Continuity
import Mathlib.Algebra.Order.BigOperators.Ring.Finset
import Mathlib.Topology.Algebra.Order.Field
import Mathlib.Analysis.SpecialFunctions.Gaussian.GaussianIntegral
import Mathlib.Tactic.Linarith
import Mathlib.Tactic.FieldSimp
import Mathlib.Tactic.Positivity
import Mathlib.Tactic.LinearCombination

/-!
# C41-C43, C58: forces, moments, BGK collisions, polar coordinates
-/

set_option linter.unusedSectionVars false

namespace Bolt

/-! ## C41: the Lorentz force -/

section force
variable {K : Type} [Field K]

/-- C41: magnetic forces do no work: `F · v = (e/m) E · v`, for the advective and the conservative force terms and the beam-optics ones. -/
theorem C41_magnetic_force_does_no_work (e m E1 E2 E3 B1 B2 B3 v1 v2 v3 : K) :
    (∀ F ∈ [nonrelAp e m E1 E2 E3 B1 B2 B3 v1 v2 v3, nonrelCp e m E1 E2 E3 B1 B2 B3 v1 v2 v3, beamAp e m E1 E2 E3 B1 B2 B3 v1 v2 v3],
      F.1 * v1 + F.2.1 * v2 + F.2.2 * v3 = (e / m) * (E1 * v1 + E2 * v2 + E3 * v3)) := by
  intro F hF
  simp only [List.mem_cons, List.not_mem_nil, or_false] at hF
  rcases hF with rfl | rfl | rfl <;> simp only [nonrelAp, nonrelCp, beamAp] <;> ring

/-- C41: the force is the Lorentz force: `m F = e (E + v × B)`, and the advective and conservative forms agree. -/
theorem C41_lorentz_force (e m E1 E2 E3 B1 B2 B3 v1 v2 v3 : K) (hm : m ≠ 0) :
    let F := nonrelCp e m E1 E2 E3 B1 B2 B3 v1 v2 v3
    m * F.1 = e * (E1 + (v2 * B3 - v3 * B2)) ∧ m * F.2.1 = e * (E2 + (v3 * B1 - v1 * B3)) ∧ m * F.2.2 = e * (E3 + (v1 * B2 - v2 * B1)) ∧
    nonrelAp e m E1 E2 E3 B1 B2 B3 v1 v2 v3 = F ∧ beamAp e m E1 E2 E3 B1 B2 B3 v1 v2 v3 = F := by
  simp only [nonrelCp, nonrelAp, beamAp, true_and]
  refine ⟨?_, ?_, ?_, ?_⟩
  · field_simp; ring
  · field_simp; ring
  · field_simp; ring
  · ext <;> ring

/-- C41: component `i` of the force does not depend on momentum component `i`. -/
theorem C41_component_independent (e m E1 E2 E3 B1 B2 B3 v1 v2 v3 w : K) :
    (nonrelCp e m E1 E2 E3 B1 B2 B3 w v2 v3).1 = (nonrelCp e m E1 E2 E3 B1 B2 B3 v1 v2 v3).1 ∧
    (nonrelCp e m E1 E2 E3 B1 B2 B3 v1 w v3).2.1 = (nonrelCp e m E1 E2 E3 B1 B2 B3 v1 v2 v3).2.1 ∧
    (nonrelCp e m E1 E2 E3 B1 B2 B3 v1 v2 w).2.2 = (nonrelCp e m E1 E2 E3 B1 B2 B3 v1 v2 v3).2.2 := ⟨rfl, rfl, rfl⟩

variable [LinearOrder K] [IsStrictOrderedRing K] {S P Q : Type} [AddCommGroup P] [AddCommGroup Q]

/-- C41: momentum advection with the Lorentz force leaves a distribution that does not vary with momentum unchanged: for every field, any number of steps, any
reconstruction, on every tensor-product momentum grid (position advection off). -/
theorem C41_uniform_in_momentum_unchanged (ax : Axes P Q) (cfg : FVMConfig S K) (hq : cfg.solverMethodInQ ≠ "FVM")
    (e m : S → K) (ctr cor : PCoords S P K) (hctr : ProductGrid ax.p1 ax.p2 ax.p3 ctr)
    (steps : List (K × (Fin 2 → Callbacks S P Q K)))
    (hcb : ∀ st ∈ steps, ∀ k, ∃ F : Fin 3 → Fin 6 → Q → K,
      ((st.2 k).Cp1, (st.2 k).Cp2, (st.2 k).Cp3) = nonrelCallbacksP e m ctr cor F)
    (f f' : Dist S P Q K) (hf : ∀ s p p' q, f s p q = f s p' q) (h : runFVM ax cfg steps f = .ok f') : f' = f := by
  have slope0 : ∀ (cb : Callbacks S P Q K) (g k : Dist S P Q K),
      (∃ F : Fin 3 → Fin 6 → Q → K, (cb.Cp1, cb.Cp2, cb.Cp3) = nonrelCallbacksP e m ctr cor F) →
      (∀ s p p' q, g s p q = g s p' q) → dfdtFVM ax cfg cb g = .ok k → ∀ s p q, k s p q = 0 := by
    rintro cb g k ⟨F, hF⟩ hg hk s p q
    obtain ⟨a, b, h1, h2, h3⟩ := dfdtFVM_ok hk
    have ha : a s p q = 0 := by
      rcases h2 with ⟨h4, _⟩ | ⟨_, h4⟩
      · exact absurd h4 hq
      · exact h4 s p q
    have hb : b s p q = 0 := by
      rcases h3 with ⟨_, r, _, h4⟩ | ⟨_, h4⟩
      · have hgs : (fun p => g s p q) = fun _ => g s p q := by funext p'; exact hg s p' p q
        obtain ⟨e1, e2, e3⟩ : cb.Cp1 = (nonrelCallbacksP e m ctr cor F).1 ∧ cb.Cp2 = (nonrelCallbacksP e m ctr cor F).2.1 ∧
            cb.Cp3 = (nonrelCallbacksP e m ctr cor F).2.2 := by rw [← hF]; exact ⟨rfl, rfl, rfl⟩
        simp only [h4, dfdtP, dFluxP, leftFlux, hgs, leftState_const, afShift_neg_one, e1, e2, e3, nonrelCallbacksP, nonrelCp]
        rw [(hctr.p2 s p).1, (hctr.p3 s p).1, (hctr.p3 s p).2, (hctr.p1 s p).1, (hctr.p1 s p).2, (hctr.p2 s p).2]
        ring
      · exact h4 s p q
    rw [h1, ha, hb, add_zero]
  induction steps generalizing f with
  | nil => simp only [runFVM, Except.ok.injEq] at h; exact h.symm
  | cons st rest ih =>
    obtain ⟨dt, cb⟩ := st
    obtain ⟨g, k0, k1, a, b, c, d⟩ := runFVM_cons h
    have hc := hcb (dt, cb) (by simp)
    have z0 := slope0 (cb 0) f k0 (hc 0) hf a
    have z1 := slope0 (cb 1) _ k1 (hc 1) (by intro s p p' q; simp [z0, hf s p p' q]) b
    have hg : g = f := by funext s p q; rw [c, z1]; simp
    subst hg
    exact ih (fun st hst => hcb st (by simp [hst])) g hf d

/-- The grid of the code is a tensor-product grid. -/
theorem gridCoords_product (N1 N2 N3 : ℕ) (off : K) (s1 s2 s3 d1 d2 d3 : S → K) :
    ProductGrid ((1, 0, 0) : ZMod N1 × ZMod N2 × ZMod N3) (0, 1, 0) (0, 0, 1) (gridCoords N1 N2 N3 off s1 s2 s3 d1 d2 d3) := by
  constructor <;> intro s p <;> simp [gridCoords]

/-- The hypotheses are met: a 4 × 3 × 2 momentum grid, arbitrary fields, minmod, any number of steps, a density varying in position only. -/
example (n : ℕ) (dt : ℚ) (F : Fin 3 → Fin 6 → ZMod 5 × ZMod 1 → ℚ) :
    let ctr := gridCoords (S := Unit) 4 3 2 (1 / 2 : ℚ) (fun _ => -2) (fun _ => -3) (fun _ => -1) (fun _ => 1) (fun _ => 2) (fun _ => 1)
    let cor := gridCoords (S := Unit) 4 3 2 (0 : ℚ) (fun _ => -2) (fun _ => -3) (fun _ => -1) (fun _ => 1) (fun _ => 2) (fun _ => 1)
    let C := nonrelCallbacksP (fun _ : Unit => -1) (fun _ => 2) ctr cor F
    let cfg : FVMConfig Unit ℚ := ⟨"ASL", "FVM", "minmod", "minmod", "upwind-flux", "upwind-flux", false, true, 1, 1, fun _ => 1, fun _ => 2, fun _ => 1⟩
    let f : Dist Unit (ZMod 4 × ZMod 3 × ZMod 2) (ZMod 5 × ZMod 1) ℚ := fun _ _ q => q.1.val
    runFVM ⟨(1, 0, 0), (0, 1, 0), (0, 0, 1), (1, 0), (0, 1)⟩ cfg
      (List.replicate n (dt, fun _ => ⟨fun _ _ _ => 0, fun _ _ _ => 0, C.1, C.2.1, C.2.2, id⟩)) f = .ok f := by
  intro ctr cor C cfg f
  obtain ⟨f', h⟩ := C09_run_succeeds ⟨(1, 0, 0), (0, 1, 0), (0, 0, 1), (1, 0), (0, 1)⟩ cfg (by simp [cfg]) (by simp [cfg])
    (List.replicate n (dt, fun _ => ⟨fun _ _ _ => 0, fun _ _ _ => 0, C.1, C.2.1, C.2.2, id⟩)) f
  rw [h]
  congr 1
  refine C41_uniform_in_momentum_unchanged _ cfg (by simp [cfg]) (fun _ => -1) (fun _ => 2) ctr cor
    (gridCoords_product 4 3 2 _ _ _ _ _ _ _) _ (fun st hst k => ⟨F, ?_⟩) f f' (fun _ _ _ _ => rfl) h
  rw [List.eq_of_mem_replicate hst]

end force

/-! ## C58: polar coordinates -/

section polar

/-- C58: in the polar-coordinate system the source term is exactly what makes the conservative form the solver integrates equivalent to advection along free
motion: for every distribution differentiable in the two velocities, `∂(C1 f)/∂rdot + ∂(C2 f)/∂thetadot - source = C1 ∂f/∂rdot + C2 ∂f/∂thetadot`. -/
theorem C58_source_balances_divergence (r θ rd td pd : ℝ) (f : ℝ → ℝ → ℝ) (f1 f2 : ℝ)
    (h1 : HasDerivAt (fun x => f x td) f1 rd) (h2 : HasDerivAt (fun y => f rd y) f2 td) :
    ∃ d1 d2, HasDerivAt (fun x => (polarCp r θ x td pd).1 * f x td) d1 rd ∧
      HasDerivAt (fun y => (polarCp r θ rd y pd).2.1 * f rd y) d2 td ∧
      d1 + d2 - polarSource (f rd td) r θ rd td pd = (polarCp r θ rd td pd).1 * f1 + (polarCp r θ rd td pd).2.1 * f2 := by
  refine ⟨(r * td ^ 2) * f1, (-2 * rd * 1 / r) * f rd td + (-2 * rd * td / r) * f2, ?_, ?_, ?_⟩
  · simpa [polarCp] using h1.const_mul (r * td ^ 2)
  · have h3 : HasDerivAt (fun y : ℝ => -2 * rd * y / r) (-2 * rd * 1 / r) td := ((hasDerivAt_id td).const_mul (-2 * rd)).div_const r
    exact h3.mul h2
  · simp only [polarCp, polarSource]; ring

/-- C58: the characteristics are free motion: along them the angular momentum `r² thetadot` and the kinetic energy `(rdot² + r² thetadot²)/2` have zero rate of
change, and the third velocity does not change. -/
theorem C58_free_motion (r θ rd td pd : ℝ) :
    let C := polarCp r θ rd td pd
    let q := polarCq rd td pd
    2 * r * q.1 * td + r ^ 2 * C.2.1 = 0 ∧ rd * C.1 + (r * q.1 * td ^ 2 + r ^ 2 * td * C.2.1) = 0 ∧ C.2.2 = 0 := by
  simp only [polarCp, polarCq]
  rcases eq_or_ne r 0 with rfl | hr
  · simp
  refine ⟨?_, ?_, by ring⟩ <;> field_simp <;> ring

/-- C58: they are the polar form of straight lines: the Cartesian acceleration they give is zero. -/
theorem C58_straight_lines (r θ rd td pd c s : ℝ) (hr : r ≠ 0) :
    let C := polarCp r θ rd td pd
    -- second time derivatives of `r cos θ` and `r sin θ` with `c = cos θ`, `s = sin θ`
    (C.1 - r * td ^ 2) * c - (2 * rd * td + r * C.2.1) * s = 0 ∧ (C.1 - r * td ^ 2) * s + (2 * rd * td + r * C.2.1) * c = 0 := by
  simp only [polarCp]
  constructor <;> field_simp <;> ring

example : (polarCp (2 : ℝ) 0 3 5 0).2.1 = -15 := by norm_num [polarCp]

end polar

/-! ## C42: moments -/

section moments
variable {S P Q K : Type} [Fintype P] [Field K]

/-- C42: every moment is linear in the distribution. -/
theorem C42_linear (M : MomentFn S P Q K) (hM : M ∈ [density, momV1, momV2, momV3, energy, energyQ1, energyQ2, energyQ3, heatFlux1, heatFlux2, heatFlux3])
    (c : PCoords S P K) (w : S → K) (a b : K) (f g : Dist S P Q K) (s : S) (q : Q) :
    M c w (fun s p q => a * f s p q + b * g s p q) s q = a * M c w f s q + b * M c w g s q := by
  simp only [List.mem_cons, List.not_mem_nil, or_false] at hM
  rcases hM with rfl | rfl | rfl | rfl | rfl | rfl | rfl | rfl | rfl | rfl | rfl <;>
    simp only [density, momV1, momV2, momV3, energy, energyQ1, energyQ2, energyQ3, heatFlux1, heatFlux2, heatFlux3, integralOverV,
      Finset.sum_mul, Finset.mul_sum, ← Finset.sum_add_distrib] <;>
    exact Finset.sum_congr rfl fun p _ => by ring

/-- The physical meaning of the bundled moments: the quantity each integrates against the distribution, as a polynomial in the momentum
components (the energies per unit mass carry the factor one half, the heat fluxes do not). -/
def momentIntegrand (K : Type) [Field K] : List (String × (K → K → K → K)) :=
  [("density", fun _ _ _ => 1), ("mom_v1_bulk", fun x _ _ => x), ("mom_v2_bulk", fun _ y _ => y), ("mom_v3_bulk", fun _ _ z => z),
   ("energy", fun x y z => (x ^ 2 + y ^ 2 + z ^ 2) / 2), ("energy_q1", fun x _ _ => x ^ 2 / 2), ("energy_q2", fun _ y _ => y ^ 2 / 2),
   ("energy_q3", fun _ _ z => z ^ 2 / 2), ("q_q1", fun x y z => x * (x ^ 2 + y ^ 2 + z ^ 2)), ("q_q2", fun x y z => y * (x ^ 2 + y ^ 2 + z ^ 2)),
   ("q_q3", fun x y z => z * (x ^ 2 + y ^ 2 + z ^ 2))]

/-- C42: every moment is the integral over momentum space of its integrand: the sum over the momentum cells of the distribution times the
integrand at the cell centre times the volume of a momentum cell. -/
theorem C42_integrals (c : PCoords S P K) (w : S → K) (f : Dist S P Q K) (s : S) (q : Q) :
    List.Forall₂ (fun (M : String × MomentFn S P Q K) (I : String × (K → K → K → K)) =>
        M.1 = I.1 ∧ M.2 c w f s q = ∑ p, f s p q * I.2 (c.p1 s p) (c.p2 s p) (c.p3 s p) * w s)
      [("density", density), ("mom_v1_bulk", momV1), ("mom_v2_bulk", momV2), ("mom_v3_bulk", momV3), ("energy", energy),
       ("energy_q1", energyQ1), ("energy_q2", energyQ2), ("energy_q3", energyQ3), ("q_q1", heatFlux1), ("q_q2", heatFlux2), ("q_q3", heatFlux3)]
      (momentIntegrand K) := by
  unfold momentIntegrand
  repeat' constructor
  all_goals
    simp only [density, momV1, momV2, momV3, energy, energyQ1, energyQ2, energyQ3, heatFlux1, heatFlux2, heatFlux3, integralOverV,
      Finset.sum_mul] <;>
    exact Finset.sum_congr rfl fun p _ => by ring

/-- C42: the energy is the sum of its three directional parts. -/
theorem C42_energy_parts (c : PCoords S P K) (w : S → K) (f : Dist S P Q K) (s : S) (q : Q) :
    energy c w f s q = energyQ1 c w f s q + energyQ2 c w f s q + energyQ3 c w f s q := by
  simp only [energy, energyQ1, energyQ2, energyQ3, integralOverV, ← add_mul, ← Finset.sum_add_distrib]
  congr 1
  exact Finset.sum_congr rfl fun p _ => by ring

variable [LinearOrder K] [IsStrictOrderedRing K]

/-- C42: density and energies of a nonnegative distribution are nonnegative. -/
theorem C42_nonneg (c : PCoords S P K) (w : S → K) (f : Dist S P Q K) (s : S) (q : Q) (hw : 0 ≤ w s) (hf : ∀ p, 0 ≤ f s p q) :
    0 ≤ density c w f s q ∧ 0 ≤ energy c w f s q ∧ 0 ≤ energyQ1 c w f s q ∧ 0 ≤ energyQ2 c w f s q ∧ 0 ≤ energyQ3 c w f s q := by
  simp only [density, energy, energyQ1, energyQ2, energyQ3, integralOverV]
  refine ⟨?_, ?_, ?_, ?_, ?_⟩ <;> refine mul_nonneg (Finset.sum_nonneg fun p _ => ?_) hw <;> have := hf p <;> positivity

/-- C42: the density is zero only for an empty distribution (positive measure). -/
theorem C42_density_zero_iff (c : PCoords S P K) (w : S → K) (f : Dist S P Q K) (s : S) (q : Q) (hw : 0 < w s) (hf : ∀ p, 0 ≤ f s p q) :
    density c w f s q = 0 ↔ ∀ p, f s p q = 0 := by
  simp only [density, integralOverV, mul_eq_zero, hw.ne', or_false]
  rw [Finset.sum_eq_zero_iff_of_nonneg fun p _ => hf p]
  simp

theorem mom_sq_le (g x : P → K) (w : K) (hg : ∀ p, 0 ≤ g p) :
    ((∑ p, g p * x p) * w) ^ 2 ≤ ((∑ p, g p) * w) * (2 * ((∑ p, 1 / 2 * g p * x p ^ 2) * w)) := by
  have h := Finset.sum_sq_le_sum_mul_sum_of_sq_le_mul Finset.univ (r := fun p => g p * x p) (f := g) (g := fun p => g p * x p ^ 2)
    (fun p _ => hg p) (fun p _ => mul_nonneg (hg p) (sq_nonneg _)) (fun p _ => le_of_eq (by ring))
  have e : (∑ p, 1 / 2 * g p * x p ^ 2) = 1 / 2 * ∑ p, g p * x p ^ 2 := by
    rw [Finset.mul_sum]; exact Finset.sum_congr rfl fun p _ => by ring
  rw [e]
  nlinarith [mul_le_mul_of_nonneg_right h (sq_nonneg w)]

/-- C42: the squared bulk momentum is at most twice density times energy, in total and along each direction. -/
theorem C42_momentum_bound (c : PCoords S P K) (w : S → K) (f : Dist S P Q K) (s : S) (q : Q) (hf : ∀ p, 0 ≤ f s p q) :
    momV1 c w f s q ^ 2 ≤ density c w f s q * (2 * energyQ1 c w f s q) ∧
    momV2 c w f s q ^ 2 ≤ density c w f s q * (2 * energyQ2 c w f s q) ∧
    momV3 c w f s q ^ 2 ≤ density c w f s q * (2 * energyQ3 c w f s q) ∧
    momV1 c w f s q ^ 2 + momV2 c w f s q ^ 2 + momV3 c w f s q ^ 2 ≤ 2 * density c w f s q * energy c w f s q := by
  have h1 : momV1 c w f s q ^ 2 ≤ density c w f s q * (2 * energyQ1 c w f s q) := mom_sq_le (fun p => f s p q) (c.p1 s) (w s) hf
  have h2 : momV2 c w f s q ^ 2 ≤ density c w f s q * (2 * energyQ2 c w f s q) := mom_sq_le (fun p => f s p q) (c.p2 s) (w s) hf
  have h3 : momV3 c w f s q ^ 2 ≤ density c w f s q * (2 * energyQ3 c w f s q) := mom_sq_le (fun p => f s p q) (c.p3 s) (w s) hf
  refine ⟨h1, h2, h3, ?_⟩
  rw [C42_energy_parts]; linarith

/-- C42: `compute_moments` returns the moment on a cartesian grid, the moment times `initial_mu` on a polar one, and raises otherwise. -/
theorem C42_compute_moments (grid : String) (mu : K) (cfg : FVMConfig S K) (c : PCoords S P K) (M : MomentFn S P Q K) (f : Dist S P Q K) :
    (grid = "cartesian" → computeMoments grid mu cfg c M f = .ok (M c (fun s => cfg.dp1 s * cfg.dp2 s * cfg.dp3 s) f)) ∧
    (grid = "polar2D" → computeMoments grid mu cfg c M f = .ok fun s q => mu * M c (fun s => cfg.dp1 s * cfg.dp2 s * cfg.dp3 s) f s q) ∧
    (grid ≠ "cartesian" → grid ≠ "polar2D" → computeMoments grid mu cfg c M f = .error .notImplemented) := by
  have e : cfg.measure = fun s => cfg.dp1 s * cfg.dp2 s * cfg.dp3 s := by funext s; simp only [FVMConfig.measure]; ring
  refine ⟨?_, ?_, ?_⟩
  · rintro rfl; rw [computeMoments, if_pos rfl, e]
  · rintro rfl; rw [computeMoments, if_neg (by decide), if_pos rfl, e]
  · intro h1 h2; rw [computeMoments, if_neg h1, if_neg h2]

/-- Two momenta ±1 with weights 3 and 1: density 4, momentum 2, energy 2: `2² ≤ 2 · 4 · 2`. -/
example : let c : PCoords Unit (Fin 2) ℚ := ⟨fun _ p => if p = 0 then 1 else -1, fun _ _ => 0, fun _ _ => 0⟩
    let f : Dist Unit (Fin 2) Unit ℚ := fun _ p _ => if p = 0 then 3 else 1
    density c (fun _ => 1) f () () = 4 ∧ momV1 c (fun _ => 1) f () () = 2 ∧ energy c (fun _ => 1) f () () = 2 := by
  simp [density, momV1, energy, integralOverV, Fin.sum_univ_two]; norm_num

end moments

/-! ## C43: BGK collisions -/

section bgk
variable {S P Q : Type} [Fintype P]

/-- C43: the BGK source vanishes exactly where the distribution equals the local Maxwellian built from its moments. -/
theorem C43_zero_iff_maxwellian (pr : BGKParams S P Q) (c : PCoords S P ℝ) (w : S → ℝ) (f : Dist S P Q ℝ) (s : S) (p : P) (q : Q)
    (ht : pr.tau s p q ≠ 0) : bgk pr c w false f s p q = 0 ↔ f s p q = localMaxwellian pr c w f s p q := by
  simp only [bgk, if_true, div_eq_zero_iff, ht, or_false, neg_eq_zero, sub_eq_zero]

/-- C43: with the flag set the operator returns the Maxwellian itself. -/
theorem C43_flag_returns_maxwellian (pr : BGKParams S P Q) (c : PCoords S P ℝ) (w : S → ℝ) (f : Dist S P Q ℝ) :
    bgk pr c w true f = localMaxwellian pr c w f := by
  simp [bgk]

theorem bgkEps_pos : 0 < bgkEps := by unfold bgkEps; positivity

theorem bulk_term_le (n E j : ℝ) (hn : 0 ≤ n) (h : j ^ 2 ≤ n * (2 * E)) (hE : 0 ≤ E) : n * bgkBulk n j ^ 2 ≤ 2 * E := by
  have he := bgkEps_pos
  unfold bgkBulk
  rw [div_pow, mul_div_assoc', div_le_iff₀ (by positivity)]
  nlinarith [mul_nonneg hn he.le, mul_nonneg (mul_nonneg hn he.le) hE, mul_nonneg hE (sq_nonneg bgkEps), mul_le_mul_of_nonneg_left h hn]

/-- C43: for every nonnegative distribution the temperature the operator computes is positive (at least the floor), so the operator is well defined. -/
theorem C43_temperature_positive (pdim : ℕ) (m : ℝ) (hm : 0 ≤ m) (c : PCoords S P ℝ) (w : S → ℝ) (f : Dist S P Q ℝ) (s : S) (q : Q) (hw : 0 ≤ w s)
    (hf : ∀ p, 0 ≤ f s p q) :
    bgkEps ≤ bgkTemperature pdim m (density c w f s q) (momV1 c w f s q) (momV2 c w f s q) (momV3 c w f s q) (energy c w f s q) := by
  have he := bgkEps_pos
  obtain ⟨hn, _, e1, e2, e3⟩ := C42_nonneg c w f s q hw hf
  obtain ⟨h1, h2, h3, _⟩ := C42_momentum_bound c w f s q hf
  have t1 := bulk_term_le _ _ _ hn h1 e1
  have t2 := bulk_term_le _ _ _ hn h2 e2
  have t3 := bulk_term_le _ _ _ hn h3 e3
  unfold bgkTemperature
  rw [C42_energy_parts]
  set n := density c w f s q
  set b1 := bgkBulk n (momV1 c w f s q)
  set b2 := bgkBulk n (momV2 c w f s q)
  set b3 := bgkBulk n (momV3 c w f s q)
  have key : 0 ≤ 2 * ((energyQ1 c w f s q + energyQ2 c w f s q + energyQ3 c w f s q) * m) - n * m * b1 ^ 2 - n * m * b2 ^ 2 - n * m * b3 ^ 2 := by
    nlinarith [mul_nonneg (sub_nonneg.mpr t1) hm, mul_nonneg (sub_nonneg.mpr t2) hm, mul_nonneg (sub_nonneg.mpr t3) hm]
  have : 0 ≤ 1 / (pdim : ℝ) * (2 * ((energyQ1 c w f s q + energyQ2 c w f s q + energyQ3 c w f s q) * m) - n * m * b1 ^ 2 - n * m * b2 ^ 2 - n * m * b3 ^ 2)
      / (n + bgkEps) := div_nonneg (mul_nonneg (by positivity) key) (by positivity)
  linarith

/-- C43: the Maxwellian is positive for positive density, nonnegative for nonnegative density; it is largest at the bulk velocity and symmetric about it. -/
theorem C43_maxwellian_shape (pdim : ℕ) (m k n T u1 u2 u3 v1 v2 v3 : ℝ) (hm : 0 < m) (hk : 0 < k) (hT : 0 < T) (hn : 0 < n) :
    0 < maxwellian pdim m k v1 v2 v3 n T u1 u2 u3 ∧
    maxwellian pdim m k v1 v2 v3 n T u1 u2 u3 ≤ maxwellian pdim m k u1 u2 u3 n T u1 u2 u3 ∧
    maxwellian pdim m k (2 * u1 - v1) (2 * u2 - v2) (2 * u3 - v3) n T u1 u2 u3 = maxwellian pdim m k v1 v2 v3 n T u1 u2 u3 := by
  have hpi := Real.pi_pos
  have hX : ∀ v u : ℝ, Real.exp (-m * (v - u) ^ 2 / (2 * k * T)) ≤ 1 := by
    intro v u
    rw [Real.exp_le_one_iff]
    have : 0 ≤ m * (v - u) ^ 2 / (2 * k * T) := by positivity
    rw [neg_mul, neg_div]; linarith
  have hE : ∀ v u : ℝ, 0 < Real.exp (-m * (v - u) ^ 2 / (2 * k * T)) := fun v u => Real.exp_pos _
  have hS : ∀ v u : ℝ, (2 * u - v - u) ^ 2 = (v - u) ^ 2 := fun v u => by ring
  have hA : 0 < m / (2 * Real.pi * k * T) := by positivity
  refine ⟨?_, ?_, ?_⟩
  · unfold maxwellian; split_ifs <;> positivity
  · unfold maxwellian
    simp only [sub_self, ne_eq, OfNat.ofNat_ne_zero, not_false_eq_true, zero_pow, mul_zero, zero_div, Real.exp_zero, mul_one]
    split_ifs
    · have hC : 0 < n * (m / (2 * Real.pi * k * T)) ^ (3 / 2 : ℝ) := by positivity
      calc _ ≤ n * (m / (2 * Real.pi * k * T)) ^ (3 / 2 : ℝ) * 1 * 1 * 1 := by
            gcongr
            · exact hX _ _
            · exact hX _ _
            · exact hX _ _
        _ = _ := by ring
    · calc _ ≤ n * (m / (2 * Real.pi * k * T)) * 1 * 1 := by
            gcongr
            · exact hX _ _
            · exact hX _ _
        _ = _ := by ring
    · calc _ ≤ n * Real.sqrt (m / (2 * Real.pi * k * T)) * 1 := by
            gcongr
            exact hX _ _
        _ = _ := by ring
  · unfold maxwellian
    simp only [hS]

theorem integral_gauss (m k T u : ℝ) :
    ∫ v : ℝ, Real.exp (-m * (v - u) ^ 2 / (2 * k * T)) = √(Real.pi / (m / (2 * k * T))) := by
  rw [← integral_gaussian, ← MeasureTheory.integral_sub_right_eq_self (fun x : ℝ => Real.exp (-(m / (2 * k * T)) * x ^ 2)) u]
  refine MeasureTheory.integral_congr_ae (Filter.Eventually.of_forall fun v => ?_)
  simp only
  congr 1
  ring

theorem integral_gauss_odd (m k T u : ℝ) : ∫ v : ℝ, (v - u) * Real.exp (-m * (v - u) ^ 2 / (2 * k * T)) = 0 := by
  rw [MeasureTheory.integral_sub_right_eq_self (fun x : ℝ => x * Real.exp (-m * x ^ 2 / (2 * k * T))) u]
  have h := MeasureTheory.integral_neg_eq_self (fun x : ℝ => x * Real.exp (-m * x ^ 2 / (2 * k * T))) MeasureTheory.volume
  have h2 : ∫ x : ℝ, -x * Real.exp (-m * (-x) ^ 2 / (2 * k * T)) = -∫ x : ℝ, x * Real.exp (-m * x ^ 2 / (2 * k * T)) := by
    rw [← MeasureTheory.integral_neg]
    refine MeasureTheory.integral_congr_ae (Filter.Eventually.of_forall fun v => ?_)
    simp only [neg_sq, neg_mul]
  rw [h2] at h
  linarith

/-- C43: the Maxwellian carries the density it is given: its integral over all velocities is `n`, in one, two and three momentum dimensions. -/
theorem C43_maxwellian_density (m k n T u1 u2 u3 : ℝ) (hm : 0 < m) (hk : 0 < k) (hT : 0 < T) :
    (∀ v2 v3, ∫ v1, maxwellian 1 m k v1 v2 v3 n T u1 u2 u3 = n) ∧
    (∀ v3, ∫ v1, ∫ v2, maxwellian 2 m k v1 v2 v3 n T u1 u2 u3 = n) ∧
    ∫ v1, ∫ v2, ∫ v3, maxwellian 3 m k v1 v2 v3 n T u1 u2 u3 = n := by
  have hpi := Real.pi_pos
  have e : Real.pi / (m / (2 * k * T)) = (m / (2 * Real.pi * k * T))⁻¹ := by field_simp
  set A := m / (2 * Real.pi * k * T) with hA
  have hA0 : 0 < A := by positivity
  have hs : 0 < √A := Real.sqrt_pos.mpr hA0
  have hss : √A * √A = A := Real.mul_self_sqrt hA0.le
  have h32 : A ^ (3 / 2 : ℝ) = A * √A := by
    rw [Real.sqrt_eq_rpow, ← Real.rpow_one_add' hA0.le (by norm_num)]; norm_num
  refine ⟨?_, ?_, ?_⟩
  · intro v2 v3
    simp only [maxwellian, if_neg (show ¬ ((1 : ℕ) = 3) by decide), if_neg (show ¬ ((1 : ℕ) = 2) by decide), ← hA]
    rw [MeasureTheory.integral_const_mul, integral_gauss, e, Real.sqrt_inv]
    field_simp
  · intro v3
    simp only [maxwellian, if_neg (show ¬ ((2 : ℕ) = 3) by decide), if_true, ← hA]
    simp only [MeasureTheory.integral_const_mul, MeasureTheory.integral_mul_const, integral_gauss, e, Real.sqrt_inv]
    field_simp
    rw [sq, hss]
  · simp only [maxwellian, if_true, ← hA, h32]
    simp only [MeasureTheory.integral_const_mul, MeasureTheory.integral_mul_const, integral_gauss, e, Real.sqrt_inv]
    field_simp
    rw [sq, hss]

/-- C43: and the bulk velocity it is given: the integral of the relative velocity `v1 - u1` vanishes. -/
theorem C43_maxwellian_bulk (pdim : ℕ) (m k n T u1 u2 u3 v2 v3 : ℝ) :
    ∫ v1, (v1 - u1) * maxwellian pdim m k v1 v2 v3 n T u1 u2 u3 = 0 := by
  have e : ∃ C : ℝ, ∀ v1, (v1 - u1) * maxwellian pdim m k v1 v2 v3 n T u1 u2 u3 = C * ((v1 - u1) * Real.exp (-m * (v1 - u1) ^ 2 / (2 * k * T))) := by
    by_cases h3 : pdim = 3
    · refine ⟨n * (m / (2 * Real.pi * k * T)) ^ (3 / 2 : ℝ) * Real.exp (-m * (v2 - u2) ^ 2 / (2 * k * T)) * Real.exp (-m * (v3 - u3) ^ 2 / (2 * k * T)),
        fun v1 => ?_⟩
      rw [maxwellian, if_pos h3]; ring
    · by_cases h2 : pdim = 2
      · refine ⟨n * (m / (2 * Real.pi * k * T)) * Real.exp (-m * (v2 - u2) ^ 2 / (2 * k * T)), fun v1 => ?_⟩
        rw [maxwellian, if_neg h3, if_pos h2]; ring
      · refine ⟨n * Real.sqrt (m / (2 * Real.pi * k * T)), fun v1 => ?_⟩
        rw [maxwellian, if_neg h3, if_neg h2]; ring
  obtain ⟨C, hC⟩ := e
  simp only [hC, MeasureTheory.integral_const_mul, integral_gauss_odd, mul_zero]

/-- C43: the local Maxwellian of a nonnegative nonempty distribution is positive everywhere. -/
theorem C43_local_maxwellian_positive (pr : BGKParams S P Q) (c : PCoords S P ℝ) (w : S → ℝ) (f : Dist S P Q ℝ) (s : S) (p : P) (q : Q)
    (hm : 0 < pr.mass s) (hk : 0 < pr.k) (hw : 0 < w s) (hf : ∀ p, 0 ≤ f s p q) (hp : f s p q ≠ 0) :
    0 < localMaxwellian pr c w f s p q := by
  have hn : 0 < density c w f s q := lt_of_le_of_ne (C42_nonneg c w f s q hw.le hf).1 fun h =>
    hp ((C42_density_zero_iff c w f s q hw hf).mp h.symm p)
  exact (C43_maxwellian_shape _ _ _ _ _ _ _ _ _ _ _ hm hk
    (lt_of_lt_of_le bgkEps_pos (C43_temperature_positive pr.pdim _ hm.le c w f s q hw.le hf)) hn).1

/-- C43: the Maxwellian the operator relaxes to, written out: its density is that of the distribution, its centre the mean momentum in each
of the three directions, its temperature the one computed from the moments. -/
theorem C43_local_equilibrium (pr : BGKParams S P Q) (hd : pr.pdim = 1 ∨ pr.pdim = 2 ∨ pr.pdim = 3) (c : PCoords S P ℝ) (w : S → ℝ)
    (f : Dist S P Q ℝ) (s : S) (p : P) (q : Q) (hm : 0 < pr.mass s) (hk : 0 < pr.k) (hw : 0 < w s) (hf : ∀ p, 0 ≤ f s p q) :
    let n := (∑ p, f s p q) * w s
    let u1 := (∑ p, f s p q * c.p1 s p) * w s / (n + 1 / 10 ^ 30)
    let u2 := (∑ p, f s p q * c.p2 s p) * w s / (n + 1 / 10 ^ 30)
    let u3 := (∑ p, f s p q * c.p3 s p) * w s / (n + 1 / 10 ^ 30)
    let T := bgkTemperature pr.pdim (pr.mass s) n ((∑ p, f s p q * c.p1 s p) * w s) ((∑ p, f s p q * c.p2 s p) * w s)
      ((∑ p, f s p q * c.p3 s p) * w s) ((∑ p, 1 / 2 * f s p q * (c.p1 s p ^ 2 + c.p2 s p ^ 2 + c.p3 s p ^ 2)) * w s)
    localMaxwellian pr c w f s p q = n * (pr.mass s / (2 * Real.pi * pr.k * T)) ^ ((pr.pdim : ℝ) / 2) *
      Real.exp (-(pr.mass s / (2 * pr.k * T)) * ((c.p1 s p - u1) ^ 2 + (if 2 ≤ pr.pdim then (c.p2 s p - u2) ^ 2 else 0) +
        (if 3 ≤ pr.pdim then (c.p3 s p - u3) ^ 2 else 0))) := by
  intro n u1 u2 u3 T
  have hT : 0 < T := lt_of_lt_of_le bgkEps_pos (C43_temperature_positive pr.pdim _ hm.le c w f s q hw.le hf)
  have hpi := Real.pi_pos
  have hb : 0 < pr.mass s / (2 * Real.pi * pr.k * T) := by positivity
  have e : localMaxwellian pr c w f s p q = maxwellian pr.pdim (pr.mass s) pr.k (c.p1 s p) (c.p2 s p) (c.p3 s p) n T u1 u2 u3 := rfl
  rw [e]
  rcases hd with h | h | h
  · rw [maxwellian, if_neg (by omega), if_neg (by omega), if_neg (by omega), if_neg (by omega), h, Real.sqrt_eq_rpow]
    push_cast
    congr 2
    ring
  · rw [maxwellian, if_neg (by omega), if_pos h, if_pos (by omega), if_neg (by omega), h, mul_assoc (n * _), ← Real.exp_add]
    push_cast
    rw [show (2 : ℝ) / 2 = 1 by norm_num, Real.rpow_one]
    congr 2
    ring
  · rw [maxwellian, if_pos h, if_pos (by omega), if_pos (by omega), h, mul_assoc (n * _), ← Real.exp_add, mul_assoc (n * _), ← Real.exp_add]
    push_cast
    congr 2
    ring

/-- C43: the computed temperature is the mean square momentum about the mean, `(1/d) Σ m |p - u|² f / n`, up to the floor added to density
and temperature. -/
theorem C43_temperature_is_variance (pdim : ℕ) (m : ℝ) (c : PCoords S P ℝ) (w : S → ℝ) (f : Dist S P Q ℝ) (s : S) (q : Q)
    (hn : density c w f s q + bgkEps ≠ 0) :
    let n := density c w f s q
    let u1 := momV1 c w f s q / (n + bgkEps)
    let u2 := momV2 c w f s q / (n + bgkEps)
    let u3 := momV3 c w f s q / (n + bgkEps)
    bgkTemperature pdim m n (momV1 c w f s q) (momV2 c w f s q) (momV3 c w f s q) (energy c w f s q) =
      (1 / pdim) * (m * ((∑ p, f s p q * ((c.p1 s p - u1) ^ 2 + (c.p2 s p - u2) ^ 2 + (c.p3 s p - u3) ^ 2)) * w s)
        + 2 * m * bgkEps * (u1 ^ 2 + u2 ^ 2 + u3 ^ 2)) / (n + bgkEps) + bgkEps := by
  intro n u1 u2 u3
  have j1 : momV1 c w f s q = u1 * (n + bgkEps) := (div_mul_cancel₀ _ hn).symm
  have j2 : momV2 c w f s q = u2 * (n + bgkEps) := (div_mul_cancel₀ _ hn).symm
  have j3 : momV3 c w f s q = u3 * (n + bgkEps) := (div_mul_cancel₀ _ hn).symm
  have key : (∑ p, f s p q * ((c.p1 s p - u1) ^ 2 + (c.p2 s p - u2) ^ 2 + (c.p3 s p - u3) ^ 2)) * w s =
      2 * energy c w f s q - 2 * (u1 * momV1 c w f s q + u2 * momV2 c w f s q + u3 * momV3 c w f s q) + (u1 ^ 2 + u2 ^ 2 + u3 ^ 2) * n := by
    simp only [energy, momV1, momV2, momV3, n, density, integralOverV, Finset.sum_mul, Finset.mul_sum, ← Finset.sum_add_distrib,
      ← Finset.sum_sub_distrib]
    exact Finset.sum_congr rfl fun p _ => by ring
  rw [key, bgkTemperature]
  change 1 / (pdim : ℝ) * (2 * (energy c w f s q * m) - n * m * u1 ^ 2 - n * m * u2 ^ 2 - n * m * u3 ^ 2) / (n + bgkEps) + bgkEps = _
  rw [j1, j2, j3]
  ring

/-- C43: relaxation moves towards the Maxwellian: a step of length `0 ≤ dt ≤ tau` ends between the old value and the Maxwellian, so it keeps a nonnegative
distribution nonnegative. -/
theorem C43_relaxes (pr : BGKParams S P Q) (c : PCoords S P ℝ) (w : S → ℝ) (f : Dist S P Q ℝ) (s : S) (p : P) (q : Q) (dt : ℝ)
    (h0 : 0 ≤ dt) (h1 : dt ≤ pr.tau s p q) (ht : 0 < pr.tau s p q) :
    let f0 := localMaxwellian pr c w f s p q
    let f1 := f s p q + bgk pr c w false f s p q * dt
    min (f s p q) f0 ≤ f1 ∧ f1 ≤ max (f s p q) f0 ∧ |f1 - f0| = (1 - dt / pr.tau s p q) * |f s p q - f0| := by
  intro f0 f1
  have e : f1 = (1 - dt / pr.tau s p q) * f s p q + (dt / pr.tau s p q) * f0 := by
    simp only [f1, f0, bgk, if_true]; field_simp; ring
  have a0 : 0 ≤ dt / pr.tau s p q := by positivity
  have a1 : dt / pr.tau s p q ≤ 1 := by rw [div_le_one ht]; exact h1
  refine ⟨?_, ?_, ?_⟩
  · rw [e]
    nlinarith [min_le_left (f s p q) f0, min_le_right (f s p q) f0]
  · rw [e]
    nlinarith [le_max_left (f s p q) f0, le_max_right (f s p q) f0]
  · rw [e, show (1 - dt / pr.tau s p q) * f s p q + dt / pr.tau s p q * f0 - f0 = (1 - dt / pr.tau s p q) * (f s p q - f0) by ring,
      abs_mul, abs_of_nonneg (by linarith)]

/-- C43: collisions die out as the relaxation time grows. -/
theorem C43_collisionless_limit (c : PCoords S P ℝ) (w : S → ℝ) (f : Dist S P Q ℝ) (pdim : ℕ) (mass : S → ℝ) (k : ℝ) (s : S) (p : P) (q : Q) :
    Filter.Tendsto (fun tau : ℝ => bgk ⟨pdim, mass, k, fun _ _ _ => tau⟩ c w false f s p q) Filter.atTop (nhds 0) := by
  simp only [bgk, if_true, localMaxwellian]
  exact tendsto_const_nhds.div_atTop Filter.tendsto_id

/-- C43: what the computed temperature means: from the exact moments of a gas at rest with density `n` and temperature `T0` (energy `p_dim n k T0 / (2 m)`),
the code obtains `k T0` (up to the floor), not `T0`. -/
theorem C43_temperature_of_gas_at_rest (pdim : ℕ) (hp : pdim ≠ 0) (m k n T0 : ℝ) (hm : m ≠ 0) :
    bgkTemperature pdim m n 0 0 0 ((pdim : ℝ) / 2 * n * k * T0 / m) = k * T0 * (n / (n + bgkEps)) + bgkEps := by
  have : (pdim : ℝ) ≠ 0 := by exact_mod_cast hp
  unfold bgkTemperature bgkBulk
  simp only [zero_div, ne_eq, OfNat.ofNat_ne_zero, not_false_eq_true, zero_pow, mul_zero, sub_zero]
  congr 1
  field_simp

/-- C43 (negative): so with a Boltzmann constant other than 1 a gas in equilibrium is not a fixed point: for `k = 2`, unit density, mass and temperature the
Maxwellian the operator relaxes to has another temperature and another value at rest. -/
theorem C43_wrong_equilibrium_unless_k_is_one :
    ∃ (k n T0 m : ℝ), 0 < k ∧ 0 < n ∧ 0 < T0 ∧ 0 < m ∧
      maxwellian 1 m k 0 0 0 n (bgkTemperature 1 m n 0 0 0 ((1 : ℕ) / 2 * n * k * T0 / m)) 0 0 0 < maxwellian 1 m k 0 0 0 n T0 0 0 0 := by
  refine ⟨2, 1, 1, 1, by norm_num, by norm_num, by norm_num, by norm_num, ?_⟩
  have he := bgkEps_pos
  have he1 : bgkEps ≤ 1 / 10 := by unfold bgkEps; norm_num
  rw [C43_temperature_of_gas_at_rest 1 (by norm_num) 1 2 1 1 (by norm_num)]
  have hT : 1 < 2 * 1 * (1 / (1 + bgkEps)) + bgkEps := by
    have : 1 / 2 < 1 / (1 + bgkEps) := by
      rw [div_lt_div_iff₀ (by norm_num) (by linarith)]; linarith
    linarith
  set T := 2 * 1 * (1 / (1 + bgkEps)) + bgkEps
  have hpi := Real.pi_pos
  simp only [maxwellian, sub_self, ne_eq, OfNat.ofNat_ne_zero, not_false_eq_true, zero_pow, mul_zero, zero_div, Real.exp_zero, mul_one, one_mul,
    if_neg (show ¬ ((1 : ℕ) = 3) by decide), if_neg (show ¬ ((1 : ℕ) = 2) by decide)]
  refine Real.sqrt_lt_sqrt (by positivity) ?_
  rw [one_div, one_div]
  exact inv_strictAnti₀ (by positivity) (by nlinarith)

/-- A nonempty distribution to which the theorems apply: two momenta, one species. -/
example : 0 < localMaxwellian (S := Unit) (P := Fin 2) (Q := Unit) ⟨1, fun _ => 1, 1, fun _ _ _ => 1⟩
    ⟨fun _ p => if p = 0 then 1 else -1, fun _ _ => 0, fun _ _ => 0⟩ (fun _ => 1) (fun _ _ _ => 1) () 0 () :=
  C43_local_maxwellian_positive _ _ _ _ _ _ _ (by norm_num) (by norm_num) (by norm_num) (fun _ => by norm_num) (by norm_num)

end bgk

end Bolt
