import Verif.Proofs.Collisions
import Verif.Props.ASL
import Mathlib.Analysis.Complex.ExponentialBounds
import Mathlib.Analysis.Real.Pi.Bounds

/-!
# C104: collisions and the conservation laws on the momentum grid

The collision operator relaxes to a Maxwellian with the density, bulk velocity and temperature of the gas.  The continuous Maxwellian has exactly
these moments; its values on the momentum grid do not, so particles, momentum and energy are conserved only up to what the grid misses.
-/

set_option linter.unusedSectionVars false

namespace Bolt

variable {S Q : Type} {Np1 Np2 Np3 : ℕ} [NeZero Np1] [NeZero Np2] [NeZero Np3] {start d : Fin 3 → ℝ}
  {pr : BGKParams S (PIdx Np1 Np2 Np3) Q} {c : PCoords S (PIdx Np1 Np2 Np3) ℝ} {w : S → ℝ} {f : Dist S (PIdx Np1 Np2 Np3) Q ℝ} {s : S} {q : Q}

/-- C104: the equilibrium the operator relaxes to has the density, momentum and energy of a gas with the computed bulk velocity and temperature up
to the defect of the grid, which is of second order in the cell width and otherwise only due to the particles beyond the ends of the grid. -/
theorem C104_equilibrium_moments (hg : MomentumGrid c s start d) (hG : GasGrid pr.pdim ![Np1, Np2, Np3] start d) (hw : w s = d 0 * d 1 * d 2)
    (hm : 0 < pr.mass s) (hk : 0 < pr.k) (hf : ∀ p, 0 ≤ f s p q) :
    let n := density c w f s q
    let u := gasBulk c w f s q
    let v := pr.k * gasTemp pr.pdim (pr.mass s) c w f s q / pr.mass s
    let Δ := gasDefect pr.pdim v u start d ![Np1, Np2, Np3]
    let M := bgk pr c w true f
    |density c w M s q - n| ≤ n * Δ ∧
    (∀ i, |momV c w M s q i - n * u i| ≤ n * (|u i| + √v) * Δ) ∧
    |2 * energy c w M s q - n * (∑ i, u i ^ 2 + pr.pdim * v)| ≤ n * (∑ i, (|u i| + √v) ^ 2) * Δ := by
  intro n u v Δ M
  obtain ⟨hv, hΔ, P0, A0, A1, A2, B0, B1, B2⟩ := axis_products hg hG hw hm hk hf
  obtain ⟨D, M1, M2, M3, E⟩ := maxwellian_moments hg hG hw hm hk hf
  have hws : 0 ≤ w s := by rw [hw]; have := hG.width 0; have := hG.width 1; have := hG.width 2; positivity
  have hn : 0 ≤ n := mul_nonneg (Finset.sum_nonneg fun p _ => hf p) hws
  have hM : M = localMaxwellian pr c w f := C43_flag_returns_maxwellian pr c w f
  rw [hM]
  set Z := axisSum pr.pdim v u start d ![Np1, Np2, Np3]
  have sv : 0 ≤ √v := Real.sqrt_nonneg v
  have svv : √v * √v = v := Real.mul_self_sqrt hv.le
  have dn : |density c w (localMaxwellian pr c w f) s q - n| ≤ n * Δ := by
    rw [D, show n * (Z 0 0 * (Z 0 1 * Z 0 2)) - n = n * (Z 0 0 * (Z 0 1 * Z 0 2) - 1) by ring, abs_mul, abs_of_nonneg hn]
    exact mul_le_mul_of_nonneg_left P0 hn
  set ρ := density c w (localMaxwellian pr c w f) s q with hρ
  have mom : ∀ (j ui a : ℝ), j = ui * ρ + n * a → |a| ≤ √v * Δ → |j - n * ui| ≤ n * (|ui| + √v) * Δ := by
    intro j ui a hj ha
    rw [hj, show ui * ρ + n * a - n * ui = ui * (ρ - n) + n * a by ring]
    refine (abs_add_le _ _).trans ?_
    rw [abs_mul, abs_mul, abs_of_nonneg hn]
    have h1 := mul_le_mul_of_nonneg_left dn (abs_nonneg ui)
    have h2 := mul_le_mul_of_nonneg_left ha hn
    nlinarith
  refine ⟨dn, ?_, ?_⟩
  · intro i
    fin_cases i
    · exact mom _ _ _ M1 A0
    · exact mom _ _ _ M2 A1
    · exact mom _ _ _ M3 A2
  · have hone : (pr.pdim : ℝ) * v = (if (0 : Fin 3).val < pr.pdim then v else 0) + (if (1 : Fin 3).val < pr.pdim then v else 0)
        + (if (2 : Fin 3).val < pr.pdim then v else 0) := by
      rcases hG.dims with h | h | h <;> rw [h] <;> norm_num <;> ring
    rw [Fin.sum_univ_three, Fin.sum_univ_three, E, hone]
    set o0 := (if (0 : Fin 3).val < pr.pdim then v else 0)
    set o1 := (if (1 : Fin 3).val < pr.pdim then v else 0)
    set o2 := (if (2 : Fin 3).val < pr.pdim then v else 0)
    have one : ∀ (ui a b o : ℝ), |a| ≤ √v * Δ → |b - o| ≤ v * Δ → |ui ^ 2 * (ρ - n) + 2 * n * (ui * a) + n * (b - o)| ≤ n * (|ui| + √v) ^ 2 * Δ := by
      intro ui a b o ha hb
      refine (abs_add_le _ _).trans ((add_le_add (abs_add_le _ _) le_rfl).trans ?_)
      rw [abs_mul, abs_mul, abs_mul, abs_mul, abs_mul, abs_of_nonneg hn, abs_of_nonneg (sq_nonneg ui), abs_of_pos (show (0:ℝ) < 2 by norm_num)]
      have h1 := mul_le_mul_of_nonneg_left dn (sq_nonneg ui)
      have h2 := mul_le_mul_of_nonneg_left (mul_le_mul_of_nonneg_left ha (abs_nonneg ui)) (show 0 ≤ 2 * n by linarith)
      have h3 := mul_le_mul_of_nonneg_left hb hn
      have e : n * (|ui| + √v) ^ 2 * Δ = ui ^ 2 * (n * Δ) + 2 * n * (|ui| * (√v * Δ)) + n * (v * Δ) := by
        rw [← sq_abs ui, ← svv]
        simp only [Real.sqrt_mul_self sv]
        ring
      linarith
    have t0 := one (u 0) _ _ _ A0 B0
    have t1 := one (u 1) _ _ _ A1 B1
    have t2 := one (u 2) _ _ _ A2 B2
    have := (abs_add_le _ _).trans (add_le_add ((abs_add_le _ _).trans (add_le_add t0 t1)) t2)
    refine le_trans (le_of_eq ?_) (this.trans (le_of_eq ?_))
    · congr 1; ring
    · ring

/-- C104: the rates at which the collisions change the density, the momentum and the energy are bounded by the defect of the grid and the floors
of the operator, for a collision time that does not depend on the momentum. (The energy for `boltzmann_constant` 1: otherwise the operator
relaxes to a wrong temperature, C43.) -/
theorem C104_rates (hg : MomentumGrid c s start d) (hG : GasGrid pr.pdim ![Np1, Np2, Np3] start d) (hw : w s = d 0 * d 1 * d 2)
    (hm : 0 < pr.mass s) (hk : 0 < pr.k) (hf : ∀ p, 0 ≤ f s p q) {τ : ℝ} (hτ : 0 < τ) (ht : ∀ p, pr.tau s p q = τ) :
    let n := density c w f s q
    let u := gasBulk c w f s q
    let T := gasTemp pr.pdim (pr.mass s) c w f s q
    let v := pr.k * T / pr.mass s
    let Δ := gasDefect pr.pdim v u start d ![Np1, Np2, Np3]
    let C := bgk pr c w false f
    |density c w C s q| ≤ n * Δ / τ ∧
    (∀ i, |momV c w C s q i| ≤ (n * (|u i| + √v) * Δ + |u i| * bgkEps) / τ) ∧
    (pr.k = 1 → |2 * energy c w C s q| ≤
      (n * (∑ i, (|u i| + √v) ^ 2) * Δ + pr.pdim * bgkEps * (T + n + bgkEps) / pr.mass s) / τ) := by
  intro n u T v Δ C
  obtain ⟨hD, hM, hE⟩ := C104_equilibrium_moments hg hG hw hm hk hf
  have hws : 0 ≤ w s := by rw [hw]; have := hG.width 0; have := hG.width 1; have := hG.width 2; positivity
  have hn : 0 ≤ n := mul_nonneg (Finset.sum_nonneg fun p _ => hf p) hws
  have he := bgkEps_pos
  have hC : ∀ p, C s p q = (1 / τ) * bgk pr c w true f s p q + (-1 / τ) * f s p q := fun p => by
    simp only [C, bgk, if_true, ht]
    simp; ring
  have lin : ∀ (x : PIdx Np1 Np2 Np3 → ℝ), (∑ p, C s p q * x p) * w s = ((∑ p, bgk pr c w true f s p q * x p) * w s - (∑ p, f s p q * x p) * w s) / τ := by
    intro x
    rw [← sub_mul, mul_div_right_comm, ← Finset.sum_sub_distrib, Finset.sum_div]
    congr 1
    exact Finset.sum_congr rfl fun p _ => by rw [hC]; ring
  have dC : density c w C s q = (density c w (bgk pr c w true f) s q - n) / τ := by
    have := lin fun _ => 1
    simp only [mul_one] at this
    exact this
  have mC : ∀ i, momV c w C s q i = (momV c w (bgk pr c w true f) s q i - momV c w f s q i) / τ := by
    intro i
    fin_cases i
    · exact lin fun p => c.p1 s p
    · exact lin fun p => c.p2 s p
    · exact lin fun p => c.p3 s p
  have eC : 2 * energy c w C s q = (2 * energy c w (bgk pr c w true f) s q - 2 * energy c w f s q) / τ := by
    have := lin fun p => c.p1 s p ^ 2 + c.p2 s p ^ 2 + c.p3 s p ^ 2
    have e : ∀ g : Dist S (PIdx Np1 Np2 Np3) Q ℝ, 2 * energy c w g s q = (∑ p, g s p q * (c.p1 s p ^ 2 + c.p2 s p ^ 2 + c.p3 s p ^ 2)) * w s := by
      intro g
      simp only [energy, integralOverV]
      rw [← mul_assoc, Finset.mul_sum]
      congr 1
      exact Finset.sum_congr rfl fun p _ => by ring
    rw [e, e, e, this]
  have bulk : ∀ i, momV c w f s q i = u i * (n + bgkEps) := fun i => by
    have : n + bgkEps ≠ 0 := by positivity
    exact (div_mul_cancel₀ _ this).symm
  refine ⟨?_, fun i => ?_, fun hk1 => ?_⟩
  · rw [dC, abs_div, abs_of_pos hτ]
    exact div_le_div_of_nonneg_right hD hτ.le
  · rw [mC, bulk, abs_div, abs_of_pos hτ]
    refine div_le_div_of_nonneg_right ?_ hτ.le
    rw [show ∀ x : ℝ, x - u i * (n + bgkEps) = (x - n * u i) + -(u i * bgkEps) from fun x => by ring]
    refine (abs_add_le _ _).trans (add_le_add (hM i) ?_)
    rw [abs_neg, abs_mul, abs_of_pos he]
  · rw [eC, abs_div, abs_of_pos hτ]
    refine div_le_div_of_nonneg_right ?_ hτ.le
    have hne : n + bgkEps ≠ 0 := by positivity
    have hp : (pr.pdim : ℝ) ≠ 0 := by rcases hG.dims with h | h | h <;> rw [h] <;> norm_num
    have hT : pr.pdim * (T - bgkEps) * (n + bgkEps) = 2 * (energy c w f s q * pr.mass s) - n * pr.mass s * ∑ i, u i ^ 2 := by
      rw [Fin.sum_univ_three]
      have e0 : u 0 = bgkBulk n (momV1 c w f s q) := rfl
      have e1 : u 1 = bgkBulk n (momV2 c w f s q) := rfl
      have e2 : u 2 = bgkBulk n (momV3 c w f s q) := rfl
      have : T = bgkTemperature pr.pdim (pr.mass s) n (momV1 c w f s q) (momV2 c w f s q) (momV3 c w f s q) (energy c w f s q) := rfl
      rw [this, bgkTemperature, ← e0, ← e1, ← e2]
      field_simp
      ring
    have hv : v = T / pr.mass s := by simp only [v, hk1, one_mul]
    have hT0 : 0 ≤ T := he.le.trans (C43_temperature_positive pr.pdim (pr.mass s) hm.le c w f s q hws hf)
    have key : n * (∑ i, u i ^ 2 + pr.pdim * v) - 2 * energy c w f s q = pr.pdim * bgkEps * (-T + n + bgkEps) / pr.mass s := by
      rw [hv]; field_simp; linear_combination hT
    rw [show ∀ x : ℝ, x - 2 * energy c w f s q = (x - n * (∑ i, u i ^ 2 + pr.pdim * v)) + (n * (∑ i, u i ^ 2 + pr.pdim * v) - 2 * energy c w f s q)
      from fun x => by ring, key]
    refine (abs_add_le _ _).trans (add_le_add hE ?_)
    rw [abs_div, abs_of_pos hm, abs_mul, abs_of_nonneg (show 0 ≤ (pr.pdim : ℝ) * bgkEps by positivity)]
    refine div_le_div_of_nonneg_right (mul_le_mul_of_nonneg_left ?_ (by positivity)) hm.le
    rw [abs_le]; constructor <;> linarith

/-- C104: the same for a step of the source alone, as taken with the semi-Lagrangian method: if it is not longer than two collision times, the
state half way is not negative anywhere, and density, momentum and energy change by at most `dt` times the rates there. -/
theorem C104_source_step (hg : MomentumGrid c s start d) (hG : GasGrid pr.pdim ![Np1, Np2, Np3] start d) (hw : w s = d 0 * d 1 * d 2)
    (hm : 0 < pr.mass s) (hk : 0 < pr.k) (hf : ∀ p, 0 ≤ f s p q) {τ : ℝ} (hτ : 0 < τ) (ht : ∀ p, pr.tau s p q = τ) (t dt : ℝ) (hdt : 0 ≤ dt)
    (hdt' : dt ≤ 2 * τ) :
    let f' := opSolveSrc false true (fun _ g b => bgk pr c w b g) t dt f
    let g := f + (dt / 2) • bgk pr c w false f
    let n := density c w g s q
    let u := gasBulk c w g s q
    let T := gasTemp pr.pdim (pr.mass s) c w g s q
    let v := pr.k * T / pr.mass s
    let Δ := gasDefect pr.pdim v u start d ![Np1, Np2, Np3]
    (∀ p, 0 ≤ g s p q) ∧
    |density c w f' s q - density c w f s q| ≤ dt * (n * Δ / τ) ∧
    (∀ i, |momV c w f' s q i - momV c w f s q i| ≤ dt * ((n * (|u i| + √v) * Δ + |u i| * bgkEps) / τ)) ∧
    (pr.k = 1 → |2 * energy c w f' s q - 2 * energy c w f s q| ≤
      dt * ((n * (∑ i, (|u i| + √v) ^ 2) * Δ + pr.pdim * bgkEps * (T + n + bgkEps) / pr.mass s) / τ)) := by
  intro f' g n u T v Δ
  have hws : 0 ≤ w s := by rw [hw]; have := hG.width 0; have := hG.width 1; have := hG.width 2; positivity
  have hn : 0 ≤ density c w f s q := mul_nonneg (Finset.sum_nonneg fun p _ => hf p) hws
  have hT : 0 < gasTemp pr.pdim (pr.mass s) c w f s q :=
    bgkEps_pos.trans_le (C43_temperature_positive pr.pdim (pr.mass s) hm.le c w f s q hws hf)
  have hg0 : ∀ p, 0 ≤ g s p q := by
    intro p
    have e : g s p q = (1 - dt / (2 * τ)) * f s p q + dt / (2 * τ) * localMaxwellian pr c w f s p q := by
      simp only [g, Pi.add_apply, Pi.smul_apply, smul_eq_mul, bgk, if_true, ht]
      field_simp; ring
    have h1 : 0 ≤ 1 - dt / (2 * τ) := by rw [sub_nonneg, div_le_one (by positivity)]; exact hdt'
    have h2 : 0 ≤ localMaxwellian pr c w f s p q := by
      have : localMaxwellian pr c w f s p q = _ := maxwellian_eq hG.dims hm hk hT _ _ _ _ _ _ _
      rw [this]
      have ax : ∀ i y, 0 ≤ axisFactor pr.pdim (pr.k * gasTemp pr.pdim (pr.mass s) c w f s q / pr.mass s) i y := fun i y => by
        unfold axisFactor; split_ifs
        · exact (normalPdf_pos (by positivity) _).le
        · exact zero_le_one
      exact mul_nonneg hn (mul_nonneg (ax _ _) (mul_nonneg (ax _ _) (ax _ _)))
    rw [e]
    exact add_nonneg (mul_nonneg h1 (hf p)) (mul_nonneg (by positivity) h2)
  obtain ⟨r1, r2, r3⟩ := C104_rates (f := g) hg hG hw hm hk hg0 hτ ht
  have hf' : ∀ p, f' s p q = f s p q + dt * bgk pr c w false g s p q := fun p => by
    have : f' = f + dt • bgk pr c w false g := (C52_cases _ t dt f).2.1
    rw [this]; rfl
  have lin : ∀ (x : PIdx Np1 Np2 Np3 → ℝ), (∑ p, f' s p q * x p) * w s - (∑ p, f s p q * x p) * w s = dt * ((∑ p, bgk pr c w false g s p q * x p) * w s) := by
    intro x
    rw [← sub_mul, ← mul_assoc, ← Finset.sum_sub_distrib, Finset.mul_sum]
    congr 1
    exact Finset.sum_congr rfl fun p _ => by rw [hf']; ring
  refine ⟨hg0, ?_, fun i => ?_, fun hk1 => ?_⟩
  · have := lin fun _ => 1
    simp only [mul_one] at this
    have e : density c w f' s q - density c w f s q = dt * density c w (bgk pr c w false g) s q := this
    rw [e, abs_mul, abs_of_nonneg hdt]
    exact mul_le_mul_of_nonneg_left r1 hdt
  · have e : momV c w f' s q i - momV c w f s q i = dt * momV c w (bgk pr c w false g) s q i := by
      fin_cases i
      · exact lin fun p => c.p1 s p
      · exact lin fun p => c.p2 s p
      · exact lin fun p => c.p3 s p
    rw [e, abs_mul, abs_of_nonneg hdt]
    exact mul_le_mul_of_nonneg_left (r2 i) hdt
  · have e : 2 * energy c w f' s q - 2 * energy c w f s q = dt * (2 * energy c w (bgk pr c w false g) s q) := by
      have := lin fun p => 1 / 2 * (c.p1 s p ^ 2 + c.p2 s p ^ 2 + c.p3 s p ^ 2)
      have e : ∀ g : Dist S (PIdx Np1 Np2 Np3) Q ℝ, energy c w g s q = (∑ p, g s p q * (1 / 2 * (c.p1 s p ^ 2 + c.p2 s p ^ 2 + c.p3 s p ^ 2))) * w s := by
        intro g
        simp only [energy, integralOverV]
        congr 1
        exact Finset.sum_congr rfl fun p _ => by ring
      rw [e, e, e, ← mul_sub, this]; ring
    rw [e, abs_mul, abs_of_nonneg hdt]
    exact mul_le_mul_of_nonneg_left (r3 hk1) hdt

/-- C104: the defect vanishes under refinement: it is as small as one likes once the cells are narrow and the ends of the grid far from the bulk
velocity, both compared with the thermal velocity `√v`. -/
theorem C104_defect_vanishes {v ε : ℝ} (hv : 0 < v) (hε : 0 < ε) :
    ∃ δ > 0, ∃ L > 0, ∀ (pdim : ℕ) (u start d : Fin 3 → ℝ) (N : Fin 3 → ℕ),
      (∀ i : Fin 3, i.val < pdim → 0 ≤ d i ∧ d i ≤ δ * √v ∧ L * √v ≤ u i - start i ∧ L * √v ≤ start i + N i * d i - u i) →
      gasDefect pdim v u start d N ≤ ε := by
  have h0 : (0:ℝ) < √v := Real.sqrt_pos.mpr hv
  have hs : √v * √v = v := Real.mul_self_sqrt hv.le
  -- one axis
  set η := min 1 (ε / 7) with hη
  have hη0 : 0 < η := lt_min one_pos (by positivity)
  have tail : ∀ x, max 1 (8 / η) * √v ≤ x → (1 + x / √v) * Real.exp (-x ^ 2 / (2 * v)) ≤ η / 2 := by
    intro x hx
    set y := x / √v with hy
    have hy1 : max 1 (8 / η) ≤ y := by rw [hy, le_div_iff₀ h0]; exact hx
    have y1 : 1 ≤ y := (le_max_left _ _).trans hy1
    have y2 : 8 / η ≤ y := (le_max_right _ _).trans hy1
    have e : -x ^ 2 / (2 * v) = -(y ^ 2 / 2) := by rw [hy, div_pow, sq √v, hs]; ring
    rw [e, Real.exp_neg]
    have h1 : y ^ 2 / 2 ≤ Real.exp (y ^ 2 / 2) := by linarith [Real.add_one_le_exp (y ^ 2 / 2)]
    have h2 : 0 < y ^ 2 / 2 := by positivity
    rw [← div_eq_mul_inv, div_le_iff₀ (Real.exp_pos _)]
    rw [div_le_iff₀ hη0] at y2
    have h3 : η / 2 * (y ^ 2 / 2) ≤ η / 2 * Real.exp (y ^ 2 / 2) := mul_le_mul_of_nonneg_left h1 (by positivity)
    nlinarith
  refine ⟨√(2 * η / 5), Real.sqrt_pos.mpr (by positivity), max 1 (8 / η), lt_max_of_lt_left one_pos, ?_⟩
  intro pdim u start d N h
  have ax : ∀ i : Fin 3, (0:ℝ) ≤ (if i.val < pdim then gridDefect v (d i) (u i - start i) (start i + N i * d i - u i) else 0) ∧
      (if i.val < pdim then gridDefect v (d i) (u i - start i) (start i + N i * d i - u i) else 0) ≤ η := by
    intro i
    by_cases hi : i.val < pdim
    · rw [if_pos hi]
      obtain ⟨d0, d1, l1, l2⟩ := h i hi
      have lp : 0 ≤ max 1 (8 / η) * √v := by positivity
      refine ⟨gridDefect_nonneg _ hv (lp.trans l1) (lp.trans l2), ?_⟩
      unfold gridDefect
      have t1 := tail _ l1
      have t2 := tail _ l2
      have q1 : d i ^ 2 ≤ 2 * η / 5 * v := by
        have := pow_le_pow_left₀ d0 d1 2
        rwa [mul_pow, Real.sq_sqrt (by positivity), sq √v, hs] at this
      have q2 : d i ^ 2 / v ≤ 2 * η / 5 := by rw [div_le_iff₀ hv]; exact q1
      linarith
    · rw [if_neg hi]; exact ⟨le_rfl, hη0.le⟩
  unfold gasDefect
  rw [Fin.prod_univ_three]
  obtain ⟨a0, a1⟩ := ax 0
  obtain ⟨b0, b1⟩ := ax 1
  obtain ⟨c0, c1⟩ := ax 2
  have hη1 : η ≤ 1 := min_le_left _ _
  have hη2 : η ≤ ε / 7 := min_le_right _ _
  have m1 := mul_le_mul (add_le_add_right a1 1) (add_le_add_right b1 1) (by linarith) (by linarith)
  have m2 := mul_le_mul m1 (add_le_add_right c1 1) (by linarith) (by positivity)
  refine (sub_le_sub_right m2 1).trans ?_
  nlinarith [mul_pos hη0 hη0, mul_nonneg hη0.le (mul_nonneg hη0.le (sub_nonneg.mpr hη1)), mul_nonneg hη0.le (sub_nonneg.mpr hη1)]

/-! ### a grid on which the gas disappears -/

/-- Two momenta, the centres -1 and 1 of cells of width 2. -/
noncomputable def twoCells : PCoords Unit (PIdx 2 1 1) ℝ where
  p1 _ p := -2 + (1 / 2 + (p.1.val : ℝ)) * 2
  p2 _ p := -1 / 2 + (1 / 2 + (p.2.1.val : ℝ)) * 1
  p3 _ p := -1 / 2 + (1 / 2 + (p.2.2.val : ℝ)) * 1

theorem normalPdf_one_le {v : ℝ} (hv : 0 < v) : normalPdf v 1 ≤ 49 / 200 := by
  have hpi := Real.pi_gt_d2
  have he := Real.exp_one_gt_d9
  have h0 : (0:ℝ) < Real.exp 1 := Real.exp_pos 1
  have h1 : normalPdf v 1 ^ 2 ≤ (49 / 200) ^ 2 := by
    rw [normalPdf, mul_pow, Real.sq_sqrt (by have := Real.pi_pos; positivity), ← Real.exp_nat_mul]
    have e : ((2 : ℕ) : ℝ) * (-1 ^ 2 / (2 * v)) = -(1 / v) := by field_simp; norm_num
    rw [e]
    have h2 : 1 / v ≤ Real.exp (1 / v - 1) := by linarith [Real.add_one_le_exp (1 / v - 1)]
    have h3 : 1 / v * Real.exp (-(1 / v)) ≤ Real.exp (-1) := by
      refine (mul_le_mul_of_nonneg_right h2 (Real.exp_pos _).le).trans ?_
      rw [← Real.exp_add]
      exact Real.exp_le_exp.mpr (by linarith)
    have h4 : 1 / (2 * Real.pi * v) * Real.exp (-(1 / v)) = 1 / (2 * Real.pi) * (1 / v * Real.exp (-(1 / v))) := by
      have := Real.pi_pos
      field_simp
    rw [h4]
    refine (mul_le_mul_of_nonneg_left h3 (by have := Real.pi_pos; positivity)).trans ?_
    rw [Real.exp_neg, ← one_div, one_div_mul_one_div, div_le_iff₀ (by have := Real.pi_pos; positivity)]
    nlinarith [mul_lt_mul'' hpi he (by norm_num) (by norm_num)]
  by_contra h
  push Not at h
  nlinarith

/-- C104: conservation is not exact, and the error can add up: on this grid a uniform distribution with instantaneous collisions loses more than
two percent of its particles in every step, for every mass, Boltzmann constant and step size. -/
theorem C104_not_exact (pr : BGKParams Unit (PIdx 2 1 1) Unit) (hp : pr.pdim = 1) (hm : 0 < pr.mass ()) (hk : 0 < pr.k) (en : Bool) (t dt a : ℝ)
    (ha : 0 ≤ a) (j : ℕ) :
    density twoCells (fun _ => 2) ((opSolveSrc true en (fun _ g b => bgk pr twoCells (fun _ => 2) b g) t dt)^[j] fun _ _ _ => a) () () ≤
      (98 / 100) ^ j * density twoCells (fun _ => 2) (fun _ _ _ => a : Dist Unit (PIdx 2 1 1) Unit ℝ) () () := by
  have hz : ∀ x : ZMod 1, x.val = 0 := fun x => by have := x.val_lt; omega
  have one : ∀ a : ℝ, 0 ≤ a → ∃ b, 0 ≤ b ∧ b ≤ 98 / 100 * a ∧
      opSolveSrc true en (fun _ g b => bgk pr twoCells (fun _ => 2) b g) t dt (fun _ _ _ => a) = fun _ _ _ => b := by
    intro a ha
    rw [(C52_cases _ t dt _).1]
    set F : Dist Unit (PIdx 2 1 1) Unit ℝ := fun _ _ _ => a
    have sums : ∀ x : PIdx 2 1 1 → ℝ, ∑ p, x p = x (0, 0, 0) + x (1, 0, 0) := fun x => by
      rw [Fintype.sum_prod_type]
      have : ∀ i : ZMod 2, ∑ y : ZMod 1 × ZMod 1, x (i, y) = x (i, 0, 0) := fun i => by
        rw [Fintype.sum_prod_type]; simp
        rfl
      simp only [this]
      exact Fin.sum_univ_two fun i => x (i, 0, 0)
    have v0 : (0 : ZMod 2).val = 0 := rfl
    have v1 : (1 : ZMod 2).val = 1 := rfl
    have n4 : density twoCells (fun _ => 2) F () () = 4 * a := by
      simp only [density, integralOverV, sums, F]; ring
    have j1 : momV1 twoCells (fun _ => 2) F () () = 0 := by
      simp only [momV1, integralOverV, sums, F, twoCells, v0, v1]; push_cast; ring
    have j2 : momV2 twoCells (fun _ => 2) F () () = 0 := by
      simp only [momV2, integralOverV, sums, F, twoCells, hz]; push_cast; ring
    have j3 : momV3 twoCells (fun _ => 2) F () () = 0 := by
      simp only [momV3, integralOverV, sums, F, twoCells, hz]; push_cast; ring
    have hT : 0 < gasTemp 1 (pr.mass ()) twoCells (fun _ => 2) F () () :=
      bgkEps_pos.trans_le (C43_temperature_positive 1 (pr.mass ()) hm.le twoCells (fun _ => 2) F () () (by norm_num) fun _ => ha)
    set T := gasTemp 1 (pr.mass ()) twoCells (fun _ => 2) F () () with hTd
    have hv : 0 < pr.k * T / pr.mass () := by positivity
    refine ⟨4 * a * normalPdf (pr.k * T / pr.mass ()) 1, mul_nonneg (by linarith) (normalPdf_pos hv 1).le, ?_, ?_⟩
    · have := mul_le_mul_of_nonneg_left (normalPdf_one_le hv) (show 0 ≤ 4 * a by linarith)
      linarith
    · rw [C43_flag_returns_maxwellian]
      funext _ p _
      have e : localMaxwellian pr twoCells (fun _ => 2) F () p () = maxwellian 1 (pr.mass ()) pr.k (twoCells.p1 () p) (twoCells.p2 () p) (twoCells.p3 () p)
          (4 * a) T 0 0 0 := by
        simp only [localMaxwellian, hp, n4, j1, j2, j3, hTd, gasTemp, bgkBulk, zero_div]
      refine e.trans ?_
      rw [maxwellian_eq (Or.inl rfl) hm hk hT]
      simp only [axisFactor]
      norm_num
      have h1 : twoCells.p1 () p = -1 ∨ twoCells.p1 () p = 1 := by
        have : p.1.val = 0 ∨ p.1.val = 1 := by have := p.1.val_lt; omega
        rcases this with h | h
        · left; simp only [twoCells, h]; norm_num
        · right; simp only [twoCells, h]; norm_num
      rcases h1 with h | h <;> rw [h]
      · left; exact normalPdf_neg 1
      · left; rfl
  have all : ∀ j, ∃ b, 0 ≤ b ∧ b ≤ (98 / 100) ^ j * a ∧
      ((opSolveSrc true en (fun _ g b => bgk pr twoCells (fun _ => 2) b g) t dt)^[j] fun _ _ _ => a) = fun _ _ _ => b := by
    intro j
    induction j with
    | zero => exact ⟨a, ha, by simp, rfl⟩
    | succ j ih =>
      obtain ⟨b, hb, hle, he⟩ := ih
      obtain ⟨b', hb', hle', he'⟩ := one b hb
      refine ⟨b', hb', ?_, ?_⟩
      · rw [pow_succ]; nlinarith
      · rw [Function.iterate_succ_apply', he, he']
  obtain ⟨b, _, hle, he⟩ := all j
  rw [he]
  simp only [density, integralOverV, Finset.sum_const, nsmul_eq_mul]
  have : (0:ℝ) ≤ (Finset.univ : Finset (PIdx 2 1 1)).card := Nat.cast_nonneg _
  nlinarith

/-- The hypotheses of the theorems above hold for that grid as well: one dimension, any nonnegative distribution. -/
example : MomentumGrid twoCells () ![-2, -1 / 2, -1 / 2] ![2, 1, 1] ∧ GasGrid 1 ![2, 1, 1] ![-2, -1 / 2, -1 / 2] ![2, 1, 1] ∧
    (2 : ℝ) = (![2, 1, 1] : Fin 3 → ℝ) 0 * (![2, 1, 1] : Fin 3 → ℝ) 1 * (![2, 1, 1] : Fin 3 → ℝ) 2 := by
  refine ⟨⟨fun _ => rfl, fun _ => rfl, fun _ => rfl⟩, ⟨Or.inl rfl, ?_, ?_, ?_, ?_⟩, by simp⟩
  · intro i; fin_cases i <;> norm_num
  · intro i; fin_cases i <;> norm_num
  · intro i; fin_cases i <;> norm_num
  · intro i hi; fin_cases i
    · exact absurd (by norm_num) hi
    · norm_num
    · norm_num

end Bolt
