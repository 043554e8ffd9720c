import Verif.Proofs.Quadrature
import Verif.Props.Nonrel
import Verif.Proofs.Box

/-!
# Moments of the local Maxwellian on the momentum grid
-/

set_option linter.unusedSectionVars false

namespace Bolt

variable {S Q : Type} {Np1 Np2 Np3 : ℕ} [NeZero Np1] [NeZero Np2] [NeZero Np3]

theorem sum_val {α : Type} [AddCommMonoid α] {N : ℕ} [NeZero N] (h : ℕ → α) : ∑ i : ZMod N, h i.val = ∑ j ∈ Finset.range N, h j := by
  obtain ⟨n, rfl⟩ : ∃ n, N = n + 1 := ⟨N - 1, by have := NeZero.pos N; omega⟩
  exact Fin.sum_univ_eq_sum_range h (n + 1)

theorem sum_grid (A B C : ℕ → ℝ) : ∑ p : PIdx Np1 Np2 Np3, A p.1.val * (B p.2.1.val * C p.2.2.val) =
    (∑ j ∈ Finset.range Np1, A j) * ((∑ j ∈ Finset.range Np2, B j) * ∑ j ∈ Finset.range Np3, C j) := by
  rw [← sum_val (N := Np1), ← sum_val (N := Np2), ← sum_val (N := Np3), Fintype.sum_prod_type]
  simp only [Fintype.sum_prod_type]
  rw [Finset.sum_mul_sum, Finset.sum_mul]
  refine Finset.sum_congr rfl fun i _ => ?_
  rw [Finset.mul_sum]
  refine Finset.sum_congr rfl fun j _ => ?_
  rw [Finset.mul_sum]

/-- The factor of the Maxwellian along axis `i`. -/
noncomputable def axisFactor (pdim : ℕ) (v : ℝ) (i : Fin 3) (y : ℝ) : ℝ := if i.val < pdim then normalPdf v y else 1

theorem maxwellian_eq {pdim : ℕ} (hp : pdim = 1 ∨ pdim = 2 ∨ pdim = 3) {m k T : ℝ} (hm : 0 < m) (hk : 0 < k) (hT : 0 < T) (v1 v2 v3 n u1 u2 u3 : ℝ) :
    maxwellian pdim m k v1 v2 v3 n T u1 u2 u3 =
      n * (axisFactor pdim (k * T / m) 0 (v1 - u1) * (axisFactor pdim (k * T / m) 1 (v2 - u2) * axisFactor pdim (k * T / m) 2 (v3 - u3))) := by
  have hpi := Real.pi_pos
  have e : ∀ y : ℝ, Real.exp (-y ^ 2 / (2 * (k * T / m))) = Real.exp (-m * y ^ 2 / (2 * k * T)) := fun y => by congr 1; field_simp
  have e' : 1 / (2 * Real.pi * (k * T / m)) = m / (2 * Real.pi * k * T) := by field_simp
  set A := m / (2 * Real.pi * k * T) with hA
  have hA0 : 0 < A := by positivity
  have hss : √A * √A = A := Real.mul_self_sqrt hA0.le
  have h32 : A ^ (3 / 2 : ℝ) = A * √A := by
    rw [Real.sqrt_eq_rpow, ← Real.rpow_one_add' hA0.le (by norm_num)]; norm_num
  rcases hp with rfl | rfl | rfl
  · simp [maxwellian, axisFactor, normalPdf, e, e', ← hA]; ring
  · simp [maxwellian, axisFactor, normalPdf, e, e', ← hA]
    linear_combination (-n * Real.exp (-(m * (v1 - u1) ^ 2) / (2 * k * T)) * Real.exp (-(m * (v2 - u2) ^ 2) / (2 * k * T))) * hss
  · simp only [maxwellian, if_true, axisFactor, normalPdf, e, e', ← hA, h32]
    simp
    linear_combination (-n * √A * Real.exp (-(m * (v1 - u1) ^ 2) / (2 * k * T)) * Real.exp (-(m * (v2 - u2) ^ 2) / (2 * k * T))
      * Real.exp (-(m * (v3 - u3) ^ 2) / (2 * k * T))) * hss

/-- Moment `l` of the factor along axis `i`, on the grid. -/
noncomputable def axisSum (pdim : ℕ) (v : ℝ) (u start d : Fin 3 → ℝ) (N : Fin 3 → ℕ) (l : ℕ) (i : Fin 3) : ℝ :=
  d i * ∑ j ∈ Finset.range (N i), (start i + (1 / 2 + j) * d i - u i) ^ l * axisFactor pdim v i (start i + (1 / 2 + j) * d i - u i)

/-- The defect along one axis. -/
noncomputable def axisDefect (pdim : ℕ) (v : ℝ) (u start d : Fin 3 → ℝ) (N : Fin 3 → ℕ) (i : Fin 3) : ℝ :=
  if i.val < pdim then gridDefect v (d i) (u i - start i) (start i + N i * d i - u i) else 0

variable {pdim : ℕ} {N : Fin 3 → ℕ} {start d u : Fin 3 → ℝ} {v : ℝ}

theorem axis_bounds (h : GasGrid pdim N start d) (hv : 0 < v) (i : Fin 3) (hu : start i ≤ u i ∧ u i ≤ start i + N i * d i)
    (h0 : ¬ i.val < pdim → u i = 0) :
    0 ≤ axisDefect pdim v u start d N i ∧ |axisSum pdim v u start d N 0 i - 1| ≤ axisDefect pdim v u start d N i ∧
    |axisSum pdim v u start d N 1 i| ≤ Real.sqrt v * axisDefect pdim v u start d N i ∧
    |axisSum pdim v u start d N 2 i - (if i.val < pdim then v else 0)| ≤ v * axisDefect pdim v u start d N i := by
  by_cases hi : i.val < pdim
  · simp only [axisDefect, if_pos hi]
    refine ⟨gridDefect_nonneg _ hv (by linarith [hu.1]) (by linarith [hu.2]), ?_, ?_, ?_⟩
    · simpa only [axisSum, axisFactor, if_pos hi, pow_zero, one_mul] using grid_mass (start i) (u i) (d i) (N i) hv (h.width i).le hu.1 hu.2
    · simpa only [axisSum, axisFactor, if_pos hi, pow_one] using grid_mean (start i) (u i) (d i) (N i) hv (h.width i).le hu.1 hu.2
    · simpa only [axisSum, axisFactor, if_pos hi] using grid_variance (start i) (u i) (d i) (N i) hv (h.width i).le hu.1 hu.2
  · obtain ⟨e1, e2, e3⟩ := h.rest i hi
    simp only [axisDefect, if_neg hi, axisSum, e1, e2, e3, h0 hi, axisFactor]
    norm_num

/-! ### products -/

theorem prod_defect {x y a b : ℝ} (hx : |x - 1| ≤ a) (hy : |y - 1| ≤ b) : |x * y - 1| ≤ (1 + a) * (1 + b) - 1 := by
  have ha := (abs_nonneg _).trans hx
  have hb := (abs_nonneg _).trans hy
  have : x * y - 1 = (x - 1) * (y - 1) + (x - 1) + (y - 1) := by ring
  rw [this]
  have h1 : |(x - 1) * (y - 1)| ≤ a * b := by rw [abs_mul]; exact mul_le_mul hx hy (abs_nonneg _) ha
  calc _ ≤ |(x - 1) * (y - 1)| + |x - 1| + |y - 1| := (abs_add_le _ _).trans (add_le_add (abs_add_le _ _) le_rfl)
    _ ≤ a * b + a + b := by linarith
    _ = _ := by ring

theorem abs_le_of_near {x a : ℝ} (hx : |x - 1| ≤ a) : |x| ≤ 1 + a := by
  have := abs_add_le (x - 1) 1
  rw [sub_add_cancel, abs_one] at this
  linarith

theorem small_defect {z y s a b : ℝ} (hs : 0 ≤ s) (hz : |z| ≤ s * a) (ha : 0 ≤ a) (hy : |y - 1| ≤ b) : |z * y| ≤ s * ((1 + a) * (1 + b) - 1) := by
  have hb := (abs_nonneg _).trans hy
  rw [abs_mul]
  have h1 := mul_le_mul hz (abs_le_of_near hy) (abs_nonneg _) (by positivity)
  have h2 : 0 ≤ s * b := by positivity
  nlinarith

theorem scaled_defect {z y v a b : ℝ} (hv : 0 < v) (hz : |z - v| ≤ v * a) (hy : |y - 1| ≤ b) : |z * y - v| ≤ v * ((1 + a) * (1 + b) - 1) := by
  have h1 : |z / v - 1| ≤ a := by
    rw [div_sub_one hv.ne', abs_div, abs_of_pos hv, div_le_iff₀ hv]; linarith
  have h2 := mul_le_mul_of_nonneg_left (prod_defect h1 hy) hv.le
  have h3 : v * |z / v * y - 1| = |z * y - v| := by
    nth_rewrite 1 [← abs_of_pos hv]; rw [← abs_mul]; congr 1; field_simp
  linarith

/-! ### moments of the local Maxwellian -/

section maxw
variable (pr : BGKParams S (PIdx Np1 Np2 Np3) Q) (c : PCoords S (PIdx Np1 Np2 Np3) ℝ) (w : S → ℝ) (f : Dist S (PIdx Np1 Np2 Np3) Q ℝ) (s : S) (q : Q)

theorem mixed_sum (hg : MomentumGrid c s start d) (hw : w s = d 0 * d 1 * d 2) (u : Fin 3 → ℝ) (v n : ℝ) (a b e : ℕ) :
    (∑ p : PIdx Np1 Np2 Np3, n * (((c.p1 s p - u 0) ^ a * axisFactor pdim v 0 (c.p1 s p - u 0)) *
      (((c.p2 s p - u 1) ^ b * axisFactor pdim v 1 (c.p2 s p - u 1)) * ((c.p3 s p - u 2) ^ e * axisFactor pdim v 2 (c.p3 s p - u 2))))) * w s =
    n * (axisSum pdim v u start d ![Np1, Np2, Np3] a 0 * (axisSum pdim v u start d ![Np1, Np2, Np3] b 1 *
      axisSum pdim v u start d ![Np1, Np2, Np3] e 2)) := by
  simp only [hg.p1, hg.p2, hg.p3, ← Finset.mul_sum]
  rw [sum_grid (fun j => (start 0 + (1 / 2 + (j : ℝ)) * d 0 - u 0) ^ a * axisFactor pdim v 0 (start 0 + (1 / 2 + (j : ℝ)) * d 0 - u 0))
    (fun j => (start 1 + (1 / 2 + (j : ℝ)) * d 1 - u 1) ^ b * axisFactor pdim v 1 (start 1 + (1 / 2 + (j : ℝ)) * d 1 - u 1))
    (fun j => (start 2 + (1 / 2 + (j : ℝ)) * d 2 - u 2) ^ e * axisFactor pdim v 2 (start 2 + (1 / 2 + (j : ℝ)) * d 2 - u 2)), hw]
  simp only [axisSum, Matrix.cons_val_zero, Matrix.cons_val_one, Matrix.cons_val]
  ring

variable {pr c w f s q}

/-- Bulk velocities lie on the grid. -/
theorem bulk_on_grid (hg : MomentumGrid c s start d) (hG : GasGrid pr.pdim ![Np1, Np2, Np3] start d) (hw : 0 ≤ w s) (hf : ∀ p, 0 ≤ f s p q) (i : Fin 3) :
    (start i ≤ gasBulk c w f s q i ∧ gasBulk c w f s q i ≤ start i + (![Np1, Np2, Np3] : Fin 3 → ℕ) i * d i) ∧
      (¬ i.val < pr.pdim → gasBulk c w f s q i = 0) := by
  have key : ∀ (x : PIdx Np1 Np2 Np3 → ℝ) (lo hi : ℝ), lo ≤ 0 → 0 ≤ hi → (∀ p, lo ≤ x p ∧ x p ≤ hi) →
      lo ≤ bgkBulk (density c w f s q) ((∑ p, f s p q * x p) * w s) ∧ bgkBulk (density c w f s q) ((∑ p, f s p q * x p) * w s) ≤ hi := by
    intro x lo hi hlo hhi hx
    have he := bgkEps_pos
    have hn : 0 ≤ density c w f s q := mul_nonneg (Finset.sum_nonneg fun p _ => hf p) hw
    have h1 : lo * density c w f s q ≤ (∑ p, f s p q * x p) * w s := by
      simp only [density, integralOverV]
      rw [← mul_assoc]
      refine mul_le_mul_of_nonneg_right ?_ hw
      rw [Finset.mul_sum]
      exact Finset.sum_le_sum fun p _ => by nlinarith [hf p, (hx p).1]
    have h2 : (∑ p, f s p q * x p) * w s ≤ hi * density c w f s q := by
      simp only [density, integralOverV]
      rw [← mul_assoc]
      refine mul_le_mul_of_nonneg_right ?_ hw
      rw [Finset.mul_sum]
      exact Finset.sum_le_sum fun p _ => by nlinarith [hf p, (hx p).2]
    simp only [bgkBulk]
    constructor
    · rw [le_div_iff₀ (by positivity)]; nlinarith
    · rw [div_le_iff₀ (by positivity)]; nlinarith
  have cell : ∀ {M : ℕ} [NeZero M] (a e : ℝ) (x : ZMod M), 0 < e → a ≤ a + (1 / 2 + (x.val : ℝ)) * e ∧ a + (1 / 2 + (x.val : ℝ)) * e ≤ a + M * e := by
    intro M _ a e x he
    have h1 : (x.val : ℝ) + 1 ≤ M := by exact_mod_cast x.val_lt
    have h2 : (0:ℝ) ≤ x.val := Nat.cast_nonneg _
    constructor
    · nlinarith
    · nlinarith [mul_le_mul_of_nonneg_right h1 he.le]
  have zero : ∀ (x : PIdx Np1 Np2 Np3 → ℝ), (∀ p, x p = 0) → bgkBulk (density c w f s q) ((∑ p, f s p q * x p) * w s) = 0 := by
    intro x hx; simp [hx, bgkBulk]
  fin_cases i
  · refine ⟨key (fun p => c.p1 s p) _ _ (hG.low 0) (hG.high 0) fun p => ?_, fun h => zero _ fun p => ?_⟩
    · rw [hg.p1]; exact cell _ _ p.1 (hG.width 0)
    · obtain ⟨e1, e2, e3⟩ := hG.rest 0 h
      have : p.1.val = 0 := by have := p.1.val_lt; simp at e1; omega
      rw [hg.p1, e2, e3, this]; norm_num
  · refine ⟨key (fun p => c.p2 s p) _ _ (hG.low 1) (hG.high 1) fun p => ?_, fun h => zero _ fun p => ?_⟩
    · rw [hg.p2]; exact cell _ _ p.2.1 (hG.width 1)
    · obtain ⟨e1, e2, e3⟩ := hG.rest 1 h
      have : p.2.1.val = 0 := by have := p.2.1.val_lt; simp at e1; omega
      rw [hg.p2, e2, e3, this]; norm_num
  · refine ⟨key (fun p => c.p3 s p) _ _ (hG.low 2) (hG.high 2) fun p => ?_, fun h => zero _ fun p => ?_⟩
    · rw [hg.p3]; exact cell _ _ p.2.2 (hG.width 2)
    · obtain ⟨e1, e2, e3⟩ := hG.rest 2 h
      have : p.2.2.val = 0 := by have := p.2.2.val_lt; simp at e1; omega
      rw [hg.p3, e2, e3, this]; norm_num

/-- The moments of the local Maxwellian in terms of those along the axes. -/
theorem maxwellian_moments (hg : MomentumGrid c s start d) (hG : GasGrid pr.pdim ![Np1, Np2, Np3] start d) (hw : w s = d 0 * d 1 * d 2)
    (hm : 0 < pr.mass s) (hk : 0 < pr.k) (hf : ∀ p, 0 ≤ f s p q) :
    let n := density c w f s q
    let u := gasBulk c w f s q
    let Z := axisSum pr.pdim (pr.k * gasTemp pr.pdim (pr.mass s) c w f s q / pr.mass s) u start d ![Np1, Np2, Np3]
    let M := localMaxwellian pr c w f
    density c w M s q = n * (Z 0 0 * (Z 0 1 * Z 0 2)) ∧
    momV1 c w M s q = u 0 * density c w M s q + n * (Z 1 0 * (Z 0 1 * Z 0 2)) ∧
    momV2 c w M s q = u 1 * density c w M s q + n * (Z 0 0 * (Z 1 1 * Z 0 2)) ∧
    momV3 c w M s q = u 2 * density c w M s q + n * (Z 0 0 * (Z 0 1 * Z 1 2)) ∧
    2 * energy c w M s q = (u 0 ^ 2 + u 1 ^ 2 + u 2 ^ 2) * density c w M s q
      + 2 * n * (u 0 * (Z 1 0 * (Z 0 1 * Z 0 2)) + u 1 * (Z 0 0 * (Z 1 1 * Z 0 2)) + u 2 * (Z 0 0 * (Z 0 1 * Z 1 2)))
      + n * (Z 2 0 * (Z 0 1 * Z 0 2) + Z 0 0 * (Z 2 1 * Z 0 2) + Z 0 0 * (Z 0 1 * Z 2 2)) := by
  intro n u Z M
  have hws : 0 ≤ w s := by rw [hw]; have := hG.width 0; have := hG.width 1; have := hG.width 2; positivity
  have hT : 0 < gasTemp pr.pdim (pr.mass s) c w f s q :=
    bgkEps_pos.trans_le (C43_temperature_positive pr.pdim (pr.mass s) hm.le c w f s q hws hf)
  set v := pr.k * gasTemp pr.pdim (pr.mass s) c w f s q / pr.mass s with hv
  have hM : ∀ p, M s p q = n * (axisFactor pr.pdim v 0 (c.p1 s p - u 0) * (axisFactor pr.pdim v 1 (c.p2 s p - u 1) *
      axisFactor pr.pdim v 2 (c.p3 s p - u 2))) := fun p => maxwellian_eq hG.dims hm hk hT _ _ _ _ _ _ _
  have X := mixed_sum (pdim := pr.pdim) c w s hg hw u v n
  have d0 : density c w M s q = n * (Z 0 0 * (Z 0 1 * Z 0 2)) := by
    have := X 0 0 0
    simp only [pow_zero, one_mul] at this
    rw [← this]
    simp only [density, integralOverV, hM]
  refine ⟨d0, ?_, ?_, ?_, ?_⟩
  · rw [d0, ← X 1 0 0, ← X 0 0 0]
    simp only [momV1, integralOverV, hM, ← mul_assoc (u 0), Finset.mul_sum, ← add_mul, ← Finset.sum_add_distrib]
    congr 1
    exact Finset.sum_congr rfl fun p _ => by ring
  · rw [d0, ← X 0 1 0, ← X 0 0 0]
    simp only [momV2, integralOverV, hM, ← mul_assoc (u 1), Finset.mul_sum, ← add_mul, ← Finset.sum_add_distrib]
    congr 1
    exact Finset.sum_congr rfl fun p _ => by ring
  · rw [d0, ← X 0 0 1, ← X 0 0 0]
    simp only [momV3, integralOverV, hM, ← mul_assoc (u 2), Finset.mul_sum, ← add_mul, ← Finset.sum_add_distrib]
    congr 1
    exact Finset.sum_congr rfl fun p _ => by ring
  · have e : ∀ a b e', n * (Z a 0 * (Z b 1 * Z e' 2)) = _ := fun a b e' => (X a b e').symm
    rw [show ∀ x0 x1 x2 y0 y1 y2 : ℝ, (u 0 ^ 2 + u 1 ^ 2 + u 2 ^ 2) * density c w M s q + 2 * n * (u 0 * x0 + u 1 * x1 + u 2 * x2) + n * (y0 + y1 + y2)
      = (u 0 ^ 2 + u 1 ^ 2 + u 2 ^ 2) * density c w M s q + 2 * u 0 * (n * x0) + 2 * u 1 * (n * x1) + 2 * u 2 * (n * x2) + n * y0 + n * y1 + n * y2 from
        fun x0 x1 x2 y0 y1 y2 => by ring]
    rw [d0, e, e, e, e, e, e, e]
    simp only [energy, integralOverV, hM, ← mul_assoc (2 : ℝ), ← mul_assoc (2 * u 0), ← mul_assoc (2 * u 1), ← mul_assoc (2 * u 2),
      ← mul_assoc (u 0 ^ 2 + u 1 ^ 2 + u 2 ^ 2), Finset.mul_sum, ← add_mul, ← Finset.sum_add_distrib]
    congr 1
    exact Finset.sum_congr rfl fun p _ => by ring

/-- How far products of axis sums are from those of the Gaussian. -/
theorem axis_products (hg : MomentumGrid c s start d) (hG : GasGrid pr.pdim ![Np1, Np2, Np3] start d) (hw : w s = d 0 * d 1 * d 2)
    (hm : 0 < pr.mass s) (hk : 0 < pr.k) (hf : ∀ p, 0 ≤ f s p q) :
    let u := gasBulk c w f s q
    let v := pr.k * gasTemp pr.pdim (pr.mass s) c w f s q / pr.mass s
    let Z := axisSum pr.pdim v u start d ![Np1, Np2, Np3]
    let Δ := gasDefect pr.pdim v u start d ![Np1, Np2, Np3]
    let one : Fin 3 → ℝ := fun i => if i.val < pr.pdim then v else 0
    0 < v ∧ 0 ≤ Δ ∧ |Z 0 0 * (Z 0 1 * Z 0 2) - 1| ≤ Δ ∧
    |Z 1 0 * (Z 0 1 * Z 0 2)| ≤ √v * Δ ∧ |Z 0 0 * (Z 1 1 * Z 0 2)| ≤ √v * Δ ∧ |Z 0 0 * (Z 0 1 * Z 1 2)| ≤ √v * Δ ∧
    |Z 2 0 * (Z 0 1 * Z 0 2) - one 0| ≤ v * Δ ∧ |Z 0 0 * (Z 2 1 * Z 0 2) - one 1| ≤ v * Δ ∧ |Z 0 0 * (Z 0 1 * Z 2 2) - one 2| ≤ v * Δ := by
  intro u v Z Δ one
  have hws : 0 ≤ w s := by rw [hw]; have := hG.width 0; have := hG.width 1; have := hG.width 2; positivity
  have hT : 0 < gasTemp pr.pdim (pr.mass s) c w f s q :=
    bgkEps_pos.trans_le (C43_temperature_positive pr.pdim (pr.mass s) hm.le c w f s q hws hf)
  have hv : 0 < v := div_pos (mul_pos hk hT) hm
  have B := fun i => axis_bounds hG hv i (bulk_on_grid hg hG hws hf i).1 (bulk_on_grid hg hG hws hf i).2
  set D := axisDefect pr.pdim v u start d ![Np1, Np2, Np3] with hD
  have hΔ : Δ = (1 + D 0) * ((1 + D 1) * (1 + D 2)) - 1 := by
    simp only [Δ, gasDefect, Fin.prod_univ_three, hD, axisDefect]; ring
  obtain ⟨p0, z0, m0, s0⟩ := B 0
  obtain ⟨p1, z1, m1, s1⟩ := B 1
  obtain ⟨p2, z2, m2, s2⟩ := B 2
  have hpos : 0 ≤ Δ := by
    rw [hΔ]; nlinarith [mul_nonneg p0 p1, mul_nonneg p1 p2, mul_nonneg p0 p2, mul_nonneg (mul_nonneg p0 p1) p2]
  have sv : 0 ≤ √v := Real.sqrt_nonneg v
  have three : ∀ {x y t : ℝ} {i j k : Fin 3}, (1 + D i) * ((1 + D j) * (1 + D k)) - 1 = Δ → |y - 1| ≤ D j → |t - 1| ≤ D k → 0 ≤ D i →
      (|x| ≤ √v * D i → |x * (y * t)| ≤ √v * Δ) ∧ (|x - v| ≤ v * D i → |x * (y * t) - v| ≤ v * Δ) ∧ (|x| ≤ v * D i → |x * (y * t)| ≤ v * Δ) := by
    intro x y t i j k hE hy ht hi
    have h := prod_defect hy ht
    have hE' : (1 + D i) * (1 + ((1 + D j) * (1 + D k) - 1)) - 1 = Δ := by rw [← hE]; ring
    refine ⟨fun hx => ?_, fun hx => ?_, fun hx => ?_⟩
    · rw [← hE']; exact small_defect sv hx hi h
    · rw [← hE']; exact scaled_defect hv hx h
    · rw [← hE']; exact small_defect hv.le hx hi h
  have two : ∀ {x y t : ℝ} {i j k : Fin 3}, (1 + D i) * ((1 + D j) * (1 + D k)) - 1 = Δ → |y - 1| ≤ D j → |t - 1| ≤ D k → 0 ≤ D i →
      |x - one i| ≤ v * D i → |x * (y * t) - one i| ≤ v * Δ := by
    intro x y t i j k hE hy ht hi hx
    by_cases h : i.val < pr.pdim
    · simp only [one, if_pos h] at hx ⊢
      exact (three hE hy ht hi).2.1 hx
    · simp only [one, if_neg h, sub_zero] at hx ⊢
      exact (three hE hy ht hi).2.2 hx
  have E0 : (1 + D 0) * ((1 + D 1) * (1 + D 2)) - 1 = Δ := hΔ.symm
  have E1 : (1 + D 1) * ((1 + D 0) * (1 + D 2)) - 1 = Δ := by rw [hΔ]; ring
  have E2 : (1 + D 2) * ((1 + D 0) * (1 + D 1)) - 1 = Δ := by rw [hΔ]; ring
  refine ⟨hv, hpos, ?_, (three E0 z1 z2 p0).1 m0, ?_, ?_, two E0 z1 z2 p0 s0, ?_, ?_⟩
  · have := prod_defect z0 (prod_defect z1 z2)
    rw [hΔ]; convert this using 2; ring
  · rw [mul_left_comm]; exact (three E1 z0 z2 p1).1 m1
  · rw [← mul_assoc, mul_comm]; exact (three E2 z0 z1 p2).1 m2
  · rw [mul_left_comm]; exact two E1 z0 z2 p1 s1
  · rw [← mul_assoc, mul_comm]; exact two E2 z0 z1 p2 s2

end maxw

end Bolt
