import Verif.Spec.Waves
import Verif.Proofs.Fields
import Mathlib.Analysis.SpecialFunctions.Trigonometric.Bounds
import Mathlib.Analysis.SpecialFunctions.Trigonometric.Deriv
import Mathlib.Analysis.Convex.SpecificFunctions.Deriv
import Mathlib.Analysis.Calculus.Deriv.MeanValue
import Mathlib.Data.ZMod.Basic

/-!
# Helper lemmas for C81
-/

set_option linter.unusedSectionVars false

namespace Bolt

open Real

theorem val_shift {N : ℕ} [NeZero N] (a b : ZMod N) (k : ℤ) (h : b = a + k) : ∃ c : ℤ, (b.val : ℝ) = a.val + k + N * c := by
  have h1 : (((b.val : ℤ) : ZMod N)) = ((a.val + k : ℤ) : ZMod N) := by
    push_cast
    rw [ZMod.natCast_zmod_val, ZMod.natCast_zmod_val, h]
  obtain ⟨c, hc⟩ := (ZMod.intCast_eq_intCast_iff_dvd_sub _ _ N).1 h1
  refine ⟨-c, ?_⟩
  have h2 : ((a.val + k - b.val : ℤ) : ℝ) = ((N * c : ℤ) : ℝ) := by rw [hc]
  push_cast at h2 ⊢
  linarith

/-- A wave of `m` periods around the grid does not see the wrap. -/
theorem cos_wrap {N : ℕ} [NeZero N] (m : ℤ) (th : ℝ) (hth : th = 2 * π * m / N) (a b : ZMod N) (k : ℤ) (h : b = a + k) (s r : ℝ) :
    cos (th * (b.val + s) + r) = cos (th * (a.val + k + s) + r) := by
  obtain ⟨c, hc⟩ := val_shift a b k h
  have hN : (N : ℝ) ≠ 0 := Nat.cast_ne_zero.2 (NeZero.ne N)
  have : th * (b.val + s) + r = th * (a.val + k + s) + r + ((m * c : ℤ) : ℝ) * (2 * π) := by
    rw [hc, hth]; push_cast; field_simp; ring
  rw [this, cos_add_int_mul_two_pi]

theorem cos_diff (x h : ℝ) : cos (x + h) - cos (x - h) = -(2 * sin h * sin x) := by
  rw [cos_add, cos_sub]; ring

/-! ## The two inequalities behind the speed of numerical waves -/

/-- `sin x / x` decreases on `(0, pi]`. -/
theorem sinc_anti {x y : ℝ} (hx : 0 < x) (hxy : x ≤ y) (hy : y ≤ π) : x * sin y ≤ y * sin x := by
  have hc : ConcaveOn ℝ (Set.Icc 0 π) sin := strictConcaveOn_sin_Icc.concaveOn
  have hy0 : 0 < y := lt_of_lt_of_le hx hxy
  have m0 : (0 : ℝ) ∈ Set.Icc 0 π := ⟨le_refl _, pi_pos.le⟩
  have my : y ∈ Set.Icc 0 π := ⟨hy0.le, hy⟩
  have w1 : 0 ≤ 1 - x / y := by rw [sub_nonneg, div_le_one hy0]; exact hxy
  have w2 : 0 ≤ x / y := by positivity
  have := hc.2 m0 my w1 w2 (by ring)
  simp only [smul_eq_mul, mul_zero, sin_zero, zero_add] at this
  rw [div_mul_cancel₀ _ hy0.ne'] at this
  rw [div_mul_eq_mul_div, div_le_iff₀ hy0] at this
  linarith

/-- The tangent inequality of the concave function `u ↦ sin² √u`. -/
theorem sin_sq_tangent {x X : ℝ} (hx : 0 ≤ x) (hx1 : x ≤ π / 2) (hX : 0 < X) (hX1 : X ≤ π / 2) :
    2 * X * sin x ^ 2 ≤ 2 * X * sin X ^ 2 + sin (2 * X) * (x ^ 2 - X ^ 2) := by
  let h : ℝ → ℝ := fun t => sin (2 * X) * t ^ 2 - 2 * X * sin t ^ 2
  have hd : ∀ t, HasDerivAt h (sin (2 * X) * (2 * t) - 2 * X * sin (2 * t)) t := by
    intro t
    have h1 : HasDerivAt (fun t : ℝ => t ^ 2) (2 * t) t := by simpa using hasDerivAt_pow 2 t
    have h2 : HasDerivAt (fun t : ℝ => sin t ^ 2) (2 * sin t * cos t) t := by
      have h3 := (hasDerivAt_sin t).pow 2
      have h4 : (fun t : ℝ => sin t ^ 2) = sin ^ 2 := rfl
      rw [h4]
      simpa using h3
    have := (h1.const_mul (sin (2 * X))).sub (h2.const_mul (2 * X))
    rw [sin_two_mul t]
    exact this
  have hcont : Continuous h := by fun_prop
  have key : h X ≤ h x := by
    rcases le_total x X with hxX | hxX
    · refine (antitoneOn_of_deriv_nonpos (convex_Icc 0 X) hcont.continuousOn (fun t _ => (hd t).differentiableAt.differentiableWithinAt)
        (fun t ht => ?_)) ⟨hx, hxX⟩ ⟨hX.le, le_refl _⟩ hxX
      rw [interior_Icc] at ht
      rw [(hd t).deriv]
      have := sinc_anti (x := 2 * t) (y := 2 * X) (by linarith [ht.1]) (by linarith [ht.2]) (by linarith)
      linarith
    · refine (monotoneOn_of_deriv_nonneg (convex_Icc X (π / 2)) hcont.continuousOn (fun t _ => (hd t).differentiableAt.differentiableWithinAt)
        (fun t ht => ?_)) ⟨le_refl _, hX1⟩ ⟨hxX, hx1⟩ hxX
      rw [interior_Icc] at ht
      rw [(hd t).deriv]
      have := sinc_anti (x := 2 * X) (y := 2 * t) (by linarith) (by linarith [ht.1]) (by linarith [ht.2])
      linarith
  simp only [h] at key
  linarith

/-- Two-dimensional Jensen inequality with weights of total at most one. -/
theorem sin_sq_jensen {a b x y X : ℝ} (ha : 0 ≤ a) (hb : 0 ≤ b) (hab : a + b ≤ 1) (hx : 0 ≤ x) (hx1 : x ≤ π / 2) (hy : 0 ≤ y)
    (hy1 : y ≤ π / 2) (hX : 0 ≤ X) (hX1 : X ≤ π / 2) (hXX : X ^ 2 = a * x ^ 2 + b * y ^ 2) :
    a * sin x ^ 2 + b * sin y ^ 2 ≤ sin X ^ 2 := by
  rcases hX.eq_or_lt with h0 | h0
  · have hz : a * x ^ 2 = 0 ∧ b * y ^ 2 = 0 := by
      rw [← h0] at hXX
      constructor <;> nlinarith [mul_nonneg ha (sq_nonneg x), mul_nonneg hb (sq_nonneg y)]
    have h1 : a * sin x ^ 2 ≤ a * x ^ 2 :=
      mul_le_mul_of_nonneg_left (pow_le_pow_left₀ (sin_nonneg_of_nonneg_of_le_pi hx (by linarith [pi_pos])) (sin_le hx) 2) ha
    have h2 : b * sin y ^ 2 ≤ b * y ^ 2 :=
      mul_le_mul_of_nonneg_left (pow_le_pow_left₀ (sin_nonneg_of_nonneg_of_le_pi hy (by linarith [pi_pos])) (sin_le hy) 2) hb
    nlinarith [sq_nonneg (sin X)]
  · have t1 := mul_le_mul_of_nonneg_left (sin_sq_tangent hx hx1 h0 hX1) ha
    have t2 := mul_le_mul_of_nonneg_left (sin_sq_tangent hy hy1 h0 hX1) hb
    -- the value of the tangent at zero is not negative
    have h3 : 0 ≤ 2 * X * sin X ^ 2 - sin (2 * X) * X ^ 2 := by
      have hs : 0 ≤ sin X := sin_nonneg_of_nonneg_of_le_pi hX (by linarith [pi_pos])
      have hc : X * cos X ≤ sin X := by
        rcases hX1.eq_or_lt with h | h
        · rw [h, cos_pi_div_two, mul_zero]; exact h ▸ hs
        · have := lt_tan h0 h
          have hcp : 0 < cos X := cos_pos_of_mem_Ioo ⟨by linarith [pi_pos], h⟩
          rw [tan_eq_sin_div_cos, lt_div_iff₀ hcp] at this
          exact this.le
      rw [sin_two_mul]
      have : 2 * X * sin X ^ 2 - 2 * sin X * cos X * X ^ 2 = 2 * X * sin X * (sin X - X * cos X) := by ring
      rw [this]
      exact mul_nonneg (mul_nonneg (by linarith) hs) (by linarith)
    have h4 : 2 * X * (a * sin x ^ 2 + b * sin y ^ 2) ≤ 2 * X * sin X ^ 2 := by
      have h5 : (a + b) * (2 * X * sin X ^ 2 - sin (2 * X) * X ^ 2) ≤ 2 * X * sin X ^ 2 - sin (2 * X) * X ^ 2 := by
        nlinarith
      have h6 : sin (2 * X) * X ^ 2 = sin (2 * X) * (a * x ^ 2 + b * y ^ 2) := by rw [hXX]
      linarith
    exact le_of_mul_le_mul_left h4 (by linarith)

theorem sin_sq_ge (x : ℝ) : x ^ 2 - x ^ 4 / 3 ≤ sin x ^ 2 := by
  wlog hx : 0 ≤ x with H
  · have := H (-x) (by linarith)
    simpa [Even.neg_pow (by decide : Even 4)] using this
  have h := sin_ge_sub_cube hx
  by_cases h1 : 0 ≤ x - x ^ 3 / 6
  · have := pow_le_pow_left₀ h1 h 2
    nlinarith [sq_nonneg (x ^ 3)]
  · have h2 : 0 < x := lt_of_le_of_ne hx (by rintro rfl; simp at h1)
    have h3 : 6 < x ^ 2 := by
      by_contra hc
      apply h1
      nlinarith
    nlinarith [sq_nonneg (sin x), sq_nonneg x]

theorem sin_sq_le_sq (x : ℝ) : sin x ^ 2 ≤ x ^ 2 := sq_le_sq.2 (abs_sin_le_abs)

end Bolt
