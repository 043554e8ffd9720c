import Verif.Model.FieldInit
import Verif.Props.FFT
import Verif.Props.Coupled
import Mathlib.Analysis.SpecialFunctions.Trigonometric.Bounds

/-! Lemmas about initial fields computed from the charge density. -/

set_option linter.unusedSectionVars false

namespace Bolt

open Complex Finset ZMod

variable {N1 N2 : ℕ} [NeZero N1] [NeZero N2]

theorem coeff_shift (x : ZMod N1 × ZMod N2 → ℂ) (a k : ZMod N1 × ZMod N2) : coeff (fun j => x (j + a)) k = chi a k * coeff x k := by
  rw [coeff_eq, coeff_eq, afFft2_eq, afFft2_eq, ← Equiv.sum_comp (Equiv.addRight (-a)), ← mul_div_assoc, mul_sum]
  congr 1
  refine sum_congr rfl fun j _ => ?_
  simp only [Equiv.coe_addRight, neg_add_cancel_right]
  rw [chi_add_left, chi_neg_neg]; ring

theorem coeff_add (x y : ZMod N1 × ZMod N2 → ℂ) (k : ZMod N1 × ZMod N2) : coeff (fun j => x j + y j) k = coeff x k + coeff y k := by
  simp only [coeff_eq, afFft2_eq, add_mul, sum_add_distrib, add_div]

theorem coeff_smul (c : ℂ) (x : ZMod N1 × ZMod N2 → ℂ) (k : ZMod N1 × ZMod N2) : coeff (fun j => c * x j) k = c * coeff x k := by
  simp only [coeff_eq, afFft2_eq, mul_assoc, ← mul_sum, mul_div_assoc]

theorem coeff_synthesis (x : ZMod N1 × ZMod N2 → ℂ) (j : ZMod N1 × ZMod N2) : x j = ∑ k, coeff x k * chi j k := by
  have h := afIfft2_afFft2 x j
  rw [afIfft2_eq] at h
  simp only [coeff_eq, div_mul_eq_mul_div]
  rw [← sum_div, h, mul_div_cancel_left₀ _ cardN]

theorem coeff_const (c : ℂ) (k : ZMod N1 × ZMod N2) (hk : k ≠ 0) : coeff (fun _ : ZMod N1 × ZMod N2 => c) k = 0 := by
  rw [coeff_eq, afFft2_eq, ← mul_sum]
  have h := sum_chi (N1 := N1) (N2 := N2) (-k)
  rw [if_neg (neg_ne_zero.mpr hk)] at h
  simp only [chi_comm (-k)] at h
  rw [h, mul_zero, zero_div]

/-- A grid function is uniform if all its coefficients but the mean vanish. -/
theorem uniform_of_coeff (x : ZMod N1 × ZMod N2 → ℝ) (h : ∀ k, k ≠ 0 → coeff (fun j => (x j : ℂ)) k = 0) (i j : ZMod N1 × ZMod N2) : x i = x j := by
  have e : ∀ j, (x j : ℂ) = coeff (fun j => (x j : ℂ)) 0 := by
    intro j
    conv_lhs => rw [coeff_synthesis (fun j => (x j : ℂ)) j]
    rw [sum_eq_single 0]
    · rw [chi_zero, mul_one]
    · intro k _ hk; rw [h k hk, zero_mul]
    · intro h; exact absurd (mem_univ _) h
  exact_mod_cast (e i).trans (e j).symm

theorem stdAddChar_wave {N : ℕ} [NeZero N] {d : ℝ} (hd : d ≠ 0) (k : ZMod N) : stdAddChar k = exp ((waveNumber d k * d : ℝ) * I) := by
  have hN : (N : ℂ) ≠ 0 := Nat.cast_ne_zero.mpr (NeZero.ne N)
  have hd' : (d : ℂ) ≠ 0 := by exact_mod_cast hd
  have h := stdAddChar_coe (N := N) k.valMinAbs
  rw [ZMod.coe_valMinAbs] at h
  rw [h, waveNumber]
  congr 1
  push_cast
  field_simp

theorem chi_one_left {d : ℝ} (hd : d ≠ 0) (k : ZMod N1 × ZMod N2) : chi ((1, 0) : ZMod N1 × ZMod N2) k = exp ((waveNumber d k.1 * d : ℝ) * I) := by
  rw [← stdAddChar_wave hd, chi]; simp

theorem chi_one_right {d : ℝ} (hd : d ≠ 0) (k : ZMod N1 × ZMod N2) : chi ((0, 1) : ZMod N1 × ZMod N2) k = exp ((waveNumber d k.2 * d : ℝ) * I) := by
  rw [← stdAddChar_wave hd, chi]; simp

theorem chi_neg_left (a k : ZMod N1 × ZMod N2) (z : ℂ) (h : chi a k = exp z) : chi (-a) k = exp (-z) := by
  rw [exp_neg, ← h, chi_neg_comm]
  exact (inv_eq_of_mul_eq_one_right (chi_mul_neg a k)).symm

/-- The coefficient of a central difference. -/
theorem coeff_central {z d : ℝ} (x : ZMod N1 × ZMod N2 → ℝ) (a k : ZMod N1 × ZMod N2) (h : chi a k = exp (z * I)) :
    coeff (fun j => (((x (j + a) - x (j - a)) / (2 * d) : ℝ) : ℂ)) k = I * (Real.sin z / d : ℝ) * coeff (fun j => (x j : ℂ)) k := by
  have e : (fun j => (((x (j + a) - x (j - a)) / (2 * d) : ℝ) : ℂ))
      = fun j => ((1 / (2 * d) : ℝ) : ℂ) * ((x (j + a) : ℂ) + (-1) * (x (j + -a) : ℂ)) := by
    funext j; rw [← sub_eq_add_neg j a]; push_cast; ring
  rw [e, coeff_smul, coeff_add, coeff_smul, coeff_shift (fun j => (x j : ℂ)) a, coeff_shift (fun j => (x j : ℂ)) (-a), chi_neg_left a k _ h, h]
  have hs : exp (z * I) - exp (-(z * I)) = 2 * I * Complex.sin z := by
    rw [Complex.sin, neg_mul]
    linear_combination (-(exp (-(z * I)) - exp (z * I))) * I_sq
  push_cast
  linear_combination (1 / (2 * d) * coeff (fun j => (x j : ℂ)) k) * hs

theorem fftfreq_sq {N : ℕ} [NeZero N] (d : ℝ) (k : ZMod N) : (2 * Real.pi * fftfreq N d k) ^ 2 = waveNumber d k ^ 2 := by
  by_cases h : Nyquist k
  · have hn : 0 < N := Nat.pos_of_ne_zero (NeZero.ne N)
    rw [fftfreq, waveNumber, ZMod.valMinAbs_def_pos]
    unfold Nyquist at h
    have h1 : ¬ k.val < (N - 1) / 2 + 1 := by omega
    have h2 : k.val ≤ N / 2 := by omega
    rw [if_neg h1, if_pos h2]
    have : (N : ℝ) = 2 * k.val := by exact_mod_cast h.symm
    rw [this]
    push_cast
    ring
  · rw [fftfreq_eq d k h]

theorem sin_nyquist {N : ℕ} [NeZero N] {d : ℝ} (hd : d ≠ 0) (k : ZMod N) (h : Nyquist k) : Real.sin (waveNumber d k * d) = 0 := by
  have hn : 0 < N := Nat.pos_of_ne_zero (NeZero.ne N)
  rw [waveNumber, ZMod.valMinAbs_def_pos]
  unfold Nyquist at h
  have h2 : k.val ≤ N / 2 := by omega
  rw [if_pos h2]
  have hN : (N : ℝ) ≠ 0 := Nat.cast_ne_zero.mpr (NeZero.ne N)
  have e : (N : ℝ) = 2 * k.val := by exact_mod_cast h.symm
  have hk : (k.val : ℝ) ≠ 0 := by intro h0; rw [h0, mul_zero] at e; exact hN e
  have : 2 * Real.pi * (((k.val : ℕ) : ℤ) : ℝ) / (N * d) * d = Real.pi := by
    rw [e]; push_cast; field_simp
  rw [this, Real.sin_pi]

theorem waveNumber_ne_zero {N : ℕ} [NeZero N] {d : ℝ} (hd : d ≠ 0) (k : ZMod N) (h : k ≠ 0) : waveNumber d k ≠ 0 := by
  intro h0
  have := fftfreq_sq d k
  rw [h0] at this
  have h1 : 2 * Real.pi * fftfreq N d k = 0 := by simpa using this
  rcases mul_eq_zero.mp h1 with h2 | h2
  · exact absurd h2 (by positivity)
  · exact fftfreq_ne_zero hd k h h2

theorem mul_sin_le (x : ℝ) : x * Real.sin x ≤ x ^ 2 ∧ (x ≠ 0 → x * Real.sin x < x ^ 2) := by
  have key : ∀ x : ℝ, 0 < x → x * Real.sin x < x ^ 2 := fun x hx => by
    have := mul_lt_mul_of_pos_left (Real.sin_lt hx) hx
    rwa [← sq] at this
  have st : x ≠ 0 → x * Real.sin x < x ^ 2 := by
    intro h
    rcases lt_or_gt_of_ne h with h | h
    · have := key (-x) (neg_pos.mpr h)
      rw [Real.sin_neg] at this
      linarith [this, neg_sq x, show -x * -Real.sin x = x * Real.sin x by ring]
    · exact key x h
  refine ⟨?_, st⟩
  by_cases h : x = 0
  · simp [h]
  · exact (st h).le

end Bolt
