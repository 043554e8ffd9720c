import Verif.Spec.RungeKutta
import Mathlib.Analysis.SpecialFunctions.Exponential
import Mathlib.Analysis.Calculus.MeanValue
import Mathlib.Analysis.Normed.Operator.Mul
import Mathlib.Tactic.Module

/-!
# Runge–Kutta steps of linear systems in Banach spaces: error after many steps
-/

set_option linter.unusedSectionVars false

namespace Bolt

open Finset Nat

section algebra
variable {𝔸 : Type} [NormedRing 𝔸] [NormedAlgebra ℝ 𝔸] [CompleteSpace 𝔸]

/-- One step of `x' = A x + c` is `x + ψ(h A) (h (A x + c))`. -/
noncomputable def _root_.Bolt.LinScheme.psi {𝔸 : Type} [Ring 𝔸] [Algebra ℝ 𝔸] : LinScheme → 𝔸 → 𝔸
  | .rk2, X => 1 + (1 / 2 : ℝ) • X
  | .rk4, X => 1 + (1 / 2 : ℝ) • X + (1 / 6 : ℝ) • X ^ 2 + (1 / 24 : ℝ) • X ^ 3
  | .rk5, X => 1 + (1 / 2 : ℝ) • X + (1 / 6 : ℝ) • X ^ 2 + (1 / 24 : ℝ) • X ^ 3 + (1 / 120 : ℝ) • X ^ 4 + (1 / 640 : ℝ) • X ^ 5

theorem lin_exp_tail (X : 𝔸) (p : ℕ) (hp : 0 < p) :
    ‖NormedSpace.exp X - ∑ k ∈ range p, ((k.factorial : ℝ)⁻¹) • X ^ k‖ ≤ ‖X‖ ^ p * Real.exp ‖X‖ := by
  have h := NormedSpace.exp_series_hasSum_exp' (𝕂 := ℝ) X
  have h' := (hasSum_nat_add_iff' p).mpr h
  rw [← h'.tsum_eq]
  have hr := NormedSpace.expSeries_div_hasSum_exp (𝔸 := ℝ) ‖X‖
  rw [← Real.exp_eq_exp_ℝ] at hr
  refine tsum_of_norm_bounded (hr.mul_left (‖X‖ ^ p)) fun k => ?_
  rw [norm_smul, norm_inv, Real.norm_natCast]
  have h1 : ‖X ^ (k + p)‖ ≤ ‖X‖ ^ (k + p) := norm_pow_le' X (by omega)
  have h2 : (k.factorial : ℝ) ≤ ((k + p).factorial : ℝ) := by exact_mod_cast Nat.factorial_le (by omega)
  have h3 : (0 : ℝ) < k.factorial := by exact_mod_cast k.factorial_pos
  calc ((k + p).factorial : ℝ)⁻¹ * ‖X ^ (k + p)‖ ≤ (k.factorial : ℝ)⁻¹ * ‖X‖ ^ (k + p) := by gcongr
    _ = ‖X‖ ^ p * (‖X‖ ^ k / k.factorial) := by rw [pow_add]; ring

theorem norm_exp_le_two (h1 : ‖(1 : 𝔸)‖ ≤ 1) (X : 𝔸) (b : ℝ) (hb : ‖X‖ ≤ b) : ‖NormedSpace.exp X‖ ≤ Real.exp (3 * b) := by
  have h := lin_exp_tail X 1 one_pos
  simp only [sum_range_one, Nat.factorial_zero, Nat.cast_one, inv_one, one_smul, pow_zero, pow_one] at h
  have hx := norm_nonneg X
  have e : ‖NormedSpace.exp X‖ ≤ 1 + ‖X‖ * Real.exp ‖X‖ := by
    calc ‖NormedSpace.exp X‖ = ‖1 + (NormedSpace.exp X - 1)‖ := by rw [add_sub_cancel]
      _ ≤ _ := (norm_add_le _ _).trans (add_le_add h1 h)
  have e1 : ‖X‖ + 1 ≤ Real.exp ‖X‖ := Real.add_one_le_exp _
  have e0 : 1 ≤ Real.exp ‖X‖ := Real.one_le_exp hx
  have e2 : Real.exp (2 * ‖X‖) = Real.exp ‖X‖ * Real.exp ‖X‖ := by rw [← Real.exp_add]; ring_nf
  have e3 : Real.exp (2 * ‖X‖) ≤ Real.exp (3 * b) := Real.exp_le_exp.mpr (by linarith)
  nlinarith

theorem psi_sub_one (m : LinScheme) (X : 𝔸) : ‖m.psi X - 1‖ ≤ ‖X‖ * Real.exp ‖X‖ := by
  have hx := norm_nonneg X
  have hs := Real.sum_le_exp_of_nonneg hx 5
  simp only [sum_range_succ, sum_range_zero, Nat.factorial, pow_zero, pow_one] at hs
  norm_num at hs
  have P : ∀ k, 0 ≤ ‖X‖ ^ k := fun k => pow_nonneg hx k
  have nn : ∀ (c : ℝ) (k : ℕ), 0 ≤ c → ‖c • X ^ (k + 1)‖ ≤ c * ‖X‖ ^ (k + 1) := fun c k hc => by
    rw [norm_smul, Real.norm_of_nonneg hc]
    exact mul_le_mul_of_nonneg_left (norm_pow_le' X k.succ_pos) hc
  have n1 : ‖(1 / 2 : ℝ) • X‖ ≤ 1 / 2 * ‖X‖ := by rw [norm_smul, Real.norm_of_nonneg (by norm_num)]
  have n2 := nn (1 / 6) 1 (by norm_num)
  have n3 := nn (1 / 24) 2 (by norm_num)
  have n4 := nn (1 / 120) 3 (by norm_num)
  have n5 := nn (1 / 640) 4 (by norm_num)
  have hm : ‖X‖ * (1 + ‖X‖ + ‖X‖ ^ 2 / 2 + ‖X‖ ^ 3 / 6 + ‖X‖ ^ 4 / 24) ≤ ‖X‖ * Real.exp ‖X‖ := mul_le_mul_of_nonneg_left hs hx
  refine le_trans ?_ hm
  cases m
  · simp only [LinScheme.psi, add_sub_cancel_left]
    nlinarith [P 2, P 3, P 4, P 5]
  · have : (LinScheme.psi .rk4 X : 𝔸) - 1 = (1 / 2 : ℝ) • X + (1 / 6 : ℝ) • X ^ 2 + (1 / 24 : ℝ) • X ^ 3 := by simp only [LinScheme.psi]; abel
    rw [this]
    refine norm_add₃_le.trans ?_
    nlinarith [P 2, P 3, P 4, P 5]
  · have : (LinScheme.psi .rk5 X : 𝔸) - 1 =
        ((1 / 2 : ℝ) • X + (1 / 6 : ℝ) • X ^ 2 + (1 / 24 : ℝ) • X ^ 3) + (1 / 120 : ℝ) • X ^ 4 + (1 / 640 : ℝ) • X ^ 5 := by simp only [LinScheme.psi]; abel
    rw [this]
    refine norm_add₃_le.trans ((add_le_add_left (add_le_add_left norm_add₃_le _) _).trans ?_)
    nlinarith [P 2, P 3, P 4, P 5]

/-- The growth of a step whose slope is frozen in part: `1 + ψ(X) Y`. -/
theorem lin_step_norm (h1 : ‖(1 : 𝔸)‖ ≤ 1) (m : LinScheme) (X Y : 𝔸) (b : ℝ) (hX : ‖X‖ ≤ b) (hY : ‖Y‖ ≤ b) : ‖1 + m.psi X * Y‖ ≤ Real.exp (3 * b) := by
  have hb : 0 ≤ b := (norm_nonneg X).trans hX
  have hp : ‖m.psi X‖ ≤ 1 + b * Real.exp b := by
    calc ‖m.psi X‖ = ‖1 + (m.psi X - 1)‖ := by rw [add_sub_cancel]
      _ ≤ 1 + ‖X‖ * Real.exp ‖X‖ := (norm_add_le _ _).trans (add_le_add h1 (psi_sub_one m X))
      _ ≤ _ := by gcongr
  have h2 : ‖1 + m.psi X * Y‖ ≤ 1 + (1 + b * Real.exp b) * b := by
    refine (norm_add_le _ _).trans (add_le_add h1 ((norm_mul_le _ _).trans ?_))
    gcongr
  refine h2.trans ?_
  have e1 : b + 1 ≤ Real.exp b := Real.add_one_le_exp _
  have e0 : 1 ≤ Real.exp b := Real.one_le_exp hb
  have e3 : Real.exp (3 * b) = Real.exp b * (Real.exp b * Real.exp b) := by rw [← Real.exp_add, ← Real.exp_add]; ring_nf
  rw [e3]
  have e2 : 1 + b * Real.exp b ≤ Real.exp b * Real.exp b := by nlinarith
  nlinarith

/-- Local error of the full method. -/
theorem lin_step_local (m : LinScheme) (X : 𝔸) : ‖1 + m.psi X * X - NormedSpace.exp X‖ ≤ 2 * ‖X‖ ^ (m.order + 1) * Real.exp ‖X‖ := by
  have hx := norm_nonneg X
  have e0 : 1 ≤ Real.exp ‖X‖ := Real.one_le_exp hx
  cases m
  · have h := lin_exp_tail X 3 (by norm_num)
    have e : 1 + LinScheme.psi .rk2 X * X - NormedSpace.exp X = -(NormedSpace.exp X - ∑ k ∈ range 3, ((k.factorial : ℝ)⁻¹) • X ^ k) := by
      simp only [LinScheme.psi, sum_range_succ, sum_range_zero, Nat.factorial, add_mul, one_mul, smul_mul_assoc, ← pow_two, pow_zero, pow_one]
      norm_num
      abel
    rw [e, norm_neg]
    simp only [LinScheme.order]
    refine h.trans ?_
    have := mul_nonneg (pow_nonneg hx 3) (zero_le_one.trans e0)
    norm_num
    linarith
  · have h := lin_exp_tail X 5 (by norm_num)
    have e : 1 + LinScheme.psi .rk4 X * X - NormedSpace.exp X = -(NormedSpace.exp X - ∑ k ∈ range 5, ((k.factorial : ℝ)⁻¹) • X ^ k) := by
      simp only [LinScheme.psi, sum_range_succ, sum_range_zero, Nat.factorial, add_mul, one_mul, smul_mul_assoc, ← pow_succ, ← pow_two, pow_zero, pow_one]
      norm_num
      abel
    rw [e, norm_neg]
    simp only [LinScheme.order]
    refine h.trans ?_
    have := mul_nonneg (pow_nonneg hx 5) (zero_le_one.trans e0)
    norm_num
    linarith
  · have h := lin_exp_tail X 6 (by norm_num)
    have e : 1 + LinScheme.psi .rk5 X * X - NormedSpace.exp X =
        -(NormedSpace.exp X - ∑ k ∈ range 6, ((k.factorial : ℝ)⁻¹) • X ^ k) + (1 / 640 : ℝ) • X ^ 6 := by
      simp only [LinScheme.psi, sum_range_succ, sum_range_zero, Nat.factorial, add_mul, one_mul, smul_mul_assoc, ← pow_succ, ← pow_two, pow_zero, pow_one]
      norm_num
      abel
    rw [e]
    refine (norm_add_le _ _).trans ?_
    rw [norm_neg, norm_smul, Real.norm_of_nonneg (by norm_num)]
    simp only [LinScheme.order]
    have h6 : ‖X ^ 6‖ ≤ ‖X‖ ^ 6 := norm_pow_le' X (by norm_num)
    have := mul_le_mul_of_nonneg_left e0 (pow_nonneg hx 6)
    have h' : ‖NormedSpace.exp X - ∑ k ∈ range 6, ((k.factorial : ℝ)⁻¹) • X ^ k‖ ≤ ‖X‖ ^ 6 * Real.exp ‖X‖ := h
    have t6 : ‖X‖ ^ (5 + 1) = ‖X‖ ^ 6 := rfl
    rw [t6]
    generalize ‖NormedSpace.exp X - ∑ k ∈ range 6, ((k.factorial : ℝ)⁻¹) • X ^ k‖ = u at h' ⊢
    have := pow_nonneg hx 6
    linarith

/-- Local error when part of the slope is frozen: first order only. -/
theorem lin_frozen_local (m : LinScheme) (X Y : 𝔸) (b : ℝ) (hX : ‖X‖ ≤ b) (hY : ‖Y‖ ≤ b) :
    ‖1 + m.psi X * Y - NormedSpace.exp Y‖ ≤ 2 * b ^ 2 * Real.exp b := by
  have hb : 0 ≤ b := (norm_nonneg X).trans hX
  have h := lin_exp_tail Y 2 (by norm_num)
  have e : 1 + m.psi X * Y - NormedSpace.exp Y = (m.psi X - 1) * Y - (NormedSpace.exp Y - ∑ k ∈ range 2, ((k.factorial : ℝ)⁻¹) • Y ^ k) := by
    simp only [sum_range_succ, sum_range_zero, Nat.factorial, sub_mul, one_mul, pow_zero, pow_one]
    norm_num
    abel
  rw [e]
  refine (norm_sub_le _ _).trans ?_
  have h1 : ‖(m.psi X - 1) * Y‖ ≤ b * Real.exp b * b := by
    refine (norm_mul_le _ _).trans ?_
    have := (psi_sub_one m X).trans (mul_le_mul hX (Real.exp_le_exp.mpr hX) (Real.exp_pos _).le hb)
    gcongr
  have h2 : ‖Y‖ ^ 2 * Real.exp ‖Y‖ ≤ b ^ 2 * Real.exp b := by gcongr
  linarith

theorem pow_sub_pow_norm (S E : 𝔸) (M δ : ℝ) (h1 : ‖(1 : 𝔸)‖ ≤ 1) (hS : ‖S‖ ≤ M) (hE : ‖E‖ ≤ M) (hd : ‖S - E‖ ≤ δ) (n : ℕ) :
    ‖S ^ (n + 1) - E ^ (n + 1)‖ ≤ (n + 1 : ℕ) * δ * M ^ n := by
  have hM : 0 ≤ M := (norm_nonneg S).trans hS
  have hδ : 0 ≤ δ := (norm_nonneg _).trans hd
  have hpow : ∀ k, ‖E ^ k‖ ≤ M ^ k := by
    intro k
    induction k with
    | zero => simpa using h1
    | succ k ih => rw [pow_succ, pow_succ]; exact (norm_mul_le _ _).trans (mul_le_mul ih hE (norm_nonneg _) (pow_nonneg hM k))
  induction n with
  | zero => simpa using hd
  | succ n ih =>
    have e : S ^ (n + 1 + 1) - E ^ (n + 1 + 1) = S * (S ^ (n + 1) - E ^ (n + 1)) + (S - E) * E ^ (n + 1) := by
      rw [pow_succ' S (n + 1), pow_succ' E (n + 1), mul_sub, sub_mul]; abel
    rw [e]
    refine (norm_add_le _ _).trans ?_
    have a1 : ‖S * (S ^ (n + 1) - E ^ (n + 1))‖ ≤ M * ((n + 1 : ℕ) * δ * M ^ n) := (norm_mul_le _ _).trans (mul_le_mul hS ih (norm_nonneg _) hM)
    have a2 : ‖(S - E) * E ^ (n + 1)‖ ≤ δ * M ^ (n + 1) := (norm_mul_le _ _).trans (mul_le_mul hd (hpow _) (norm_nonneg _) hδ)
    calc _ ≤ M * ((n + 1 : ℕ) * δ * M ^ n) + δ * M ^ (n + 1) := add_le_add a1 a2
      _ = ((n + 1 + 1 : ℕ) : ℝ) * δ * M ^ (n + 1) := by push_cast; ring

/-- Global error of `n` steps, from the local error `2 b^(p+1) e^b`. -/
theorem lin_global_error (h1 : ‖(1 : 𝔸)‖ ≤ 1) (S E : 𝔸) (a : ℝ) (p n : ℕ) (hn : 0 < n) (ha : 0 ≤ a) (hS : ‖S‖ ≤ Real.exp (3 * (a / n))) (hE : ‖E‖ ≤ Real.exp (3 * (a / n)))
    (hd : ‖S - E‖ ≤ 2 * (a / n) ^ (p + 1) * Real.exp (a / n)) : ‖S ^ n - E ^ n‖ ≤ 2 * a ^ (p + 1) * Real.exp (3 * a) / n ^ p := by
  obtain ⟨k, rfl⟩ : ∃ k, n = k + 1 := ⟨n - 1, by omega⟩
  have hk : (0 : ℝ) < ((k + 1 : ℕ) : ℝ) := by exact_mod_cast hn
  refine (pow_sub_pow_norm S E _ _ h1 hS hE hd k).trans ?_
  set N : ℝ := ((k + 1 : ℕ) : ℝ) with hN
  have e : Real.exp (a / N) * Real.exp (3 * (a / N)) ^ k ≤ Real.exp (3 * a) := by
    rw [← Real.exp_nat_mul, ← Real.exp_add]
    refine Real.exp_le_exp.mpr ?_
    have hq : 0 ≤ a / N := div_nonneg ha hk.le
    have : 3 * a = (k : ℝ) * (3 * (a / N)) + 3 * (a / N) := by
      have : (k : ℝ) = N - 1 := by rw [hN]; push_cast; ring
      rw [this]; field_simp; ring
    rw [this]; linarith
  have hp : 0 ≤ N * (2 * (a / N) ^ (p + 1)) := by positivity
  calc N * (2 * (a / N) ^ (p + 1) * Real.exp (a / N)) * Real.exp (3 * (a / N)) ^ k
      = N * (2 * (a / N) ^ (p + 1)) * (Real.exp (a / N) * Real.exp (3 * (a / N)) ^ k) := by ring
    _ ≤ N * (2 * (a / N) ^ (p + 1)) * Real.exp (3 * a) := mul_le_mul_of_nonneg_left e hp
    _ = _ := by rw [div_pow, pow_succ N]; field_simp

end algebra

section space

variable {E : Type} [NormedAddCommGroup E] [NormedSpace ℝ E] [CompleteSpace E]

/-- One step of any of the methods for `x' = A x + c`. -/
theorem tableau_affine (m : LinScheme) (A : E →L[ℝ] E) (c x : E) (t h : ℝ) :
    m.tableau.step (fun _ y => A y + c) t x h = x + (m.psi (h • A) : E →L[ℝ] E) (h • (A x + c)) := by
  cases m
  · simp only [LinScheme.tableau, Tableau.step, slopes, combine, LinScheme.psi, List.nil_append, List.cons_append, map_add, map_smul, add_apply,
      smul_apply, one_apply_eq_self, map_zero]
    module
  · simp only [LinScheme.tableau, Tableau.step, slopes, combine, LinScheme.psi, List.nil_append, List.cons_append, map_add, map_smul, add_apply,
      smul_apply, one_apply_eq_self, pow_succ, pow_zero, one_mul, mul_apply_eq_comp, map_zero]
    module
  · simp only [LinScheme.tableau, Tableau.step, slopes, combine, LinScheme.psi, List.nil_append, List.cons_append, map_add, map_smul, add_apply,
      smul_apply, one_apply_eq_self, pow_succ, pow_zero, one_mul, mul_apply_eq_comp, map_zero]
    module

/-- Solutions of `y' = A y` are given by the exponential. -/
theorem solution_eq_exp (A : E →L[ℝ] E) (y : ℝ → E) (hy : ∀ t, HasDerivAt y (A (y t)) t) (t : ℝ) : y t = NormedSpace.exp (t • A) (y 0) := by
  have hd : ∀ t, HasDerivAt (fun t => NormedSpace.exp (t • (-A)) (y t)) 0 t := by
    intro t
    have h1 : HasDerivAt (fun t : ℝ => NormedSpace.exp (t • (-A))) (NormedSpace.exp (t • (-A)) * -A) t := hasDerivAt_exp_smul_const (𝕂 := ℝ) (-A) t
    have h2 := h1.clm_apply (hy t)
    refine h2.congr_deriv ?_
    simp
  have hc := is_const_of_deriv_eq_zero (fun t => (hd t).differentiableAt) (fun t => (hd t).deriv) t 0
  simp only [zero_smul, NormedSpace.exp_zero, one_apply_eq_self] at hc
  rw [← hc, ← mul_apply_eq_comp, smul_neg]
  have : NormedSpace.exp (t • A) * NormedSpace.exp (-(t • A)) = 1 := by
    let _ : NormedAlgebra ℚ (E →L[ℝ] E) := NormedAlgebra.restrictScalars ℚ ℝ _
    rw [← NormedSpace.exp_add_of_commute ((Commute.refl _).neg_right), add_neg_cancel, NormedSpace.exp_zero]
  rw [this, one_apply_eq_self]

theorem exp_solves (A : E →L[ℝ] E) (x : E) (t : ℝ) : HasDerivAt (fun t : ℝ => NormedSpace.exp (t • A) x) (A (NormedSpace.exp (t • A) x)) t := by
  have h := (hasDerivAt_exp_smul_const' (𝕂 := ℝ) A t).clm_apply (hasDerivAt_const t x)
  simpa using h

theorem exp_at_zero (A : E →L[ℝ] E) (x : E) : NormedSpace.exp ((0 : ℝ) • A) x = x := by
  rw [zero_smul, NormedSpace.exp_zero, one_apply_eq_self]

/-- `n` steps of size `T / n` of the method, where the slope is `(L - N) x` plus the value of `N x` at the beginning of the step: first order; with `N = 0`: the order of
the method. -/
theorem lin_iterate_error (m : LinScheme) (L N : E →L[ℝ] E) (Λ : ℝ) (hL : ‖L‖ ≤ Λ) (h0 : ‖L - N‖ ≤ Λ) (p : ℕ) (hp : p = 1 ∨ (N = 0 ∧ p = m.order)) (y : ℝ → E)
    (hy : ∀ t, HasDerivAt y (L (y t)) t) (T : ℝ) (n : ℕ) (hn : 0 < n) (t : ℕ → ℝ) (x : ℕ → E) (hx0 : x 0 = y 0)
    (hx : ∀ k, x (k + 1) = m.tableau.step (fun _ z => (L - N) z + N (x k)) (t k) (x k) (T / n)) :
    ‖x n - y T‖ ≤ 2 * (Λ * |T|) ^ (p + 1) * Real.exp (3 * (Λ * |T|)) / n ^ p * ‖y 0‖ := by
  have hn' : (0 : ℝ) < n := by exact_mod_cast hn
  set S : E →L[ℝ] E := 1 + m.psi ((T / n) • (L - N)) * ((T / n) • L) with hS
  set R : E →L[ℝ] E := NormedSpace.exp ((T / n) • L) with hR
  have hxk : ∀ k, x k = (S ^ k) (y 0) := by
    intro k
    induction k with
    | zero => simpa using hx0
    | succ k ih =>
      rw [hx k, tableau_affine, _root_.pow_succ', mul_apply_eq_comp, ← ih, hS]
      simp only [add_apply, one_apply_eq_self, mul_apply_eq_comp, smul_apply, sub_apply,
        sub_add_cancel]
  have hyT : y T = (R ^ n) (y 0) := by
    let _ : NormedAlgebra ℚ (E →L[ℝ] E) := NormedAlgebra.restrictScalars ℚ ℝ _
    rw [solution_eq_exp L y hy T, hR, ← NormedSpace.exp_nsmul]
    congr 2
    rw [← Nat.cast_smul_eq_nsmul ℝ, smul_smul]
    congr 1
    field_simp
  have h1 : ‖(1 : E →L[ℝ] E)‖ ≤ 1 := ContinuousLinearMap.norm_id_le
  have hΛ : 0 ≤ Λ := (norm_nonneg L).trans hL
  have b : ∀ A : E →L[ℝ] E, ‖A‖ ≤ Λ → ‖(T / n) • A‖ ≤ Λ * |T| / n := by
    intro A hA
    rw [norm_smul, Real.norm_eq_abs, abs_div, abs_of_pos hn']
    calc |T| / n * ‖A‖ ≤ |T| / n * Λ := by gcongr
      _ = _ := by ring
  have ha : 0 ≤ Λ * |T| := mul_nonneg hΛ (abs_nonneg T)
  have loc : ‖S - R‖ ≤ 2 * (Λ * |T| / n) ^ (p + 1) * Real.exp (Λ * |T| / n) := by
    rcases hp with rfl | ⟨rfl, rfl⟩
    · exact lin_frozen_local m _ _ _ (b _ h0) (b _ hL)
    · rw [hS, sub_zero]
      refine (lin_step_local m _).trans ?_
      have := b _ hL
      gcongr
  have g := lin_global_error h1 S R (Λ * |T|) p n hn ha (lin_step_norm h1 m _ _ _ (b _ h0) (b _ hL)) (norm_exp_le_two h1 _ _ (b _ hL)) loc
  rw [hxk n, hyT, ← sub_apply]
  exact ((S ^ n - R ^ n).le_opNorm _).trans (mul_le_mul_of_nonneg_right g (norm_nonneg _))

end space

end Bolt
