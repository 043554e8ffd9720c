import Verif.Model.Electronic
import Mathlib.LinearAlgebra.Matrix.Determinant.Basic
import Mathlib.LinearAlgebra.Matrix.NonsingularInverse
import Mathlib.LinearAlgebra.Matrix.ToLinearEquiv
import Mathlib.Analysis.SpecialFunctions.ExpDeriv
import Mathlib.Analysis.Calculus.Deriv.Add
import Mathlib.Analysis.Calculus.Deriv.Inv
import Mathlib.Algebra.Order.BigOperators.Ring.Finset
import Mathlib.Tactic.FinCases
import Mathlib.Tactic.FieldSimp
import Mathlib.Tactic.Linarith
import Mathlib.Tactic.Positivity
import Mathlib.Tactic.LinearCombination

/-! Helper lemmas for the electronic Boltzmann system. -/

namespace Bolt

section matrices
variable {K : Type} [Field K]

theorem det4_eq (A : Matrix (Fin 4) (Fin 4) K) : det4 A = A.det := by
  rw [Matrix.det_succ_row_zero]
  simp only [Fin.sum_univ_succ, Matrix.det_fin_three, Matrix.submatrix_apply, Fin.succAbove, Finset.univ_unique, Finset.sum_singleton]
  simp [det4, Fin.succ]
  ring

theorem det3_eq (A : Matrix (Fin 3) (Fin 3) K) : det3 A = A.det := by
  rw [Matrix.det_fin_three]
  simp only [det3]

theorem inverse4x4_mul (A : Matrix (Fin 4) (Fin 4) K) (h : A.det ≠ 0) : A * Matrix.of (inverse4x4 A) = 1 := by
  rw [← det4_eq] at h
  ext i j
  rw [Matrix.mul_apply, Fin.sum_univ_four]
  fin_cases i <;> fin_cases j <;>
    simp [inverse4x4, Matrix.of_apply, -mul_eq_zero] <;> field_simp <;> simp only [det4] <;> ring

theorem inverse3x3_mul (A : Matrix (Fin 3) (Fin 3) K) (h : A.det ≠ 0) : A * Matrix.of (inverse3x3 A) = 1 := by
  rw [← det3_eq] at h
  ext i j
  rw [Matrix.mul_apply, Fin.sum_univ_three]
  fin_cases i <;> fin_cases j <;>
    simp [inverse3x3, cofactors3, Matrix.of_apply, -mul_eq_zero] <;> field_simp <;> simp only [det3] <;> ring

end matrices

section calculus

/-- The logistic profile and its derivative. -/
theorem hasDerivAt_logistic (x : ℝ) : HasDerivAt (fun y => 1 / (Real.exp y + 1)) (-(1 / (Real.exp x + 2 + Real.exp (-x)))) x := by
  have h1 : HasDerivAt (fun y => Real.exp y + 1) (Real.exp x) x := (Real.hasDerivAt_exp x).add_const 1
  have h0 : Real.exp x + 1 ≠ 0 := by positivity
  have h2 := h1.inv h0
  have e : (fun y => 1 / (Real.exp y + 1)) = (fun y => Real.exp y + 1)⁻¹ := by funext y; simp
  rw [e]
  refine h2.congr_deriv ?_
  rw [Real.exp_neg]
  have := Real.exp_pos x
  field_simp
  ring

theorem fdDenominator_pos {k T : ℝ} (hk : 0 < k) (hT : T ≠ 0) (x : ℝ) : 0 < fdDenominator k T x := by
  unfold fdDenominator
  have : 0 < T ^ 2 := by positivity
  positivity

theorem fermiDirac_eq (k mu T E : ℝ) : fermiDirac k mu T E = fermiDirac2 k mu T 0 0 E 0 0 := by
  simp [fermiDirac, fermiDirac2]

variable {k mu T vx vy E px py : ℝ}

theorem fd_dmu (hk : k ≠ 0) (hT : T ≠ 0) :
    HasDerivAt (fun m => fermiDirac2 k m T vx vy E px py) (T / fdDenominator k T ((E - mu - px * vx - py * vy) / (k * T))) mu := by
  have h1 : HasDerivAt (fun m : ℝ => (E - m - vx * px - vy * py) / (k * T)) (-1 / (k * T)) mu :=
    ((((hasDerivAt_id mu).const_sub E).sub_const _).sub_const _).div_const _
  have h2 := (hasDerivAt_logistic ((E - mu - vx * px - vy * py) / (k * T))).comp mu h1
  have e : (E - mu - px * vx - py * vy) = (E - mu - vx * px - vy * py) := by ring
  refine HasDerivAt.congr_deriv (show HasDerivAt _ _ _ from h2) ?_
  rw [e]; unfold fdDenominator
  set x := (E - mu - vx * px - vy * py) / (k * T)
  have : Real.exp x + 2 + Real.exp (-x) ≠ 0 := by positivity
  field_simp

theorem fd_dT (hk : k ≠ 0) (hT : T ≠ 0) :
    HasDerivAt (fun t => fermiDirac2 k mu t vx vy E px py)
      ((E - mu - px * vx - py * vy) / fdDenominator k T ((E - mu - px * vx - py * vy) / (k * T))) T := by
  have h0 : HasDerivAt (fun t : ℝ => k * t) (k * 1) T := (hasDerivAt_id T).const_mul k
  have h1 : HasDerivAt (fun t : ℝ => (E - mu - vx * px - vy * py) / (k * t)) ((E - mu - vx * px - vy * py) * (-(k * 1) / (k * T) ^ 2)) T := by
    exact (h0.inv (mul_ne_zero hk hT)).const_mul (E - mu - vx * px - vy * py)
  have h2 := (hasDerivAt_logistic ((E - mu - vx * px - vy * py) / (k * T))).comp T h1
  have e : (E - mu - px * vx - py * vy) = (E - mu - vx * px - vy * py) := by ring
  refine HasDerivAt.congr_deriv (show HasDerivAt _ _ _ from h2) ?_
  rw [e]; unfold fdDenominator
  set x := (E - mu - vx * px - vy * py) / (k * T)
  have : Real.exp x + 2 + Real.exp (-x) ≠ 0 := by positivity
  field_simp

theorem fd_dvx (hk : k ≠ 0) (hT : T ≠ 0) :
    HasDerivAt (fun v => fermiDirac2 k mu T v vy E px py) (T * px / fdDenominator k T ((E - mu - px * vx - py * vy) / (k * T))) vx := by
  have h1 : HasDerivAt (fun v : ℝ => (E - mu - v * px - vy * py) / (k * T)) (-(1 * px) / (k * T)) vx :=
    ((((hasDerivAt_id vx).mul_const px).const_sub (E - mu)).sub_const _).div_const _
  have h2 := (hasDerivAt_logistic ((E - mu - vx * px - vy * py) / (k * T))).comp vx h1
  have e : (E - mu - px * vx - py * vy) = (E - mu - vx * px - vy * py) := by ring
  refine HasDerivAt.congr_deriv (show HasDerivAt _ _ _ from h2) ?_
  rw [e]; unfold fdDenominator
  set x := (E - mu - vx * px - vy * py) / (k * T)
  have : Real.exp x + 2 + Real.exp (-x) ≠ 0 := by positivity
  field_simp

theorem fd_dvy (hk : k ≠ 0) (hT : T ≠ 0) :
    HasDerivAt (fun v => fermiDirac2 k mu T vx v E px py) (T * py / fdDenominator k T ((E - mu - px * vx - py * vy) / (k * T))) vy := by
  have h1 : HasDerivAt (fun v : ℝ => (E - mu - vx * px - v * py) / (k * T)) (-(1 * py) / (k * T)) vy :=
    (((hasDerivAt_id vy).mul_const py).const_sub (E - mu - vx * px)).div_const _
  have h2 := (hasDerivAt_logistic ((E - mu - vx * px - vy * py) / (k * T))).comp vy h1
  have e : (E - mu - px * vx - py * vy) = (E - mu - vx * px - vy * py) := by ring
  refine HasDerivAt.congr_deriv (show HasDerivAt _ _ _ from h2) ?_
  rw [e]; unfold fdDenominator
  set x := (E - mu - vx * px - vy * py) / (k * T)
  have : Real.exp x + 2 + Real.exp (-x) ≠ 0 := by positivity
  field_simp

end calculus

section gram
variable {P : Type} [Fintype P]

/-- A weighted sum of squares of a combination vanishes only if the combination does. -/
theorem sum_sq_zero {w g : P → ℝ} (hw : ∀ p, 0 < w p) (h : ∑ p, w p * g p ^ 2 = 0) (p : P) : g p = 0 := by
  have := (Finset.sum_eq_zero_iff_of_nonneg fun p _ => mul_nonneg (hw p).le (sq_nonneg (g p))).mp h p (Finset.mem_univ p)
  rcases mul_eq_zero.mp this with h | h
  · exact absurd h (hw p).ne'
  · exact pow_eq_zero_iff (two_ne_zero) |>.mp h

theorem det_ne_zero_of {n : ℕ} (A : Matrix (Fin n) (Fin n) ℝ) (h : ∀ v, A.mulVec v = 0 → v = 0) : A.det ≠ 0 := by
  intro hd
  obtain ⟨v, hv, hA⟩ := Matrix.exists_mulVec_eq_zero_iff.mpr hd
  exact hv (h v hA)

end gram

end Bolt
