import Mathlib.Topology.Order.IntermediateValue
import Mathlib.Topology.Algebra.Polynomial
import Mathlib.Topology.Instances.Real.Lemmas
import Mathlib.Tactic.LinearCombination
import Mathlib.Tactic.Positivity
import Mathlib.Tactic.FieldSimp

/-!
# Helper lemmas for C110: growth of the recurrence of a plasma oscillation
-/

namespace Bolt

/-- A root of the characteristic polynomial between 0 and 1/2. -/
theorem oscillation_root (w : ℝ) (h0 : 0 < w) (h4 : w ≤ 4) :
    ∃ r : ℝ, 0 < r ∧ r ≤ 1 / 2 - w / 40 ∧ r ^ 3 - (5 / 2 - 3 * w / 4) * r ^ 2 + (2 - w / 4) * r - 1 / 2 = 0 := by
  have hc : ContinuousOn (fun r : ℝ => r ^ 3 - (5 / 2 - 3 * w / 4) * r ^ 2 + (2 - w / 4) * r - 1 / 2) (Set.Icc 0 (1 / 2 - w / 40)) := by
    fun_prop
  have hl : (0 : ℝ) ≤ 1 / 2 - w / 40 := by linarith
  have := intermediate_value_Icc hl hc
  obtain ⟨r, ⟨hr0, hr1⟩, hr⟩ := this (show (0 : ℝ) ∈ _ from by
    constructor
    · norm_num
    · have e : (1 / 2 - w / 40) ^ 3 - (5 / 2 - 3 * w / 4) * (1 / 2 - w / 40) ^ 2 + (2 - w / 4) * (1 / 2 - w / 40) - 1 / 2 =
          w / 40 * (9 / 4 - 21 * (w / 40) + 29 * (w / 40) ^ 2) := by ring
      rw [e]
      have : 0 ≤ 9 / 4 - 21 * (w / 40) := by linarith
      positivity)
  refine ⟨r, lt_of_le_of_ne hr0 fun h => ?_, hr1, hr⟩
  subst h
  norm_num at hr

theorem oscillation_start (w r x0 j0 y0 y1 : ℝ) (h0 : 0 < w) (h4 : w ≤ 4) (r0 : 0 < r) (r1 : r ≤ 1 / 2)
    (e0 : y0 = (1 - r - w / 2) * x0 - j0) (e1 : y1 = -((1 - r) ^ 2 + w / 4 + 3 * w * r / 4) * x0 + (2 - r - 3 * w / 4) * y0) :
    x0 ^ 2 + j0 ^ 2 ≤ 442 * (y0 ^ 2 + y1 ^ 2) := by
  set g := (1 - r) ^ 2 + w / 4 + 3 * w * r / 4 with hg
  set h := 2 - r - 3 * w / 4 with hh
  have hg4 : 1 / 4 ≤ g := by
    have : 0 ≤ w / 4 + 3 * w * r / 4 := by positivity
    have : (1 / 2) ^ 2 ≤ (1 - r) ^ 2 := pow_le_pow_left₀ (by norm_num) (by linarith) 2
    linarith
  have hh2 : h ^ 2 ≤ 4 := by
    have : h ≤ 2 := by rw [hh]; linarith
    have : -2 ≤ h := by rw [hh]; linarith
    have := mul_nonneg (by linarith : 0 ≤ 2 - h) (by linarith : 0 ≤ 2 + h)
    linarith
  have gx : g * x0 = h * y0 - y1 := by rw [e1]; ring
  have gx2 : (g * x0) ^ 2 ≤ 5 * (y0 ^ 2 + y1 ^ 2) := by
    rw [gx]
    have : (h * y0 - y1) ^ 2 + (y0 + h * y1) ^ 2 = (h ^ 2 + 1) * (y0 ^ 2 + y1 ^ 2) := by ring
    have t : (h ^ 2 + 1) * (y0 ^ 2 + y1 ^ 2) ≤ 5 * (y0 ^ 2 + y1 ^ 2) := mul_le_mul_of_nonneg_right (by linarith) (by positivity)
    have := sq_nonneg (y0 + h * y1)
    linarith
  have x2 : x0 ^ 2 ≤ 80 * (y0 ^ 2 + y1 ^ 2) := by
    have : (1 / 4) ^ 2 * x0 ^ 2 ≤ g ^ 2 * x0 ^ 2 := mul_le_mul_of_nonneg_right (pow_le_pow_left₀ (by norm_num) hg4 2) (by positivity)
    rw [mul_pow] at gx2
    linarith
  have hα : (1 - r - w / 2) ^ 2 ≤ 9 / 4 := by
    have : (3 / 2 - (1 - r - w / 2)) * (3 / 2 + (1 - r - w / 2)) ≥ 0 := mul_nonneg (by linarith) (by linarith)
    linarith
  have ej : j0 = (1 - r - w / 2) * x0 - y0 := by rw [e0]; ring
  have j2 : j0 ^ 2 ≤ 2 * (9 / 4 * x0 ^ 2) + 2 * y0 ^ 2 := by
    rw [ej]
    have := sq_nonneg ((1 - r - w / 2) * x0 + y0)
    have t := mul_le_mul_of_nonneg_right hα (sq_nonneg (x0))
    linarith
  have := sq_nonneg (y1)
  have := sq_nonneg (y0)
  linarith

theorem oscillation_high (r a b x0 x1 x2 : ℝ) (r0 : 0 < r) (r1 : r ≤ 1 / 2) (ha1 : -2 ≤ a) (ha2 : a ≤ 2) (hb : 1 < b) :
    (x2 - r * x1) ^ 2 - a * ((x2 - r * x1) * (x1 - r * x0)) + b * (x1 - r * x0) ^ 2 ≤ (2 * b + 4) * (x0 ^ 2 + x1 ^ 2 + x2 ^ 2) := by
  have sq : ∀ u v : ℝ, (u - r * v) ^ 2 ≤ 2 * u ^ 2 + v ^ 2 := by
    intro u v
    have s := sq_nonneg (u + r * v)
    have t : r ^ 2 * v ^ 2 ≤ (1 / 2) ^ 2 * v ^ 2 := mul_le_mul_of_nonneg_right (pow_le_pow_left₀ r0.le r1 2) (sq_nonneg _)
    have := sq_nonneg v
    linarith
  have cross : ∀ u v : ℝ, -(a * (u * v)) ≤ u ^ 2 + v ^ 2 := by
    intro u v
    have s1 := mul_nonneg (by linarith : 0 ≤ 2 + a) (sq_nonneg (u + v))
    have s2 := mul_nonneg (by linarith : 0 ≤ 2 - a) (sq_nonneg (u - v))
    linarith
  have c := cross (x2 - r * x1) (x1 - r * x0)
  have y0 := sq x1 x0
  have y1 := sq x2 x1
  have m := mul_le_mul_of_nonneg_left y0 (by linarith : (0 : ℝ) ≤ b + 1)
  have q0 := mul_nonneg (by linarith : (0 : ℝ) ≤ b) (sq_nonneg x0)
  have q2 := mul_nonneg (by linarith : (0 : ℝ) ≤ b) (sq_nonneg x2)
  have := sq_nonneg x0
  have := sq_nonneg x1
  have := sq_nonneg x2
  linarith

/-- The recurrence of a uniform plasma oscillation grows at least by the factor `1 + w / 20` in each step, in the mean square. -/
theorem oscillation_growth (w : ℝ) (h0 : 0 < w) (h4 : w ≤ 4) : ∃ C : ℝ, 0 < C ∧ ∀ (x o j : ℕ → ℝ) (N : ℕ),
    (∀ n < N, x (n + 1) = x n - (j n + w / 2 * o n) ∧ o (n + 1) = (o n + x (n + 1)) / 2 ∧ j (n + 1) = j n + w * o (n + 1)) → o 0 = x 0 →
    ∀ n, n + 2 ≤ N → C * (1 + w / 20) ^ n * (x 0 ^ 2 + j 0 ^ 2) ≤ x n ^ 2 + x (n + 1) ^ 2 + x (n + 2) ^ 2 := by
  obtain ⟨r, r0, r1, hr⟩ := oscillation_root w h0 h4
  set a := 5 / 2 - 3 * w / 4 - r with ha
  set b := 1 / (2 * r) with hb
  have hbr : 2 * r * b = 1 := by rw [hb]; field_simp
  have hab : b + a * r = 2 - w / 4 := by
    have : 2 * r * (b + a * r) = 2 * r * (2 - w / 4) := by
      rw [mul_add, hbr, ha]
      linear_combination -2 * hr
    exact mul_left_cancel₀ (by positivity) this
  have hb1 : 1 + w / 20 ≤ b := by
    rw [hb, le_div_iff₀ (by positivity)]
    nlinarith
  have hδ : 1 / 2 - r ≤ w / 4 := by
    have e : (1 / 2 - r) * (1 - r) ^ 2 = w / 4 * (r * (3 * r - 1)) := by linear_combination -hr
    have u : r * (3 * r - 1) ≤ 1 / 4 := by nlinarith
    have v : (1 / 2 - r) * (1 / 4) ≤ (1 / 2 - r) * (1 - r) ^ 2 := by
      refine mul_le_mul_of_nonneg_left ?_ (by linarith)
      nlinarith
    have : w / 4 * (r * (3 * r - 1)) ≤ w / 4 * (1 / 4) := mul_le_mul_of_nonneg_left u (by linarith)
    linarith
  have ha2 : a ≤ 2 := by rw [ha]; linarith
  have ha1 : -2 ≤ a := by rw [ha]; linarith
  have haa : a ^ 2 ≤ 4 := by nlinarith
  have hbpos : 1 < b := by linarith
  set κ := (b - a ^ 2 / 4) / (1 + b) with hκ
  have hκ0 : 0 < κ := by rw [hκ]; exact div_pos (by linarith) (by linarith)
  have hκ1 : κ < 1 := by
    rw [hκ, div_lt_one (by linarith)]
    nlinarith
  have hκe : κ * (1 + b) = b - a ^ 2 / 4 := by rw [hκ]; field_simp
  refine ⟨κ / (442 * (2 * b + 4)), div_pos hκ0 (by linarith), ?_⟩
  intro x o j N hrec ho n hn
  -- three-term recurrence
  have h3 : ∀ n, n + 3 ≤ N → x (n + 3) = (5 / 2 - 3 * w / 4) * x (n + 2) - (2 - w / 4) * x (n + 1) + x n / 2 := by
    intro n hn
    obtain ⟨a1, a2, a3⟩ := hrec n (by omega)
    obtain ⟨b1, b2, b3⟩ := hrec (n + 1) (by omega)
    obtain ⟨c1, -, -⟩ := hrec (n + 2) (by omega)
    rw [c1, b3, b2, b1, a3, a2, a1]
    ring
  set y : ℕ → ℝ := fun n => x (n + 1) - r * x n with hy
  have hyrec : ∀ n, n + 3 ≤ N → y (n + 2) = a * y (n + 1) - b * y n := by
    intro n hn
    simp only [hy]
    rw [h3 n hn]
    linear_combination x (n + 1) * hab - x n / 2 * hbr - x (n + 2) * ha
  set D : ℕ → ℝ := fun n => y (n + 1) ^ 2 - a * (y (n + 1) * y n) + b * y n ^ 2 with hD
  have hDrec : ∀ n, n + 3 ≤ N → D (n + 1) = b * D n := by
    intro n hn
    simp only [hD]
    rw [hyrec n hn]
    ring
  have hDn : ∀ n, n + 2 ≤ N → D n = b ^ n * D 0 := by
    intro n
    induction n with
    | zero => intro _; simp
    | succ n ih =>
      intro h
      rw [hDrec n (by omega), ih (by omega), pow_succ]
      ring
  have low : κ * (y 0 ^ 2 + y 1 ^ 2) ≤ D 0 := by
    have e : (1 - κ) * (D 0 - κ * (y 0 ^ 2 + y 1 ^ 2)) = ((1 - κ) * y 1 - a / 2 * y 0) ^ 2 + κ ^ 2 * y 0 ^ 2 := by
      simp only [hD]
      linear_combination (- y 0 ^ 2) * hκe
    have : 0 ≤ (1 - κ) * (D 0 - κ * (y 0 ^ 2 + y 1 ^ 2)) := by rw [e]; positivity
    have := nonneg_of_mul_nonneg_right this (by linarith)
    linarith
  have start : x 0 ^ 2 + j 0 ^ 2 ≤ 442 * (y 0 ^ 2 + y 1 ^ 2) := by
    obtain ⟨a1, a2, a3⟩ := hrec 0 (by omega)
    obtain ⟨b1, -, -⟩ := hrec 1 (by omega)
    have e0 : y 0 = (1 - r - w / 2) * x 0 - j 0 := by
      simp only [hy, a1, ho]; ring
    have e1 : y 1 = -((1 - r) ^ 2 + w / 4 + 3 * w * r / 4) * x 0 + (2 - r - 3 * w / 4) * y 0 := by
      rw [e0]
      simp only [hy]
      rw [b1, a3, a2, a1, ho]
      ring
    exact oscillation_start w r (x 0) (j 0) (y 0) (y 1) h0 h4 r0 (by linarith) e0 e1
  have high : D n ≤ (2 * b + 4) * (x n ^ 2 + x (n + 1) ^ 2 + x (n + 2) ^ 2) :=
    oscillation_high r a b (x n) (x (n + 1)) (x (n + 2)) r0 (by linarith) ha1 ha2 hbpos
  rw [hDn n hn] at high
  have pw : (1 + w / 20) ^ n ≤ b ^ n := pow_le_pow_left₀ (by linarith) hb1 n
  have chain : (1 + w / 20) ^ n * (κ / 442 * (x 0 ^ 2 + j 0 ^ 2)) ≤ b ^ n * D 0 := by
    have t : κ / 442 * (x 0 ^ 2 + j 0 ^ 2) ≤ D 0 := by
      have := mul_le_mul_of_nonneg_left start (by positivity : 0 ≤ κ / 442)
      have e : κ / 442 * (442 * (y 0 ^ 2 + y 1 ^ 2)) = κ * (y 0 ^ 2 + y 1 ^ 2) := by ring
      linarith
    exact mul_le_mul pw t (by positivity) (by positivity)
  have fin := chain.trans high
  have hM : (0 : ℝ) < 2 * b + 4 := by linarith
  have e : κ / (442 * (2 * b + 4)) * (1 + w / 20) ^ n * (x 0 ^ 2 + j 0 ^ 2) =
      ((1 + w / 20) ^ n * (κ / 442 * (x 0 ^ 2 + j 0 ^ 2))) / (2 * b + 4) := by
    field_simp
  rw [e, div_le_iff₀ hM]
  linarith

end Bolt
