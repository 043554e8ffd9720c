import Verif.Model.Recon
import Mathlib.Algebra.Order.Group.MinMax
import Mathlib.Tactic.Linarith
import Mathlib.Tactic.FieldSimp
import Mathlib.Tactic.NormNum
import Mathlib.Tactic.Positivity

/-! Helper lemmas about the reconstructions. -/

set_option linter.unusedSectionVars false

namespace Bolt

variable {I K : Type} [AddCommGroup I] [Field K] [LinearOrder K] [IsStrictOrderedRing K]

@[simp] theorem afShift_one (e : I) (x : I → K) (i : I) : afShift e 1 x i = x (i - e) := by
  simp [afShift]

@[simp] theorem afShift_neg_one (e : I) (x : I → K) (i : I) : afShift e (-1) x i = x (i + e) := by
  simp [afShift]

@[simp] theorem afShift_two (e : I) (x : I → K) (i : I) : afShift e 2 x i = x (i - 2 • e) := by
  simp [afShift, ofNat_zsmul]

@[simp] theorem afShift_neg_two (e : I) (x : I → K) (i : I) : afShift e (-2) x i = x (i + 2 • e) := by
  simp [afShift, ofNat_zsmul]

/-- The coded `minmod` is the textbook minmod function. -/
theorem minmod_pos {x y z : K} (hx : 0 < x) (hy : 0 < y) (hz : 0 < z) :
    minmod x y z = min (min x y) z := by
  simp only [minmod, afSign, not_lt.mpr hx.le, not_lt.mpr hy.le, not_lt.mpr hz.le, if_false,
    abs_of_pos hx, abs_of_pos hy, abs_of_pos hz]
  norm_num

theorem minmod_neg {x y z : K} (hx : x < 0) (hy : y < 0) (hz : z < 0) :
    minmod x y z = max (max x y) z := by
  simp only [minmod, afSign, hx, hy, hz, if_true, abs_of_neg hx, abs_of_neg hy, abs_of_neg hz,
    min_neg_neg]
  norm_num

theorem minmod_zero {x y z : K} (h : ¬ (0 < x ∧ 0 < y ∧ 0 < z)) (h' : ¬ (x < 0 ∧ y < 0 ∧ z < 0)) :
    minmod x y z = 0 := by
  have hm0 : x = 0 ∨ y = 0 ∨ z = 0 → min (min |x| |y|) |z| = 0 := by
    rintro (h | h | h) <;> subst h <;> simp
  by_cases h0 : x = 0 ∨ y = 0 ∨ z = 0
  · simp [minmod, hm0 h0]
  · push Not at h0
    obtain ⟨h1, h2, h3⟩ := h0
    rcases lt_or_gt_of_ne h1 with a | a <;> rcases lt_or_gt_of_ne h2 with b | b <;>
      rcases lt_or_gt_of_ne h3 with c | c <;>
      simp_all [minmod, afSign, not_lt.mpr a.le, not_lt.mpr b.le, not_lt.mpr c.le] <;> norm_num

theorem minmod_neg_args (x y z : K) : minmod (-x) (-y) (-z) = - minmod x y z := by
  by_cases h : 0 < x ∧ 0 < y ∧ 0 < z
  · obtain ⟨a, b, c⟩ := h
    rw [minmod_pos a b c, minmod_neg (by simpa) (by simpa) (by simpa)]
    simp [max_neg_neg]
  by_cases h' : x < 0 ∧ y < 0 ∧ z < 0
  · obtain ⟨a, b, c⟩ := h'
    rw [minmod_neg a b c, minmod_pos (by simpa) (by simpa) (by simpa)]
    simp [min_neg_neg]
  · rw [minmod_zero h h', minmod_zero (by simpa using h') (by simpa using h)]; simp

theorem minmod_swap (x y z : K) : minmod x y z = minmod z y x := by
  by_cases h : 0 < x ∧ 0 < y ∧ 0 < z
  · obtain ⟨a, b, c⟩ := h
    rw [minmod_pos a b c, minmod_pos c b a]
    simp [min_comm, min_left_comm]
  by_cases h' : x < 0 ∧ y < 0 ∧ z < 0
  · obtain ⟨a, b, c⟩ := h'
    rw [minmod_neg a b c, minmod_neg c b a]
    simp [max_comm, max_left_comm]
  · rw [minmod_zero h h', minmod_zero (fun q => h ⟨q.2.2, q.2.1, q.1⟩) (fun q => h' ⟨q.2.2, q.2.1, q.1⟩)]

theorem minmod_smul_pos {a : K} (ha : 0 < a) (x y z : K) : minmod (a * x) (a * y) (a * z) = a * minmod x y z := by
  by_cases h : 0 < x ∧ 0 < y ∧ 0 < z
  · obtain ⟨h1, h2, h3⟩ := h
    rw [minmod_pos h1 h2 h3, minmod_pos (by positivity) (by positivity) (by positivity),
      mul_min_of_nonneg _ _ ha.le, mul_min_of_nonneg _ _ ha.le]
  by_cases h' : x < 0 ∧ y < 0 ∧ z < 0
  · obtain ⟨h1, h2, h3⟩ := h'
    rw [minmod_neg h1 h2 h3, minmod_neg (mul_neg_of_pos_of_neg ha h1) (mul_neg_of_pos_of_neg ha h2)
      (mul_neg_of_pos_of_neg ha h3), mul_max_of_nonneg _ _ ha.le, mul_max_of_nonneg _ _ ha.le]
  · rw [minmod_zero h h', minmod_zero (by simpa [ha] using h)
      (by simpa [mul_neg_iff, ha, not_lt.mpr ha.le] using h')]; simp

theorem minmod_smul (a x y z : K) : minmod (a * x) (a * y) (a * z) = a * minmod x y z := by
  rcases lt_trichotomy a 0 with h | h | h
  · have := minmod_smul_pos (neg_pos.mpr h) x y z
    have h2 := minmod_neg_args (a * x) (a * y) (a * z)
    simp only [← neg_mul] at h2
    rw [h2] at this; linarith
  · subst h; simp [minmod]
  · exact minmod_smul_pos h x y z

/-- The three-point form of the limited slope. -/
theorem slopeMinmod_eq (e : I) (x : I → K) (i : I) :
    slopeMinmod e x i =
      minmod (2 * (x i - x (i - e))) (1 / 2 * (x (i + e) - x (i - e))) (2 * (x (i + e) - x i)) := by
  simp only [slopeMinmod, afShift_one, afShift_neg_one]
  congr 2; ring

/-- Case distinction for the limited slope in terms of one-sided differences. -/
theorem slope_cases (b f : K) :
    (0 < b ∧ 0 < f ∧ minmod (2 * b) (1 / 2 * (b + f)) (2 * f) = min (min (2 * b) (1 / 2 * (b + f))) (2 * f)) ∨
    (b < 0 ∧ f < 0 ∧ minmod (2 * b) (1 / 2 * (b + f)) (2 * f) = max (max (2 * b) (1 / 2 * (b + f))) (2 * f)) ∨
    (b * f ≤ 0 ∧ minmod (2 * b) (1 / 2 * (b + f)) (2 * f) = 0) := by
  rcases lt_trichotomy b 0 with hb | hb | hb <;> rcases lt_trichotomy f 0 with hf | hf | hf
  · right; left; exact ⟨hb, hf, minmod_neg (by linarith) (by linarith) (by linarith)⟩
  all_goals first
    | exact Or.inl ⟨hb, hf, minmod_pos (by linarith) (by linarith) (by linarith)⟩
    | (right; right
       refine ⟨?_, minmod_zero (by rintro ⟨h1, h2, h3⟩; linarith) (by rintro ⟨h1, h2, h3⟩; linarith)⟩
       nlinarith)

end Bolt
