import Verif.Proofs.Recon
import Verif.Spec.Recon

/-! Helper lemmas about the PPM reconstruction. -/

set_option linter.unusedSectionVars false

namespace Bolt

variable {I K : Type} [AddCommGroup I] [Field K] [LinearOrder K] [IsStrictOrderedRing K]

/-- The limited slope in terms of the one-sided differences `a`, `b`. -/
def dq (a b : K) : K := ppmDQ (1 / 2 * (a + b)) (2 * a) (2 * b)

theorem dq_pos {a b : K} (ha : 0 < a) (hb : 0 < b) :
    dq a b = min (1 / 2 * (a + b)) (min (2 * a) (2 * b)) := by
  have h1 : ¬ (2 * b * (2 * a) ≤ 0) := by push Not; positivity
  have h2 : (0:K) < 1 / 2 * (a + b) := by positivity
  simp only [dq, ppmDQ, b2k, h1, if_false, gt_iff_lt, h2, if_true, abs_of_pos h2,
    abs_of_pos (show (0:K) < 2 * a by positivity), abs_of_pos (show (0:K) < 2 * b by positivity)]
  norm_num

theorem dq_neg {a b : K} (ha : a < 0) (hb : b < 0) :
    dq a b = max (1 / 2 * (a + b)) (max (2 * a) (2 * b)) := by
  have h1 : ¬ (2 * b * (2 * a) ≤ 0) := by push Not; nlinarith
  have h2 : 1 / 2 * (a + b) < 0 := by linarith
  simp only [dq, ppmDQ, b2k, h1, if_false, gt_iff_lt, not_lt.mpr h2.le, abs_of_neg h2,
    abs_of_neg (show 2 * a < 0 by linarith), abs_of_neg (show 2 * b < 0 by linarith), min_neg_neg]
  norm_num

theorem dq_zero {a b : K} (h : a * b ≤ 0) : dq a b = 0 := by
  have h1 : 2 * b * (2 * a) ≤ 0 := by nlinarith
  simp [dq, ppmDQ, b2k, h1]

theorem dq_cases (a b : K) :
    (0 < a ∧ 0 < b ∧ dq a b = min (1 / 2 * (a + b)) (min (2 * a) (2 * b))) ∨
    (a < 0 ∧ b < 0 ∧ dq a b = max (1 / 2 * (a + b)) (max (2 * a) (2 * b))) ∨
    (a * b ≤ 0 ∧ dq a b = 0) := by
  rcases le_or_gt (a * b) 0 with h | h
  · exact Or.inr (Or.inr ⟨h, dq_zero h⟩)
  · rcases pos_and_pos_or_neg_and_neg_of_mul_pos h with ⟨h1, h2⟩ | ⟨h1, h2⟩
    · exact Or.inl ⟨h1, h2, dq_pos h1 h2⟩
    · exact Or.inr (Or.inl ⟨h1, h2, dq_neg h1 h2⟩)

theorem dq_swap (a b : K) : dq a b = dq b a := by
  simp only [dq, ppmDQ, mul_comm (2 * b) (2 * a), min_comm |2 * a|, add_comm a b]

theorem dq_neg_args (a b : K) : dq (-a) (-b) = - dq a b := by
  rcases dq_cases a b with ⟨h1, h2, h⟩ | ⟨h1, h2, h⟩ | ⟨h1, h⟩
  · rw [h, dq_neg (by simpa) (by simpa), ← max_neg_neg, ← max_neg_neg]; congr 1
    · ring
    · congr 1 <;> ring
  · rw [h, dq_pos (by simpa) (by simpa), ← min_neg_neg, ← min_neg_neg]; congr 1
    · ring
    · congr 1 <;> ring
  · rw [h, dq_zero (by simpa)]; simp

theorem dq_smul_pos {c : K} (hc : 0 < c) (a b : K) : dq (c * a) (c * b) = c * dq a b := by
  rcases dq_cases a b with ⟨h1, h2, h⟩ | ⟨h1, h2, h⟩ | ⟨h1, h⟩
  · rw [h, dq_pos (by positivity) (by positivity), mul_min_of_nonneg _ _ hc.le, mul_min_of_nonneg _ _ hc.le]
    congr 1
    · ring
    · congr 1 <;> ring
  · rw [h, dq_neg (by nlinarith) (by nlinarith), mul_max_of_nonneg _ _ hc.le, mul_max_of_nonneg _ _ hc.le]
    congr 1
    · ring
    · congr 1 <;> ring
  · rw [h, dq_zero]
    · simp
    · have : c * a * (c * b) = c * c * (a * b) := by ring
      rw [this]; exact mul_nonpos_of_nonneg_of_nonpos (by positivity) h1

theorem dq_smul (c a b : K) : dq (c * a) (c * b) = c * dq a b := by
  rcases lt_trichotomy c 0 with h | h | h
  · have := dq_smul_pos (neg_pos.mpr h) a b
    have h2 := dq_neg_args (c * a) (c * b)
    simp only [← neg_mul] at h2
    rw [h2] at this; linarith
  · subst h; simp [dq_zero]
  · exact dq_smul_pos h a b

theorem dq_bounds (a b : K) : (0 ≤ a → 0 ≤ dq a b ∧ dq a b ≤ 2 * a) ∧ (a ≤ 0 → 2 * a ≤ dq a b ∧ dq a b ≤ 0) := by
  rcases dq_cases a b with ⟨h1, h2, h⟩ | ⟨h1, h2, h⟩ | ⟨h1, h⟩
  · refine ⟨fun _ => ⟨?_, ?_⟩, fun q => absurd h1 (not_lt.mpr q)⟩
    · rw [h]; apply le_min <;> [positivity; apply le_min <;> positivity]
    · rw [h]; exact (min_le_right _ _).trans (min_le_left _ _)
  · refine ⟨fun q => absurd h1 (not_lt.mpr q), fun _ => ⟨?_, ?_⟩⟩
    · rw [h]; exact (le_max_left _ _).trans (le_max_right _ _)
    · rw [h]; apply max_le <;> [linarith; apply max_le <;> linarith]
  · rw [h]; constructor <;> intro q <;> constructor <;> linarith

theorem dq_bounds' (a b : K) : (0 ≤ b → 0 ≤ dq a b ∧ dq a b ≤ 2 * b) ∧ (b ≤ 0 → 2 * b ≤ dq a b ∧ dq a b ≤ 0) := by
  rw [dq_swap]; exact dq_bounds b a

/-- Unlimited face value between cells with values `y1`, `y2`, given the outer neighbours. -/
def ppmBase (y0 y1 y2 y3 : K) : K :=
  1 / 2 * (y2 + y1) - (dq (y2 - y1) (y3 - y2) - dq (y1 - y0) (y2 - y1)) / 6

/-- The limiting stage of `reconstruct_ppm`. -/
def ppmLimit (L y R : K) : K × K :=
  if (R - y) * (y - L) ≤ 0 then (y, y)
  else if (R - L) * ((R - L) - 6 * (y - 1 / 2 * (R + L))) < 0 then (3 * y - 2 * R, R)
  else if (R - L) * ((R - L) + 6 * (y - 1 / 2 * (R + L))) < 0 then (L, 3 * y - 2 * L)
  else (L, R)

theorem ppmCell_eq (y0 y1 y2 y3 y4 : K) :
    ppmCell y0 y1 y2 y3 y4 = ppmLimit (ppmBase y0 y1 y2 y3) y2 (ppmBase y1 y2 y3 y4) := by
  have e1 : ppmDQ (1 / 2 * (y2 - y0)) (2 * (y1 - y0)) (2 * (y2 - y1)) = dq (y1 - y0) (y2 - y1) := by
    simp only [dq]; congr 2; ring
  have e2 : ppmDQ (1 / 2 * (y3 - y1)) (2 * (y2 - y1)) (2 * (y3 - y2)) = dq (y2 - y1) (y3 - y2) := by
    simp only [dq]; congr 2; ring
  have e3 : ppmDQ (1 / 2 * (y4 - y2)) (2 * (y3 - y2)) (2 * (y4 - y3)) = dq (y3 - y2) (y4 - y3) := by
    simp only [dq]; congr 2; ring
  simp only [ppmCell, e1, e2, e3]
  change _ = ppmLimit (ppmBase y0 y1 y2 y3) y2 (ppmBase y1 y2 y3 y4)
  have hL : 1 / 2 * (y2 + y1) - (dq (y2 - y1) (y3 - y2) - dq (y1 - y0) (y2 - y1)) / 6 = ppmBase y0 y1 y2 y3 := rfl
  have hR : 1 / 2 * (y3 + y2) - (dq (y3 - y2) (y4 - y3) - dq (y2 - y1) (y3 - y2)) / 6 = ppmBase y1 y2 y3 y4 := rfl
  rw [hL, hR]
  generalize ppmBase y0 y1 y2 y3 = L
  generalize ppmBase y1 y2 y3 y4 = R
  simp only [ppmLimit, b2k]
  split_ifs with h1 h2 h3 h3 h2 h3 <;> try (simp; try ring_nf)

theorem Between.of_le {a v b : K} (h1 : a ≤ v) (h2 : v ≤ b) : Between a v b :=
  ⟨(min_le_left _ _).trans h1, h2.trans (le_max_right _ _)⟩

theorem Between.of_ge {a v b : K} (h1 : v ≤ a) (h2 : b ≤ v) : Between a v b :=
  ⟨(min_le_right _ _).trans h2, h1.trans (le_max_left _ _)⟩

theorem ppmBase_between (y0 y1 y2 y3 : K) : Between y1 (ppmBase y0 y1 y2 y3) y2 := by
  have h1 := dq_bounds (y2 - y1) (y3 - y2)
  have h2 := dq_bounds' (y1 - y0) (y2 - y1)
  rcases le_total y1 y2 with h | h
  · obtain ⟨a, b⟩ := h1.1 (by linarith)
    obtain ⟨c, d⟩ := h2.1 (by linarith)
    apply Between.of_le <;> simp only [ppmBase] <;> linarith
  · obtain ⟨a, b⟩ := h1.2 (by linarith)
    obtain ⟨c, d⟩ := h2.2 (by linarith)
    apply Between.of_ge <;> simp only [ppmBase] <;> linarith

/-- After limiting, each face value lies between the unlimited face value and the cell value. -/
theorem ppmLimit_between (L y R : K) : Between L (ppmLimit L y R).1 y ∧ Between R (ppmLimit L y R).2 y := by
  simp only [ppmLimit]
  split_ifs with h1 h2 h3
  · exact ⟨⟨min_le_right _ _, le_max_right _ _⟩, ⟨min_le_right _ _, le_max_right _ _⟩⟩
  · refine ⟨?_, ⟨min_le_left _ _, le_max_left _ _⟩⟩
    push Not at h1
    rcases pos_and_pos_or_neg_and_neg_of_mul_pos h1 with ⟨p, q⟩ | ⟨p, q⟩
    · have h5 : (R - L) - 6 * (y - 1 / 2 * (R + L)) < 0 := by
        by_contra h6; push Not at h6; nlinarith
      apply Between.of_le <;> linarith
    · have h5 : 0 < (R - L) - 6 * (y - 1 / 2 * (R + L)) := by
        by_contra h6; push Not at h6; nlinarith
      apply Between.of_ge <;> linarith
  · refine ⟨⟨min_le_left _ _, le_max_left _ _⟩, ?_⟩
    push Not at h1
    rcases pos_and_pos_or_neg_and_neg_of_mul_pos h1 with ⟨p, q⟩ | ⟨p, q⟩
    · have h5 : (R - L) + 6 * (y - 1 / 2 * (R + L)) < 0 := by
        by_contra h6; push Not at h6; nlinarith
      apply Between.of_ge <;> linarith
    · have h5 : 0 < (R - L) + 6 * (y - 1 / 2 * (R + L)) := by
        by_contra h6; push Not at h6; nlinarith
      apply Between.of_le <;> linarith
  · exact ⟨⟨min_le_left _ _, le_max_left _ _⟩, ⟨min_le_left _ _, le_max_left _ _⟩⟩

theorem Between.trans {a v b c : K} (h : Between b v c) (hb : Between a b c) : Between a v c := by
  obtain ⟨h1, h2⟩ := h
  obtain ⟨h3, h4⟩ := hb
  exact ⟨(le_min h3 (min_le_right _ _)).trans h1, h2.trans (max_le h4 (le_max_right _ _))⟩

/-- Key inequality behind monotonicity of the limited parabola: `|a₆| ≤ |Δa|`, with the face values and the cell
value monotone. -/
theorem ppmLimit_mono (L y R : K) :
    let F := ppmLimit L y R
    |6 * (y - 1 / 2 * (F.2 + F.1))| ≤ |F.2 - F.1| := by
  simp only [ppmLimit]
  split_ifs with h1 h2 h3
  · have : y - 1 / 2 * (y + y) = 0 := by ring
    simp only [this]; simp
  · have : 6 * (y - 1 / 2 * (R + (3 * y - 2 * R))) = R - (3 * y - 2 * R) := by ring
    simp only [this]; exact le_refl _
  · have : 6 * (y - 1 / 2 * ((3 * y - 2 * L) + L)) = -((3 * y - 2 * L) - L) := by ring
    simp only [this, abs_neg]; exact le_refl _
  · push Not at h1 h2 h3
    apply sq_le_sq.mp
    simp only
    generalize hqe : 6 * (y - 1 / 2 * (R + L)) = qe at *
    rcases eq_or_ne (R - L) 0 with h | h
    · exfalso
      have : R = L := by linarith
      subst this; nlinarith [sq_nonneg (R - y)]
    · have h4 := mul_nonneg h2 h3
      have h5 : 0 < (R - L) ^ 2 := by positivity
      have h6 : (R - L) * (R - L - qe) * ((R - L) * (R - L + qe)) = (R - L) ^ 2 * ((R - L) ^ 2 - qe ^ 2) := by ring
      rw [h6] at h4
      have := nonneg_of_mul_nonneg_right h4 h5
      linarith

end Bolt
