import Verif.Props.Positivity
import Verif.Props.Recon

/-! Helper lemmas about the size of the reconstructed face values of nonnegative data. -/

set_option linter.unusedSectionVars false

namespace Bolt

variable {K : Type} [Field K] [LinearOrder K] [IsStrictOrderedRing K]

theorem between_nonneg {a v b : K} (h : Between a v b) : (a ≤ b → a ≤ v ∧ v ≤ b) ∧ (b ≤ a → b ≤ v ∧ v ≤ a) := by
  obtain ⟨h1, h2⟩ := h
  constructor
  · intro h; rw [min_eq_left h] at h1; rw [max_eq_right h] at h2; exact ⟨h1, h2⟩
  · intro h; rw [min_eq_right h] at h1; rw [max_eq_left h] at h2; exact ⟨h1, h2⟩

/-- The limited parabola: each one-sided jump is at most twice the other one, with the same sign. -/
theorem ppmLimit_steep (L y R : K) :
    Between 0 ((ppmLimit L y R).2 - y) (2 * (y - (ppmLimit L y R).1)) ∧
    Between 0 (y - (ppmLimit L y R).1) (2 * ((ppmLimit L y R).2 - y)) := by
  simp only [ppmLimit]
  split_ifs with h1 h2 h3
  · simp [Between]
  · push Not at h1
    rcases pos_and_pos_or_neg_and_neg_of_mul_pos h1 with ⟨p, q⟩ | ⟨p, q⟩
    · exact ⟨Between.of_le (by linarith) (by linarith), Between.of_le (by linarith) (by linarith)⟩
    · exact ⟨Between.of_ge (by linarith) (by linarith), Between.of_ge (by linarith) (by linarith)⟩
  · push Not at h1
    rcases pos_and_pos_or_neg_and_neg_of_mul_pos h1 with ⟨p, q⟩ | ⟨p, q⟩
    · exact ⟨Between.of_le (by linarith) (by linarith), Between.of_le (by linarith) (by linarith)⟩
    · exact ⟨Between.of_ge (by linarith) (by linarith), Between.of_ge (by linarith) (by linarith)⟩
  · push Not at h1 h2 h3
    rcases pos_and_pos_or_neg_and_neg_of_mul_pos h1 with ⟨p, q⟩ | ⟨p, q⟩
    · have a := nonneg_of_mul_nonneg_right h2 (by linarith)
      have b := nonneg_of_mul_nonneg_right h3 (by linarith)
      exact ⟨Between.of_le (by linarith) (by linarith), Between.of_le (by linarith) (by linarith)⟩
    · have a : R - L - 6 * (y - 1 / 2 * (R + L)) ≤ 0 := by
        by_contra h; push Not at h; nlinarith
      have b : R - L + 6 * (y - 1 / 2 * (R + L)) ≤ 0 := by
        by_contra h; push Not at h; nlinarith
      exact ⟨Between.of_ge (by linarith) (by linarith), Between.of_ge (by linarith) (by linarith)⟩

variable {I : Type} [AddCommGroup I]

/-- Largest ratio of a face value to the value of its cell, for nonnegative data. -/
def upperFactor : Recon → K
  | .piecewiseConstant => 1
  | .minmod => 2
  | .ppm => 3

/-- Smallest ratio of a face value to the value of its cell, for nonnegative data. -/
def lowerFactor : Recon → K
  | .piecewiseConstant => 1
  | .minmod => 0
  | .ppm => 1 / 6

theorem upperFactor_one_le (m : Recon) : (1 : K) ≤ upperFactor m := by
  cases m <;> norm_num [upperFactor]

/-- Each face value exceeds the cell value at most by a multiple of the jump on the other side. -/
theorem faces_steep (m : Recon) (e : I) (x : I → K) (i : I) :
    Between 0 ((reconFaces m e x).2 i - x i) ((upperFactor m - 1) * (x i - x (i - e))) ∧
    Between 0 (x i - (reconFaces m e x).1 i) ((upperFactor m - 1) * (x (i + e) - x i)) := by
  cases m with
  | piecewiseConstant => simp [reconFaces, upperFactor, Between]
  | minmod =>
    simp only [reconFaces, reconstructMinmod, slopeMinmod_eq, upperFactor]
    have h : x (i + e) - x (i - e) = (x i - x (i - e)) + (x (i + e) - x i) := by ring
    rw [h]
    rcases slope_cases (x i - x (i - e)) (x (i + e) - x i) with ⟨h1, h2, h3⟩ | ⟨h1, h2, h3⟩ | ⟨h1, h3⟩
    · rw [h3]
      generalize hm : min (min (2 * (x i - x (i - e))) (1 / 2 * ((x i - x (i - e)) + (x (i + e) - x i))))
        (2 * (x (i + e) - x i)) = m
      have a : m ≤ 2 * (x i - x (i - e)) := by rw [← hm]; exact (min_le_left _ _).trans (min_le_left _ _)
      have b : m ≤ 2 * (x (i + e) - x i) := by rw [← hm]; exact min_le_right _ _
      have c : 0 ≤ m := by rw [← hm]; apply le_min <;> [apply le_min <;> linarith; linarith]
      exact ⟨Between.of_le (by linarith) (by linarith), Between.of_le (by linarith) (by linarith)⟩
    · rw [h3]
      generalize hm : max (max (2 * (x i - x (i - e))) (1 / 2 * ((x i - x (i - e)) + (x (i + e) - x i))))
        (2 * (x (i + e) - x i)) = m
      have a : 2 * (x i - x (i - e)) ≤ m := by rw [← hm]; exact (le_max_left _ _).trans (le_max_left _ _)
      have b : 2 * (x (i + e) - x i) ≤ m := by rw [← hm]; exact le_max_right _ _
      have c : m ≤ 0 := by rw [← hm]; apply max_le <;> [apply max_le <;> linarith; linarith]
      exact ⟨Between.of_ge (by linarith) (by linarith), Between.of_ge (by linarith) (by linarith)⟩
    · rw [h3]; simp [Between, le_total]
  | ppm =>
    have hb := C07_ppm_faces_between e x i
    simp only [reconFaces, reconstructPPM, ppmCell_eq, afShift_one, afShift_neg_one, upperFactor] at hb ⊢
    have hs := ppmLimit_steep (ppmBase (afShift e 2 x i) (x (i - e)) (x i) (x (i + e))) (x i)
      (ppmBase (x (i - e)) (x i) (x (i + e)) (afShift e (-2) x i))
    generalize (ppmLimit (ppmBase (afShift e 2 x i) (x (i - e)) (x i) (x (i + e))) (x i)
      (ppmBase (x (i - e)) (x i) (x (i + e)) (afShift e (-2) x i))) = F at *
    obtain ⟨b1, b2⟩ := hb
    obtain ⟨s1, s2⟩ := hs
    have b1' := between_nonneg b1
    have b2' := between_nonneg b2
    have s1' := between_nonneg s1
    have s2' := between_nonneg s2
    constructor
    · rcases le_total (x (i - e)) (x i) with h | h
      · have := b1'.1 h
        have := s1'.1 (by linarith)
        exact Between.of_le (by linarith) (by linarith)
      · have := b1'.2 h
        have := s1'.2 (by linarith)
        exact Between.of_ge (by linarith) (by linarith)
    · rcases le_total (x i) (x (i + e)) with h | h
      · have := b2'.2 h
        have := s2'.1 (by linarith)
        exact Between.of_le (by linarith) (by linarith)
      · have := b2'.1 h
        have := s2'.2 (by linarith)
        exact Between.of_ge (by linarith) (by linarith)

/-- Every face value lies between the values of the two cells at the face. -/
theorem faces_between (m : Recon) (e : I) (x : I → K) (i : I) :
    Between (x (i - e)) ((reconFaces m e x).1 i) (x i) ∧ Between (x (i + e)) ((reconFaces m e x).2 i) (x i) := by
  cases m with
  | piecewiseConstant => simp [reconFaces, Between]
  | minmod => exact C05_minmod_faces_between e x i
  | ppm => exact C07_ppm_faces_between e x i

theorem faces_nonneg (m : Recon) (e : I) (x : I → K) (hx : ∀ i, 0 ≤ x i) (i : I) :
    0 ≤ (reconFaces m e x).1 i ∧ 0 ≤ (reconFaces m e x).2 i := by
  obtain ⟨⟨h1, -⟩, ⟨h2, -⟩⟩ := faces_between m e x i
  exact ⟨(le_min (hx _) (hx _)).trans h1, (le_min (hx _) (hx _)).trans h2⟩

theorem faces_upper (m : Recon) (e : I) (x : I → K) (hx : ∀ i, 0 ≤ x i) (i : I) :
    (reconFaces m e x).1 i ≤ upperFactor m * x i ∧ (reconFaces m e x).2 i ≤ upperFactor m * x i := by
  have hk := upperFactor_one_le (K := K) m
  obtain ⟨s1, s2⟩ := faces_steep m e x i
  have s1' := between_nonneg s1
  have s2' := between_nonneg s2
  constructor
  · rcases le_total (x (i + e)) (x i) with h | h
    · have := (s2'.2 (by nlinarith)).1
      nlinarith [hx (i + e)]
    · have := (s2'.1 (by nlinarith)).1
      nlinarith [hx i]
  · rcases le_total (x (i - e)) (x i) with h | h
    · have := (s1'.1 (by nlinarith)).2
      nlinarith [hx (i - e)]
    · have := (s1'.2 (by nlinarith)).2
      nlinarith [hx i]

theorem ppmBase_lower (y0 y1 y2 y3 : K) (h1 : 0 ≤ y1) (h2 : 0 ≤ y2) :
    1 / 6 * y1 ≤ ppmBase y0 y1 y2 y3 ∧ 1 / 6 * y2 ≤ ppmBase y0 y1 y2 y3 := by
  have a := dq_bounds (y2 - y1) (y3 - y2)
  have b := dq_bounds' (y1 - y0) (y2 - y1)
  rcases le_total y1 y2 with h | h
  · have := a.1 (by linarith)
    have := b.1 (by linarith)
    constructor <;> simp only [ppmBase] <;> linarith
  · have := a.2 (by linarith)
    have := b.2 (by linarith)
    constructor <;> simp only [ppmBase] <;> linarith

theorem faces_lower (m : Recon) (e : I) (x : I → K) (hx : ∀ i, 0 ≤ x i) (i : I) :
    lowerFactor m * x i ≤ (reconFaces m e x).1 i ∧ lowerFactor m * x i ≤ (reconFaces m e x).2 i := by
  cases m with
  | piecewiseConstant => simp [reconFaces, lowerFactor]
  | minmod => simpa [lowerFactor] using faces_nonneg .minmod e x hx i
  | ppm =>
    simp only [reconFaces, reconstructPPM, ppmCell_eq, afShift_one, afShift_neg_one, lowerFactor]
    have h := ppmLimit_between (ppmBase (afShift e 2 x i) (x (i - e)) (x i) (x (i + e))) (x i)
      (ppmBase (x (i - e)) (x i) (x (i + e)) (afShift e (-2) x i))
    have h1 := (ppmBase_lower (afShift e 2 x i) (x (i - e)) (x i) (x (i + e)) (hx _) (hx _)).2
    have h2 := (ppmBase_lower (x (i - e)) (x i) (x (i + e)) (afShift e (-2) x i) (hx _) (hx _)).1
    have h3 : 1 / 6 * x i ≤ x i := by linarith [hx i]
    exact ⟨(le_min h1 h3).trans h.1.1, (le_min h2 h3).trans h.2.1⟩

/-! ### fluxes of a nonnegative distribution -/

theorem leftFlux_split (m : Recon) (e : I) (C x : I → K) (i : I) :
    leftFlux m e C x i = max (C i) 0 * (reconFaces m e x).2 (i - e) - max (-(C i)) 0 * (reconFaces m e x).1 i := by
  simp only [leftFlux, leftState_eq]
  split_ifs with h
  · rw [max_eq_left h.le, max_eq_right (by linarith)]; ring
  · push Not at h
    rw [max_eq_right h, max_eq_left (by linarith)]; ring

theorem fluxDiv_bounds (m : Recon) (e : I) (d : K) (hd : 0 < d) (C x : I → K) (hx : ∀ i, 0 ≤ x i) (mu kappa : K)
    (hm : mu ≤ lowerFactor m) (hk : upperFactor m ≤ kappa) (i : I) :
    fluxDiv m e d C x i ≤ kappa * (faceOutflow (C i) (C (i + e)) d * x i) - mu * faceInflow e C x d i ∧
    -(kappa * faceInflow e C x d i) ≤ fluxDiv m e d C x i := by
  have h0 : fluxDiv m e d C x i = (leftFlux m e C x (i + e) - leftFlux m e C x i) / d := by
    simp [fluxDiv]
  rw [h0, leftFlux_split, leftFlux_split, add_sub_cancel_right, faceOutflow, faceInflow]
  have lo := fun j => faces_lower m e x hx j
  have up := fun j => faces_upper m e x hx j
  have nn := fun j => faces_nonneg m e x hx j
  have lo' : ∀ j, mu * x j ≤ (reconFaces m e x).1 j ∧ mu * x j ≤ (reconFaces m e x).2 j := fun j =>
    ⟨(mul_le_mul_of_nonneg_right hm (hx j)).trans (lo j).1, (mul_le_mul_of_nonneg_right hm (hx j)).trans (lo j).2⟩
  have up' : ∀ j, (reconFaces m e x).1 j ≤ kappa * x j ∧ (reconFaces m e x).2 j ≤ kappa * x j := fun j =>
    ⟨(up j).1.trans (mul_le_mul_of_nonneg_right hk (hx j)), (up j).2.trans (mul_le_mul_of_nonneg_right hk (hx j))⟩
  have p1 : 0 ≤ max (C i) 0 := le_max_right _ _
  have p2 : 0 ≤ max (-(C i)) 0 := le_max_right _ _
  have p3 : 0 ≤ max (C (i + e)) 0 := le_max_right _ _
  have p4 : 0 ≤ max (-(C (i + e))) 0 := le_max_right _ _
  constructor
  · rw [div_mul_eq_mul_div, ← mul_div_assoc, ← mul_div_assoc, ← sub_div]
    apply div_le_div_of_nonneg_right _ hd.le
    have a1 := mul_le_mul_of_nonneg_left (lo' (i - e)).2 p1
    have a2 := mul_le_mul_of_nonneg_left (up' i).1 p2
    have a3 := mul_le_mul_of_nonneg_left (up' i).2 p3
    have a4 := mul_le_mul_of_nonneg_left (lo' (i + e)).1 p4
    linarith
  · rw [← mul_div_assoc, ← neg_div]
    apply div_le_div_of_nonneg_right _ hd.le
    have a1 := mul_le_mul_of_nonneg_left (up' (i - e)).2 p1
    have a2 := mul_nonneg p2 (nn i).1
    have a3 := mul_nonneg p3 (nn i).2
    have a4 := mul_le_mul_of_nonneg_left (up' (i + e)).1 p4
    linarith

theorem faceInflow_mono (e : I) (C x y : I → K) (d : K) (hd : 0 < d) (h : ∀ i, x i ≤ y i) (i : I) :
    faceInflow e C x d i ≤ faceInflow e C y d i := by
  apply div_le_div_of_nonneg_right _ hd.le
  have a := mul_le_mul_of_nonneg_left (h (i - e)) (le_max_right (C i) 0)
  have b := mul_le_mul_of_nonneg_left (h (i + e)) (le_max_right (-(C (i + e))) 0)
  linarith

theorem faceInflow_smul (e : I) (C x : I → K) (c d : K) (i : I) :
    faceInflow e C (fun j => c * x j) d i = c * faceInflow e C x d i := by
  simp only [faceInflow]; ring

end Bolt
