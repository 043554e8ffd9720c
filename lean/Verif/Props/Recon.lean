import Verif.Proofs.PPM
import Mathlib.Data.ZMod.Basic
import Mathlib.Tactic.Abel
import Mathlib.Algebra.Order.Ring.Rat

/-!
# C05–C09: reconstruction of face values
-/

set_option linter.unusedSectionVars false

namespace Bolt

variable {I K : Type} [AddCommGroup I] [Field K] [LinearOrder K] [IsStrictOrderedRing K]

/-! ## C05 minmod creates no new extrema -/

/-- C05: each minmod face value lies between the cell's value and the value of the neighbour on that side. -/
theorem C05_minmod_faces_between (e : I) (x : I → K) (i : I) :
    Between (x (i - e)) ((reconstructMinmod e x).1 i) (x i) ∧
    Between (x (i + e)) ((reconstructMinmod e x).2 i) (x i) := by
  simp only [reconstructMinmod, slopeMinmod_eq]
  have h : x (i + e) - x (i - e) = (x i - x (i - e)) + (x (i + e) - x i) := by ring
  rw [h]
  rcases slope_cases (x i - x (i - e)) (x (i + e) - x i) with ⟨h1, h2, h3⟩ | ⟨h1, h2, h3⟩ | ⟨h1, h3⟩
  · rw [h3]
    generalize hm : min (min (2 * (x i - x (i - e))) (1 / 2 * ((x i - x (i - e)) + (x (i + e) - x i))))
      (2 * (x (i + e) - x i)) = m
    have a : m ≤ 2 * (x i - x (i - e)) := by rw [← hm]; exact (min_le_left _ _).trans (min_le_left _ _)
    have b : m ≤ 2 * (x (i + e) - x i) := by rw [← hm]; exact min_le_right _ _
    have c : 0 ≤ m := by rw [← hm]; apply le_min <;> [apply le_min <;> linarith; linarith]
    exact ⟨Between.of_le (by linarith) (by linarith), Between.of_ge (by linarith) (by linarith)⟩
  · rw [h3]
    generalize hm : max (max (2 * (x i - x (i - e))) (1 / 2 * ((x i - x (i - e)) + (x (i + e) - x i))))
      (2 * (x (i + e) - x i)) = m
    have a : 2 * (x i - x (i - e)) ≤ m := by rw [← hm]; exact (le_max_left _ _).trans (le_max_left _ _)
    have b : 2 * (x (i + e) - x i) ≤ m := by rw [← hm]; exact le_max_right _ _
    have c : m ≤ 0 := by rw [← hm]; apply max_le <;> [apply max_le <;> linarith; linarith]
    exact ⟨Between.of_ge (by linarith) (by linarith), Between.of_le (by linarith) (by linarith)⟩
  · rw [h3]; simp [Between]

/-- C05: both face values stay within the range of the cell and its two neighbours. -/
theorem C05_minmod_faces_in_range (e : I) (x : I → K) (i : I) (lo hi : K)
    (h0 : lo ≤ x (i - e) ∧ x (i - e) ≤ hi) (h1 : lo ≤ x i ∧ x i ≤ hi) (h2 : lo ≤ x (i + e) ∧ x (i + e) ≤ hi) :
    (lo ≤ (reconstructMinmod e x).1 i ∧ (reconstructMinmod e x).1 i ≤ hi) ∧
    (lo ≤ (reconstructMinmod e x).2 i ∧ (reconstructMinmod e x).2 i ≤ hi) := by
  obtain ⟨⟨a, b⟩, ⟨c, d⟩⟩ := C05_minmod_faces_between e x i
  exact ⟨⟨(le_min h0.1 h1.1).trans a, b.trans (max_le h0.2 h1.2)⟩,
    ⟨(le_min h2.1 h1.1).trans c, d.trans (max_le h2.2 h1.2)⟩⟩

/-- C05: at a local extremum the reconstruction falls back to the cell value. -/
theorem C05_minmod_extremum (e : I) (x : I → K) (i : I) (h : LocalExtremum (x (i - e)) (x i) (x (i + e))) :
    (reconstructMinmod e x).1 i = x i ∧ (reconstructMinmod e x).2 i = x i := by
  have hs : slopeMinmod e x i = 0 := by
    rw [slopeMinmod_eq]
    apply minmod_zero
    · rintro ⟨a, b, c⟩; rcases h with ⟨h1, h2⟩ | ⟨h1, h2⟩ <;> linarith
    · rintro ⟨a, b, c⟩; rcases h with ⟨h1, h2⟩ | ⟨h1, h2⟩ <;> linarith
  simp [reconstructMinmod, hs]

/-- C05: the limiter is the textbook minmod function of its three arguments: the argument smallest in magnitude if all
have the same strict sign, zero otherwise. -/
theorem C05_minmod_is_minmod (x y z : K) :
    minmod x y z = if 0 < x ∧ 0 < y ∧ 0 < z then min (min x y) z
      else if x < 0 ∧ y < 0 ∧ z < 0 then max (max x y) z else 0 := by
  split_ifs with h h'
  · exact minmod_pos h.1 h.2.1 h.2.2
  · exact minmod_neg h'.1 h'.2.1 h'.2.2
  · exact minmod_zero h h'

/-- A non-trivial instance: values 0, 1, 4 in consecutive cells give the face values 0 and 2. -/
example : (reconstructMinmod (1 : ℤ) (fun i => (i * i : ℚ))).1 1 = 0 ∧
    (reconstructMinmod (1 : ℤ) (fun i => (i * i : ℚ))).2 1 = 2 := by
  simp only [reconstructMinmod, slopeMinmod_eq]
  rw [minmod_pos] <;> norm_num

example : LocalExtremum (1 : ℚ) 3 2 := Or.inl ⟨by norm_num, by norm_num⟩

/-! ## C06 exactness on linear data -/

/-- C06: where the data are linear with slope `b` per cell, the face values are the exact linear values. -/
theorem C06_minmod_linear_exact (e : I) (x : I → K) (i : I) (b : K)
    (hm : x (i - e) = x i - b) (hp : x (i + e) = x i + b) :
    (reconstructMinmod e x).1 i = x i - b / 2 ∧ (reconstructMinmod e x).2 i = x i + b / 2 := by
  have hs : slopeMinmod e x i = b := by
    rw [slopeMinmod_eq, hm, hp]
    have : minmod (2 * (x i - (x i - b))) (1 / 2 * (x i + b - (x i - b))) (2 * (x i + b - x i))
        = minmod (b * 2) (b * 1) (b * 2) := by congr 1 <;> ring
    rw [this, minmod_smul, minmod_pos (by norm_num) (by norm_num) (by norm_num)]
    norm_num
  simp only [reconstructMinmod, hs]
  constructor <;> ring

/-- C06: the PPM reconstruction is exact on linear data as well. -/
theorem C06_ppm_linear_exact (e : I) (x : I → K) (i : I) (b : K)
    (hmm : x (i - 2 • e) = x i - 2 * b) (hm : x (i - e) = x i - b)
    (hp : x (i + e) = x i + b) (hpp : x (i + 2 • e) = x i + 2 * b) :
    (reconstructPPM e x).1 i = x i - b / 2 ∧ (reconstructPPM e x).2 i = x i + b / 2 := by
  simp only [reconstructPPM, afShift_one, afShift_two, afShift_neg_one, afShift_neg_two, ppmCell_eq, hmm, hm, hp, hpp]
  have e1 : ppmBase (x i - 2 * b) (x i - b) (x i) (x i + b) = x i - b / 2 := by
    simp only [ppmBase]; ring_nf
  have e2 : ppmBase (x i - b) (x i) (x i + b) (x i + 2 * b) = x i + b / 2 := by
    simp only [ppmBase]; ring_nf
  rw [e1, e2]
  simp only [ppmLimit]
  rcases eq_or_ne b 0 with h | h
  · subst h; simp
  · have hb : 0 < b ^ 2 := by positivity
    rw [if_neg (by push Not; nlinarith), if_neg (by push Not; nlinarith), if_neg (by push Not; nlinarith)]
    exact ⟨rfl, rfl⟩

example : (reconstructMinmod (1 : ℤ) (fun i => (3 * i + 1 : ℚ))).2 5 = 16 + 3 / 2 := by
  have := (C06_minmod_linear_exact (1 : ℤ) (fun i => (3 * i + 1 : ℚ)) 5 3 (by norm_num) (by norm_num)).2
  rw [this]; norm_num

/-! ## C07 PPM is monotone -/

/-- C07: each PPM face value lies between the cell's value and the value of the neighbour on that side. -/
theorem C07_ppm_faces_between (e : I) (x : I → K) (i : I) :
    Between (x (i - e)) ((reconstructPPM e x).1 i) (x i) ∧
    Between (x (i + e)) ((reconstructPPM e x).2 i) (x i) := by
  simp only [reconstructPPM, ppmCell_eq, afShift_one, afShift_neg_one]
  have h := ppmLimit_between (ppmBase (afShift e 2 x i) (x (i - e)) (x i) (x (i + e))) (x i)
    (ppmBase (x (i - e)) (x i) (x (i + e)) (afShift e (-2) x i))
  have h1 := ppmBase_between (afShift e 2 x i) (x (i - e)) (x i) (x (i + e))
  have h2 := ppmBase_between (x (i - e)) (x i) (x (i + e)) (afShift e (-2) x i)
  refine ⟨h.1.trans h1, h.2.trans ?_⟩
  exact ⟨by rw [min_comm]; exact h2.1, by rw [max_comm]; exact h2.2⟩

/-- C07: both face values stay within the range of the cell and its two neighbours. -/
theorem C07_ppm_faces_in_range (e : I) (x : I → K) (i : I) (lo hi : K)
    (h0 : lo ≤ x (i - e) ∧ x (i - e) ≤ hi) (h1 : lo ≤ x i ∧ x i ≤ hi) (h2 : lo ≤ x (i + e) ∧ x (i + e) ≤ hi) :
    (lo ≤ (reconstructPPM e x).1 i ∧ (reconstructPPM e x).1 i ≤ hi) ∧
    (lo ≤ (reconstructPPM e x).2 i ∧ (reconstructPPM e x).2 i ≤ hi) := by
  obtain ⟨⟨a, b⟩, ⟨c, d⟩⟩ := C07_ppm_faces_between e x i
  exact ⟨⟨(le_min h0.1 h1.1).trans a, b.trans (max_le h0.2 h1.2)⟩,
    ⟨(le_min h2.1 h1.1).trans c, d.trans (max_le h2.2 h1.2)⟩⟩

/-- C07: at a local extremum both face values equal the cell value. -/
theorem C07_ppm_extremum (e : I) (x : I → K) (i : I) (h : LocalExtremum (x (i - e)) (x i) (x (i + e))) :
    (reconstructPPM e x).1 i = x i ∧ (reconstructPPM e x).2 i = x i := by
  simp only [reconstructPPM, ppmCell_eq, afShift_one, afShift_neg_one]
  have h1 := ppmBase_between (afShift e 2 x i) (x (i - e)) (x i) (x (i + e))
  have h2 := ppmBase_between (x (i - e)) (x i) (x (i + e)) (afShift e (-2) x i)
  generalize ppmBase (afShift e 2 x i) (x (i - e)) (x i) (x (i + e)) = L at *
  generalize ppmBase (x (i - e)) (x i) (x (i + e)) (afShift e (-2) x i) = R at *
  have : (R - x i) * (x i - L) ≤ 0 := by
    rcases h with ⟨a, b⟩ | ⟨a, b⟩
    · have := h1.2; rw [max_eq_right a] at this
      have h3 := h2.2; rw [max_eq_left b] at h3
      nlinarith
    · have := h1.1; rw [min_eq_right a] at this
      have h3 := h2.1; rw [min_eq_left b] at h3
      nlinarith
  simp [ppmLimit, this]

/-- The parabola of the specification has the face values at the faces. -/
theorem parabola_ends (l m r : K) : parabola l m r 0 = l ∧ parabola l m r 1 = r := by
  constructor <;> simp [parabola]

/-- The parabola of the specification has mean `m` over the cell (Simpson's rule, which is exact for parabolas). -/
theorem parabola_mean (l m r : K) :
    (parabola l m r 0 + 4 * parabola l m r (1 / 2) + parabola l m r 1) / 6 = m := by
  simp only [parabola]; field_simp; ring

/-- C07: the parabola given by the two PPM face values and the cell average is monotone inside the cell. -/
theorem C07_ppm_parabola_monotone (e : I) (x : I → K) (i : I) :
    MonotoneOnCell (parabola ((reconstructPPM e x).1 i) (x i) ((reconstructPPM e x).2 i)) := by
  simp only [reconstructPPM, ppmCell_eq, afShift_one, afShift_neg_one]
  generalize ppmBase (afShift e 2 x i) (x (i - e)) (x i) (x (i + e)) = L
  generalize ppmBase (x (i - e)) (x i) (x (i + e)) (afShift e (-2) x i) = R
  have h := ppmLimit_mono L (x i) R
  simp only at h
  generalize (ppmLimit L (x i) R).1 = l at *
  generalize (ppmLimit L (x i) R).2 = r at *
  have key : ∀ ξ η : K, parabola l (x i) r η - parabola l (x i) r ξ
      = (η - ξ) * ((r - l) + 6 * (x i - 1 / 2 * (r + l)) * (1 - ξ - η)) := by
    intro ξ η; simp only [parabola]; ring
  generalize 6 * (x i - 1 / 2 * (r + l)) = c at *
  rcases le_total 0 (r - l) with h0 | h0
  · left
    intro ξ η a b d
    have := key ξ η
    rw [abs_of_nonneg h0, abs_le] at h
    have h3 : 0 ≤ (r - l) + c * (1 - ξ - η) := by
      rcases le_total 0 c with hc | hc <;> nlinarith
    nlinarith [mul_nonneg (sub_nonneg.mpr b) h3]
  · right
    intro ξ η a b d
    have := key ξ η
    rw [abs_of_nonpos h0, abs_le] at h
    have h3 : (r - l) + c * (1 - ξ - η) ≤ 0 := by
      rcases le_total 0 c with hc | hc <;> nlinarith
    nlinarith [mul_nonneg (sub_nonneg.mpr b) (neg_nonneg.mpr h3)]

/-- A non-trivial instance, with an active limiter: cell values 0, 0, 1, 8, 9. -/
example : ppmCell (0 : ℚ) 0 1 8 9 = (1 / 6, 8 / 3) := by
  rw [ppmCell_eq]
  have e1 : dq (1 - 0 : ℚ) (8 - 1) = 2 := by rw [dq_pos] <;> norm_num
  have e2 : dq (0 - 0 : ℚ) (1 - 0) = 0 := dq_zero (by norm_num)
  have e3 : dq (8 - 1 : ℚ) (9 - 8) = 2 := by rw [dq_pos] <;> norm_num
  simp only [ppmBase, e1, e2, e3]
  norm_num [ppmLimit]

/-! ## C08 symmetries -/

/-- Reversal of an array: the cell at `i` moves to `-i`. -/
def reversed (x : I → K) : I → K := fun i => x (-i)

theorem ppmBase_reverse (a b c d : K) : ppmBase a b c d = ppmBase d c b a := by
  simp only [ppmBase]
  have h1 : dq (b - c) (a - b) = - dq (b - a) (c - b) := by
    rw [dq_swap, ← dq_neg_args]; congr 1 <;> ring
  have h2 : dq (c - d) (b - c) = - dq (c - b) (d - c) := by
    rw [dq_swap, ← dq_neg_args]; congr 1 <;> ring
  rw [h1, h2]; ring

theorem ppmLimit_reverse (L y R : K) : ppmLimit R y L = (ppmLimit L y R).swap := by
  simp only [ppmLimit]
  have e1 : (L - y) * (y - R) = (R - y) * (y - L) := by ring
  have e2 : (L - R) * ((L - R) - 6 * (y - 1 / 2 * (L + R))) = (R - L) * ((R - L) + 6 * (y - 1 / 2 * (R + L))) := by ring
  have e3 : (L - R) * ((L - R) + 6 * (y - 1 / 2 * (L + R))) = (R - L) * ((R - L) - 6 * (y - 1 / 2 * (R + L))) := by ring
  rw [e1, e2, e3]
  split_ifs with h1 h2 h3 <;> try rfl
  exfalso; nlinarith [sq_nonneg (R - L)]

/-- C08: reversing the array swaps left and right face values, for every reconstruction that can be selected. -/
theorem C08_reflection (m : Recon) (e : I) (x : I → K) :
    reconFaces m e (reversed x) = (reversed (reconFaces m e x).2, reversed (reconFaces m e x).1) := by
  cases m with
  | piecewiseConstant => rfl
  | minmod =>
    have hs : ∀ i, slopeMinmod e (reversed x) i = - slopeMinmod e x (-i) := by
      intro i
      simp only [slopeMinmod_eq, reversed, neg_sub, neg_add_rev]
      rw [← minmod_neg_args, minmod_swap]
      have e1 : e - i = -i + e := by abel
      have e2 : -e + -i = -i - e := by abel
      rw [e1, e2]
      congr 1 <;> ring
    simp only [reconFaces, reconstructMinmod, hs, Prod.mk.injEq]
    constructor <;> funext i <;> simp only [reversed] <;> ring
  | ppm =>
    have hc : ∀ i, ppmCell (afShift e 2 (reversed x) i) (afShift e 1 (reversed x) i) (reversed x i)
        (afShift e (-1) (reversed x) i) (afShift e (-2) (reversed x) i)
        = (ppmCell (afShift e 2 x (-i)) (afShift e 1 x (-i)) (x (-i))
        (afShift e (-1) x (-i)) (afShift e (-2) x (-i))).swap := by
      intro i
      simp only [afShift_one, afShift_two, afShift_neg_one, afShift_neg_two, reversed, ppmCell_eq]
      have e1 : -(i - 2 • e) = -i + 2 • e := by abel
      have e2 : -(i - e) = -i + e := by abel
      have e3 : -(i + e) = -i - e := by abel
      have e4 : -(i + 2 • e) = -i - 2 • e := by abel
      rw [e1, e2, e3, e4, ← ppmLimit_reverse, ppmBase_reverse, ppmBase_reverse (x (-i + e))]
    simp only [reconFaces, reconstructPPM, hc]
    rfl

/-- C08: face values are equivariant under affine changes of the data (any factor, also negative or zero). -/
theorem C08_affine (m : Recon) (e : I) (x : I → K) (a b : K) (i : I) :
    (reconFaces m e (fun j => a * x j + b)).1 i = a * (reconFaces m e x).1 i + b ∧
    (reconFaces m e (fun j => a * x j + b)).2 i = a * (reconFaces m e x).2 i + b := by
  cases m with
  | piecewiseConstant => exact ⟨rfl, rfl⟩
  | minmod =>
    have hs : slopeMinmod e (fun j => a * x j + b) i = a * slopeMinmod e x i := by
      simp only [slopeMinmod_eq]
      rw [← minmod_smul]; congr 1 <;> ring
    simp only [reconFaces, reconstructMinmod, hs]
    constructor <;> ring
  | ppm =>
    have hb : ∀ y0 y1 y2 y3 : K, ppmBase (a * y0 + b) (a * y1 + b) (a * y2 + b) (a * y3 + b)
        = a * ppmBase y0 y1 y2 y3 + b := by
      intro y0 y1 y2 y3
      simp only [ppmBase]
      have h1 := dq_smul a (y2 - y1) (y3 - y2)
      have h2 := dq_smul a (y1 - y0) (y2 - y1)
      have e1 : a * y2 + b - (a * y1 + b) = a * (y2 - y1) := by ring
      have e2 : a * y3 + b - (a * y2 + b) = a * (y3 - y2) := by ring
      have e3 : a * y1 + b - (a * y0 + b) = a * (y1 - y0) := by ring
      rw [e1, e2, e3, h1, h2]; ring
    have hl : ∀ L y R : K, ppmLimit (a * L + b) (a * y + b) (a * R + b)
        = (a * (ppmLimit L y R).1 + b, a * (ppmLimit L y R).2 + b) := by
      intro L y R
      rcases eq_or_ne a 0 with h | h
      · subst h; simp [ppmLimit]
      · have ha : 0 < a ^ 2 := by positivity
        have e1 : (a * R + b - (a * y + b)) * (a * y + b - (a * L + b)) = a ^ 2 * ((R - y) * (y - L)) := by ring
        have e2 : (a * R + b - (a * L + b)) * (a * R + b - (a * L + b) - 6 * (a * y + b - 1 / 2 * (a * R + b + (a * L + b))))
          = a ^ 2 * ((R - L) * (R - L - 6 * (y - 1 / 2 * (R + L)))) := by ring
        have e3 : (a * R + b - (a * L + b)) * (a * R + b - (a * L + b) + 6 * (a * y + b - 1 / 2 * (a * R + b + (a * L + b))))
          = a ^ 2 * ((R - L) * (R - L + 6 * (y - 1 / 2 * (R + L)))) := by ring
        have c1 : ∀ t : K, a ^ 2 * t ≤ 0 ↔ t ≤ 0 := fun t => by
          constructor <;> intro q <;> nlinarith
        have c2 : ∀ t : K, a ^ 2 * t < 0 ↔ t < 0 := fun t => by
          constructor <;> intro q <;> nlinarith
        simp only [ppmLimit, e1, e2, e3, c1, c2]
        split_ifs <;> simp <;> ring
    simp only [reconFaces, reconstructPPM, afShift, ppmCell_eq, hb, hl, and_self]

/-- C08: shifting the data by any number of cells along any axis shifts the face values. -/
theorem C08_shift (m : Recon) (e d : I) (x : I → K) :
    reconFaces m e (fun i => x (i - d)) =
      (fun i => (reconFaces m e x).1 (i - d), fun i => (reconFaces m e x).2 (i - d)) := by
  cases m with
  | piecewiseConstant => rfl
  | minmod =>
    simp only [reconFaces, reconstructMinmod, slopeMinmod, afShift, sub_right_comm]
  | ppm =>
    simp only [reconFaces, reconstructPPM, afShift, sub_right_comm]

/-- C08 (negative part): the WENO5 routine, which `reconstruct` refuses, is not reflection symmetric: the smoothness
indicators of the second and third sub-stencil are not the mirror images they should be. -/
theorem C08_weno5_not_symmetric :
    ∃ y0 y1 y2 y3 y4 : ℚ, wenoCell y0 y1 y2 y3 y4 ≠ (wenoCell y4 y3 y2 y1 y0).swap := by
  refine ⟨0, 0, 0, 0, 1, ?_⟩
  simp only [wenoCell, wenoBeta, wenoEps, ne_eq, Prod.swap, Prod.mk.injEq, not_and_or]
  left
  norm_num

example : reversed (fun i : ZMod 5 => (i.val : ℚ)) 1 = 4 := by
  simp only [reversed]; rfl

/-! ## C09 unavailable options -/

/-- C09: the outcome of `reconstruct` for every option string. -/
theorem C09_reconstruct_dispatch (name : String) (e : I) (x : I → K) :
    reconstruct name e x =
      if name = "piecewise-constant" then .ok (x, x)
      else if name = "minmod" then .ok (reconstructMinmod e x)
      else if name = "ppm" then .ok (reconstructPPM e x)
      else if name = "weno5" then .error .systemExit
      else .error .notImplemented := by
  simp only [reconstruct, reconMethod]
  split_ifs <;> rfl

/-- C09: `reconstruct` succeeds exactly for the three implemented names. -/
theorem C09_reconstruct_ok_iff (name : String) (e : I) (x : I → K) :
    (∃ r, reconstruct name e x = .ok r) ↔
      name = "piecewise-constant" ∨ name = "minmod" ∨ name = "ppm" := by
  rw [C09_reconstruct_dispatch]
  split_ifs <;> simp_all

example : reconstruct "weno5" (1 : ZMod 4) (fun _ => (0 : ℚ)) = .error .systemExit := by
  rw [C09_reconstruct_dispatch]; simp

end Bolt
