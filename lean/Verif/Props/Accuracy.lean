import Verif.Spec.Accuracy
import Verif.Props.Recon
import Verif.Props.FVM
import Mathlib.Analysis.Calculus.Taylor
import Mathlib.Analysis.Calculus.ContDiff.Polynomial
import Mathlib.Analysis.Calculus.Deriv.Pow

/-!
# C73: order of accuracy of the fluxes

Where the data are smooth and monotone the limiters do nothing: minmod is the second-order upwind-biased scheme and PPM the
fourth-order central one.
-/

set_option linter.unusedSectionVars false

namespace Bolt

open Asymptotics Filter Topology

section unlimited
variable {I K : Type} [AddCommGroup I] [Field K] [LinearOrder K] [IsStrictOrderedRing K]

/-- C73: where the two neighbouring differences have the same sign and differ by at most a factor of three, minmod uses the central
slope. -/
theorem C73_minmod_unlimited (e : I) (x : I → K) (i : I) (hs : 0 < (x i - x (i - e)) * (x (i + e) - x i))
    (h1 : |x i - x (i - e)| ≤ 3 * |x (i + e) - x i|) (h2 : |x (i + e) - x i| ≤ 3 * |x i - x (i - e)|) :
    (reconstructMinmod e x).1 i = x i - (x (i + e) - x (i - e)) / 4 ∧ (reconstructMinmod e x).2 i = x i + (x (i + e) - x (i - e)) / 4 := by
  have hd : slopeMinmod e x i = (x (i + e) - x (i - e)) / 2 := by
    rw [slopeMinmod_eq]
    rcases pos_and_pos_or_neg_and_neg_of_mul_pos hs with ⟨a, b⟩ | ⟨a, b⟩
    · rw [abs_of_pos a, abs_of_pos b] at h1 h2
      rw [minmod_pos (by linarith) (by linarith) (by linarith), min_eq_right (a := 2 * (x i - x (i - e))) (by linarith), min_eq_left (by linarith)]; ring
    · rw [abs_of_neg a, abs_of_neg b] at h1 h2
      rw [minmod_neg (by linarith) (by linarith) (by linarith), max_eq_right (a := 2 * (x i - x (i - e))) (by linarith), max_eq_left (by linarith)]; ring
  constructor <;> simp only [reconstructMinmod, hd] <;> ring

/-- The differences of neighbouring cells agree up to a third. -/
def Tame (m a : K) : Prop := m ≤ a ∧ 3 * a ≤ 4 * m

theorem dq_tame {m a b : K} (hm : 0 < m) (ha : Tame m a) (hb : Tame m b) : dq a b = 1 / 2 * (a + b) := by
  obtain ⟨a1, a2⟩ := ha
  obtain ⟨b1, b2⟩ := hb
  rw [dq_pos (by linarith) (by linarith), min_eq_left]
  exact le_min (by linarith) (by linarith)

theorem ppmCell_tame {m y0 y1 y2 y3 y4 : K} (hm : 0 < m) (h0 : Tame m (y1 - y0)) (h1 : Tame m (y2 - y1)) (h2 : Tame m (y3 - y2))
    (h3 : Tame m (y4 - y3)) : ppmCell y0 y1 y2 y3 y4 = (7 / 12 * (y1 + y2) - 1 / 12 * (y0 + y3), 7 / 12 * (y2 + y3) - 1 / 12 * (y1 + y4)) := by
  have e1 : ppmBase y0 y1 y2 y3 = 7 / 12 * (y1 + y2) - 1 / 12 * (y0 + y3) := by
    rw [ppmBase, dq_tame hm h1 h2, dq_tame hm h0 h1]; ring
  have e2 : ppmBase y1 y2 y3 y4 = 7 / 12 * (y2 + y3) - 1 / 12 * (y1 + y4) := by
    rw [ppmBase, dq_tame hm h2 h3, dq_tame hm h1 h2]; ring
  obtain ⟨a1, a2⟩ := h0
  obtain ⟨b1, b2⟩ := h1
  obtain ⟨c1, c2⟩ := h2
  obtain ⟨d1, d2⟩ := h3
  rw [ppmCell_eq, e1, e2, ppmLimit]
  have p1 : 0 < (7 / 12 * (y2 + y3) - 1 / 12 * (y1 + y4)) - y2 := by linarith
  have p2 : 0 < y2 - (7 / 12 * (y1 + y2) - 1 / 12 * (y0 + y3)) := by linarith
  have p3 : 0 < (7 / 12 * (y2 + y3) - 1 / 12 * (y1 + y4)) - (7 / 12 * (y1 + y2) - 1 / 12 * (y0 + y3)) := by linarith
  rw [if_neg (not_le.mpr (mul_pos p1 p2)), if_neg (not_lt.mpr (mul_nonneg p3.le (by linarith))),
    if_neg (not_lt.mpr (mul_nonneg p3.le (by linarith)))]

/-- C73: where the four differences around a cell have the same sign and agree up to a third, PPM returns the fourth-order
interpolation to the faces. -/
theorem C73_ppm_unlimited (e : I) (x : I → K) (i : I) (m : K) (hm : m ≠ 0)
    (h : ∀ k : ℤ, -2 ≤ k → k ≤ 1 → 1 ≤ (x (i + (k + 1) • e) - x (i + k • e)) / m ∧ (x (i + (k + 1) • e) - x (i + k • e)) / m ≤ 4 / 3) :
    (reconstructPPM e x).1 i = 7 / 12 * (x (i - e) + x i) - 1 / 12 * (x (i - 2 • e) + x (i + e)) ∧
    (reconstructPPM e x).2 i = 7 / 12 * (x i + x (i + e)) - 1 / 12 * (x (i - e) + x (i + 2 • e)) := by
  have g0 := h (-2) (by norm_num) (by norm_num)
  have g1 := h (-1) (by norm_num) (by norm_num)
  have g2 := h 0 (by norm_num) (by norm_num)
  have g3 := h 1 (by norm_num) (by norm_num)
  have k0 : i + (-2 : ℤ) • e = i - 2 • e := by rw [neg_smul, ← sub_eq_add_neg]; norm_cast
  have k1 : i + (-1 : ℤ) • e = i - e := by rw [neg_smul, one_smul, ← sub_eq_add_neg]
  have k2 : i + (0 : ℤ) • e = i := by rw [zero_smul, add_zero]
  have k3 : i + (1 : ℤ) • e = i + e := by rw [one_smul]
  have k4 : i + (2 : ℤ) • e = i + 2 • e := by norm_cast
  rw [show (-2 + 1 : ℤ) = -1 by norm_num, k0, k1] at g0
  rw [show (-1 + 1 : ℤ) = 0 by norm_num, k1, k2] at g1
  rw [show (0 + 1 : ℤ) = 1 by norm_num, k2, k3] at g2
  rw [show (1 + 1 : ℤ) = 2 by norm_num, k3, k4] at g3
  have key : ∀ y0 y1 y2 y3 y4 : K, 1 ≤ (y1 - y0) / m ∧ (y1 - y0) / m ≤ 4 / 3 → 1 ≤ (y2 - y1) / m ∧ (y2 - y1) / m ≤ 4 / 3 →
      1 ≤ (y3 - y2) / m ∧ (y3 - y2) / m ≤ 4 / 3 → 1 ≤ (y4 - y3) / m ∧ (y4 - y3) / m ≤ 4 / 3 →
      ppmCell y0 y1 y2 y3 y4 = (7 / 12 * (y1 + y2) - 1 / 12 * (y0 + y3), 7 / 12 * (y2 + y3) - 1 / 12 * (y1 + y4)) := by
    intro y0 y1 y2 y3 y4 a b c d
    -- scale by `1 / m`
    have ha := C08_affine (I := ℤ) (.ppm) 1 (fun j => if j = -2 then y0 / m else if j = -1 then y1 / m else if j = 0 then y2 / m else
      if j = 1 then y3 / m else y4 / m) m 0 0
    have t : ∀ z : K, 1 ≤ z ∧ z ≤ 4 / 3 → Tame 1 z := fun z hz => ⟨hz.1, by linarith [hz.2]⟩
    have hc := ppmCell_tame (y0 := y0 / m) (y1 := y1 / m) (y2 := y2 / m) (y3 := y3 / m) (y4 := y4 / m) one_pos
      (t _ (by rwa [← sub_div])) (t _ (by rwa [← sub_div])) (t _ (by rwa [← sub_div])) (t _ (by rwa [← sub_div]))
    simp only [reconFaces, reconstructPPM, afShift] at ha
    norm_num at ha
    rw [hc] at ha
    have z : ∀ y : K, m * (y / m) = y := fun y => by field_simp
    simp only [z] at ha
    rw [Prod.ext_iff]
    refine ⟨ha.1.trans ?_, ha.2.trans ?_⟩ <;> field_simp
  have := key _ _ _ _ _ g0 g1 g2 g3
  simp only [reconstructPPM, afShift_one, afShift_neg_one, afShift_two, afShift_neg_two, this]
  exact ⟨trivial, trivial⟩

end unlimited

section order
variable {f : ℝ → ℝ} {x0 : ℝ}

theorem local_taylor {n : ℕ} (hf : ContDiff ℝ (n + 1 : ℕ) f) (x0 : ℝ) :
    ∃ c : ℕ → ℝ, c 0 = f x0 ∧ c 1 = deriv f x0 ∧
      (fun t => f (x0 + t) - ∑ k ∈ Finset.range (n + 2), c k * t ^ k) =o[𝓝 0] fun t => t ^ (n + 1) := by
  refine ⟨fun k => (k.factorial : ℝ)⁻¹ * iteratedDerivWithin k f Set.univ x0, by simp, by simp [iteratedDerivWithin_univ, iteratedDeriv_one], ?_⟩
  have h := taylor_isLittleO_univ (x₀ := x0) hf
  have ht : Tendsto (fun t : ℝ => x0 + t) (𝓝 0) (𝓝 x0) := by
    have := (by fun_prop : Continuous fun t : ℝ => x0 + t).tendsto 0
    rwa [add_zero] at this
  have h2 := h.comp_tendsto ht
  simp only [Function.comp_def, add_sub_cancel_left] at h2
  refine h2.congr_left fun t => ?_
  rw [taylor_within_apply]
  congr 1
  refine Finset.sum_congr rfl fun k _ => ?_
  rw [add_sub_cancel_left, smul_eq_mul]
  ring

/-- Taylor expansion at the seven grid points around `x0`, with a remainder that is as small as one likes on fine grids. -/
theorem grid_taylor {n : ℕ} (hf : ContDiff ℝ (n + 1 : ℕ) f) (x0 : ℝ) :
    ∃ c : ℕ → ℝ, c 1 = deriv f x0 ∧ ∀ ε > 0, ∃ h0 > 0, ∀ h, 0 < h → h < h0 → ∀ k : ℤ, -3 ≤ k → k ≤ 3 →
      |f (x0 + k * h) - ∑ j ∈ Finset.range (n + 2), c j * (k * h) ^ j| ≤ ε * h ^ (n + 1) := by
  obtain ⟨c, -, c1, hc⟩ := local_taylor hf x0
  refine ⟨c, c1, fun ε hε => ?_⟩
  have hb := hc.bound (show 0 < ε / 3 ^ (n + 1) by positivity)
  obtain ⟨r, hr, hball⟩ := Metric.eventually_nhds_iff.mp hb
  refine ⟨r / 3, by positivity, fun h h0 h1 k k1 k2 => ?_⟩
  have hk : |(k : ℝ)| ≤ 3 := by rw [abs_le]; constructor <;> exact_mod_cast by omega
  have hkh : |(k : ℝ) * h| ≤ 3 * h := by rw [abs_mul, abs_of_pos h0]; gcongr
  have := hball (y := k * h) (by rw [Real.dist_eq, sub_zero]; linarith)
  simp only [Real.norm_eq_abs, abs_pow] at this
  refine this.trans ?_
  calc _ ≤ ε / 3 ^ (n + 1) * (3 * h) ^ (n + 1) := by gcongr
    _ = _ := by rw [mul_pow]; field_simp

/-- On fine grids, where the derivative does not vanish, neighbouring differences agree up to a third. -/
theorem grid_tame (hf : ContDiff ℝ 1 f) (hne : deriv f x0 ≠ 0) : ∃ h0 > 0, ∀ h, 0 < h → h < h0 → ∀ k : ℤ, -3 ≤ k → k ≤ 2 →
    1 ≤ (f (x0 + (k + 1 : ℤ) * h) - f (x0 + k * h)) / (6 / 7 * (deriv f x0 * h)) ∧
    (f (x0 + (k + 1 : ℤ) * h) - f (x0 + k * h)) / (6 / 7 * (deriv f x0 * h)) ≤ 4 / 3 := by
  obtain ⟨c, c1, H⟩ := grid_taylor (n := 0) hf x0
  have hpos : 0 < |deriv f x0| := abs_pos.mpr hne
  obtain ⟨h0, h0pos, hh⟩ := H (|deriv f x0| / 14) (by positivity)
  refine ⟨h0, h0pos, fun h hp hlt k k1 k2 => ?_⟩
  have a := hh h hp hlt k k1 (by omega)
  have b := hh h hp hlt (k + 1) (by omega) (by omega)
  simp only [Finset.sum_range_succ, Finset.sum_range_zero, c1] at a b
  push_cast at a b ⊢
  set d := deriv f x0
  have e : |f (x0 + (k + 1) * h) - f (x0 + k * h) - d * h| ≤ |d| / 7 * h := by
    rw [abs_le] at a b ⊢
    constructor <;> nlinarith [a.1, a.2, b.1, b.2]
  rw [abs_le] at e
  rcases lt_or_gt_of_ne hne with hd | hd
  · rw [abs_of_neg hd] at e
    have : 6 / 7 * (d * h) < 0 := by have := mul_neg_of_neg_of_pos hd hp; linarith
    rw [one_le_div_of_neg this, div_le_iff_of_neg this]
    constructor <;> nlinarith [e.1, e.2]
  · rw [abs_of_pos hd] at e
    have : 0 < 6 / 7 * (d * h) := by positivity
    rw [one_le_div this, div_le_iff₀ this]
    constructor <;> nlinarith [e.1, e.2]

theorem fluxDiv_constant {I : Type} [AddCommGroup I] (m : Recon) (e : I) (h v : ℝ) (x : I → ℝ) (i : I) :
    fluxDiv m e h (fun _ => v) x i =
      v * ((if 0 < v then (reconFaces m e x).2 i - (reconFaces m e x).2 (i - e) else (reconFaces m e x).1 (i + e) - (reconFaces m e x).1 i) / h) := by
  simp only [fluxDiv, afShift_neg_one, leftFlux, leftState_eq, add_sub_cancel_right]
  split_ifs <;> ring

/-- From an estimate of the difference of face values to one of the flux divergence. -/
theorem fluxDiv_error {I : Type} [AddCommGroup I] {m : Recon} {e : I} {h v d C : ℝ} {x : I → ℝ} {i : I} {n : ℕ} (hh : 0 < h)
    (hp : |(reconFaces m e x).2 i - (reconFaces m e x).2 (i - e) - d * h| ≤ C * h ^ (n + 1))
    (hm : |(reconFaces m e x).1 (i + e) - (reconFaces m e x).1 i - d * h| ≤ C * h ^ (n + 1)) :
    |fluxDiv m e h (fun _ => v) x i - v * d| ≤ C * |v| * h ^ n := by
  rw [fluxDiv_constant]
  have key : ∀ z, |z - d * h| ≤ C * h ^ (n + 1) → |v * (z / h) - v * d| ≤ C * |v| * h ^ n := by
    intro z hz
    have e1 : v * (z / h) - v * d = v * ((z - d * h) / h) := by field_simp
    rw [e1, abs_mul, abs_div, abs_of_pos hh, mul_right_comm, mul_comm]
    gcongr
    rw [div_le_iff₀ hh, mul_assoc, ← pow_succ]
    exact hz
  split_ifs
  · exact key _ hp
  · exact key _ hm

section grid
variable {I : Type} [AddCommGroup I] {h : ℝ} {e i : I} {x : I → ℝ}

theorem idx_sub2 : i - e - e = i + (-2 : ℤ) • e := by abel
theorem idx_sub1 : i - e = i + (-1 : ℤ) • e := by abel
theorem idx_add1 : i + e = i + (1 : ℤ) • e := by abel
theorem idx_add2 : i + e + e = i + (2 : ℤ) • e := by abel

theorem SamplesAround.val (hx : SamplesAround f x0 h e i x) : x (i - e - e) = f (x0 + (-2 : ℤ) * h) ∧ x (i - e) = f (x0 + (-1 : ℤ) * h) ∧
    x i = f (x0 + (0 : ℤ) * h) ∧ x (i + e) = f (x0 + (1 : ℤ) * h) ∧ x (i + e + e) = f (x0 + (2 : ℤ) * h) := by
  refine ⟨?_, ?_, ?_, ?_, ?_⟩
  · rw [idx_sub2]; exact hx _ (by norm_num) (by norm_num)
  · rw [idx_sub1]; exact hx _ (by norm_num) (by norm_num)
  · have := hx 0 (by norm_num) (by norm_num); rwa [zero_smul, add_zero] at this
  · rw [idx_add1]; exact hx _ (by norm_num) (by norm_num)
  · rw [idx_add2]; exact hx _ (by norm_num) (by norm_num)

/-- Minmod faces of smooth monotone data. -/
theorem minmod_faces_tame {m y0 y1 y2 : ℝ} {j : I} (hm : m ≠ 0) (e0 : x (j - e) = y0) (e1 : x j = y1) (e2 : x (j + e) = y2)
    (t1 : 1 ≤ (y1 - y0) / m ∧ (y1 - y0) / m ≤ 4 / 3) (t2 : 1 ≤ (y2 - y1) / m ∧ (y2 - y1) / m ≤ 4 / 3) :
    (reconFaces .minmod e x).1 j = y1 - (y2 - y0) / 4 ∧ (reconFaces .minmod e x).2 j = y1 + (y2 - y0) / 4 := by
  subst e0 e1 e2
  have m1 : (x j - x (j - e)) = m * ((x j - x (j - e)) / m) := by field_simp
  have m2 : (x (j + e) - x j) = m * ((x (j + e) - x j) / m) := by field_simp
  set a := (x j - x (j - e)) / m
  set b := (x (j + e) - x j) / m
  have hmp : 0 < |m| := abs_pos.mpr hm
  refine C73_minmod_unlimited e x j ?_ ?_ ?_
  · rw [m1, m2, show m * a * (m * b) = m ^ 2 * (a * b) by ring]
    have := t1.1; have := t2.1
    positivity
  · rw [m1, m2, abs_mul, abs_mul, abs_of_pos (a := a) (by linarith [t1.1]), abs_of_pos (a := b) (by linarith [t2.1])]
    nlinarith [t1.1, t1.2, t2.1, t2.2]
  · rw [m1, m2, abs_mul, abs_mul, abs_of_pos (a := a) (by linarith [t1.1]), abs_of_pos (a := b) (by linarith [t2.1])]
    nlinarith [t1.1, t1.2, t2.1, t2.2]

end grid

/-- The Taylor expansion with the remainder as a number. -/
theorem grid_remainder {n : ℕ} (hf : ContDiff ℝ (n + 1 : ℕ) f) (x0 : ℝ) :
    ∃ c : ℕ → ℝ, c 1 = deriv f x0 ∧ ∃ h0 > 0, ∀ h, 0 < h → h < h0 → ∀ k : ℤ, -3 ≤ k → k ≤ 3 →
      ∃ ρ, f (x0 + k * h) = (∑ j ∈ Finset.range (n + 2), c j * (k * h) ^ j) + ρ ∧ -h ^ (n + 1) ≤ ρ ∧ ρ ≤ h ^ (n + 1) := by
  obtain ⟨c, c1, H⟩ := grid_taylor hf x0
  obtain ⟨h0, h0pos, hh⟩ := H 1 one_pos
  refine ⟨c, c1, h0, h0pos, fun h hp hlt k k1 k2 => ⟨_, (add_sub_cancel _ _).symm, ?_⟩⟩
  have := hh h hp hlt k k1 k2
  rw [one_mul] at this
  exact abs_le.mp this

/-- C73: the first-order scheme: the flux divergence of a smooth function approximates the derivative with an error proportional to
the cell size. -/
theorem C73_first_order (hf : ContDiff ℝ 2 f) (x0 : ℝ) : ∃ C, ∃ h0 > 0, ∀ h, 0 < h → h < h0 → ∀ (I : Type) [AddCommGroup I] (e i : I)
    (x : I → ℝ), SamplesAround f x0 h e i x → ∀ v, |fluxDiv .piecewiseConstant e h (fun _ => v) x i - v * deriv f x0| ≤ C * |v| * h ^ 1 := by
  obtain ⟨c, c1, h0, h0pos, hh⟩ := grid_remainder (n := 1) hf x0
  refine ⟨|c 2| + 2, h0, h0pos, fun h hp hlt I _ e i x hx v => ?_⟩
  obtain ⟨-, a1, a2, a3, -⟩ := hx.val
  obtain ⟨ρ1, e1, l1, u1⟩ := hh h hp hlt (-1) (by norm_num) (by norm_num)
  obtain ⟨ρ2, e2, l2, u2⟩ := hh h hp hlt 0 (by norm_num) (by norm_num)
  obtain ⟨ρ3, e3, l3, u3⟩ := hh h hp hlt 1 (by norm_num) (by norm_num)
  rw [e1] at a1
  rw [e2] at a2
  rw [e3] at a3
  simp only [Finset.sum_range_succ, Finset.sum_range_zero, c1] at a1 a2 a3
  push_cast at a1 a2 a3
  have q := neg_abs_le (c 2)
  have q' := le_abs_self (c 2)
  have h2 : 0 < h ^ 2 := by positivity
  have k := mul_le_mul_of_nonneg_right q h2.le
  have k' := mul_le_mul_of_nonneg_right q' h2.le
  norm_num only at l1 u1 l2 u2 l3 u3
  refine fluxDiv_error hp ?_ ?_ <;> simp only [reconFaces, a1, a2, a3] <;> rw [abs_le] <;>
    constructor <;> ring_nf <;> ring_nf at k k' <;> linarith

/-- C73: minmod: where the derivative does not vanish, the flux divergence of a smooth function approximates the derivative with an
error proportional to the square of the cell size. -/
theorem C73_minmod_second_order (hf : ContDiff ℝ 3 f) (hne : deriv f x0 ≠ 0) : ∃ C, ∃ h0 > 0, ∀ h, 0 < h → h < h0 →
    ∀ (I : Type) [AddCommGroup I] (e i : I) (x : I → ℝ), SamplesAround f x0 h e i x →
      ∀ v, |fluxDiv .minmod e h (fun _ => v) x i - v * deriv f x0| ≤ C * |v| * h ^ 2 := by
  obtain ⟨c, c1, h0, h0pos, hh⟩ := grid_remainder (n := 2) hf x0
  obtain ⟨h1, h1pos, ht⟩ := grid_tame (hf.of_le (by norm_num)) hne
  refine ⟨|c 3| + 3, min h0 h1, lt_min h0pos h1pos, fun h hp hlt I _ e i x hx v => ?_⟩
  have l0 := lt_of_lt_of_le hlt (min_le_left _ _)
  have l1 := lt_of_lt_of_le hlt (min_le_right _ _)
  obtain ⟨a0, a1, a2, a3, a4⟩ := hx.val
  have hm : 6 / 7 * (deriv f x0 * h) ≠ 0 := mul_ne_zero (by norm_num) (mul_ne_zero hne hp.ne')
  have t0 := ht h hp l1 (-2) (by norm_num) (by norm_num)
  have t1 := ht h hp l1 (-1) (by norm_num) (by norm_num)
  have t2 := ht h hp l1 0 (by norm_num) (by norm_num)
  have t3 := ht h hp l1 1 (by norm_num) (by norm_num)
  rw [show (-2 + 1 : ℤ) = -1 by norm_num] at t0
  rw [show (-1 + 1 : ℤ) = 0 by norm_num] at t1
  rw [show (0 + 1 : ℤ) = 1 by norm_num] at t2
  rw [show (1 + 1 : ℤ) = 2 by norm_num] at t3
  have f0 := minmod_faces_tame (j := i - e) (e := e) (x := x) hm a0 a1 ((congrArg x (sub_add_cancel i e)).trans a2) t0 t1
  have f1 := minmod_faces_tame (x := x) hm a1 a2 a3 t1 t2
  have f2 := minmod_faces_tame (j := i + e) (e := e) (x := x) hm ((congrArg x (add_sub_cancel_right i e)).trans a2) a3 a4 t2 t3
  obtain ⟨ρ0, e0, m0, u0⟩ := hh h hp l0 (-2) (by norm_num) (by norm_num)
  obtain ⟨ρ1, e1, m1, u1⟩ := hh h hp l0 (-1) (by norm_num) (by norm_num)
  obtain ⟨ρ2, e2, m2, u2⟩ := hh h hp l0 0 (by norm_num) (by norm_num)
  obtain ⟨ρ3, e3, m3, u3⟩ := hh h hp l0 1 (by norm_num) (by norm_num)
  obtain ⟨ρ4, e4, m4, u4⟩ := hh h hp l0 2 (by norm_num) (by norm_num)
  rw [e0, e1, e2] at f0
  rw [e1, e2, e3] at f1
  rw [e2, e3, e4] at f2
  simp only [Finset.sum_range_succ, Finset.sum_range_zero, c1] at f0 f1 f2
  push_cast at f0 f1 f2
  have h3 : 0 < h ^ 3 := by positivity
  have k := mul_le_mul_of_nonneg_right (neg_abs_le (c 3)) h3.le
  have k' := mul_le_mul_of_nonneg_right (le_abs_self (c 3)) h3.le
  have q0 := mul_nonneg (abs_nonneg (c 3)) h3.le
  norm_num only at m0 u0 m1 u1 m2 u2 m3 u3 m4 u4
  refine fluxDiv_error hp ?_ ?_
  · rw [f0.2, f1.2, abs_le]
    constructor <;> ring_nf <;> ring_nf at k k' q0 <;> linarith
  · rw [f1.1, f2.1, abs_le]
    constructor <;> ring_nf <;> ring_nf at k k' q0 <;> linarith

/-- PPM faces of smooth monotone data at the cell `c` steps from `i`. -/
theorem ppm_faces_tame {I : Type} [AddCommGroup I] {h m : ℝ} {e i : I} {x : I → ℝ} (hx : SamplesAround f x0 h e i x) (hm : m ≠ 0)
    (ht : ∀ k : ℤ, -3 ≤ k → k ≤ 2 → 1 ≤ (f (x0 + (k + 1 : ℤ) * h) - f (x0 + k * h)) / m ∧
      (f (x0 + (k + 1 : ℤ) * h) - f (x0 + k * h)) / m ≤ 4 / 3) (c : ℤ) (c1 : -1 ≤ c) (c2 : c ≤ 1) :
    (reconFaces .ppm e x).1 (i + c • e) = 7 / 12 * (f (x0 + (c - 1 : ℤ) * h) + f (x0 + c * h))
      - 1 / 12 * (f (x0 + (c - 2 : ℤ) * h) + f (x0 + (c + 1 : ℤ) * h)) ∧
    (reconFaces .ppm e x).2 (i + c • e) = 7 / 12 * (f (x0 + c * h) + f (x0 + (c + 1 : ℤ) * h))
      - 1 / 12 * (f (x0 + (c - 1 : ℤ) * h) + f (x0 + (c + 2 : ℤ) * h)) := by
  have step : ∀ k : ℤ, i + c • e + k • e = i + (c + k) • e := fun k => by rw [add_smul, add_assoc]
  have val : ∀ k : ℤ, -2 ≤ k → k ≤ 2 → x (i + c • e + k • e) = f (x0 + (c + k : ℤ) * h) := fun k k1 k2 => by
    rw [step]; exact hx _ (by omega) (by omega)
  obtain ⟨A, B⟩ := C73_ppm_unlimited e x (i + c • e) m hm (fun k k1 k2 => by
    rw [val k (by omega) (by omega), val (k + 1) (by omega) (by omega), ← add_assoc]
    exact ht (c + k) (by omega) (by omega))
  have v0 := val 0 (by norm_num) (by norm_num)
  have v1 := val (-1) (by norm_num) (by norm_num)
  have v2 := val (-2) (by norm_num) (by norm_num)
  have v3 := val 1 (by norm_num) (by norm_num)
  have v4 := val 2 (by norm_num) (by norm_num)
  rw [zero_smul, add_zero, add_zero] at v0
  rw [neg_smul, one_smul, ← sub_eq_add_neg, ← sub_eq_add_neg] at v1
  rw [neg_smul, ← sub_eq_add_neg, ← sub_eq_add_neg] at v2
  rw [one_smul] at v3
  have n2 : (2 : ℤ) • e = 2 • e := by norm_cast
  rw [n2] at v2 v4
  rw [v0, v1, v2, v3] at A
  rw [v0, v1, v3, v4] at B
  exact ⟨A, B⟩

/-- C73: PPM: where the derivative does not vanish, the flux divergence of a smooth function approximates the derivative with an
error proportional to the fourth power of the cell size. -/
theorem C73_ppm_fourth_order (hf : ContDiff ℝ 5 f) (hne : deriv f x0 ≠ 0) : ∃ C, ∃ h0 > 0, ∀ h, 0 < h → h < h0 →
    ∀ (I : Type) [AddCommGroup I] (e i : I) (x : I → ℝ), SamplesAround f x0 h e i x →
      ∀ v, |fluxDiv .ppm e h (fun _ => v) x i - v * deriv f x0| ≤ C * |v| * h ^ 4 := by
  obtain ⟨c, c1, h0, h0pos, hh⟩ := grid_remainder (n := 4) hf x0
  obtain ⟨h1, h1pos, ht⟩ := grid_tame (hf.of_le (by norm_num)) hne
  refine ⟨4 * |c 5| + 2, min h0 h1, lt_min h0pos h1pos, fun h hp hlt I _ e i x hx v => ?_⟩
  have l0 := lt_of_lt_of_le hlt (min_le_left _ _)
  have l1 := lt_of_lt_of_le hlt (min_le_right _ _)
  have hm : 6 / 7 * (deriv f x0 * h) ≠ 0 := mul_ne_zero (by norm_num) (mul_ne_zero hne hp.ne')
  have f0 := ppm_faces_tame hx hm (ht h hp l1) (-1) (by norm_num) (by norm_num)
  have f1 := ppm_faces_tame hx hm (ht h hp l1) 0 (by norm_num) (by norm_num)
  have f2 := ppm_faces_tame hx hm (ht h hp l1) 1 (by norm_num) (by norm_num)
  rw [← idx_sub1] at f0
  rw [zero_smul, add_zero] at f1
  rw [← idx_add1] at f2
  norm_num only at f0 f1 f2
  obtain ⟨ρ0, e0, m0, u0⟩ := hh h hp l0 (-2) (by norm_num) (by norm_num)
  obtain ⟨ρ1, e1, m1, u1⟩ := hh h hp l0 (-1) (by norm_num) (by norm_num)
  obtain ⟨ρ2, e2, m2, u2⟩ := hh h hp l0 0 (by norm_num) (by norm_num)
  obtain ⟨ρ3, e3, m3, u3⟩ := hh h hp l0 1 (by norm_num) (by norm_num)
  obtain ⟨ρ4, e4, m4, u4⟩ := hh h hp l0 2 (by norm_num) (by norm_num)
  simp only [Finset.sum_range_succ, Finset.sum_range_zero, c1] at e0 e1 e2 e3 e4
  push_cast at e0 e1 e2 e3 e4 f0 f1 f2
  have h5 : 0 < h ^ 5 := by positivity
  have k := mul_le_mul_of_nonneg_right (neg_abs_le (c 5)) h5.le
  have k' := mul_le_mul_of_nonneg_right (le_abs_self (c 5)) h5.le
  norm_num only at m0 u0 m1 u1 m2 u2 m3 u3 m4 u4
  refine fluxDiv_error hp ?_ ?_
  · rw [f0.2, f1.2]
    simp only [e0, e1, e2, e3, e4]
    rw [abs_le]
    constructor <;> ring_nf <;> ring_nf at k k' <;> linarith
  · rw [f1.1, f2.1]
    simp only [e0, e1, e2, e3, e4]
    rw [abs_le]
    constructor <;> ring_nf <;> ring_nf at k k' <;> linarith

/-- The three estimates together: each reconstruction has its advertised order. -/
theorem flux_order (m : Recon) (hf : ContDiff ℝ (m.order + 1 : ℕ) f) (hne : m = .piecewiseConstant ∨ deriv f x0 ≠ 0) : ∃ C, 0 ≤ C ∧ ∃ h0 > 0,
    ∀ h, 0 < h → h < h0 → ∀ (I : Type) [AddCommGroup I] (e i : I) (x : I → ℝ), SamplesAround f x0 h e i x →
      ∀ v, |fluxDiv m e h (fun _ => v) x i - v * deriv f x0| ≤ C * |v| * h ^ m.order := by
  suffices H : ∃ C, ∃ h0 > 0, ∀ h, 0 < h → h < h0 → ∀ (I : Type) [AddCommGroup I] (e i : I) (x : I → ℝ), SamplesAround f x0 h e i x →
      ∀ v, |fluxDiv m e h (fun _ => v) x i - v * deriv f x0| ≤ C * |v| * h ^ m.order by
    obtain ⟨C, h0, h0pos, H⟩ := H
    refine ⟨max C 0, le_max_right _ _, h0, h0pos, fun h hp hl I _ e i x hx v => (H h hp hl I e i x hx v).trans ?_⟩
    gcongr
    exact le_max_left _ _
  cases m with
  | piecewiseConstant => exact C73_first_order hf x0
  | minmod => exact C73_minmod_second_order hf (hne.resolve_left (by simp))
  | ppm => exact C73_ppm_fourth_order hf (hne.resolve_left (by simp))

/-- C73: **order of accuracy of the slope.**  For every reconstruction that can be chosen: if the distribution, along each of the two
axes through a cell, samples a smooth function whose derivative at the cell does not vanish (not needed for the first-order
scheme), then the slope computed for that cell is `-(v1 ∂f/∂q1 + v2 ∂f/∂q2)` up to an error of the advertised order in the cell sizes. -/
theorem C73_slope {S P : Type} [AddCommGroup P] (m : Recon) (f1 f2 : ℝ → ℝ) (x1 x2 : ℝ)
    (hf1 : ContDiff ℝ (m.order + 1 : ℕ) f1) (hf2 : ContDiff ℝ (m.order + 1 : ℕ) f2)
    (hne1 : m = .piecewiseConstant ∨ deriv f1 x1 ≠ 0) (hne2 : m = .piecewiseConstant ∨ deriv f2 x2 ≠ 0) :
    ∃ C, ∃ h0 > 0, ∀ (Q : Type) [AddCommGroup Q] (ax : Axes P Q) (cfg : FVMConfig S ℝ), cfg.solverMethodInQ = "FVM" →
      reconMethod cfg.reconstructionInQ = .ok m → cfg.sourceEnabled = false → cfg.fieldsEnabled = false →
      0 < cfg.dq1 → cfg.dq1 < h0 → 0 < cfg.dq2 → cfg.dq2 < h0 →
      ∀ (cb : Callbacks S P Q ℝ) (f : Dist S P Q ℝ) (s : S) (p : P) (q : Q) (v1 v2 : ℝ),
      (∀ q', cb.Cq1 s p q' = v1 ∧ cb.Cq2 s p q' = v2) →
      SamplesAround f1 x1 cfg.dq1 ax.q1 q (f s p) → SamplesAround f2 x2 cfg.dq2 ax.q2 q (f s p) →
      ∃ k, dfdtFVM ax cfg cb f = .ok k ∧
        |k s p q - -(v1 * deriv f1 x1 + v2 * deriv f2 x2)| ≤ C * (|v1| * cfg.dq1 ^ m.order + |v2| * cfg.dq2 ^ m.order) := by
  obtain ⟨C1, c1, h1, h1pos, H1⟩ := flux_order m hf1 hne1
  obtain ⟨C2, c2, h2, h2pos, H2⟩ := flux_order m hf2 hne2
  refine ⟨C1 + C2, min h1 h2, lt_min h1pos h2pos, ?_⟩
  intro Q _ ax cfg hq hm hsrc hfld p1 l1 p2 l2 cb f s p q v1 v2 hv s1 s2
  have hc1 : cb.Cq1 s p = fun _ => v1 := funext fun q' => (hv q').1
  have hc2 : cb.Cq2 s p = fun _ => v2 := funext fun q' => (hv q').2
  refine ⟨dfdtQ ax m cfg.dq1 cfg.dq2 cb.Cq1 cb.Cq2 f, ?_, ?_⟩
  · simp only [dfdtFVM, hq, hm, hsrc, hfld, if_true, Bind.bind, Except.bind, Pure.pure, Except.pure, Bool.false_eq_true, and_false, if_false]
  · have a := H1 cfg.dq1 p1 (l1.trans_le (min_le_left _ _)) Q ax.q1 q (f s p) s1 v1
    have b := H2 cfg.dq2 p2 (l2.trans_le (min_le_right _ _)) Q ax.q2 q (f s p) s2 v2
    simp only [dfdtQ, hc1, hc2]
    have d1 : 0 ≤ |v1| * cfg.dq1 ^ m.order := by positivity
    have d2 : 0 ≤ |v2| * cfg.dq2 ^ m.order := by positivity
    rw [abs_le] at a b ⊢
    constructor <;> nlinarith [a.1, a.2, b.1, b.2, mul_nonneg c1 d2, mul_nonneg c2 d1]

/-- Non-vacuity of C73: the cube sampled around 1, with spacing 1/10, on the integers. -/
example : SamplesAround (fun t => t ^ 3) 1 (1 / 10) (1 : ℤ) 0 (fun i => (1 + i / 10 : ℝ) ^ 3) ∧ ContDiff ℝ 5 (fun t : ℝ => t ^ 3) ∧
    deriv (fun t : ℝ => t ^ 3) 1 ≠ 0 := by
  refine ⟨fun k _ _ => ?_, by fun_prop, ?_⟩
  · simp; ring
  · simp

end order

end Bolt
