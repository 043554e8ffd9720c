import Verif.Proofs.AslError
import Verif.Spec.AslError
import Mathlib.Analysis.Calculus.Taylor
import Mathlib.Algebra.Ring.Periodic

/-!
# Lemmas for C92: interpolation error of semi-Lagrangian advection
-/

set_option linter.unusedSectionVars false

namespace Bolt

/-- Taylor's theorem with one polynomial for both sides. -/
theorem quadratic_taylor {F : ℝ → ℝ} {M : ℝ} (hF : ContDiff ℝ 3 F) (hM : ∀ x, |iteratedDeriv 3 F x| ≤ M) (x0 : ℝ) :
    ∃ a b : ℝ, ∀ t, |F (x0 + t) - (F x0 + a * t + b * t ^ 2)| ≤ M / 6 * |t| ^ 3 := by
  refine ⟨iteratedDeriv 1 F x0, iteratedDeriv 2 F x0 / 2, fun t => ?_⟩
  by_cases ht : t = 0
  · simp [ht]
  have hx : x0 ≠ x0 + t := by simpa using ht
  obtain ⟨x', -, h⟩ := taylor_mean_remainder_lagrange_iteratedDeriv (n := 2) hx (by exact_mod_cast hF.contDiffOn)
  have w : ∀ k : ℕ, k ≤ 3 → iteratedDerivWithin k F (Set.uIcc x0 (x0 + t)) x0 = iteratedDeriv k F x0 := fun k hk =>
    iteratedDerivWithin_eq_iteratedDeriv (uniqueDiffOn_uIcc hx) ((hF.of_le (by exact_mod_cast hk)).contDiffAt) Set.left_mem_uIcc
  simp only [taylorWithinEval_succ, taylor_within_zero_eval, w 1 (by norm_num), w 2 (by norm_num), zero_add, smul_eq_mul] at h
  norm_num [Nat.factorial] at h
  have e : F (x0 + t) - (F x0 + iteratedDeriv 1 F x0 * t + iteratedDeriv 2 F x0 / 2 * t ^ 2) = iteratedDeriv 3 F x' * t ^ 3 / 6 := by
    rw [← h, ← iteratedDeriv_one]; ring
  rw [e, abs_div, abs_mul, abs_pow, abs_of_pos (show (0 : ℝ) < 6 by norm_num)]
  have := mul_le_mul_of_nonneg_right (hM x') (pow_nonneg (abs_nonneg t) 3)
  linarith

/-- Interpolation error, measured from the left node. -/
theorem cubicSpline_error {F : ℝ → ℝ} {M : ℝ} (hF : ContDiff ℝ 3 F) (hM : ∀ x, |iteratedDeriv 3 F x| ≤ M) (x0 k t : ℝ) (t0 : 0 ≤ t) (t1 : t ≤ 1) :
    |cubicSpline (F (x0 - k)) (F x0) (F (x0 + k)) (F (x0 + 2 * k)) t - F (x0 + t * k)| ≤ M / 2 * |k| ^ 3 * t := by
  obtain ⟨a, b, h⟩ := quadratic_taylor hF hM x0
  have hM0 : 0 ≤ M := (abs_nonneg _).trans (hM 0)
  have ha := h (-k)
  have hb := h k
  have hc := h (2 * k)
  have hd := h (t * k)
  rw [← sub_eq_add_neg, abs_neg] at ha
  rw [abs_mul, abs_of_pos (two_pos : (0 : ℝ) < 2)] at hc
  rw [abs_mul, abs_of_nonneg t0] at hd
  set A := F (x0 - k) - (F x0 + a * -k + b * (-k) ^ 2) with hA
  set B := F (x0 + k) - (F x0 + a * k + b * k ^ 2) with hB
  set C := F (x0 + 2 * k) - (F x0 + a * (2 * k) + b * (2 * k) ^ 2) with hC
  set D := F (x0 + t * k) - (F x0 + a * (t * k) + b * (t * k) ^ 2) with hD
  have e : cubicSpline (F (x0 - k)) (F x0) (F (x0 + k)) (F (x0 + 2 * k)) t - F (x0 + t * k) =
      -(t * (1 - t) ^ 2 / 2) * A + t * (1 + t * (4 - 3 * t)) / 2 * B - t ^ 2 * (1 - t) / 2 * C - D := by
    rw [hA, hB, hC, hD, cubicSpline]; ring
  have u : 0 ≤ 1 - t := by linarith
  have u' : 0 ≤ 4 - 3 * t := by linarith
  have w0 : 0 ≤ t * (1 - t) ^ 2 / 2 := by positivity
  have w2 : 0 ≤ t * (1 + t * (4 - 3 * t)) / 2 := by positivity
  have w3 : 0 ≤ t ^ 2 * (1 - t) / 2 := by positivity
  have P : 0 ≤ M / 6 * |k| ^ 3 := by positivity
  set Q := M / 6 * |k| ^ 3 with hQ
  have hc' : |C| ≤ 8 * Q := by rw [hQ]; linarith [hc, show M / 6 * (2 * |k|) ^ 3 = 8 * (M / 6 * |k| ^ 3) by ring]
  have hd' : |D| ≤ t ^ 3 * Q := by rw [hQ]; linarith [hd, show M / 6 * (t * |k|) ^ 3 = t ^ 3 * (M / 6 * |k| ^ 3) by ring]
  have mA := mul_le_mul_of_nonneg_left ha w0
  have mB := mul_le_mul_of_nonneg_left hb w2
  have mC := mul_le_mul_of_nonneg_left hc' w3
  rw [e]
  have tri : |-(t * (1 - t) ^ 2 / 2) * A + t * (1 + t * (4 - 3 * t)) / 2 * B - t ^ 2 * (1 - t) / 2 * C - D| ≤
      t * (1 - t) ^ 2 / 2 * |A| + t * (1 + t * (4 - 3 * t)) / 2 * |B| + t ^ 2 * (1 - t) / 2 * |C| + |D| := by
    have a1 := abs_sub (-(t * (1 - t) ^ 2 / 2) * A + t * (1 + t * (4 - 3 * t)) / 2 * B - t ^ 2 * (1 - t) / 2 * C) D
    have a2 := abs_sub (-(t * (1 - t) ^ 2 / 2) * A + t * (1 + t * (4 - 3 * t)) / 2 * B) (t ^ 2 * (1 - t) / 2 * C)
    have a3 := abs_add_le (-(t * (1 - t) ^ 2 / 2) * A) (t * (1 + t * (4 - 3 * t)) / 2 * B)
    rw [abs_mul, abs_of_nonneg w3] at a2
    rw [abs_mul, abs_mul, abs_neg, abs_of_nonneg w0, abs_of_nonneg w2] at a3
    linarith
  have poly : t * (1 - t) ^ 2 / 2 + t * (1 + t * (4 - 3 * t)) / 2 + t ^ 2 * (1 - t) / 2 * 8 + t ^ 3 ≤ 3 * t := by
    have : 0 ≤ t * (2 - 5 * t + 4 * t ^ 2) := mul_nonneg t0 (by nlinarith [sq_nonneg (8 * t - 5)])
    linarith [show 3 * t - (t * (1 - t) ^ 2 / 2 + t * (1 + t * (4 - 3 * t)) / 2 + t ^ 2 * (1 - t) / 2 * 8 + t ^ 3) = t * (2 - 5 * t + 4 * t ^ 2) by ring]
  have := mul_le_mul_of_nonneg_right poly P
  have fin : M / 2 * |k| ^ 3 * t = 3 * t * Q := by rw [hQ]; ring
  rw [fin]
  have split : (t * (1 - t) ^ 2 / 2 + t * (1 + t * (4 - 3 * t)) / 2 + t ^ 2 * (1 - t) / 2 * 8 + t ^ 3) * Q =
    t * (1 - t) ^ 2 / 2 * Q + t * (1 + t * (4 - 3 * t)) / 2 * Q + t ^ 2 * (1 - t) / 2 * (8 * Q) + t ^ 3 * Q := by ring
  rw [split] at this
  exact tri.trans ((add_le_add (add_le_add (add_le_add mA mB) mC) hd').trans this)

/-- Interpolation error of samples with spacing `k`, by the distance of the foot from any node. -/
theorem catmullRom_error {F : ℝ → ℝ} {M : ℝ} (hF : ContDiff ℝ 3 F) (hM : ∀ x, |iteratedDeriv 3 F x| ≤ M) (c k x : ℝ) (n : ℤ) :
    |catmullRom (fun a => F (c + a * k)) x - F (c + x * k)| ≤ M / 2 * |k| ^ 3 * |x - n| := by
  have hM0 : 0 ≤ M := (abs_nonneg _).trans (hM 0)
  have P : 0 ≤ M / 2 * |k| ^ 3 := by positivity
  rw [catmullRom_eq]
  set m := ⌊x⌋ with hm
  have l0 : 0 ≤ x - m := sub_nonneg.2 (Int.floor_le x)
  have l1 : x - m ≤ 1 := by linarith [Int.lt_floor_add_one x]
  rcases le_or_gt n m with h | h
  · have := cubicSpline_error hF hM (c + m * k) k (x - m) l0 l1
    push_cast
    rw [show c + ((m : ℝ) - 1) * k = c + m * k - k by ring, show c + ((m : ℝ) + 1) * k = c + m * k + k by ring,
      show c + ((m : ℝ) + 2) * k = c + m * k + 2 * k by ring, show c + x * k = c + m * k + (x - m) * k by ring]
    refine this.trans (mul_le_mul_of_nonneg_left ?_ P)
    have : (n : ℝ) ≤ m := by exact_mod_cast h
    exact le_trans (by linarith) (le_abs_self _)
  · have := cubicSpline_error hF hM (c + (m + 1) * k) (-k) (1 - (x - m)) (by linarith) (by linarith)
    rw [abs_neg] at this
    push_cast
    rw [show cubicSpline (F (c + ((m : ℝ) - 1) * k)) (F (c + m * k)) (F (c + ((m : ℝ) + 1) * k)) (F (c + ((m : ℝ) + 2) * k)) (x - m) =
      cubicSpline (F (c + ((m : ℝ) + 1) * k - -k)) (F (c + (m + 1) * k)) (F (c + (m + 1) * k + -k)) (F (c + (m + 1) * k + 2 * -k)) (1 - (x - m)) by
        rw [show c + ((m : ℝ) + 1) * k - -k = c + (m + 2) * k by ring, show c + ((m : ℝ) + 1) * k + -k = c + m * k by ring,
          show c + ((m : ℝ) + 1) * k + 2 * -k = c + (m - 1) * k by ring, cubicSpline, cubicSpline]
        ring,
      show c + x * k = c + (m + 1) * k + (1 - (x - m)) * -k by ring]
    refine this.trans (mul_le_mul_of_nonneg_left ?_ P)
    have : (m : ℝ) + 1 ≤ n := by exact_mod_cast h
    rw [abs_sub_comm]
    exact le_trans (by linarith) (le_abs_self _)

/-- A periodic function sees only the integer behind a cell number. -/
theorem cellCentre_intCast {F : ℝ → ℝ} {L : ℝ} (hp : ∀ x, F (x + L) = F x) (start : ℝ) (N : ℕ) [NeZero N] (a : ℤ) :
    F (cellCentre start L N (a : ZMod N)) = F (start + L / N / 2 + a * (L / N)) := by
  have hN : (N : ℝ) ≠ 0 := Nat.cast_ne_zero.mpr (NeZero.ne N)
  have hv : (((a : ZMod N).val : ℕ) : ℝ) = ((a % N : ℤ) : ℝ) := by
    rw [← ZMod.val_intCast, Int.cast_natCast]
  have ha : (a : ℝ) = ((a % N : ℤ) : ℝ) + (N : ℝ) * ((a / N : ℤ) : ℝ) := by
    exact_mod_cast (Int.emod_add_mul_ediv a N).symm
  have hp' : Function.Periodic F L := hp
  rw [cellCentre, hv, show start + L / N / 2 + a * (L / N) = start + (((a % N : ℤ) : ℝ) + 1 / 2) * (L / N) + ((a / N : ℤ) : ℝ) * L by
    rw [ha]; field_simp; ring]
  exact (hp'.int_mul (a / N) _).symm

/-- Error of the interpolation of samples of a periodic function, in terms of the distance moved. -/
theorem periodic_error {F : ℝ → ℝ} {M L : ℝ} (hF : ContDiff ℝ 3 F) (hM : ∀ x, |iteratedDeriv 3 F x| ≤ M) (hp : ∀ x, F (x + L) = F x) (start : ℝ)
    (N : ℕ) [NeZero N] (i : ZMod N) (d : ℝ) :
    |catmullRom (fun a => F (cellCentre start L N (a : ZMod N))) ((i.val : ℝ) - d) - F (cellCentre start L N i - d * (L / N))| ≤
      M / 2 * |L / N| ^ 3 * |d| := by
  have := catmullRom_error hF hM (start + L / N / 2) (L / N) ((i.val : ℝ) - d) (i.val : ℤ)
  simp only [cellCentre_intCast hp]
  rw [show start + L / N / 2 + ((i.val : ℝ) - d) * (L / N) = cellCentre start L N i - d * (L / N) by rw [cellCentre]; ring,
    show (i.val : ℝ) - d - ((i.val : ℤ) : ℝ) = -d by push_cast; ring, abs_neg] at this
  exact this

section norms
variable {ι : Type} [Fintype ι]

theorem rms_le_iff [Nonempty ι] {u : ι → ℝ} {b : ℝ} (hb : 0 ≤ b) : rms u ≤ b ↔ ∑ i, u i ^ 2 ≤ Fintype.card ι * b ^ 2 := by
  have : (0 : ℝ) < Fintype.card ι := Nat.cast_pos.2 Fintype.card_pos
  rw [rms, Real.sqrt_le_left hb, div_le_iff₀ this, mul_comm]

theorem rms_nonneg (u : ι → ℝ) : 0 ≤ rms u := Real.sqrt_nonneg _

theorem rms_mono {u v : ι → ℝ} (h : ∑ i, u i ^ 2 ≤ ∑ i, v i ^ 2) : rms u ≤ rms v :=
  Real.sqrt_le_sqrt (div_le_div_of_nonneg_right h (Nat.cast_nonneg _))

theorem rms_le_of_abs [Nonempty ι] {u : ι → ℝ} {b : ℝ} (h : ∀ i, |u i| ≤ b) : rms u ≤ b := by
  have hb : 0 ≤ b := (abs_nonneg _).trans (h (Classical.arbitrary ι))
  rw [rms_le_iff hb]
  calc ∑ i, u i ^ 2 ≤ ∑ _i : ι, b ^ 2 := Finset.sum_le_sum fun i _ => by
        rw [← sq_abs (u i)]; exact pow_le_pow_left₀ (abs_nonneg _) (h i) 2
    _ = _ := by simp

theorem rms_sq [Nonempty ι] (u : ι → ℝ) : ∑ i, u i ^ 2 = Fintype.card ι * rms u ^ 2 := by
  have : (0 : ℝ) < Fintype.card ι := Nat.cast_pos.2 Fintype.card_pos
  rw [rms, Real.sq_sqrt (by positivity), mul_div_cancel₀ _ this.ne']

theorem rms_add_le [Nonempty ι] (u v : ι → ℝ) : rms (u + v) ≤ rms u + rms v := by
  rw [rms_le_iff (add_nonneg (rms_nonneg _) (rms_nonneg _))]
  have cs := Finset.sum_mul_sq_le_sq_mul_sq Finset.univ u v
  rw [rms_sq, rms_sq] at cs
  have n0 : (0 : ℝ) < Fintype.card ι := Nat.cast_pos.2 Fintype.card_pos
  have c : ∑ i, u i * v i ≤ Fintype.card ι * (rms u * rms v) := by
    refine (abs_le_of_sq_le_sq' ?_ (mul_nonneg n0.le (mul_nonneg (rms_nonneg _) (rms_nonneg _)))).2
    calc _ ≤ _ := cs
      _ = _ := by ring
  have e : ∑ i, (u + v) i ^ 2 = ∑ i, u i ^ 2 + 2 * ∑ i, u i * v i + ∑ i, v i ^ 2 := by
    rw [Finset.mul_sum, ← Finset.sum_add_distrib, ← Finset.sum_add_distrib]
    exact Finset.sum_congr rfl fun i _ => by rw [Pi.add_apply]; ring
  rw [e, rms_sq u, rms_sq v]
  nlinarith

end norms

end Bolt
