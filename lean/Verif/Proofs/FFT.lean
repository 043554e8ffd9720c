import Verif.Model.FFT
import Verif.Spec.FFT
import Mathlib.Analysis.Fourier.ZMod
import Mathlib.Tactic.Ring
import Mathlib.Tactic.FieldSimp
import Mathlib.Tactic.LinearCombination

/-! Helper lemmas on the discrete Fourier transform. -/

set_option linter.unusedSectionVars false

namespace Bolt

open Complex Finset ZMod

variable {N1 N2 : ℕ} [NeZero N1] [NeZero N2]

/-- The characters of the grid. -/
noncomputable def chi (j k : ZMod N1 × ZMod N2) : ℂ := stdAddChar (j.1 * k.1) * stdAddChar (j.2 * k.2)

theorem exp_nat_eq {N : ℕ} [NeZero N] (a b : ZMod N) :
    exp (2 * Real.pi * I * ((a.val * b.val : ℕ) / N)) = stdAddChar (a * b) := by
  have h := stdAddChar_coe (N := N) ((a.val * b.val : ℕ) : ℤ)
  have e : (((a.val * b.val : ℕ) : ℤ) : ZMod N) = a * b := by simp
  rw [e] at h
  rw [h]
  congr 1
  push_cast
  ring

theorem exp_eq_chi (j k : ZMod N1 × ZMod N2) :
    exp (2 * Real.pi * I * ((j.1.val * k.1.val : ℕ) / N1 + (j.2.val * k.2.val : ℕ) / N2)) = chi j k := by
  rw [mul_add, exp_add, exp_nat_eq, exp_nat_eq, chi]

theorem chi_comm (j k : ZMod N1 × ZMod N2) : chi j k = chi k j := by simp [chi, mul_comm]

theorem chi_add (j k l : ZMod N1 × ZMod N2) : chi j (k + l) = chi j k * chi j l := by
  simp only [chi, Prod.fst_add, Prod.snd_add, mul_add, AddChar.map_add_eq_mul]; ring

theorem chi_add_left (j k l : ZMod N1 × ZMod N2) : chi (j + k) l = chi j l * chi k l := by
  rw [chi_comm, chi_add, chi_comm l, chi_comm l]

theorem chi_zero (j : ZMod N1 × ZMod N2) : chi j 0 = 1 := by simp [chi]

theorem chi_zero_left (j : ZMod N1 × ZMod N2) : chi 0 j = 1 := by simp [chi]

theorem chi_mul_neg (j k : ZMod N1 × ZMod N2) : chi j k * chi j (-k) = 1 := by
  rw [← chi_add, add_neg_cancel, chi_zero]

theorem chi_neg_neg (j k : ZMod N1 × ZMod N2) : chi (-j) (-k) = chi j k := by simp [chi]

theorem chi_neg_comm (j k : ZMod N1 × ZMod N2) : chi (-j) k = chi j (-k) := by simp [chi]

theorem exp_neg_eq_chi (j k : ZMod N1 × ZMod N2) :
    exp (-(2 * Real.pi * I * ((j.1.val * k.1.val : ℕ) / N1 + (j.2.val * k.2.val : ℕ) / N2))) = chi j (-k) := by
  rw [exp_neg, exp_eq_chi]
  exact inv_eq_of_mul_eq_one_right (chi_mul_neg j k)

theorem afFft2_eq (x : ZMod N1 × ZMod N2 → ℂ) (k : ZMod N1 × ZMod N2) : afFft2 x k = ∑ j, x j * chi j (-k) := by
  simp only [afFft2, exp_neg_eq_chi]

theorem afIfft2_eq (x : ZMod N1 × ZMod N2 → ℂ) (j : ZMod N1 × ZMod N2) : afIfft2 x j = ∑ k, x k * chi j k := by
  simp only [afIfft2, exp_eq_chi]

theorem sum_stdAddChar {N : ℕ} [NeZero N] (t : ZMod N) : ∑ i, stdAddChar (t * i) = if t = 0 then (N : ℂ) else 0 := by
  split_ifs with h
  · simp [h, ZMod.card]
  · exact AddChar.sum_eq_zero_of_ne_one (isPrimitive_stdAddChar N h)

theorem sum_chi (t : ZMod N1 × ZMod N2) : ∑ k, chi t k = if t = 0 then ((N1 : ℂ) * N2) else 0 := by
  have : ∑ k, chi t k = (∑ i, stdAddChar (t.1 * i)) * (∑ i, stdAddChar (t.2 * i)) := by
    rw [Fintype.sum_mul_sum, Fintype.sum_prod_type]; rfl
  rw [this, sum_stdAddChar, sum_stdAddChar]
  by_cases h1 : t.1 = 0 <;> by_cases h2 : t.2 = 0 <;> simp [h1, h2, Prod.ext_iff]

theorem cardN : ((N1 : ℂ) * N2) ≠ 0 := mul_ne_zero (Nat.cast_ne_zero.mpr (NeZero.ne N1)) (Nat.cast_ne_zero.mpr (NeZero.ne N2))

theorem afIfft2_afFft2 (x : ZMod N1 × ZMod N2 → ℂ) (j : ZMod N1 × ZMod N2) : afIfft2 (afFft2 x) j = (N1 : ℂ) * N2 * x j := by
  rw [afIfft2_eq]
  simp only [afFft2_eq, sum_mul]
  rw [sum_comm]
  have : ∀ l, ∑ k, x l * chi l (-k) * chi j k = x l * if j - l = 0 then ((N1 : ℂ) * N2) else 0 := by
    intro l
    rw [← sum_chi, mul_sum]
    refine sum_congr rfl fun k _ => ?_
    rw [sub_eq_add_neg, chi_add_left, ← chi_neg_comm]; ring
  simp only [this, sub_eq_zero, mul_ite, mul_zero]
  rw [sum_ite_eq]
  simp [mul_comm]

theorem afFft2_afIfft2 (x : ZMod N1 × ZMod N2 → ℂ) (k : ZMod N1 × ZMod N2) : afFft2 (afIfft2 x) k = (N1 : ℂ) * N2 * x k := by
  rw [afFft2_eq]
  simp only [afIfft2_eq, sum_mul]
  rw [sum_comm]
  have : ∀ l, ∑ j, x l * chi j l * chi j (-k) = x l * if l - k = 0 then ((N1 : ℂ) * N2) else 0 := by
    intro l
    rw [← sum_chi, mul_sum]
    refine sum_congr rfl fun j _ => ?_
    rw [chi_comm (l - k), sub_eq_add_neg, chi_add]; ring
  simp only [this, sub_eq_zero, mul_ite, mul_zero]
  rw [sum_ite_eq']
  simp [mul_comm]

theorem conj_chi (j k : ZMod N1 × ZMod N2) : (starRingEnd ℂ) (chi j k) = chi j (-k) := by
  rw [← exp_eq_chi, ← exp_neg_eq_chi, ← Complex.exp_conj]
  congr 1
  simp only [map_mul, map_add, map_div₀, conj_I, conj_ofReal, map_natCast, map_ofNat]
  ring

theorem coeff_eq (x : ZMod N1 × ZMod N2 → ℂ) (k : ZMod N1 × ZMod N2) : coeff x k = afFft2 x k / ((N1 : ℂ) * N2) := by
  simp only [coeff, afFft2, Nat.cast_mul]

/-- The transform of a real array. -/
theorem fft_real (x : ZMod N1 × ZMod N2 → ℝ) (k : ZMod N1 × ZMod N2) :
    afFft2 (fun j => (x j : ℂ)) (-k) = (starRingEnd ℂ) (afFft2 (fun j => (x j : ℂ)) k) := by
  simp only [afFft2_eq, map_sum, map_mul, conj_ofReal, conj_chi, neg_neg]

/-- The transform of the real part of an inverse transform: the Hermitian part. -/
theorem fft_re (z : ZMod N1 × ZMod N2 → ℂ) (k : ZMod N1 × ZMod N2) :
    afFft2 (fun j => (((afIfft2 z j / ((N1 : ℂ) * N2)).re : ℝ) : ℂ)) k = (z k + (starRingEnd ℂ) (z (-k))) / 2 := by
  have h : ∀ j, (((afIfft2 z j / ((N1 : ℂ) * N2)).re : ℝ) : ℂ)
      = afIfft2 (fun k => (z k + (starRingEnd ℂ) (z (-k))) / 2) j / ((N1 : ℂ) * N2) := by
    intro j
    rw [Complex.re_eq_add_conj]
    simp only [afIfft2_eq, map_div₀, map_mul, map_natCast, map_sum, conj_chi]
    rw [← Equiv.sum_comp (Equiv.neg (ZMod N1 × ZMod N2)) (fun k => (starRingEnd ℂ) (z k) * chi j (-k))]
    simp only [Equiv.neg_apply, neg_neg]
    rw [← add_div, ← sum_add_distrib, div_right_comm, sum_div]
    congr 1
    refine sum_congr rfl fun k _ => ?_
    ring
  simp only [h]
  rw [show (fun j => afIfft2 (fun k => (z k + (starRingEnd ℂ) (z (-k))) / 2) j / ((N1 : ℂ) * N2))
    = fun j => afIfft2 (fun k => (z k + (starRingEnd ℂ) (z (-k))) / 2) j * ((N1 : ℂ) * N2)⁻¹ from by funext j; rw [div_eq_mul_inv]]
  have lin : ∀ (y : ZMod N1 × ZMod N2 → ℂ) (c : ℂ), afFft2 (fun j => y j * c) k = afFft2 y k * c := by
    intro y c
    simp only [afFft2_eq, sum_mul]
    exact sum_congr rfl fun j _ => by ring
  rw [lin, afFft2_afIfft2]
  rw [mul_comm ((N1 : ℂ) * N2), mul_assoc, mul_inv_cancel₀ cardN, mul_one]

theorem fftfreq_eq {N : ℕ} [NeZero N] (d : ℝ) (k : ZMod N) (h : ¬ Nyquist k) : 2 * Real.pi * fftfreq N d k = waveNumber d k := by
  have hn : 0 < N := Nat.pos_of_ne_zero (NeZero.ne N)
  rw [fftfreq, waveNumber, ZMod.valMinAbs_def_pos]
  unfold Nyquist at h
  by_cases h1 : k.val < (N - 1) / 2 + 1
  · have h2 : k.val ≤ N / 2 := by omega
    rw [if_pos h1, if_pos h2]; push_cast; ring
  · have h2 : ¬ k.val ≤ N / 2 := by omega
    rw [if_neg h1, if_neg h2]; push_cast; ring

theorem nyquist_neg {N : ℕ} [NeZero N] (k : ZMod N) : Nyquist (-k) ↔ Nyquist k := by
  unfold Nyquist
  rw [ZMod.neg_val]
  have := k.val_lt
  split_ifs with h
  · subst h; simp
  · omega

theorem fftfreq_neg {N : ℕ} [NeZero N] (d : ℝ) (k : ZMod N) (h : ¬ Nyquist k) : fftfreq N d (-k) = -fftfreq N d k := by
  have h1 := fftfreq_eq d k h
  have h2 := fftfreq_eq d (-k) (by rwa [nyquist_neg])
  have h3 : (-k).valMinAbs = -k.valMinAbs := ZMod.valMinAbs_neg_of_ne_half h
  rw [waveNumber] at h1 h2
  rw [h3] at h2
  have hp : (2 * Real.pi) ≠ 0 := by positivity
  apply mul_left_cancel₀ hp
  rw [h2, mul_neg, h1]
  push_cast
  ring

theorem fftfreq_neg_nyquist {N : ℕ} [NeZero N] (d : ℝ) (k : ZMod N) (h : Nyquist k) : fftfreq N d (-k) = fftfreq N d k := by
  have : -k = k := by
    apply ZMod.val_injective
    rw [ZMod.neg_val]
    unfold Nyquist at h
    have := k.val_lt
    split_ifs with h0
    · subst h0; simp
    · omega
  rw [this]

theorem fftfreq_ne_zero {N : ℕ} [NeZero N] {d : ℝ} (hd : d ≠ 0) (k : ZMod N) (h : k ≠ 0) : fftfreq N d k ≠ 0 := by
  have hn : (N : ℝ) ≠ 0 := Nat.cast_ne_zero.mpr (NeZero.ne N)
  rw [fftfreq]
  refine div_ne_zero ?_ (mul_ne_zero hn hd)
  split_ifs
  · rw [Nat.cast_ne_zero]; exact fun h0 => h ((ZMod.val_eq_zero k).mp h0)
  · have h1 := k.val_lt
    have : (k.val : ℝ) < N := by exact_mod_cast h1
    intro h; linarith

end Bolt
