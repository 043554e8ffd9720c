import Verif.Proofs.FFT
import Mathlib.Analysis.SpecialFunctions.ExpDeriv
import Mathlib.Analysis.Complex.RealDeriv
import Mathlib.Tactic.NormNum

/-!
# C21, C22: Fourier transforms and the spectral Poisson solver
-/

set_option linter.unusedSectionVars false

namespace Bolt

open Complex Finset ZMod

variable {N1 N2 : ℕ} [NeZero N1] [NeZero N2]

/-! ## C22 -/

/-- C22: the inverse helper undoes the forward helper (it raises only for an array with a single cell in `q2`, one momentum cell and one species). -/
theorem C22_inverse_of_forward {P S : Type} (np ns : ℕ) (h : ¬ (N2 = 1 ∧ np = 1 ∧ ns = 1)) (x : P → S → ZMod N1 × ZMod N2 → ℂ) :
    ifft2 np ns (fft2 x) = .ok x := by
  rw [ifft2, if_neg h]
  simp only [Except.ok.injEq]
  funext p s j
  simp only [reorder2301, fft2]
  exact (congrArg (· / ((N1 : ℂ) * N2)) (afIfft2_afFft2 (fun j => x p s j) j)).trans (mul_div_cancel_left₀ _ cardN)

/-- C22: the forward helper undoes the inverse helper. -/
theorem C22_forward_of_inverse {P S : Type} (np ns : ℕ) (x y : P → S → ZMod N1 × ZMod N2 → ℂ) (h : ifft2 np ns x = .ok y) :
    fft2 y = x := by
  rw [ifft2] at h
  split_ifs at h
  simp only [Except.ok.injEq] at h
  subst h
  funext p s k
  simp only [fft2, reorder2301]
  have lin : ∀ (y : ZMod N1 × ZMod N2 → ℂ) (c : ℂ), afFft2 (fun j => y j / c) k = afFft2 y k / c := by
    intro y c
    simp only [afFft2_eq, sum_div]
    exact sum_congr rfl fun j _ => by ring
  rw [lin, afFft2_afIfft2 (fun k => x p s k)]
  exact mul_div_cancel_left₀ _ cardN

/-- C22: the normalisation of the linear solver, `f_hat = 2 fft2(f) / (N1 N2)` and `f = real(ifft2(0.5 N1 N2 f_hat))`
(`linear_solver.py:242-255`, `timestep.py:26`, `df_hat_dt.py:41`), restores every real array. -/
theorem C22_linear_normalisation {P S : Type} (np ns : ℕ) (h : ¬ (N2 = 1 ∧ np = 1 ∧ ns = 1)) (f : P → S → ZMod N1 × ZMod N2 → ℝ) :
    ∃ y, ifft2 np ns (fun p s k => 0.5 * N1 * N2 * (2 * fft2 (fun p s j => (f p s j : ℂ)) p s k / (N1 * N2))) = .ok y ∧
      ∀ p s j, (y p s j).re = f p s j := by
  have e : (fun p s k => 0.5 * (N1 : ℂ) * N2 * (2 * fft2 (fun p s j => (f p s j : ℂ)) p s k / (N1 * N2)))
      = fft2 (fun p s j => (f p s j : ℂ)) := by
    funext p s k
    have := cardN (N1 := N1) (N2 := N2)
    rw [mul_div_assoc', div_eq_iff this]
    norm_num
    ring
  rw [e]
  exact ⟨_, C22_inverse_of_forward np ns h _, fun p s j => Complex.ofReal_re _⟩

/-- C22 (negative): the inverse helper raises `IndexError` on an array with one cell in `q2`, one momentum cell and one species. -/
theorem C22_inverse_raises {P S : Type} (x : P → S → ZMod N1 × ZMod 1 → ℂ) : ifft2 1 1 x = .error .indexError := by
  simp [ifft2]

/-! ## C21 -/

theorem coeff_zero (x : ZMod N1 × ZMod N2 → ℝ) : coeff (fun j => (x j : ℂ)) 0 = (((∑ j, x j) / ((N1 : ℝ) * N2) : ℝ) : ℂ) := by
  rw [coeff_eq, afFft2_eq]
  simp [chi_zero]

theorem afFft2_sub_const (x : ZMod N1 × ZMod N2 → ℝ) (c : ℝ) (k : ZMod N1 × ZMod N2) (hk : k ≠ 0) :
    afFft2 (fun j => ((x j - c : ℝ) : ℂ)) k = afFft2 (fun j => (x j : ℂ)) k := by
  simp only [afFft2_eq]
  have : ∑ j, (c : ℂ) * chi j (-k) = 0 := by
    rw [← mul_sum]
    have h := sum_chi (N1 := N1) (N2 := N2) (-k)
    rw [if_neg (neg_ne_zero.mpr hk)] at h
    simp only [chi_comm (-k)] at h
    rw [h, mul_zero]
  rw [← sub_zero (∑ j, (x j : ℂ) * chi j (-k)), ← this, ← sum_sub_distrib]
  exact sum_congr rfl fun j _ => by push_cast; ring

/-- The Fourier coefficients of the field returned. -/
theorem fftPoisson_coeff {dq1 dq2 eps : ℝ} {cs : ℕ} {rho E1 E2 : ZMod N1 × ZMod N2 → ℝ} (h : fftPoisson cs dq1 dq2 eps rho = .ok (E1, E2))
    (k : ZMod N1 × ZMod N2) (hk : k ≠ 0) :
    coeff (fun j => (E1 j : ℂ)) k = (if Nyquist k.1 then 0 else -I * 2 * Real.pi * fftfreq N1 dq1 k.1) *
      (coeff (fun j => (rho j : ℂ)) k / ((4 * Real.pi ^ 2 * (fftfreq N1 dq1 k.1 ^ 2 + fftfreq N2 dq2 k.2 ^ 2) : ℝ) : ℂ)) / eps ∧
    coeff (fun j => (E2 j : ℂ)) k = (if Nyquist k.2 then 0 else -I * 2 * Real.pi * fftfreq N2 dq2 k.2) *
      (coeff (fun j => (rho j : ℂ)) k / ((4 * Real.pi ^ 2 * (fftfreq N1 dq1 k.1 ^ 2 + fftfreq N2 dq2 k.2 ^ 2) : ℝ) : ℂ)) / eps := by
  rw [fftPoisson] at h
  split_ifs at h with h1 h2
  simp only [Except.ok.injEq, Prod.mk.injEq] at h
  obtain ⟨rfl, rfl⟩ := h
  have hsq1 : fftfreq N1 dq1 (-k.1) ^ 2 = fftfreq N1 dq1 k.1 ^ 2 := by
    by_cases hn : Nyquist k.1
    · rw [fftfreq_neg_nyquist _ _ hn]
    · rw [fftfreq_neg _ _ hn]; ring
  have hsq2 : fftfreq N2 dq2 (-k.2) ^ 2 = fftfreq N2 dq2 k.2 ^ 2 := by
    by_cases hn : Nyquist k.2
    · rw [fftfreq_neg_nyquist _ _ hn]
    · rw [fftfreq_neg _ _ hn]; ring
  have lin : ∀ (y : ZMod N1 × ZMod N2 → ℝ) (c : ℝ), afFft2 (fun j => ((y j / c : ℝ) : ℂ)) k = afFft2 (fun j => (y j : ℂ)) k / c := by
    intro y c
    simp only [afFft2_eq, sum_div]
    exact sum_congr rfl fun j _ => by push_cast; ring
  have hnk : -k ≠ 0 := neg_ne_zero.mpr hk
  constructor
  · rw [coeff_eq, lin, fft_re]
    simp only [if_neg hk, if_neg hnk, afFft2_sub_const _ _ _ hk, afFft2_sub_const _ _ _ hnk, fft_real, Prod.fst_neg, Prod.snd_neg,
      map_mul, map_div₀, map_neg, conj_I, map_ofNat, conj_ofReal, Complex.conj_conj, hsq1, hsq2, coeff_eq]
    split_ifs with hn
    · rw [fftfreq_neg_nyquist _ _ hn]; ring
    · rw [fftfreq_neg _ _ hn]; push_cast; ring
  · rw [coeff_eq, lin, fft_re]
    simp only [if_neg hk, if_neg hnk, afFft2_sub_const _ _ _ hk, afFft2_sub_const _ _ _ hnk, fft_real, Prod.fst_neg, Prod.snd_neg,
      map_mul, map_div₀, map_neg, conj_I, map_ofNat, conj_ofReal, Complex.conj_conj, hsq1, hsq2, coeff_eq]
    split_ifs with hn
    · rw [fftfreq_neg_nyquist _ _ hn]; ring
    · rw [fftfreq_neg _ _ hn]; push_cast; ring

theorem freqSum_ne_zero {dq1 dq2 : ℝ} (h1 : dq1 ≠ 0) (h2 : dq2 ≠ 0) (k : ZMod N1 × ZMod N2) (hk : k ≠ 0) :
    4 * Real.pi ^ 2 * (fftfreq N1 dq1 k.1 ^ 2 + fftfreq N2 dq2 k.2 ^ 2) ≠ 0 := by
  have hp : (0 : ℝ) < 4 * Real.pi ^ 2 := by positivity
  refine mul_ne_zero hp.ne' ?_
  have : k.1 ≠ 0 ∨ k.2 ≠ 0 := by
    by_contra hc
    push Not at hc
    exact hk (Prod.ext hc.1 hc.2)
  rcases this with h | h
  · have := pow_pos (abs_pos.mpr (fftfreq_ne_zero h1 k.1 h)) 2
    rw [sq_abs] at this
    positivity
  · have := pow_pos (abs_pos.mpr (fftfreq_ne_zero h2 k.2 h)) 2
    rw [sq_abs] at this
    positivity

/-- C21, mode by mode: in every mode other than the mean and the unresolved (Nyquist) ones, `i k · E = rho / eps`. -/
theorem C21_gauss_in_every_resolved_mode {dq1 dq2 eps : ℝ} (h1 : dq1 ≠ 0) (h2 : dq2 ≠ 0) {cs : ℕ} {rho E1 E2 : ZMod N1 × ZMod N2 → ℝ}
    (h : fftPoisson cs dq1 dq2 eps rho = .ok (E1, E2)) (k : ZMod N1 × ZMod N2) (hk : k ≠ 0) (hn1 : ¬ Nyquist k.1) (hn2 : ¬ Nyquist k.2) :
    I * waveNumber dq1 k.1 * coeff (fun j => (E1 j : ℂ)) k + I * waveNumber dq2 k.2 * coeff (fun j => (E2 j : ℂ)) k
      = coeff (fun j => (rho j : ℂ)) k / eps := by
  obtain ⟨e1, e2⟩ := fftPoisson_coeff h k hk
  have hne := freqSum_ne_zero h1 h2 k hk
  have hnec : ((4 * Real.pi ^ 2 * (fftfreq N1 dq1 k.1 ^ 2 + fftfreq N2 dq2 k.2 ^ 2) : ℝ) : ℂ) ≠ 0 := by exact_mod_cast hne
  rw [e1, e2, if_neg hn1, if_neg hn2, ← fftfreq_eq _ _ hn1, ← fftfreq_eq _ _ hn2]
  have hI : I * I = -1 := I_mul_I
  have key : I * ((2 * Real.pi * fftfreq N1 dq1 k.1 : ℝ) : ℂ) * (-I * 2 * Real.pi * fftfreq N1 dq1 k.1)
      + I * ((2 * Real.pi * fftfreq N2 dq2 k.2 : ℝ) : ℂ) * (-I * 2 * Real.pi * fftfreq N2 dq2 k.2)
      = ((4 * Real.pi ^ 2 * (fftfreq N1 dq1 k.1 ^ 2 + fftfreq N2 dq2 k.2 ^ 2) : ℝ) : ℂ) := by
    push_cast
    linear_combination (-(4 * (Real.pi : ℂ) ^ 2 * ((fftfreq N1 dq1 k.1 : ℂ) ^ 2 + (fftfreq N2 dq2 k.2 : ℂ) ^ 2))) * hI
  generalize ((4 * Real.pi ^ 2 * (fftfreq N1 dq1 k.1 ^ 2 + fftfreq N2 dq2 k.2 ^ 2) : ℝ) : ℂ) = D at key hnec ⊢
  generalize coeff (fun j => (rho j : ℂ)) k = R
  have hR : R = D * (R / D) := (mul_div_cancel₀ _ hnec).symm
  rw [show R / (eps : ℂ) = D * (R / D) / eps from by rw [← hR], ← key]
  ring

/-- C21: the field is curl free in every resolved mode. -/
theorem C21_curl_free_in_every_resolved_mode {dq1 dq2 eps : ℝ} {cs : ℕ} {rho E1 E2 : ZMod N1 × ZMod N2 → ℝ}
    (h : fftPoisson cs dq1 dq2 eps rho = .ok (E1, E2)) (k : ZMod N1 × ZMod N2) (hn1 : ¬ Nyquist k.1) (hn2 : ¬ Nyquist k.2) :
    I * waveNumber dq1 k.1 * coeff (fun j => (E2 j : ℂ)) k - I * waveNumber dq2 k.2 * coeff (fun j => (E1 j : ℂ)) k = 0 := by
  by_cases hk : k = 0
  · subst hk; simp [waveNumber]
  obtain ⟨e1, e2⟩ := fftPoisson_coeff h k hk
  rw [e1, e2, if_neg hn1, if_neg hn2, ← fftfreq_eq _ _ hn1, ← fftfreq_eq _ _ hn2]
  push_cast
  ring

/-- C21: the field has zero mean. -/
theorem C21_mean_zero {dq1 dq2 eps : ℝ} {cs : ℕ} {rho E1 E2 : ZMod N1 × ZMod N2 → ℝ} (h : fftPoisson cs dq1 dq2 eps rho = .ok (E1, E2)) :
    ∑ j, E1 j = 0 ∧ ∑ j, E2 j = 0 := by
  have key : ∀ z : ZMod N1 × ZMod N2 → ℂ, z 0 = 0 → ∑ j, (afIfft2 z j / ((N1 : ℂ) * N2)).re / eps = 0 := by
    intro z hz
    have := fft_re z 0
    rw [neg_zero, hz, afFft2_eq] at this
    simp only [neg_zero, chi_zero, mul_one, map_zero, add_zero, zero_div] at this
    rw [← sum_div]
    rw [← ofReal_sum, ofReal_eq_zero] at this
    rw [this, zero_div]
  rw [fftPoisson] at h
  split_ifs at h
  simp only [Except.ok.injEq, Prod.mk.injEq] at h
  obtain ⟨rfl, rfl⟩ := h
  exact ⟨key _ (by simp), key _ (by simp)⟩

/-- C21: a uniform background charge does not matter. -/
theorem C21_background_irrelevant (cs : ℕ) (dq1 dq2 eps c : ℝ) (rho : ZMod N1 × ZMod N2 → ℝ) :
    fftPoisson cs dq1 dq2 eps (fun j => rho j + c) = fftPoisson cs dq1 dq2 eps rho := by
  have hN : ((N1 : ℝ) * N2) ≠ 0 := mul_ne_zero (Nat.cast_ne_zero.mpr (NeZero.ne N1)) (Nat.cast_ne_zero.mpr (NeZero.ne N2))
  have hm : (∑ j, (rho j + c)) / ((N1 : ℝ) * N2) = (∑ j, rho j) / ((N1 : ℝ) * N2) + c := by
    rw [sum_add_distrib, add_div]
    congr 1
    simp only [sum_const, card_univ, Fintype.card_prod, ZMod.card, nsmul_eq_mul, Nat.cast_mul]
    exact mul_div_cancel_left₀ _ hN
  simp only [fftPoisson, hm, add_sub_add_right_eq_sub]

/-- C21: the solver refuses to run on several processes, and otherwise returns fields whenever there is more than one cell in `q2`. -/
theorem C21_when_it_runs (cs : ℕ) (dq1 dq2 eps : ℝ) (rho : ZMod N1 × ZMod N2 → ℝ) :
    (cs ≠ 1 → fftPoisson cs dq1 dq2 eps rho = .error .exception) ∧ ((∃ E, fftPoisson cs dq1 dq2 eps rho = .ok E) ↔ cs = 1 ∧ N2 ≠ 1) := by
  constructor
  · intro h; rw [fftPoisson, if_pos h]
  · constructor
    · rintro ⟨E, h⟩
      rw [fftPoisson] at h
      split_ifs at h with h1 h2
      exact ⟨not_not.mp h1, h2⟩
    · rintro ⟨rfl, h2⟩
      rw [fftPoisson, if_neg (by simp), if_neg h2]
      exact ⟨_, rfl⟩

/-- The trigonometric interpolant goes through the data. -/
theorem trigInterp_grid {dq1 dq2 : ℝ} (h1 : dq1 ≠ 0) (h2 : dq2 ≠ 0) (x : ZMod N1 × ZMod N2 → ℝ) (j : ZMod N1 × ZMod N2) :
    trigInterp dq1 dq2 x (j.1.val * dq1) (j.2.val * dq2) = x j := by
  have hexp : ∀ {N : ℕ} [NeZero N] {d : ℝ}, d ≠ 0 → ∀ a k : ZMod N, exp (I * (waveNumber d k * (a.val * d : ℝ))) = stdAddChar (a * k) := by
    intro N _ d hd a k
    have hN : (N : ℂ) ≠ 0 := Nat.cast_ne_zero.mpr (NeZero.ne N)
    have hd' : (d : ℂ) ≠ 0 := by exact_mod_cast hd
    have h := stdAddChar_coe (N := N) (a.val * k.valMinAbs : ℤ)
    have e : ((a.val * k.valMinAbs : ℤ) : ZMod N) = a * k := by simp
    rw [e] at h
    rw [h, waveNumber]
    congr 1
    push_cast
    field_simp
  have : ∀ k : ZMod N1 × ZMod N2, exp (I * (waveNumber dq1 k.1 * (j.1.val * dq1 : ℝ) + waveNumber dq2 k.2 * (j.2.val * dq2 : ℝ))) = chi j k := by
    intro k
    rw [mul_add, exp_add, hexp h1, hexp h2, chi]
  simp only [trigInterp, this, coeff_eq]
  have h := afIfft2_afFft2 (fun j => (x j : ℂ)) j
  rw [afIfft2_eq] at h
  simp only [div_mul_eq_mul_div]
  rw [← sum_div, h]
  exact mul_div_cancel_left₀ _ cardN

theorem trigInterp_deriv1 (dq1 dq2 : ℝ) (x : ZMod N1 × ZMod N2 → ℝ) (X Y : ℝ) :
    deriv (fun X => trigInterp dq1 dq2 x X Y) X = ∑ k : ZMod N1 × ZMod N2, I * waveNumber dq1 k.1 * coeff (fun j => (x j : ℂ)) k *
      exp (I * (waveNumber dq1 k.1 * X + waveNumber dq2 k.2 * Y)) := by
  apply HasDerivAt.deriv
  simp only [trigInterp]
  refine HasDerivAt.fun_sum fun k _ => ?_
  have hx : HasDerivAt (fun X : ℝ => I * ((waveNumber dq1 k.1 : ℂ) * (X : ℂ) + waveNumber dq2 k.2 * Y)) (I * waveNumber dq1 k.1) X := by
    have := ((Complex.ofRealCLM.hasDerivAt (x := X)).const_mul (waveNumber dq1 k.1 : ℂ)).add_const ((waveNumber dq2 k.2 : ℂ) * Y)
    have := this.const_mul I
    simpa using this
  have := (hx.cexp).const_mul (coeff (fun j => (x j : ℂ)) k)
  refine this.congr_deriv ?_
  ring

theorem trigInterp_deriv2 (dq1 dq2 : ℝ) (x : ZMod N1 × ZMod N2 → ℝ) (X Y : ℝ) :
    deriv (fun Y => trigInterp dq1 dq2 x X Y) Y = ∑ k : ZMod N1 × ZMod N2, I * waveNumber dq2 k.2 * coeff (fun j => (x j : ℂ)) k *
      exp (I * (waveNumber dq1 k.1 * X + waveNumber dq2 k.2 * Y)) := by
  apply HasDerivAt.deriv
  simp only [trigInterp]
  refine HasDerivAt.fun_sum fun k _ => ?_
  have hx : HasDerivAt (fun Y : ℝ => I * ((waveNumber dq1 k.1 : ℂ) * X + waveNumber dq2 k.2 * (Y : ℂ))) (I * waveNumber dq2 k.2) Y := by
    have := ((Complex.ofRealCLM.hasDerivAt (x := Y)).const_mul (waveNumber dq2 k.2 : ℂ)).const_add ((waveNumber dq1 k.1 : ℂ) * X)
    have := this.const_mul I
    simpa using this
  have := (hx.cexp).const_mul (coeff (fun j => (x j : ℂ)) k)
  refine this.congr_deriv ?_
  ring

/-- C21: the trigonometric interpolants of the returned field and of the charge density satisfy Gauss's law (up to the mean charge) at
*every point of the plane*, for every charge density the grid resolves. -/
theorem C21_gauss_law {dq1 dq2 eps : ℝ} (h1 : dq1 ≠ 0) (h2 : dq2 ≠ 0) {cs : ℕ} {rho E1 E2 : ZMod N1 × ZMod N2 → ℝ} (hr : Resolved rho)
    (h : fftPoisson cs dq1 dq2 eps rho = .ok (E1, E2)) (X Y : ℝ) :
    deriv (fun X => trigInterp dq1 dq2 E1 X Y) X + deriv (fun Y => trigInterp dq1 dq2 E2 X Y) Y
      = (trigInterp dq1 dq2 rho X Y - (((∑ j, rho j) / ((N1 : ℝ) * N2) : ℝ) : ℂ)) / eps := by
  rw [trigInterp_deriv1, trigInterp_deriv2, ← sum_add_distrib, ← coeff_zero]
  have e0 : coeff (fun j => (rho j : ℂ)) 0 = ∑ k : ZMod N1 × ZMod N2, (if k = 0 then coeff (fun j => (rho j : ℂ)) k else 0) := by
    rw [sum_ite_eq' univ 0]; simp
  rw [e0, trigInterp, ← sum_sub_distrib, sum_div]
  refine sum_congr rfl fun k _ => ?_
  rw [← add_mul]
  by_cases hk : k = 0
  · subst hk; simp [waveNumber]
  rw [if_neg hk, sub_zero]
  by_cases hn : Nyquist k.1 ∨ Nyquist k.2
  · obtain ⟨e1, e2⟩ := fftPoisson_coeff h k hk
    rw [e1, e2, hr k hn]; simp
  · push Not at hn
    rw [C21_gauss_in_every_resolved_mode h1 h2 h k hk hn.1 hn.2]; ring

/-- C21: ... and the field is curl free at every point of the plane. -/
theorem C21_curl_free {dq1 dq2 eps : ℝ} {cs : ℕ} {rho E1 E2 : ZMod N1 × ZMod N2 → ℝ} (hr : Resolved rho)
    (h : fftPoisson cs dq1 dq2 eps rho = .ok (E1, E2)) (X Y : ℝ) :
    deriv (fun X => trigInterp dq1 dq2 E2 X Y) X - deriv (fun Y => trigInterp dq1 dq2 E1 X Y) Y = 0 := by
  rw [trigInterp_deriv1, trigInterp_deriv2, ← sum_sub_distrib]
  refine sum_eq_zero fun k _ => ?_
  rw [← sub_mul]
  by_cases hk : k = 0
  · subst hk; simp [waveNumber]
  by_cases hn : Nyquist k.1 ∨ Nyquist k.2
  · obtain ⟨e1, e2⟩ := fftPoisson_coeff h k hk
    rw [e1, e2, hr k hn]; simp
  · push Not at hn
    rw [C21_curl_free_in_every_resolved_mode h k hn.1 hn.2, zero_mul]

/-- C21: the interpolants in the previous two theorems agree with the arrays at the grid points. -/
theorem C21_interpolates {dq1 dq2 : ℝ} (h1 : dq1 ≠ 0) (h2 : dq2 ≠ 0) (x : ZMod N1 × ZMod N2 → ℝ) (j : ZMod N1 × ZMod N2) :
    trigInterp dq1 dq2 x (j.1.val * dq1) (j.2.val * dq2) = x j := trigInterp_grid h1 h2 x j

/-- C21: with an odd number of cells in both directions every charge density is resolved. -/
theorem C21_odd_grids_resolve_everything (h1 : Odd N1) (h2 : Odd N2) (rho : ZMod N1 × ZMod N2 → ℝ) : Resolved rho := by
  rintro k (h | h)
  · exact absurd h1 (Nat.not_odd_iff_even.mpr ⟨k.1.val, by unfold Nyquist at h; omega⟩)
  · exact absurd h2 (Nat.not_odd_iff_even.mpr ⟨k.2.val, by unfold Nyquist at h; omega⟩)

/-- C21 (negative): in a mode at the highest frequency of an even axis the corresponding field component is dropped, whatever the charge
density: `real(...)` at line 65 removes it. -/
theorem C21_nyquist_component_dropped {dq1 dq2 eps : ℝ} {cs : ℕ} {rho E1 E2 : ZMod N1 × ZMod N2 → ℝ}
    (h : fftPoisson cs dq1 dq2 eps rho = .ok (E1, E2)) (k : ZMod N1 × ZMod N2) :
    (Nyquist k.1 → coeff (fun j => (E1 j : ℂ)) k = 0) ∧ (Nyquist k.2 → coeff (fun j => (E2 j : ℂ)) k = 0) := by
  have hne : ∀ {N : ℕ} [NeZero N] (a : ZMod N), Nyquist a → a ≠ 0 := by
    intro N _ a ha h0
    subst h0
    unfold Nyquist at ha
    exact NeZero.ne N (by simpa using ha.symm)
  constructor
  · intro hn
    have hk : k ≠ 0 := fun h0 => hne k.1 hn (by rw [h0]; rfl)
    rw [(fftPoisson_coeff h k hk).1, if_pos hn]; simp
  · intro hn
    have hk : k ≠ 0 := fun h0 => hne k.2 hn (by rw [h0]; rfl)
    rw [(fftPoisson_coeff h k hk).2, if_pos hn]; simp

/-- The hypotheses of the theorems above are met by every charge density on a 5 × 3 grid, and a non-uniform one gives a non-zero field. -/
example : ∃ E1 E2 : ZMod 5 × ZMod 3 → ℝ, fftPoisson 1 (1 / 5) (1 / 3) 2 (fun j => if j = 0 then 1 else 0) = .ok (E1, E2) ∧
    Resolved (N1 := 5) (N2 := 3) (fun j => if j = 0 then 1 else 0) ∧ E1 ≠ 0 := by
  obtain ⟨⟨E1, E2⟩, h⟩ := (C21_when_it_runs (N1 := 5) (N2 := 3) 1 (1 / 5) (1 / 3) 2 (fun j => if j = 0 then 1 else 0)).2.mpr ⟨rfl, by decide⟩
  refine ⟨E1, E2, h, C21_odd_grids_resolve_everything (by decide) (by decide) _, ?_⟩
  rintro rfl
  have hk : ((1, 0) : ZMod 5 × ZMod 3) ≠ 0 := by decide
  have hn1 : ¬ Nyquist ((1, 0) : ZMod 5 × ZMod 3).1 := by unfold Nyquist; decide
  have hn2 : ¬ Nyquist ((1, 0) : ZMod 5 × ZMod 3).2 := by unfold Nyquist; decide
  have := C21_gauss_in_every_resolved_mode (by norm_num) (by norm_num) h (1, 0) hk hn1 hn2
  have hw : waveNumber (1 / 3) ((1, 0) : ZMod 5 × ZMod 3).2 = 0 := by simp [waveNumber]
  rw [hw] at this
  have hz : coeff (fun j : ZMod 5 × ZMod 3 => (((0 : ZMod 5 × ZMod 3 → ℝ) j : ℝ) : ℂ)) (1, 0) = 0 := by simp [coeff]
  have hc : coeff (fun j : ZMod 5 × ZMod 3 => (((if j = 0 then 1 else 0 : ℝ)) : ℂ)) (1, 0) = 1 / 15 := by
    rw [coeff_eq, afFft2_eq, sum_eq_single 0]
    · simp [chi_zero_left]; norm_num
    · intro j _ hj; simp [hj]
    · simp
  rw [hz, hc] at this
  norm_num at this

end Bolt
