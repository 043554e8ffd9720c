import Verif.Proofs.Electronic
import Verif.Spec.Electronic
import Mathlib.Analysis.Calculus.Deriv.MeanValue
import Mathlib.Analysis.SpecialFunctions.Trigonometric.Basic

/-!
# C44, C45: the electronic Boltzmann system
-/

set_option linter.unusedSectionVars false

namespace Bolt

/-! ## C44: matrix inverses -/

section matrices
variable {K : Type} [Field K]

/-- C44: the explicit 4×4 inverse is a two-sided inverse of every matrix with nonzero determinant. -/
theorem C44_inverse_4x4 (A : Matrix (Fin 4) (Fin 4) K) (h : A.det ≠ 0) :
    A * Matrix.of (inverse4x4 A) = 1 ∧ Matrix.of (inverse4x4 A) * A = 1 :=
  ⟨inverse4x4_mul A h, mul_eq_one_comm.mp (inverse4x4_mul A h)⟩

/-- C44: the same for the 3×3 inverse. -/
theorem C44_inverse_3x3 (A : Matrix (Fin 3) (Fin 3) K) (h : A.det ≠ 0) :
    A * Matrix.of (inverse3x3 A) = 1 ∧ Matrix.of (inverse3x3 A) * A = 1 :=
  ⟨inverse3x3_mul A h, mul_eq_one_comm.mp (inverse3x3_mul A h)⟩

/-- C44: the quantity divided by is the determinant, so the code divides by zero exactly on singular matrices. -/
theorem C44_divisor_is_determinant (A : Matrix (Fin 4) (Fin 4) K) (B : Matrix (Fin 3) (Fin 3) K) : det4 A = A.det ∧ det3 B = B.det :=
  ⟨det4_eq A, det3_eq B⟩

example : (!![0, 1, 0, 0; 2, 0, 0, 0; 0, 0, 0, 1; 0, 0, 3, 5] : Matrix (Fin 4) (Fin 4) ℚ).det ≠ 0 := by
  rw [← det4_eq]; simp [det4]

end matrices

/-! ## C41 for the electronic system -/

/-- C41: the magnetic part of the electronic force does no work on the band velocity either. -/
theorem C41_electronic_no_work {K : Type} [Field K] (e c B3 E1 E2 v1 v2 p1 : K) :
    let F := electronicAp e c B3 E1 E2 v1 v2 p1
    F.1 * v1 + F.2.1 * v2 = e * (E1 * v1 + E2 * v2) ∧ F.2.2 = 0 := by
  simp only [electronicAp]; constructor <;> ring

/-! ## C45: equilibria -/

section fermi
variable {k mu mu' T E E' : ℝ}

/-- C45: the equilibrium lies strictly between 0 and 1. -/
theorem C45_between_zero_and_one : 0 < fermiDirac k mu T E ∧ fermiDirac k mu T E < 1 := by
  have := Real.exp_pos ((E - mu) / (k * T))
  unfold fermiDirac
  refine ⟨by positivity, ?_⟩
  rw [div_lt_one (by positivity)]; linarith

/-- C45: the drifting equilibrium too. -/
theorem C45_drifting_between_zero_and_one (vx vy px py : ℝ) : 0 < fermiDirac2 k mu T vx vy E px py ∧ fermiDirac2 k mu T vx vy E px py < 1 := by
  have := Real.exp_pos ((E - mu - vx * px - vy * py) / (k * T))
  unfold fermiDirac2
  refine ⟨by positivity, ?_⟩
  rw [div_lt_one (by positivity)]; linarith

/-- C45: it increases with the chemical potential and decreases with energy, and is one half at the chemical potential. -/
theorem C45_monotone (hkT : 0 < k * T) :
    (mu < mu' → fermiDirac k mu T E < fermiDirac k mu' T E) ∧ (E < E' → fermiDirac k mu T E' < fermiDirac k mu T E) ∧ fermiDirac k mu T mu = 1 / 2 := by
  have h : ∀ a b : ℝ, a < b → 1 / (Real.exp (b / (k * T)) + 1) < 1 / (Real.exp (a / (k * T)) + 1) := by
    intro a b hab
    have : Real.exp (a / (k * T)) < Real.exp (b / (k * T)) := Real.exp_lt_exp.mpr (div_lt_div_of_pos_right hab hkT)
    have := Real.exp_pos (a / (k * T))
    exact one_div_lt_one_div_of_lt (by positivity) (by linarith)
  refine ⟨fun hm => h _ _ (by linarith), fun hE => h _ _ (by linarith), ?_⟩
  norm_num [fermiDirac]

/-- C45: particle-hole symmetry about the chemical potential. -/
theorem C45_particle_hole (x : ℝ) : fermiDirac k mu T (mu + x) + fermiDirac k mu T (mu - x) = 1 := by
  unfold fermiDirac
  rw [add_sub_cancel_left, show mu - x - mu = -x by ring, neg_div, Real.exp_neg]
  have := Real.exp_pos (x / (k * T))
  field_simp
  ring

end fermi

section newton
variable {P : Type} [Fintype P] {k : ℝ} {E px py f : P → ℝ}

theorem imbalance_eq (i : Fin 4) (x : EEState) : eeResidual k E px py f x i = imbalance k E px py f i x.mu x.T x.vx x.vy := by
  unfold eeResidual imbalance
  refine Finset.sum_congr rfl fun p _ => ?_
  fin_cases i <;> simp [eeWeight, fermiDirac2]

theorem imbalance_deriv (hk : k ≠ 0) (i : Fin 4) (x : EEState) (hT : x.T ≠ 0) :
    HasDerivAt (fun m => imbalance k E px py f i m x.T x.vx x.vy) (-eeJacobian k E px py x i 0) x.mu ∧
    HasDerivAt (fun t => imbalance k E px py f i x.mu t x.vx x.vy) (-eeJacobian k E px py x i 1) x.T ∧
    HasDerivAt (fun v => imbalance k E px py f i x.mu x.T v x.vy) (-eeJacobian k E px py x i 2) x.vx ∧
    HasDerivAt (fun v => imbalance k E px py f i x.mu x.T x.vx v) (-eeJacobian k E px py x i 3) x.vy := by
  have hw : ∀ p, ![1, E p, px p, py p] i = eeWeight E px py p i := by intro p; fin_cases i <;> simp [eeWeight]
  have gen : ∀ (g : P → ℝ → ℝ) (d : P → ℝ) (y : ℝ), (∀ p, HasDerivAt (g p) (d p) y) →
      HasDerivAt (fun z => ∑ p, ![1, E p, px p, py p] i * (f p - g p z)) (-∑ p, eeWeight E px py p i * d p) y := by
    intro g d y h
    rw [← Finset.sum_neg_distrib]
    refine HasDerivAt.fun_sum fun p _ => ?_
    rw [← hw p, ← mul_neg]
    exact ((h p).const_sub (f p)).const_mul _
  exact ⟨gen _ _ _ fun p => fd_dmu hk hT, gen _ _ _ fun p => fd_dT hk hT, gen _ _ _ fun p => fd_dvx hk hT, gen _ _ _ fun p => fd_dvy hk hT⟩

/-- C45: the update of the chemical potential is Newton's: with `R(mu)` the excess particle number, it solves `R + R' (mu' - mu) = 0`, and `R'` is negative, so the
update is always defined. -/
theorem C45_newton_mu [Nonempty P] (hk : 0 < k) (T mu : ℝ) (hT : 0 < T) :
    ∃ R', HasDerivAt (fun m => ∑ p, (f p - fermiDirac k m T (E p))) R' mu ∧ R' < 0 ∧
      (∑ p, (f p - fermiDirac k mu T (E p))) + R' * (newtonMu k E f T mu - mu) = 0 := by
  refine ⟨-∑ p, T / fdDenominator k T ((E p - mu) / (k * T)), ?_, ?_, ?_⟩
  · rw [← Finset.sum_neg_distrib]
    refine HasDerivAt.fun_sum fun p _ => ?_
    have h := (fd_dmu (k := k) (mu := mu) (T := T) (vx := 0) (vy := 0) (E := E p) (px := 0) (py := 0) hk.ne' hT.ne').const_sub (f p)
    simpa [fermiDirac, fermiDirac2] using h
  · rw [neg_lt_zero]
    exact Finset.sum_pos (fun p _ => div_pos hT (fdDenominator_pos hk hT.ne' _)) Finset.univ_nonempty
  · have : (0 : ℝ) < ∑ p, T / fdDenominator k T ((E p - mu) / (k * T)) :=
      Finset.sum_pos (fun p _ => div_pos hT (fdDenominator_pos hk hT.ne' _)) Finset.univ_nonempty
    simp only [newtonMu]
    set a := ∑ p, T / fdDenominator k T ((E p - mu) / (k * T))
    set R := ∑ p, (f p - fermiDirac k mu T (E p))
    field_simp
    ring

/-- C45: at most one chemical potential matches the density. -/
theorem C45_mu_unique [Nonempty P] (T mu mu' : ℝ) (hkT : 0 < k * T) (h : ∑ p, (f p - fermiDirac k mu T (E p)) = 0)
    (h' : ∑ p, (f p - fermiDirac k mu' T (E p)) = 0) : mu = mu' := by
  by_contra hne
  have key : ∀ a b : ℝ, a < b → ∑ p, (f p - fermiDirac k b T (E p)) < ∑ p, (f p - fermiDirac k a T (E p)) := by
    intro a b hab
    refine Finset.sum_lt_sum_of_nonempty Finset.univ_nonempty fun p _ => ?_
    have := (C45_monotone (E := E p) (E' := 0) hkT).1 hab
    linarith
  rcases lt_or_gt_of_ne hne with h1 | h1
  · have := key _ _ h1; linarith
  · have := key _ _ h1; linarith

/-- C45: the chemical potential is left alone exactly when the density matches. -/
theorem C45_newton_mu_fixed_iff [Nonempty P] (hk : 0 < k) (T mu : ℝ) (hT : 0 < T) :
    newtonMu k E f T mu = mu ↔ ∑ p, f p = ∑ p, fermiDirac k mu T (E p) := by
  obtain ⟨R', -, hR, h⟩ := C45_newton_mu (E := E) (f := f) hk T mu hT
  rw [← sub_eq_zero, ← sub_eq_zero (a := ∑ p, f p), ← Finset.sum_sub_distrib]
  constructor
  · intro h0; rw [h0] at h; linarith
  · intro h0
    rw [h0, zero_add] at h
    rcases mul_eq_zero.mp h with h1 | h1
    · exact absurd h1 hR.ne
    · exact h1

/-- C45: the joint update of chemical potential and temperature solves the linearised particle-number and energy equations exactly, and its determinant is nonzero
as soon as two momentum cells have different energies. -/
theorem C45_newton_mu_T (hk : 0 < k) (mu T : ℝ) (hT : 0 < T) (hE : ∃ p p', E p ≠ E p') :
    ∃ J00 J01 J10 J11 : ℝ,
      HasDerivAt (fun m => ∑ p, (f p - fermiDirac k m T (E p))) J00 mu ∧
      HasDerivAt (fun t => ∑ p, (f p - fermiDirac k mu t (E p))) J01 T ∧
      HasDerivAt (fun m => ∑ p, E p * (f p - fermiDirac k m T (E p))) J10 mu ∧
      HasDerivAt (fun t => ∑ p, E p * (f p - fermiDirac k mu t (E p))) J11 T ∧
      J00 * J11 - J01 * J10 ≠ 0 ∧
      let x' := newtonMuT k E f (mu, T)
      (∑ p, (f p - fermiDirac k mu T (E p))) + J00 * (x'.1 - mu) + J01 * (x'.2 - T) = 0 ∧
      (∑ p, E p * (f p - fermiDirac k mu T (E p))) + J10 * (x'.1 - mu) + J11 * (x'.2 - T) = 0 := by
  set den := fun p => fdDenominator k T ((E p - mu) / (k * T)) with hden
  have hpos : ∀ p, 0 < den p := fun p => fdDenominator_pos hk hT.ne' _
  have dmu : ∀ p, HasDerivAt (fun m => fermiDirac k m T (E p)) (T / den p) mu := by
    intro p
    have h := fd_dmu (k := k) (mu := mu) (T := T) (vx := 0) (vy := 0) (E := E p) (px := 0) (py := 0) hk.ne' hT.ne'
    simpa [fermiDirac, fermiDirac2, hden] using h
  have dT : ∀ p, HasDerivAt (fun t => fermiDirac k mu t (E p)) ((E p - mu) / den p) T := by
    intro p
    have h := fd_dT (k := k) (mu := mu) (T := T) (vx := 0) (vy := 0) (E := E p) (px := 0) (py := 0) hk.ne' hT.ne'
    simpa [fermiDirac, fermiDirac2, hden] using h
  set a00 := ∑ p, T / den p with ha00
  set a01 := ∑ p, (E p - mu) / den p with ha01
  set a10 := ∑ p, E p * T / den p with ha10
  set a11 := ∑ p, E p * (E p - mu) / den p with ha11
  have hdet : a00 * a11 - a01 * a10 ≠ 0 := by
    -- with `S0 = Σ 1/den`, `S1 = Σ E/den`, `S2 = Σ E²/den` the determinant is `T (S0 S2 - S1²)`
    set S0 := ∑ p, 1 / den p
    set S1 := ∑ p, E p / den p
    set S2 := ∑ p, E p ^ 2 / den p
    have e00 : a00 = T * S0 := by rw [ha00, Finset.mul_sum]; exact Finset.sum_congr rfl fun p _ => by ring
    have e01 : a01 = S1 - mu * S0 := by
      rw [ha01, Finset.mul_sum, ← Finset.sum_sub_distrib]; exact Finset.sum_congr rfl fun p _ => by ring
    have e10 : a10 = T * S1 := by rw [ha10, Finset.mul_sum]; exact Finset.sum_congr rfl fun p _ => by ring
    have e11 : a11 = S2 - mu * S1 := by
      rw [ha11, Finset.mul_sum, ← Finset.sum_sub_distrib]; exact Finset.sum_congr rfl fun p _ => by ring
    obtain ⟨p0, p1, hne⟩ := hE
    have hS0 : 0 < S0 := Finset.sum_pos (fun p _ => one_div_pos.mpr (hpos p)) ⟨p0, Finset.mem_univ _⟩
    have hsq : ∑ p, (1 / den p) * (S0 * E p - S1) ^ 2 = S0 * (S0 * S2 - S1 ^ 2) := by
      have : ∀ p, (1 / den p) * (S0 * E p - S1) ^ 2 = S0 ^ 2 * (E p ^ 2 / den p) - 2 * S0 * S1 * (E p / den p) + S1 ^ 2 * (1 / den p) := by
        intro p; ring
      rw [Finset.sum_congr rfl fun p _ => this p, Finset.sum_add_distrib, Finset.sum_sub_distrib, ← Finset.mul_sum, ← Finset.mul_sum, ← Finset.mul_sum]
      change S0 ^ 2 * S2 - 2 * S0 * S1 * S1 + S1 ^ 2 * S0 = _
      ring
    have hne0 : S0 * S2 - S1 ^ 2 ≠ 0 := by
      intro h0
      rw [h0, mul_zero] at hsq
      have hz := sum_sq_zero (fun p => one_div_pos.mpr (hpos p)) hsq
      have h1 := hz p0
      have h2 := hz p1
      exact hne (mul_left_cancel₀ hS0.ne' (by linarith))
    have : a00 * a11 - a01 * a10 = T * (S0 * S2 - S1 ^ 2) := by rw [e00, e01, e10, e11]; ring
    rw [this]
    exact mul_ne_zero hT.ne' hne0
  refine ⟨-a00, -a01, -a10, -a11, ?_, ?_, ?_, ?_, ?_, ?_⟩
  · rw [ha00, ← Finset.sum_neg_distrib]
    exact HasDerivAt.fun_sum fun p _ => (dmu p).const_sub (f p)
  · rw [ha01, ← Finset.sum_neg_distrib]
    exact HasDerivAt.fun_sum fun p _ => (dT p).const_sub (f p)
  · rw [ha10, ← Finset.sum_neg_distrib]
    refine HasDerivAt.fun_sum fun p _ => ?_
    rw [mul_div_assoc, ← mul_neg]
    exact ((dmu p).const_sub (f p)).const_mul _
  · rw [ha11, ← Finset.sum_neg_distrib]
    refine HasDerivAt.fun_sum fun p _ => ?_
    rw [mul_div_assoc, ← mul_neg]
    exact ((dT p).const_sub (f p)).const_mul _
  · rw [neg_mul_neg, neg_mul_neg]; exact hdet
  · have hdet' : a01 * a10 - a00 * a11 ≠ 0 := fun h => hdet (by linarith)
    simp only [newtonMuT]
    set b0 := ∑ p, (f p - fermiDirac k mu T (E p))
    set b1 := ∑ p, E p * (f p - fermiDirac k mu T (E p))
    change b0 + -a00 * (mu + -(a11 * _ - a01 * _) / (a01 * a10 - a00 * a11) - mu)
        + -a01 * (T + (a10 * _ - a00 * _) / (a01 * a10 - a00 * a11) - T) = 0 ∧
      b1 + -a10 * (mu + -(a11 * _ - a01 * _) / (a01 * a10 - a00 * a11) - mu)
        + -a11 * (T + (a10 * _ - a00 * _) / (a01 * a10 - a00 * a11) - T) = 0
    constructor
    · field_simp; ring
    · have hinv := mul_inv_cancel₀ hdet'
      simp only [div_eq_mul_inv]
      linear_combination (-b1) * hinv

/-- The code's Jacobian of the drifting state is nonsingular when the conserved quantities are independent on the momentum grid. -/
theorem eeJacobian_det (hk : 0 < k) (x : EEState) (hT : x.T ≠ 0)
    (hind : ∀ c0 c1 c2 c3 : ℝ, (∀ p, c0 + c1 * E p + c2 * px p + c3 * py p = 0) → c0 = 0 ∧ c1 = 0 ∧ c2 = 0 ∧ c3 = 0) :
    (Matrix.of (eeJacobian k E px py x)).det ≠ 0 := by
  refine det_ne_zero_of _ fun v hv => ?_
  set W := fun p => 1 / fdDenominator k x.T ((E p - x.mu - px p * x.vx - py p * x.vy) / (k * x.T)) with hW
  have hWpos : ∀ p, 0 < W p := fun p => one_div_pos.mpr (fdDenominator_pos hk hT _)
  set u := fun p => (x.T * v 0 - x.mu * v 1) + v 1 * E p + (x.T * v 2 - x.vx * v 1) * px p + (x.T * v 3 - x.vy * v 1) * py p with hu
  have hcol : ∀ p, ∑ j, eeColumn k E px py x p j * v j = W p * u p := by
    intro p
    rw [Fin.sum_univ_four]
    simp only [eeColumn, hW, hu]
    ring
  have row : ∀ i, ∑ p, eeWeight E px py p i * (W p * u p) = 0 := by
    intro i
    have h := congrFun hv i
    simp only [Matrix.mulVec, dotProduct, Matrix.of_apply, eeJacobian, Pi.zero_apply, Finset.sum_mul] at h
    rw [Finset.sum_comm] at h
    rw [← h]
    refine Finset.sum_congr rfl fun p _ => ?_
    rw [← hcol, Finset.mul_sum]
    exact Finset.sum_congr rfl fun j _ => by ring
  have hsq : ∑ p, W p * u p ^ 2 = 0 := by
    have r0 := row 0
    have r1 := row 1
    have r2 := row 2
    have r3 := row 3
    simp only [eeWeight, one_mul] at r0 r1 r2 r3
    calc ∑ p, W p * u p ^ 2
        = (x.T * v 0 - x.mu * v 1) * ∑ p, W p * u p + v 1 * ∑ p, E p * (W p * u p)
          + (x.T * v 2 - x.vx * v 1) * ∑ p, px p * (W p * u p) + (x.T * v 3 - x.vy * v 1) * ∑ p, py p * (W p * u p) := by
          simp only [Finset.mul_sum, ← Finset.sum_add_distrib]
          refine Finset.sum_congr rfl fun p _ => ?_
          have : u p = (x.T * v 0 - x.mu * v 1) + v 1 * E p + (x.T * v 2 - x.vx * v 1) * px p + (x.T * v 3 - x.vy * v 1) * py p := rfl
          linear_combination (W p * u p) * this
      _ = 0 := by rw [r0, r1, r2, r3]; ring
  obtain ⟨h0, h1, h2, h3⟩ := hind _ _ _ _ fun p => sum_sq_zero hWpos hsq p
  rw [h1, mul_zero, sub_zero] at h0 h2 h3
  funext j
  fin_cases j
  · exact (mul_eq_zero.mp h0).resolve_left hT
  · exact h1
  · exact (mul_eq_zero.mp h2).resolve_left hT
  · exact (mul_eq_zero.mp h3).resolve_left hT

/-- C45: the update of the drifting equilibrium solves the four linearised conservation equations (particle number, energy, two momenta) exactly, whenever these
quantities are independent on the momentum grid. -/
theorem C45_newton_drifting (hk : 0 < k) (x : EEState) (hT : x.T ≠ 0)
    (hind : ∀ c0 c1 c2 c3 : ℝ, (∀ p, c0 + c1 * E p + c2 * px p + c3 * py p = 0) → c0 = 0 ∧ c1 = 0 ∧ c2 = 0 ∧ c3 = 0) (i : Fin 4) :
    ∃ Jmu JT Jvx Jvy : ℝ,
      HasDerivAt (fun m => imbalance k E px py f i m x.T x.vx x.vy) Jmu x.mu ∧
      HasDerivAt (fun t => imbalance k E px py f i x.mu t x.vx x.vy) JT x.T ∧
      HasDerivAt (fun v => imbalance k E px py f i x.mu x.T v x.vy) Jvx x.vx ∧
      HasDerivAt (fun v => imbalance k E px py f i x.mu x.T x.vx v) Jvy x.vy ∧
      let x' := newtonEE k E px py f x
      imbalance k E px py f i x.mu x.T x.vx x.vy + Jmu * (x'.mu - x.mu) + JT * (x'.T - x.T) + Jvx * (x'.vx - x.vx) + Jvy * (x'.vy - x.vy) = 0 := by
  obtain ⟨d0, d1, d2, d3⟩ := imbalance_deriv (E := E) (px := px) (py := py) (f := f) hk.ne' i x hT
  refine ⟨_, _, _, _, d0, d1, d2, d3, ?_⟩
  have hmul := (C44_inverse_4x4 (Matrix.of (eeJacobian k E px py x)) (eeJacobian_det hk x hT hind)).1
  have e : ∀ j, ∑ m, eeJacobian k E px py x i m * inverse4x4 (eeJacobian k E px py x) m j = if i = j then 1 else 0 := by
    intro j
    have := congrFun (congrFun hmul i) j
    rw [Matrix.mul_apply, Matrix.one_apply] at this
    exact this
  simp only [newtonEE, add_sub_cancel_left]
  rw [← imbalance_eq]
  set A := eeJacobian k E px py x
  set B := inverse4x4 A
  set b := eeResidual k E px py f x
  have e0 := e 0
  have e1 := e 1
  have e2 := e 2
  have e3 := e 3
  rw [Fin.sum_univ_four] at e0 e1 e2 e3
  have hb : b i = (if i = 0 then 1 else 0) * b 0 + (if i = 1 then 1 else 0) * b 1 + (if i = 2 then 1 else 0) * b 2 + (if i = 3 then 1 else 0) * b 3 := by
    fin_cases i <;> simp
  rw [hb, ← e0, ← e1, ← e2, ← e3]
  ring

/-- C45: a drifting state is left unchanged by the update exactly if its equilibrium has the particle number, energy and momenta of the distribution
function (whenever these quantities are independent on the momentum grid). -/
theorem C45_drifting_fixed_iff (hk : 0 < k) (x : EEState) (hT : x.T ≠ 0)
    (hind : ∀ c0 c1 c2 c3 : ℝ, (∀ p, c0 + c1 * E p + c2 * px p + c3 * py p = 0) → c0 = 0 ∧ c1 = 0 ∧ c2 = 0 ∧ c3 = 0) :
    newtonEE k E px py f x = x ↔ ∀ i, imbalance k E px py f i x.mu x.T x.vx x.vy = 0 := by
  constructor
  · intro h i
    obtain ⟨_, _, _, _, -, -, -, -, e⟩ := C45_newton_drifting (E := E) (px := px) (py := py) (f := f) hk x hT hind i
    simpa [h] using e
  · intro h
    have hb : ∀ i, eeResidual k E px py f x i = 0 := fun i => by rw [imbalance_eq, h]
    simp [newtonEE, hb]

/-- C45: at constant temperature the update solves the three linearised equations for particle number and momenta, whenever `1, p_x, p_y` are independent on the
grid; the temperature does not change. -/
theorem C45_newton_drifting_constant_T (hk : 0 < k) (x : EEState) (hT : x.T ≠ 0)
    (hind : ∀ c0 c2 c3 : ℝ, (∀ p, c0 + c2 * px p + c3 * py p = 0) → c0 = 0 ∧ c2 = 0 ∧ c3 = 0) (i : Fin 4) (hi : i ≠ 1) :
    (newtonEEConstT k E px py f x).T = x.T ∧
    ∃ Jmu Jvx Jvy : ℝ,
      HasDerivAt (fun m => imbalance k E px py f i m x.T x.vx x.vy) Jmu x.mu ∧
      HasDerivAt (fun v => imbalance k E px py f i x.mu x.T v x.vy) Jvx x.vx ∧
      HasDerivAt (fun v => imbalance k E px py f i x.mu x.T x.vx v) Jvy x.vy ∧
      let x' := newtonEEConstT k E px py f x
      imbalance k E px py f i x.mu x.T x.vx x.vy + Jmu * (x'.mu - x.mu) + Jvx * (x'.vx - x.vx) + Jvy * (x'.vy - x.vy) = 0 := by
  refine ⟨rfl, ?_⟩
  obtain ⟨d0, -, d2, d3⟩ := imbalance_deriv (E := E) (px := px) (py := py) (f := f) hk.ne' i x hT
  refine ⟨_, _, _, d0, d2, d3, ?_⟩
  set A3 : Fin 3 → Fin 3 → ℝ := fun i j => eeJacobian k E px py x (keep3 i) (keep3 j) with hA3
  have hdet : (Matrix.of A3).det ≠ 0 := by
    refine det_ne_zero_of _ fun v hv => ?_
    set W := fun p => 1 / fdDenominator k x.T ((E p - x.mu - px p * x.vx - py p * x.vy) / (k * x.T)) with hW
    have hWpos : ∀ p, 0 < W p := fun p => one_div_pos.mpr (fdDenominator_pos hk hT _)
    set u := fun p => v 0 + v 1 * px p + v 2 * py p with hu
    have row : ∀ i, ∑ p, eeWeight E px py p (keep3 i) * (x.T * (W p * u p)) = 0 := by
      intro i
      have h := congrFun hv i
      simp only [Matrix.mulVec, dotProduct, Matrix.of_apply, hA3, eeJacobian, Pi.zero_apply, Finset.sum_mul] at h
      rw [Finset.sum_comm] at h
      rw [← h]
      refine Finset.sum_congr rfl fun p _ => ?_
      rw [Fin.sum_univ_three]
      simp only [keep3, eeColumn, hW, hu]
      ring
    have hsq : ∑ p, W p * u p ^ 2 = 0 := by
      have r0 := row 0
      have r1 := row 1
      have r2 := row 2
      simp only [eeWeight, keep3, one_mul] at r0 r1 r2
      have : x.T * ∑ p, W p * u p ^ 2 = 0 := by
        calc x.T * ∑ p, W p * u p ^ 2
            = v 0 * ∑ p, x.T * (W p * u p) + v 1 * ∑ p, px p * (x.T * (W p * u p)) + v 2 * ∑ p, py p * (x.T * (W p * u p)) := by
              simp only [Finset.mul_sum, ← Finset.sum_add_distrib]
              refine Finset.sum_congr rfl fun p _ => ?_
              have : u p = v 0 + v 1 * px p + v 2 * py p := rfl
              linear_combination (x.T * W p * u p) * this
          _ = 0 := by rw [r0, r1, r2]; ring
      exact (mul_eq_zero.mp this).resolve_left hT
    obtain ⟨h0, h1, h2⟩ := hind _ _ _ fun p => sum_sq_zero hWpos hsq p
    funext j
    fin_cases j
    · exact h0
    · exact h1
    · exact h2
  have hmul := (C44_inverse_3x3 (Matrix.of A3) hdet).1
  simp only [newtonEEConstT, add_sub_cancel_left]
  rw [← imbalance_eq]
  change eeResidual k E px py f x i + _ * (inverse3x3 A3 0 0 * _ + inverse3x3 A3 0 1 * _ + inverse3x3 A3 0 2 * _)
    + _ * (inverse3x3 A3 1 0 * _ + inverse3x3 A3 1 1 * _ + inverse3x3 A3 1 2 * _)
    + _ * (inverse3x3 A3 2 0 * _ + inverse3x3 A3 2 1 * _ + inverse3x3 A3 2 2 * _) = 0
  obtain ⟨i3, rfl⟩ : ∃ i3, keep3 i3 = i := by
    fin_cases i
    · exact ⟨0, rfl⟩
    · exact absurd rfl hi
    · exact ⟨1, rfl⟩
    · exact ⟨2, rfl⟩
  have e : ∀ j, ∑ m, A3 i3 m * inverse3x3 A3 m j = if i3 = j then 1 else 0 := by
    intro j
    have := congrFun (congrFun hmul i3) j
    rw [Matrix.mul_apply, Matrix.one_apply] at this
    exact this
  have e0 := e 0
  have e1 := e 1
  have e2 := e 2
  rw [Fin.sum_univ_three] at e0 e1 e2
  set B := inverse3x3 A3
  set b := eeResidual k E px py f x
  have c0 : A3 i3 0 = eeJacobian k E px py x (keep3 i3) 0 := rfl
  have c1 : A3 i3 1 = eeJacobian k E px py x (keep3 i3) 2 := rfl
  have c2 : A3 i3 2 = eeJacobian k E px py x (keep3 i3) 3 := rfl
  have hb : b (keep3 i3) = (if i3 = 0 then 1 else 0) * b (keep3 0) + (if i3 = 1 then 1 else 0) * b (keep3 1) + (if i3 = 2 then 1 else 0) * b (keep3 2) := by
    fin_cases i3 <;> simp
  rw [hb, ← e0, ← e1, ← e2, ← c0, ← c1, ← c2]
  ring

/-- C45 (negative): on a momentum grid on which `p_y` is constant (one momentum dimension on a cartesian grid) the 3×3 system is singular, so the code divides by
zero. -/
theorem C45_singular_when_one_dimensional (x : EEState) (c : ℝ) :
    det3 (fun i j => eeJacobian k E px (fun _ => c) x (keep3 i) (keep3 j)) = 0 := by
  have h : ∀ i, eeJacobian k E px (fun _ => c) x i 3 = c * eeJacobian k E px (fun _ => c) x i 0 := by
    intro i
    simp only [eeJacobian, Finset.mul_sum]
    refine Finset.sum_congr rfl fun p _ => ?_
    simp only [eeColumn]; ring
  simp only [det3, keep3, h]
  ring

end newton

/-- The independence hypotheses are met: a 2D momentum grid of five points with a quadratic band. -/
example : let px : Fin 5 → ℝ := ![0, 1, -1, 0, 0]
    let py : Fin 5 → ℝ := ![0, 0, 0, 1, -1]
    let E : Fin 5 → ℝ := ![0, 1, 1, 1, 1]
    ∀ c0 c1 c2 c3 : ℝ, (∀ p, c0 + c1 * E p + c2 * px p + c3 * py p = 0) → c0 = 0 ∧ c1 = 0 ∧ c2 = 0 ∧ c3 = 0 := by
  intro px py E c0 c1 c2 c3 h
  have h0 := h 0
  have h1 := h 1
  have h2 := h 2
  have h3 := h 3
  have h4 := h 4
  simp [px, py, E] at h0 h1 h2 h3 h4
  refine ⟨?_, ?_, ?_, ?_⟩ <;> linarith

/-! ## C45: the relaxation operator -/

section rta
variable {S P Q : Type} [Fintype P]

theorem newtonMu_fixed {k : ℝ} {E f : P → ℝ} {T mu : ℝ} (h : ∑ p, (f p - fermiDirac k mu T (E p)) = 0) : newtonMu k E f T mu = mu := by
  simp only [newtonMu, h]; simp

theorem newtonMuT_fixed {k : ℝ} {E f : P → ℝ} {T mu : ℝ} (h : ∀ p, f p = fermiDirac k mu T (E p)) : newtonMuT k E f (mu, T) = (mu, T) := by
  simp [newtonMuT, h]

theorem newtonEEConstT_fixed {k : ℝ} {E px py f : P → ℝ} {x : EEState} (h : ∀ p, f p = fermiDirac2 k x.mu x.T x.vx x.vy (E p) (px p) (py p)) :
    newtonEEConstT k E px py f x = x := by
  have : eeResidual k E px py f x = fun _ => 0 := by funext i; simp [eeResidual, h]
  simp [newtonEEConstT, this]

/-- The result of `RTA` in one momentum dimension. -/
theorem rta_one (pr : ElecParams S P Q) (c : PCoords S P ℝ) (flag : Bool) (f : Dist S P Q ℝ) (st : ElecState S Q) (pxy : (S → P → ℝ) × (S → P → ℝ))
    (hm : cartesianMomenta pr.grid c = .ok pxy) (hp : pr.pdim = 1) (hi : pr.iters ≠ 0) (hd : pr.disabled = false)
    (hex : ¬ ∃ s p q, pr.tauDefect s p q = 0) :
    let mu := fun s q => (newtonMu pr.k (pr.E s) (fun p => f s p q) (st.T s q))^[pr.iters] (st.mu s q)
    let x := fun s q => (newtonEEConstT pr.k (pr.E s) (pxy.1 s) (pxy.2 s) (fun p => f s p q))^[pr.iters] (st.ee s q)
    rta pr c flag f st = .ok (⟨mu, st.T, x, fun s q => ∑ p, f s p q * pxy.1 s p, fun s q => ∑ p, f s p q * pxy.2 s p⟩,
      relax pr f (fun s p q => fermiDirac pr.k (mu s q) (st.T s q) (pr.E s p))
        (fun s p q => fermiDirac2 pr.k (x s q).mu (x s q).T (x s q).vx (x s q).vy (pr.E s p) (pxy.1 s p) (pxy.2 s p))) := by
  intro mu x
  rw [rta, hm]
  simp only [Except.bind, if_neg hex, hd, Bool.false_eq_true, if_false, if_pos hp, f0DefectConstT, f0EEConstT, if_neg hi, mu, x]

/-- The result of `RTA` in two momentum dimensions. -/
theorem rta_two (pr : ElecParams S P Q) (c : PCoords S P ℝ) (flag : Bool) (f : Dist S P Q ℝ) (st : ElecState S Q) (pxy : (S → P → ℝ) × (S → P → ℝ))
    (hm : cartesianMomenta pr.grid c = .ok pxy) (hp : pr.pdim = 2) (hi : pr.iters ≠ 0) (hd : pr.disabled = false)
    (hex : ¬ ∃ s p q, pr.tauDefect s p q = 0) :
    let y := fun s q => (newtonMuT pr.k (pr.E s) (fun p => f s p q))^[pr.iters] (st.mu s q, st.T s q)
    let x := fun s q => (newtonEEConstT pr.k (pr.E s) (pxy.1 s) (pxy.2 s) (fun p => f s p q))^[pr.iters] (st.ee s q)
    rta pr c flag f st = .ok (⟨fun s q => (y s q).1, fun s q => (y s q).2, x, fun s q => ∑ p, f s p q * pxy.1 s p, fun s q => ∑ p, f s p q * pxy.2 s p⟩,
      relax pr f (fun s p q => fermiDirac pr.k (y s q).1 (y s q).2 (pr.E s p))
        (fun s p q => fermiDirac2 pr.k (x s q).mu (x s q).T (x s q).vx (x s q).vy (pr.E s p) (pxy.1 s p) (pxy.2 s p))) := by
  intro y x
  have hp1 : ¬ pr.pdim = 1 := by omega
  rw [rta, hm]
  simp only [Except.bind, if_neg hex, hd, Bool.false_eq_true, if_false, if_neg hp1, if_pos hp, f0Defect, f0EEConstT, if_neg hi, y, x]

/-- C45: the drifting equilibrium with its own temperature: the result is the Fermi-Dirac distribution of the parameters stored; a drifting
equilibrium is returned unchanged; nothing else is stored; without iterations an error is raised. -/
theorem C45_drifting_equilibrium (pr : ElecParams S P Q) (px py : S → P → ℝ) (f : Dist S P Q ℝ) (st : ElecState S Q) :
    (pr.iters = 0 → f0EE pr px py f st = .error .nameError) ∧
    (pr.iters ≠ 0 → ∃ st' g, f0EE pr px py f st = .ok (st', g) ∧ st' = { st with ee := st'.ee } ∧
      (∀ s p q, g s p q = 1 / (Real.exp ((pr.E s p - (st'.ee s q).mu - (st'.ee s q).vx * px s p - (st'.ee s q).vy * py s p) / (pr.k * (st'.ee s q).T)) + 1)) ∧
      ∀ s q, (∀ p, f s p q = 1 / (Real.exp ((pr.E s p - (st.ee s q).mu - (st.ee s q).vx * px s p - (st.ee s q).vy * py s p) / (pr.k * (st.ee s q).T)) + 1)) →
        st'.ee s q = st.ee s q ∧ ∀ p, g s p q = f s p q) := by
  refine ⟨fun h => by rw [f0EE, if_pos h], fun h => ⟨{ st with ee := fun s q => (newtonEE pr.k (pr.E s) (px s) (py s) (fun p => f s p q))^[pr.iters] (st.ee s q) }, _,
    by rw [f0EE, if_neg h]; rfl, rfl, fun s p q => rfl, fun s q hf => ?_⟩⟩
  have hx : newtonEE pr.k (pr.E s) (px s) (py s) (fun p => f s p q) (st.ee s q) = st.ee s q := by
    have : eeResidual pr.k (pr.E s) (px s) (py s) (fun p => f s p q) (st.ee s q) = fun _ => 0 := by funext i; simp [eeResidual, hf, fermiDirac2]
    simp [newtonEE, this]
  have hi := Function.iterate_fixed hx pr.iters
  exact ⟨hi, fun p => by rw [hf p]; simp only [hi]⟩

/-- C45: what the operator returns: relaxation towards the two Fermi-Dirac distributions whose parameters it stores, for one and two momentum dimensions on
cartesian and polar grids. -/
theorem C45_rta_relaxes (pr : ElecParams S P Q) (c : PCoords S P ℝ) (flag : Bool) (f : Dist S P Q ℝ) (st : ElecState S Q)
    (hg : pr.grid = "cartesian" ∨ pr.grid = "polar2D") (hp : pr.pdim = 1 ∨ pr.pdim = 2) (hi : pr.iters ≠ 0) (hd : pr.disabled = false)
    (ht : ∀ s p q, pr.tauDefect s p q ≠ 0) :
    ∃ st' C, rta pr c flag f st = .ok (st', C) ∧
      ∃ px py : S → P → ℝ, (pr.grid = "cartesian" → px = c.p1 ∧ py = c.p2) ∧
        (pr.grid = "polar2D" → (∀ s p, px s p = c.p1 s p * Real.cos (c.p2 s p)) ∧ ∀ s p, py s p = c.p1 s p * Real.sin (c.p2 s p)) ∧
        (∀ s q, st'.jx s q = ∑ p, f s p q * px s p ∧ st'.jy s q = ∑ p, f s p q * py s p) ∧
        (pr.pdim = 1 → st'.T = st.T) ∧ (∀ s q, (st'.ee s q).T = (st.ee s q).T) ∧
        ∀ s p q, C s p q =
          -(f s p q - 1 / (Real.exp ((pr.E s p - st'.mu s q) / (pr.k * st'.T s q)) + 1)) / pr.tauDefect s p q
          - (f s p q - 1 / (Real.exp ((pr.E s p - (st'.ee s q).mu - (st'.ee s q).vx * px s p - (st'.ee s q).vy * py s p) / (pr.k * (st'.ee s q).T)) + 1))
            / pr.tauEE s p q := by
  have hex : ¬ ∃ s p q, pr.tauDefect s p q = 0 := by rintro ⟨s, p, q, h⟩; exact ht s p q h
  obtain ⟨pxy, hm, h1, h2⟩ : ∃ pxy, cartesianMomenta pr.grid c = .ok pxy ∧ (pr.grid = "cartesian" → pxy.1 = c.p1 ∧ pxy.2 = c.p2) ∧
      (pr.grid = "polar2D" → (∀ s p, pxy.1 s p = c.p1 s p * Real.cos (c.p2 s p)) ∧ ∀ s p, pxy.2 s p = c.p1 s p * Real.sin (c.p2 s p)) := by
    rcases hg with h | h
    · exact ⟨_, by rw [cartesianMomenta, if_pos h], fun _ => ⟨rfl, rfl⟩, fun h' => absurd (h.symm.trans h') (by decide)⟩
    · exact ⟨_, by rw [cartesianMomenta, if_neg (by rw [h]; decide), if_pos h], fun h' => absurd (h.symm.trans h') (by decide),
        fun _ => ⟨fun _ _ => rfl, fun _ _ => rfl⟩⟩
  have hTT : ∀ s q n, ((newtonEEConstT pr.k (pr.E s) (pxy.1 s) (pxy.2 s) (fun p => f s p q))^[n] (st.ee s q)).T = (st.ee s q).T := by
    intro s q n
    induction n with
    | zero => rfl
    | succ n ih => rw [Function.iterate_succ_apply']; exact ih
  rcases hp with hp | hp
  · refine ⟨_, _, rta_one pr c flag f st pxy hm hp hi hd hex, pxy.1, pxy.2, h1, h2, ?_, ?_, ?_, ?_⟩
    · intro s q; exact ⟨rfl, rfl⟩
    · intro _; rfl
    · intro s q; exact hTT s q _
    · intro s p q; rfl
  · have hp1 : ¬ pr.pdim = 1 := by omega
    refine ⟨_, _, rta_two pr c flag f st pxy hm hp hi hd hex, pxy.1, pxy.2, h1, h2, ?_, ?_, ?_, ?_⟩
    · intro s q; exact ⟨rfl, rfl⟩
    · intro h; exact absurd h hp1
    · intro s q; exact hTT s q _
    · intro s p q; rfl

/-- C45: the operator vanishes in a Fermi-Dirac equilibrium at rest, for any number of Newton iterations, and leaves the stored parameters alone. -/
theorem C45_rta_zero_at_equilibrium (pr : ElecParams S P Q) (c : PCoords S P ℝ) (flag : Bool) (f : Dist S P Q ℝ) (st : ElecState S Q)
    (hg : pr.grid = "cartesian" ∨ pr.grid = "polar2D") (hp : pr.pdim = 1 ∨ pr.pdim = 2) (hi : pr.iters ≠ 0) (hd : pr.disabled = false)
    (ht : ∀ s p q, pr.tauDefect s p q ≠ 0) (hee : ∀ s q, st.ee s q = ⟨st.mu s q, st.T s q, 0, 0⟩)
    (hf : ∀ s p q, f s p q = 1 / (Real.exp ((pr.E s p - st.mu s q) / (pr.k * st.T s q)) + 1)) :
    ∃ st' C, rta pr c flag f st = .ok (st', C) ∧ (∀ s p q, C s p q = 0) ∧ st'.mu = st.mu ∧ st'.T = st.T ∧ st'.ee = st.ee := by
  have hex : ¬ ∃ s p q, pr.tauDefect s p q = 0 := by rintro ⟨s, p, q, h⟩; exact ht s p q h
  obtain ⟨pxy, hm⟩ : ∃ pxy, cartesianMomenta pr.grid c = .ok pxy := by
    rcases hg with h | h
    · exact ⟨_, by rw [cartesianMomenta, if_pos h]⟩
    · exact ⟨_, by rw [cartesianMomenta, if_neg (by rw [h]; decide), if_pos h]⟩
  have hf1 : ∀ s p q, f s p q = fermiDirac pr.k (st.mu s q) (st.T s q) (pr.E s p) := fun s p q => hf s p q
  have hf2 : ∀ s q p, f s p q = fermiDirac2 pr.k (st.ee s q).mu (st.ee s q).T (st.ee s q).vx (st.ee s q).vy (pr.E s p) (pxy.1 s p) (pxy.2 s p) := by
    intro s q p; rw [hf1, hee]; simp [fermiDirac, fermiDirac2]
  have hee' : (fun s q => (newtonEEConstT pr.k (pr.E s) (pxy.1 s) (pxy.2 s) (fun p => f s p q))^[pr.iters] (st.ee s q)) = st.ee := by
    funext s q; exact Function.iterate_fixed (newtonEEConstT_fixed (hf2 s q)) _
  have hmu : (fun s q => (newtonMu pr.k (pr.E s) (fun p => f s p q) (st.T s q))^[pr.iters] (st.mu s q)) = st.mu := by
    funext s q; exact Function.iterate_fixed (newtonMu_fixed (by simp [hf1])) _
  have hmuT : ∀ s q, (newtonMuT pr.k (pr.E s) (fun p => f s p q))^[pr.iters] (st.mu s q, st.T s q) = (st.mu s q, st.T s q) := by
    intro s q; exact Function.iterate_fixed (newtonMuT_fixed fun p => hf1 s p q) _
  have zero : ∀ s p q, relax pr f (fun s p q => fermiDirac pr.k (st.mu s q) (st.T s q) (pr.E s p))
      (fun s p q => fermiDirac2 pr.k (st.ee s q).mu (st.ee s q).T (st.ee s q).vx (st.ee s q).vy (pr.E s p) (pxy.1 s p) (pxy.2 s p)) s p q = 0 := by
    intro s p q
    simp only [relax, ← hf1, ← hf2, sub_self, neg_zero, zero_div]
  have hee2 : ∀ s q, (newtonEEConstT pr.k (pr.E s) (pxy.1 s) (pxy.2 s) (fun p => f s p q))^[pr.iters] (st.ee s q) = st.ee s q :=
    fun s q => congrFun (congrFun hee' s) q
  have hmu2 : ∀ s q, (newtonMu pr.k (pr.E s) (fun p => f s p q) (st.T s q))^[pr.iters] (st.mu s q) = st.mu s q :=
    fun s q => congrFun (congrFun hmu s) q
  rcases hp with hp | hp
  · refine ⟨_, _, rta_one pr c flag f st pxy hm hp hi hd hex, ?_, ?_⟩
    · simp only [hmu2, hee2]; exact zero
    · simp only [hmu2, hee2]; trivial
  · refine ⟨_, _, rta_two pr c flag f st pxy hm hp hi hd hex, ?_, ?_⟩
    · simp only [hmuT, hee2]; exact zero
    · simp only [hmuT, hee2]; trivial

/-- C45: in general the operator vanishes exactly where `f` is the mean of its two equilibria weighted with the opposite relaxation times. -/
theorem C45_rta_zero_iff (pr : ElecParams S P Q) (f f0D f0ee : Dist S P Q ℝ) (s : S) (p : P) (q : Q) (hD : 0 < pr.tauDefect s p q) (he : 0 < pr.tauEE s p q) :
    relax pr f f0D f0ee s p q = 0 ↔
      f s p q = (pr.tauEE s p q * f0D s p q + pr.tauDefect s p q * f0ee s p q) / (pr.tauDefect s p q + pr.tauEE s p q) := by
  rw [eq_div_iff (by positivity)]
  unfold relax
  constructor
  · intro h
    field_simp at h
    linarith
  · intro h
    field_simp
    linarith

/-- C45: particles are conserved once the Newton iterations have converged: if the stored parameters balance the particle number of `f` in a cell and the
relaxation times there do not depend on momentum, the collision term sums to zero over momentum. -/
theorem C45_rta_conserves_particles (pr : ElecParams S P Q) (c : PCoords S P ℝ) (flag : Bool) (f : Dist S P Q ℝ) (st st' : ElecState S Q) (C : Dist S P Q ℝ)
    (hg : pr.grid = "cartesian" ∨ pr.grid = "polar2D") (hp : pr.pdim = 1 ∨ pr.pdim = 2) (hi : pr.iters ≠ 0) (hd : pr.disabled = false)
    (ht : ∀ s p q, pr.tauDefect s p q ≠ 0) (h : rta pr c flag f st = .ok (st', C)) (s : S) (q : Q) (tD te : ℝ)
    (htD : ∀ p, pr.tauDefect s p q = tD) (hte : ∀ p, pr.tauEE s p q = te)
    (hconv : ∑ p, (f s p q - fermiDirac pr.k (st'.mu s q) (st'.T s q) (pr.E s p)) = 0)
    (hconv' : ∀ px py : S → P → ℝ, cartesianMomenta pr.grid c = .ok (px, py) →
      imbalance pr.k (pr.E s) (px s) (py s) (fun p => f s p q) 0 (st'.ee s q).mu (st'.ee s q).T (st'.ee s q).vx (st'.ee s q).vy = 0) :
    ∑ p, C s p q = 0 := by
  obtain ⟨st1, C1, h1, px, py, hc, hpol, -, -, -, hC⟩ := C45_rta_relaxes pr c flag f st hg hp hi hd ht
  rw [h] at h1
  simp only [Except.ok.injEq, Prod.mk.injEq] at h1
  obtain ⟨rfl, rfl⟩ := h1
  have hm : cartesianMomenta pr.grid c = .ok (px, py) := by
    rcases hg with hg | hg
    · rw [cartesianMomenta, if_pos hg, (hc hg).1, (hc hg).2]
    · rw [cartesianMomenta, if_neg (by rw [hg]; decide), if_pos hg]
      congr 2
      · funext s p; exact ((hpol hg).1 s p).symm
      · funext s p; exact ((hpol hg).2 s p).symm
  have h2 := hconv' px py hm
  simp only [imbalance, Matrix.cons_val_zero, one_mul] at h2
  simp only [fermiDirac] at hconv
  simp only [hC, htD, hte]
  rw [Finset.sum_congr rfl fun p _ => show _ = (-1 / tD) * (f s p q - 1 / (Real.exp ((pr.E s p - st'.mu s q) / (pr.k * st'.T s q)) + 1))
    - (1 / te) * (f s p q - 1 / (Real.exp ((pr.E s p - (st'.ee s q).mu - (st'.ee s q).vx * px s p - (st'.ee s q).vy * py s p) / (pr.k * (st'.ee s q).T)) + 1))
    by ring, Finset.sum_sub_distrib, ← Finset.mul_sum, ← Finset.mul_sum, hconv, h2]
  simp

/-- C45: vanishing relaxation time, disabled collisions, and errors. -/
theorem C45_rta_special_cases (pr : ElecParams S P Q) (c : PCoords S P ℝ) (f : Dist S P Q ℝ) (st : ElecState S Q) :
    (pr.grid ≠ "cartesian" → pr.grid ≠ "polar2D" → ∀ flag, rta pr c flag f st = .error .notImplemented) ∧
    ((pr.grid = "cartesian" ∨ pr.grid = "polar2D") →
      ((∃ s p q, pr.tauDefect s p q = 0) → (∃ C, rta pr c false f st = .ok (st, C) ∧ ∀ s p q, C s p q = 0) ∧
        (pr.iters ≠ 0 → ∃ st' C, rta pr c true f st = .ok (st', C) ∧ st'.T = st.T ∧
          ∀ s p q, C s p q = 1 / (Real.exp ((pr.E s p - st'.mu s q) / (pr.k * st.T s q)) + 1))) ∧
      ((∀ s p q, pr.tauDefect s p q ≠ 0) → ∀ flag,
        (pr.disabled = true → ∃ st' C, rta pr c flag f st = .ok (st', C) ∧ ∀ s p q, C s p q = 0) ∧
        (pr.disabled = false → pr.pdim ≠ 1 → pr.pdim ≠ 2 → rta pr c flag f st = .error .nameError) ∧
        (pr.disabled = false → pr.iters = 0 → rta pr c flag f st = .error .nameError))) := by
  refine ⟨?_, ?_⟩
  · intro h1 h2 flag
    rw [rta, cartesianMomenta, if_neg h1, if_neg h2]; rfl
  · intro hg
    obtain ⟨pxy, hm⟩ : ∃ pxy, cartesianMomenta pr.grid c = .ok pxy := by
      rcases hg with h | h
      · exact ⟨_, by rw [cartesianMomenta, if_pos h]⟩
      · exact ⟨_, by rw [cartesianMomenta, if_neg (by rw [h]; decide), if_pos h]⟩
    refine ⟨?_, ?_⟩
    · intro hex
      refine ⟨⟨fun s p q => 0 * f s p q, ?_, fun s p q => zero_mul _⟩, ?_⟩
      · rw [rta, hm]; simp only [Except.bind, if_pos hex, if_true]
      · intro hi
        have h : rta pr c true f st = f0DefectConstT pr f st := by
          rw [rta, hm]; simp only [Except.bind, if_pos hex, Bool.true_eq_false, if_false]
        rw [f0DefectConstT, if_neg hi] at h
        exact ⟨_, _, h, rfl, fun s p q => rfl⟩
    · intro ht flag
      have hex : ¬ ∃ s p q, pr.tauDefect s p q = 0 := by rintro ⟨s, p, q, h⟩; exact ht s p q h
      refine ⟨?_, ?_, ?_⟩
      · intro hd
        have h : rta pr c flag f st = .ok ({ st with jx := fun s q => ∑ p, f s p q * pxy.1 s p, jy := fun s q => ∑ p, f s p q * pxy.2 s p },
            fun s p q => 0 * f s p q) := by
          rw [rta, hm]; simp only [Except.bind, if_neg hex, if_pos hd]
        exact ⟨_, _, h, fun s p q => zero_mul _⟩
      · intro hd h1 h2
        rw [rta, hm]
        simp only [Except.bind, if_neg hex, hd, Bool.false_eq_true, if_false, if_neg h1, if_neg h2]
      · intro hd hi
        rw [rta, hm]
        simp only [Except.bind, if_neg hex, hd, Bool.false_eq_true, if_false, f0DefectConstT, f0Defect, if_pos hi]
        split_ifs <;> rfl

/-- The hypotheses are met: the equilibrium of a three-cell band. -/
example : ∃ (pr : ElecParams Unit (Fin 3) Unit) (st : ElecState Unit Unit) (f : Dist Unit (Fin 3) Unit ℝ),
    (pr.grid = "cartesian" ∨ pr.grid = "polar2D") ∧ (pr.pdim = 1 ∨ pr.pdim = 2) ∧ pr.iters ≠ 0 ∧ pr.disabled = false ∧ (∀ s p q, pr.tauDefect s p q ≠ 0) ∧
    (∀ s q, st.ee s q = ⟨st.mu s q, st.T s q, 0, 0⟩) ∧ (∀ s p q, f s p q = 1 / (Real.exp ((pr.E s p - st.mu s q) / (pr.k * st.T s q)) + 1)) :=
  ⟨⟨"polar2D", 2, 1, 5, false, fun _ p => (p : ℝ), fun _ _ _ => 1, fun _ _ _ => 2⟩, ⟨fun _ _ => 1, fun _ _ => 1, fun _ _ => ⟨1, 1, 0, 0⟩, fun _ _ => 0, fun _ _ => 0⟩,
    fun _ p _ => 1 / (Real.exp (((p : ℝ) - 1) / (1 * 1)) + 1), Or.inr rfl, Or.inr rfl, by norm_num, rfl, fun _ _ _ => one_ne_zero, fun _ _ => rfl, fun _ _ _ => rfl⟩

end rta

end Bolt
