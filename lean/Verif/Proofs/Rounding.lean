import Verif.Proofs.MachineArith
import Mathlib.Tactic.Linarith
import Mathlib.Tactic.Positivity
import Mathlib.Algebra.Order.BigOperators.Group.Finset

/-! Helper lemmas about rounding errors. -/

set_option linter.unusedSectionVars false

namespace Bolt

namespace Mach

open Machine Finset

variable {K : Type} [Field K] [LinearOrder K] [IsStrictOrderedRing K]

/-- `x` approximates `y`, a number of size at most `A`, with the error of `n` roundings. -/
def App (u : K) (n : ℕ) (x y A : K) : Prop := |y| ≤ A ∧ |x - y| ≤ ((1 + u) ^ n - 1) * A

section
variable {u : K} (hu : 0 ≤ u)
include hu

theorem one_le_pow_u (n : ℕ) : 1 ≤ (1 + u) ^ n := one_le_pow₀ (by linarith)

theorem app_exact (x : K) : App u 0 x x |x| := ⟨le_refl _, by simp⟩

theorem App.nonneg {n : ℕ} {x y A : K} (h : App u n x y A) : 0 ≤ A := (abs_nonneg _).trans h.1

theorem App.mono {n m : ℕ} {x y A : K} (h : App u n x y A) (hnm : n ≤ m) : App u m x y A := by
  refine ⟨h.1, h.2.trans (mul_le_mul_of_nonneg_right ?_ (h.nonneg hu))⟩
  have : (1 + u) ^ n ≤ (1 + u) ^ m := pow_le_pow_right₀ (by linarith) hnm
  linarith

theorem App.round {rnd : K → K} (hr : ∀ x, |rnd x - x| ≤ u * |x|) {n : ℕ} {x y A : K} (h : App u n x y A) :
    App u (n + 1) (rnd x) y A := by
  refine ⟨h.1, ?_⟩
  have h1 := hr x
  have h2 : |x| ≤ A + ((1 + u) ^ n - 1) * A := by
    have : |x| ≤ |x - y| + |y| := by simpa using abs_add_le (x - y) y
    linarith [h.1, h.2]
  have h3 : |rnd x - y| ≤ |rnd x - x| + |x - y| := abs_sub_le _ _ _
  have h4 : u * |x| ≤ u * (A + ((1 + u) ^ n - 1) * A) := mul_le_mul_of_nonneg_left h2 hu
  have h5 : u * (A + ((1 + u) ^ n - 1) * A) + ((1 + u) ^ n - 1) * A = ((1 + u) ^ (n + 1) - 1) * A := by ring
  linarith [h.2]

theorem App.neg {n : ℕ} {x y A : K} (h : App u n x y A) : App u n (-x) (-y) A :=
  ⟨by rw [abs_neg]; exact h.1, by rw [show -x - -y = -(x - y) by ring, abs_neg]; exact h.2⟩

theorem App.div {n : ℕ} {x y A : K} (h : App u n x y A) (d : K) : App u n (x / d) (y / d) (A / |d|) := by
  refine ⟨by rw [abs_div]; exact div_le_div_of_nonneg_right h.1 (abs_nonneg _), ?_⟩
  rw [← sub_div, abs_div, ← mul_div_assoc]
  exact div_le_div_of_nonneg_right h.2 (abs_nonneg _)

theorem App.mulc {n : ℕ} {x y A : K} (h : App u n x y A) (c : K) : App u n (x * c) (y * c) (A * |c|) := by
  refine ⟨by rw [abs_mul]; exact mul_le_mul_of_nonneg_right h.1 (abs_nonneg _), ?_⟩
  rw [← sub_mul, abs_mul, ← mul_assoc]
  exact mul_le_mul_of_nonneg_right h.2 (abs_nonneg _)

theorem App.add {n : ℕ} {x y A x' y' A' : K} (h : App u n x y A) (h' : App u n x' y' A') : App u n (x + x') (y + y') (A + A') := by
  refine ⟨(abs_add_le _ _).trans (add_le_add h.1 h'.1), ?_⟩
  rw [show x + x' - (y + y') = (x - y) + (x' - y') by ring, mul_add]
  exact (abs_add_le _ _).trans (add_le_add h.2 h'.2)

theorem App.sub {n : ℕ} {x y A x' y' A' : K} (h : App u n x y A) (h' : App u n x' y' A') : App u n (x - x') (y - y') (A + A') := by
  have := h.add hu (h'.neg hu)
  rwa [← sub_eq_add_neg, ← sub_eq_add_neg] at this

theorem App.mul {n m : ℕ} {x y A x' y' A' : K} (h : App u n x y A) (h' : App u m x' y' A') :
    App u (n + m) (x * x') (y * y') (A * A') := by
  have a0 := h.nonneg hu
  have a0' := h'.nonneg hu
  refine ⟨by rw [abs_mul]; exact mul_le_mul h.1 h'.1 (abs_nonneg _) a0, ?_⟩
  have e : x * x' - y * y' = (x - y) * (x' - y') + y * (x' - y') + (x - y) * y' := by ring
  have b1 : |(x - y) * (x' - y')| ≤ (((1 + u) ^ n - 1) * A) * (((1 + u) ^ m - 1) * A') := by
    rw [abs_mul]; exact mul_le_mul h.2 h'.2 (abs_nonneg _) ((abs_nonneg _).trans h.2)
  have b2 : |y * (x' - y')| ≤ A * (((1 + u) ^ m - 1) * A') := by
    rw [abs_mul]; exact mul_le_mul h.1 h'.2 (abs_nonneg _) a0
  have b3 : |(x - y) * y'| ≤ (((1 + u) ^ n - 1) * A) * A' := by
    rw [abs_mul]; exact mul_le_mul h.2 h'.1 (abs_nonneg _) ((abs_nonneg _).trans h.2)
  have e2 : ((1 + u) ^ (n + m) - 1) * (A * A') = (((1 + u) ^ n - 1) * A) * (((1 + u) ^ m - 1) * A') +
      A * (((1 + u) ^ m - 1) * A') + (((1 + u) ^ n - 1) * A) * A' := by rw [pow_add]; ring
  rw [e, e2]
  exact (abs_add_le _ _).trans (add_le_add ((abs_add_le _ _).trans (add_le_add b1 b2)) b3)

end

theorem rnd_zero {u : K} {rnd : K → K} (hr : ∀ x, |rnd x - x| ≤ u * |x|) : rnd 0 = 0 := by
  have := hr 0
  simpa using this

/-- The last operation of a step, `f + w` rounded, when `w` approximates `w'`. -/
theorem last_add {u : K} (hu : 0 ≤ u) (hu1 : u < 1) {rnd : K → K} (hr : ∀ x, |rnd x - x| ≤ u * |x|) {n : ℕ} (f : K) {w w' A : K}
    (h : App u n w w' A) : |rnd (f + w) - f - w'| ≤ u / (1 - u) * |rnd (f + w)| + ((1 + u) ^ n - 1) * A := by
  have h1 := hr (f + w)
  have h2 : |f + w| ≤ |rnd (f + w) - (f + w)| + |rnd (f + w)| := by
    have := abs_add_le ((f + w) - rnd (f + w)) (rnd (f + w))
    rw [sub_add_cancel, abs_sub_comm (f + w)] at this
    exact this
  have h3 : (1 - u) * |f + w| ≤ |rnd (f + w)| := by linarith
  have h4 : u * |f + w| ≤ u / (1 - u) * |rnd (f + w)| := by
    rw [div_mul_eq_mul_div, le_div_iff₀ (by linarith)]
    nlinarith [mul_le_mul_of_nonneg_left h3 hu]
  have h5 : |rnd (f + w) - f - w'| ≤ |rnd (f + w) - (f + w)| + |w - w'| := by
    have := abs_add_le (rnd (f + w) - (f + w)) (w - w')
    rwa [show rnd (f + w) - (f + w) + (w - w') = rnd (f + w) - f - w' by ring] at this
  linarith [h.2]

/-- Size of a rounded sum. -/
theorem rnd_le {u : K} (hu : 0 ≤ u) {rnd : K → K} (hr : ∀ x, |rnd x - x| ≤ u * |x|) (x : K) : |rnd x| ≤ (1 + u) * |x| := by
  have h1 := hr x
  have : |rnd x| ≤ |rnd x - x| + |x| := by simpa using abs_add_le (rnd x - x) x
  linarith

theorem App.le {u : K} (hu : 0 ≤ u) {n : ℕ} {x y A : K} (h : App u n x y A) : |x| ≤ (1 + u) ^ n * A := by
  have : |x| ≤ |x - y| + |y| := by simpa using abs_add_le (x - y) y
  linarith [h.1, h.2]

variable {I S P Q : Type} [AddCommGroup I] [AddCommGroup P] [AddCommGroup Q]

section ops
variable {rnd : K → K} [M : Machine K] (hM : M = roundedMachine rnd)
include hM
theorem r_add (a b : K) : a ⊞ b = rnd (a + b) := by subst hM; rfl
theorem r_sub (a b : K) : a ⊟ b = rnd (a - b) := by subst hM; rfl
theorem r_mul (a b : K) : a ⊠ b = rnd (a * b) := by subst hM; rfl
theorem r_div (a b : K) : a ⊘ b = rnd (a / b) := by subst hM; rfl
theorem r_neg (a : K) : Machine.neg a = -a := by subst hM; rfl
theorem r_abs (a : K) : Machine.abs a = |a| := by subst hM; rfl
theorem r_minof (a b : K) : Machine.minof a b = min a b := by subst hM; rfl
theorem r_sign (a : K) : Machine.sign a = afSign a := by subst hM; rfl
theorem r_lt (a b : K) : Machine.lt a b = decide (a < b) := by subst hM; rfl
theorem r_le (a b : K) : Machine.le a b = decide (a ≤ b) := by subst hM; rfl
theorem r_lit (q : ℚ) : (Machine.lit q : K) = rnd q := by subst hM; rfl
end ops

section slopes

variable {u : K} (hu : 0 ≤ u) {rnd : K → K} (hr : ∀ x, |rnd x - x| ≤ u * |x|) [M : Machine K] (hM : M = roundedMachine rnd)
include hu hr hM

/-- The exact difference of the computed fluxes through the two ends of a cell. -/
theorem app_fluxJump (m : Recon) (e : I) (C x : I → K) (i : I) :
    App u 1 (fluxJump m e C x i) (leftFlux m e C x (i + e) - leftFlux m e C x i) |leftFlux m e C x (i + e) - leftFlux m e C x i| := by
  rw [fluxJump_eq, r_sub hM]
  exact (app_exact hu _).round hu hr

theorem app_dfdtQ (ax : Axes P Q) (m : Recon) (dq1 dq2 : K) (C1 C2 f : Dist S P Q K) (s : S) (p : P) (q : Q) :
    App u 4 (lit 0 ⊞ dfdtQ ax m dq1 dq2 C1 C2 f s p q)
      (-(leftFlux m ax.q1 (C1 s p) (f s p) (q + ax.q1) - leftFlux m ax.q1 (C1 s p) (f s p) q) / dq1
        - (leftFlux m ax.q2 (C2 s p) (f s p) (q + ax.q2) - leftFlux m ax.q2 (C2 s p) (f s p) q) / dq2)
      (|leftFlux m ax.q1 (C1 s p) (f s p) (q + ax.q1) - leftFlux m ax.q1 (C1 s p) (f s p) q| / |dq1|
        + |leftFlux m ax.q2 (C2 s p) (f s p) (q + ax.q2) - leftFlux m ax.q2 (C2 s p) (f s p) q| / |dq2|) := by
  have a1 := app_fluxJump hu hr hM m ax.q1 (C1 s p) (f s p) q
  have a2 := app_fluxJump hu hr hM m ax.q2 (C2 s p) (f s p) q
  have b1 := ((a1.neg hu).div hu dq1).round hu hr
  have b2 := (a2.div hu dq2).round hu hr
  have c := ((b1.sub hu b2).round hu hr).round hu hr
  rw [r_add hM, r_lit hM, Rat.cast_zero, rnd_zero hr, zero_add, dfdtQ, r_sub hM, r_div hM, r_div hM, r_neg hM]
  exact c

theorem app_dFluxP (m : Recon) (e : P) (dp : S → K) (C f : Dist S P Q K) (s : S) (p : P) (q : Q) (h1 : rnd 1 = 1) :
    App u 3 (dFluxP m e dp C f s p q)
      ((leftFlux m e (fun p => C s p q) (fun p => f s p q) (p + e) - leftFlux m e (fun p => C s p q) (fun p => f s p q) p) * (1 / dp s))
      (|leftFlux m e (fun p => C s p q) (fun p => f s p q) (p + e) - leftFlux m e (fun p => C s p q) (fun p => f s p q) p| * |1 / dp s|) := by
  have a := app_fluxJump hu hr hM m e (fun p => C s p q) (fun p => f s p q) p
  have b := (app_exact hu (1 / dp s)).round hu hr
  have c := (a.mul hu b).round hu hr
  rw [dFluxP, r_mul hM, r_div hM, r_lit hM, Rat.cast_one, h1]
  exact c

end slopes

end Mach

end Bolt
