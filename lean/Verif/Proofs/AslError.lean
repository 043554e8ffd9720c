import Verif.Props.ASL
import Mathlib.Tactic.LinearCombination
import Mathlib.Tactic.Positivity

/-!
# Lemmas for C92: sums of squares under semi-Lagrangian advection
-/

set_option linter.unusedSectionVars false

namespace Bolt

variable {K : Type} [Field K] [LinearOrder K] [IsStrictOrderedRing K] [FloorRing K]

section
variable {N : ℕ} [NeZero N] (w : ZMod N → K)

/-- The autocorrelation of periodic data. -/
def autocorr (k : ZMod N) : K := ∑ i, w i * w (i + k)

theorem autocorr_shift (a b : ZMod N) : ∑ i, w (i + a) * w (i + b) = autocorr w (b - a) := by
  rw [autocorr, ← Equiv.sum_comp (Equiv.addRight a) fun i => w i * w (i + (b - a))]
  refine Finset.sum_congr rfl fun i _ => ?_
  simp only [Equiv.coe_addRight, add_assoc, add_sub_cancel]

/-- The sum of the squares of a combination of four neighbours. -/
theorem sum_sq_four (x0 x1 x2 x3 : K) (m : ZMod N) :
    ∑ i, (x0 * w (i + (m - 1)) + x1 * w (i + m) + x2 * w (i + (m + 1)) + x3 * w (i + (m + 2))) ^ 2 =
      (x0 ^ 2 + x1 ^ 2 + x2 ^ 2 + x3 ^ 2) * autocorr w 0 + 2 * (x0 * x1 + x1 * x2 + x2 * x3) * autocorr w 1 + 2 * (x0 * x2 + x1 * x3) * autocorr w 2
        + 2 * (x0 * x3) * autocorr w 3 := by
  have e : ∀ i, (x0 * w (i + (m - 1)) + x1 * w (i + m) + x2 * w (i + (m + 1)) + x3 * w (i + (m + 2))) ^ 2 =
      x0 ^ 2 * (w (i + (m - 1)) * w (i + (m - 1))) + x1 ^ 2 * (w (i + m) * w (i + m)) + x2 ^ 2 * (w (i + (m + 1)) * w (i + (m + 1)))
      + x3 ^ 2 * (w (i + (m + 2)) * w (i + (m + 2))) + 2 * (x0 * x1) * (w (i + (m - 1)) * w (i + m)) + 2 * (x1 * x2) * (w (i + m) * w (i + (m + 1)))
      + 2 * (x2 * x3) * (w (i + (m + 1)) * w (i + (m + 2))) + 2 * (x0 * x2) * (w (i + (m - 1)) * w (i + (m + 1)))
      + 2 * (x1 * x3) * (w (i + m) * w (i + (m + 2))) + 2 * (x0 * x3) * (w (i + (m - 1)) * w (i + (m + 2))) := fun i => by ring
  simp only [e, Finset.sum_add_distrib, ← Finset.mul_sum, autocorr_shift, sub_self]
  rw [show m - (m - 1) = 1 by ring, show m + 1 - m = 1 by ring, show m + 2 - (m + 1) = 1 by ring, show m + 1 - (m - 1) = 2 by ring,
    show m + 2 - m = 2 by ring, show m + 2 - (m - 1) = 3 by ring]
  ring

/-- The second difference of periodic data. -/
def secondDiff (i : ZMod N) : K := w (i + 1) - 2 * w i + w (i - 1)

theorem sum_secondDiff_sq : ∑ i, secondDiff w i ^ 2 = 6 * autocorr w 0 - 8 * autocorr w 1 + 2 * autocorr w 2 := by
  have := sum_sq_four w 1 (-2) 1 0 0
  rw [show ∑ i, secondDiff w i ^ 2 = _ from Finset.sum_congr rfl fun i _ => ?_, this]
  · ring
  · rw [secondDiff, show i + (0 - 1) = i - 1 by ring, add_zero, zero_add]; ring

theorem sum_secondDiff_pair_sq : ∑ i, (secondDiff w i + secondDiff w (i + 1)) ^ 2 = 4 * autocorr w 0 - 2 * autocorr w 1 - 4 * autocorr w 2 + 2 * autocorr w 3 := by
  have := sum_sq_four w 1 (-1) (-1) 1 0
  rw [show ∑ i, (secondDiff w i + secondDiff w (i + 1)) ^ 2 = _ from Finset.sum_congr rfl fun i _ => ?_, this]
  · ring
  · rw [secondDiff, secondDiff, show i + (0 - 1) = i - 1 by ring, add_zero, zero_add, show i + 1 + 1 = i + (0 + 2) by ring, show i + 1 - 1 = i by ring]; ring

/-- How much the sum of squares loses when every value is replaced by the interpolant at a fraction `t` of a cell. -/
theorem sum_sq_cubicSpline (m : ZMod N) (t : K) :
    ∑ i, cubicSpline (w (i + (m - 1))) (w (i + m)) (w (i + (m + 1))) (w (i + (m + 2))) t ^ 2 =
      ∑ i, w i ^ 2 - 3 / 4 * (t * (1 - t)) ^ 2 * ∑ i, secondDiff w i ^ 2 - (t * (1 - t)) ^ 3 / 4 * ∑ i, (secondDiff w i - secondDiff w (i + 1)) ^ 2 := by
  have e : ∀ i, cubicSpline (w (i + (m - 1))) (w (i + m)) (w (i + (m + 1))) (w (i + (m + 2))) t =
      (-t ^ 3 / 2 + t ^ 2 - t / 2) * w (i + (m - 1)) + (3 / 2 * t ^ 3 - 5 / 2 * t ^ 2 + 1) * w (i + m) + (-(3 / 2) * t ^ 3 + 2 * t ^ 2 + t / 2) * w (i + (m + 1))
        + (t ^ 3 / 2 - t ^ 2 / 2) * w (i + (m + 2)) := fun i => by rw [cubicSpline]; ring
  have z : ∑ i, w i ^ 2 = autocorr w 0 := Finset.sum_congr rfl fun i _ => by rw [add_zero]; ring
  have sh : ∑ i, secondDiff w (i + 1) ^ 2 = ∑ i, secondDiff w i ^ 2 := Equiv.sum_comp (Equiv.addRight 1) fun i => secondDiff w i ^ 2
  have d : ∑ i, (secondDiff w i - secondDiff w (i + 1)) ^ 2 = 4 * ∑ i, secondDiff w i ^ 2 - ∑ i, (secondDiff w i + secondDiff w (i + 1)) ^ 2 := by
    have : ∀ i, (secondDiff w i - secondDiff w (i + 1)) ^ 2 = 2 * secondDiff w i ^ 2 + 2 * secondDiff w (i + 1) ^ 2 - (secondDiff w i + secondDiff w (i + 1)) ^ 2 :=
      fun i => by ring
    simp only [this, Finset.sum_sub_distrib, Finset.sum_add_distrib, ← Finset.mul_sum, sh]
    ring
  simp only [e, sum_sq_four, z, d, sum_secondDiff_sq, sum_secondDiff_pair_sq]
  ring

theorem secondDiff_zero (h : ∀ i, secondDiff w i = 0) (i j : ZMod N) : w i = w j := by
  have c : ∀ i, w (i + 1) - w i = w (0 + 1) - w 0 := by
    have step : ∀ i, w (i + 1 + 1) - w (i + 1) = w (i + 1) - w i := fun i => by
      have := h (i + 1)
      rw [secondDiff, add_sub_cancel_right] at this
      linear_combination this
    have : ∀ n : ℕ, w ((n : ZMod N) + 1) - w n = w (0 + 1) - w 0 := by
      intro n
      induction n with
      | zero => simp
      | succ n ih => rw [Nat.cast_succ, step, ih]
    intro i
    have := this i.val
    rwa [ZMod.natCast_val, ZMod.cast_id', id] at this
  have s : ∑ i, (w (i + 1) - w i) = 0 := by
    rw [Finset.sum_sub_distrib, sub_eq_zero]
    exact Equiv.sum_comp (Equiv.addRight 1) w
  simp only [c, Finset.sum_const, Finset.card_univ, ZMod.card, nsmul_eq_mul] at s
  have hN : (N : K) ≠ 0 := Nat.cast_ne_zero.2 (NeZero.ne N)
  have c0 := (mul_eq_zero.1 s).resolve_left hN
  have all : ∀ n : ℕ, w (n : ZMod N) = w 0 := by
    intro n
    induction n with
    | zero => simp
    | succ n ih =>
      rw [Nat.cast_succ]
      linear_combination c (n : ZMod N) + ih + c0
  have all' : ∀ i, w i = w 0 := fun i => by
    have := all i.val
    rwa [ZMod.natCast_val, ZMod.cast_id', id] at this
  rw [all' i, all' j]

theorem catmullRom_periodic (d : K) (i : ZMod N) : catmullRom (fun a => w (a : ZMod N)) ((i.val : K) - d) =
    cubicSpline (w (i + ((⌊-d⌋ : ZMod N) - 1))) (w (i + (⌊-d⌋ : ZMod N))) (w (i + ((⌊-d⌋ : ZMod N) + 1))) (w (i + ((⌊-d⌋ : ZMod N) + 2))) (-d - ⌊-d⌋) := by
  have e : (i.val : K) - d = -d + ((i.val : ℤ) : K) := by push_cast; ring
  rw [e, ← catmullRom_shift (fun a => w (a : ZMod N)) i.val (-d), catmullRom_eq]
  have c : ∀ k : ℤ, w (((k + i.val : ℤ) : ZMod N)) = w (i + (k : ZMod N)) := by
    intro k
    congr 1
    push_cast
    simp [add_comm]
  rw [c, c, c, c]
  push_cast
  rfl

/-- The part of a cell by which the foot is off a cell centre, as `t (1 - t)`. -/
def offCentre (d : K) : K := (-d - ⌊-d⌋) * (1 - (-d - ⌊-d⌋))

theorem offCentre_nonneg (d : K) : 0 ≤ offCentre d :=
  mul_nonneg (sub_nonneg.2 (Int.floor_le _)) (by have := Int.lt_floor_add_one (-d); linarith)

theorem offCentre_eq_zero (d : K) : offCentre d = 0 ↔ ∃ k : ℤ, d = k := by
  constructor
  · intro h
    rcases mul_eq_zero.1 h with h | h
    · exact ⟨-⌊-d⌋, by push_cast; linarith⟩
    · have := Int.lt_floor_add_one (-d)
      linarith
  · rintro ⟨k, rfl⟩
    rw [offCentre, ← Int.cast_neg, Int.floor_intCast]
    ring

theorem sum_sq_catmullRom (d : K) : ∑ i : ZMod N, catmullRom (fun a => w (a : ZMod N)) ((i.val : K) - d) ^ 2 =
    ∑ i, w i ^ 2 - 3 / 4 * offCentre d ^ 2 * ∑ i, secondDiff w i ^ 2 - offCentre d ^ 3 / 4 * ∑ i, (secondDiff w i - secondDiff w (i + 1)) ^ 2 := by
  simp only [catmullRom_periodic]
  exact sum_sq_cubicSpline w _ _

theorem sum_sq_catmullRom_le (d : K) : ∑ i : ZMod N, catmullRom (fun a => w (a : ZMod N)) ((i.val : K) - d) ^ 2 ≤ ∑ i, w i ^ 2 := by
  rw [sum_sq_catmullRom]
  have := offCentre_nonneg d
  have : 0 ≤ 3 / 4 * offCentre d ^ 2 * ∑ i, secondDiff w i ^ 2 := by positivity
  have : 0 ≤ offCentre d ^ 3 / 4 * ∑ i, (secondDiff w i - secondDiff w (i + 1)) ^ 2 := by positivity
  linarith

theorem sum_sq_catmullRom_eq_iff (d : K) : ∑ i : ZMod N, catmullRom (fun a => w (a : ZMod N)) ((i.val : K) - d) ^ 2 = ∑ i, w i ^ 2 ↔
    (∃ k : ℤ, d = k) ∨ ∀ i j, w i = w j := by
  rw [sum_sq_catmullRom]
  have h0 := offCentre_nonneg d
  have h1 : 0 ≤ 3 / 4 * offCentre d ^ 2 * ∑ i, secondDiff w i ^ 2 := by positivity
  have h2 : 0 ≤ offCentre d ^ 3 / 4 * ∑ i, (secondDiff w i - secondDiff w (i + 1)) ^ 2 := by positivity
  constructor
  · intro h
    have h3 : 3 / 4 * offCentre d ^ 2 * ∑ i, secondDiff w i ^ 2 = 0 := by linarith
    rcases mul_eq_zero.1 h3 with h3 | h3
    · exact .inl ((offCentre_eq_zero d).1 (by simpa using h3))
    · exact .inr (secondDiff_zero w fun i => pow_eq_zero_iff (two_ne_zero) |>.1
        ((Finset.sum_eq_zero_iff_of_nonneg fun _ _ => sq_nonneg _).1 h3 i (Finset.mem_univ i)))
  · rintro (h | h)
    · rw [(offCentre_eq_zero d).2 h]; ring
    · have : ∀ i, secondDiff w i = 0 := fun i => by rw [secondDiff, h (i + 1) i, h (i - 1) i]; ring
      simp [this]

end

end Bolt
