import Verif.Proofs.FVM
import Verif.Props.FVM
import Verif.Spec.Force

/-! Helper lemmas: moments of the momentum-space flux divergence. -/

set_option linter.unusedSectionVars false

namespace Bolt

open Finset

variable {P K : Type} [AddCommGroup P] [Fintype P] [Field K] [LinearOrder K] [IsStrictOrderedRing K]

theorem sum_sub_step (e : P) (F w : P → K) : ∑ p, (F (p + e) - F p) * w p = -∑ p, (w p - w (p - e)) * F p := by
  have h : ∑ p, F (p + e) * w p = ∑ p, F p * w (p - e) := by
    rw [← Equiv.sum_comp (Equiv.addRight e) fun p => F p * w (p - e)]
    simp
  simp only [sub_mul, sum_sub_distrib, h]
  simp only [mul_comm, neg_sub]

/-- A weight that the axis does not change is not transported. -/
theorem cross_moment (e : P) (F w : P → K) (d : K) (hw : ∀ p, w (p + e) = w p) : ∑ p, (F (p + e) - F p) * (1 / d) * w p = 0 := by
  have hw' : ∀ p, w (p - e) = w p := fun p => by rw [← hw (p - e), sub_add_cancel]
  have := sum_sub_step e F w
  simp only [hw', sub_self, zero_mul, sum_const_zero, neg_zero] at this
  calc _ = ∑ p, (F (p + e) - F p) * w p * (1 / d) := sum_congr rfl fun p _ => by ring
    _ = 0 := by rw [← sum_mul, this, zero_mul]

/-- Summation by parts along one axis. -/
theorem axis_moment (e : P) (F w δ : P → K) (d : K) (hd : d ≠ 0) (hw : ∀ p, F p = 0 ∨ w p - w (p - e) = d * δ p) :
    ∑ p, (F (p + e) - F p) * (1 / d) * w p = -∑ p, δ p * F p := by
  calc _ = (∑ p, (F (p + e) - F p) * w p) * (1 / d) := by rw [sum_mul]; exact sum_congr rfl fun p _ => by ring
    _ = -(∑ p, d * δ p * F p) * (1 / d) := by
        rw [sum_sub_step]
        congr 2
        refine sum_congr rfl fun p _ => ?_
        rcases hw p with h | h
        · rw [h, mul_zero, mul_zero]
        · rw [h]
    _ = _ := by
        simp only [mul_assoc, ← mul_sum]
        field_simp

/-- Sum of the upwind flux against a weight given at the faces. -/
theorem upwind_sum (e : P) (C f g : P → K) (hC : ∀ p, C (p + e) = C p) :
    ∑ p, g p * leftFlux .piecewiseConstant e C f p = ∑ p, C p * (if 0 < C p then g (p + e) else g p) * f p := by
  have h : ∀ p, g p * leftFlux .piecewiseConstant e C f p = g p * max (C p) 0 * f (p - e) + g p * min (C p) 0 * f p := fun p => by
    rw [C04_first_order_upwind_flux]; ring
  simp only [h, sum_add_distrib]
  rw [← Equiv.sum_comp (Equiv.addRight e) fun p => g p * max (C p) 0 * f (p - e)]
  simp only [Equiv.coe_addRight, hC, add_sub_cancel_right, ← sum_add_distrib]
  refine sum_congr rfl fun p _ => ?_
  split_ifs with hp
  · rw [max_eq_left hp.le, min_eq_right hp.le]; ring
  · rw [max_eq_right (not_lt.mp hp), min_eq_left (not_lt.mp hp)]; ring

variable (e : P) (d : K) (w C f : P → K) (edge : P → Prop)

/-- First moment of the flux divergence along its own axis. -/
theorem first_moment (hd : d ≠ 0) (hC : ∀ p, C (p + e) = C p) (hw : ∀ p, ¬ edge p → w (p - e) = w p - d)
    (hz : ∀ p, edge p → f p = 0 ∧ f (p - e) = 0) :
    ∑ p, (leftFlux .piecewiseConstant e C f (p + e) - leftFlux .piecewiseConstant e C f p) * (1 / d) * w p = -∑ p, C p * f p := by
  rw [axis_moment e _ w (fun _ => 1) d hd, upwind_sum e C f (fun _ => 1) hC]
  · simp
  · intro p
    by_cases hp : edge p
    · left
      rw [C04_first_order_upwind_flux, (hz p hp).1, (hz p hp).2]; ring
    · right
      rw [hw p hp]; ring

/-- Second moment of the flux divergence along its own axis. -/
theorem second_moment (hd : d ≠ 0) (hC : ∀ p, C (p + e) = C p) (hw : ∀ p, ¬ edge p → w (p - e) = w p - d)
    (hz : ∀ p, edge p → f p = 0 ∧ f (p - e) = 0) :
    ∑ p, (leftFlux .piecewiseConstant e C f (p + e) - leftFlux .piecewiseConstant e C f p) * (1 / d) * (1 / 2 * w p ^ 2) =
      -∑ p, (C p * w p + |C p| * d / 2) * f p := by
  rw [axis_moment e _ (fun p => 1 / 2 * w p ^ 2) (fun p => w p - d / 2) d hd, upwind_sum e C f _ hC]
  · congr 1
    refine sum_congr rfl fun p _ => ?_
    split_ifs with hp
    · rw [abs_of_pos hp]
      by_cases he : edge (p + e)
      · have := (hz _ he).2
        rw [add_sub_cancel_right] at this
        rw [this]; ring
      · have := hw _ he
        rw [add_sub_cancel_right] at this
        rw [show w (p + e) = w p + d by rw [this]; ring]; ring
    · rw [abs_of_nonpos (not_lt.mp hp)]; ring
  · intro p
    by_cases hp : edge p
    · left
      rw [C04_first_order_upwind_flux, (hz p hp).1, (hz p hp).2]; ring
    · right
      rw [hw p hp]; ring

end Bolt
