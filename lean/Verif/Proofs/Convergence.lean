import Verif.Spec.Convergence
import Verif.Props.Positivity

/-!
# Lemmas for the convergence of the first-order scheme: truncation error and stability of the upwind operator
-/

set_option linter.unusedSectionVars false

namespace Bolt

/-- The upwind operator with constant velocities on one array over positions. -/
noncomputable def upwind {Q : Type} [AddCommGroup Q] (e1 e2 : Q) (h1 h2 v1 v2 : ℝ) (x : Q → ℝ) : Q → ℝ := fun q =>
  -(|v1| / h1 * (x q - x (q - (if 0 < v1 then e1 else -e1))) + |v2| / h2 * (x q - x (q - (if 0 < v2 then e2 else -e2))))

section upwind
variable {Q : Type} [AddCommGroup Q] (e1 e2 : Q) {h1 h2 v1 v2 : ℝ}

theorem upwind_lin (x y : Q → ℝ) (c : ℝ) (q : Q) :
    upwind e1 e2 h1 h2 v1 v2 (fun q => x q + y q * c) q = upwind e1 e2 h1 h2 v1 v2 x q + upwind e1 e2 h1 h2 v1 v2 y q * c := by
  simp only [upwind]; ring

theorem upwind_sub (x y : Q → ℝ) (q : Q) :
    upwind e1 e2 h1 h2 v1 v2 (fun q => x q - y q) q = upwind e1 e2 h1 h2 v1 v2 x q - upwind e1 e2 h1 h2 v1 v2 y q := by
  simp only [upwind]; ring

theorem pcDiv_constant_velocity (e : Q) (v : ℝ) (x : Q → ℝ) (q : Q) :
    pcDiv e (fun _ => v) x q = |v| * (x q - x (q - (if 0 < v then e else -e))) := by
  rw [pcDiv_eq]
  by_cases h : 0 < v
  · rw [if_pos h, max_eq_left h.le, min_eq_right h.le, abs_of_pos h]; ring
  · rw [if_neg h, max_eq_right (not_lt.mp h), min_eq_left (not_lt.mp h), abs_of_nonpos (not_lt.mp h), sub_neg_eq_add]; ring

/-- One Euler stage does not increase the maximum of the absolute value. -/
theorem upwind_euler_le (hh1 : 0 < h1) (hh2 : 0 < h2) (dt : ℝ) (hdt : 0 ≤ dt) (hcfl : dt * (|v1| / h1 + |v2| / h2) ≤ 1)
    (x : Q → ℝ) (B : ℝ) (hx : ∀ q, |x q| ≤ B) (q : Q) : |x q + upwind e1 e2 h1 h2 v1 v2 x q * dt| ≤ B := by
  obtain ⟨a, ha⟩ : ∃ a, a = |v1| / h1 * dt := ⟨_, rfl⟩
  obtain ⟨b, hb⟩ : ∃ b, b = |v2| / h2 * dt := ⟨_, rfl⟩
  have a0 : 0 ≤ a := by rw [ha]; positivity
  have b0 : 0 ≤ b := by rw [hb]; positivity
  have ab : 0 ≤ 1 - (a + b) := by rw [ha, hb]; nlinarith
  have key : x q + upwind e1 e2 h1 h2 v1 v2 x q * dt = (1 - (a + b)) * x q + a * x (q - (if 0 < v1 then e1 else -e1))
      + b * x (q - (if 0 < v2 then e2 else -e2)) := by
    simp only [upwind, ha, hb]; ring
  rw [key]
  calc _ ≤ |(1 - (a + b)) * x q + a * x (q - (if 0 < v1 then e1 else -e1))| + |b * x (q - (if 0 < v2 then e2 else -e2))| := abs_add_le _ _
    _ ≤ |(1 - (a + b)) * x q| + |a * x (q - (if 0 < v1 then e1 else -e1))| + |b * x (q - (if 0 < v2 then e2 else -e2))| := by
        gcongr; exact abs_add_le _ _
    _ = (1 - (a + b)) * |x q| + a * |x (q - (if 0 < v1 then e1 else -e1))| + b * |x (q - (if 0 < v2 then e2 else -e2))| := by
        rw [abs_mul, abs_mul, abs_mul, abs_of_nonneg ab, abs_of_nonneg a0, abs_of_nonneg b0]
    _ ≤ (1 - (a + b)) * B + a * B + b * B := by
        have := hx q; have := hx (q - (if 0 < v1 then e1 else -e1)); have := hx (q - (if 0 < v2 then e2 else -e2)); gcongr
    _ = B := by ring

/-- The two-stage step of the first-order scheme. -/
noncomputable def upwindStep (h1 h2 v1 v2 dt : ℝ) (x : Q → ℝ) : Q → ℝ := fun q =>
  x q + upwind e1 e2 h1 h2 v1 v2 (fun q => x q + upwind e1 e2 h1 h2 v1 v2 x q * (dt / 2)) q * dt

theorem upwindStep_le (hh1 : 0 < h1) (hh2 : 0 < h2) (dt : ℝ) (hdt : 0 ≤ dt) (hcfl : dt * (|v1| / h1 + |v2| / h2) ≤ 1)
    (x : Q → ℝ) (B : ℝ) (hx : ∀ q, |x q| ≤ B) (q : Q) : |upwindStep e1 e2 h1 h2 v1 v2 dt x q| ≤ B := by
  have e1' := upwind_euler_le e1 e2 hh1 hh2 dt hdt hcfl x B hx
  have e2' := upwind_euler_le e1 e2 hh1 hh2 dt hdt hcfl _ B e1' q
  have key : upwindStep e1 e2 h1 h2 v1 v2 dt x q = 1 / 2 * x q + 1 / 2 * (x q + upwind e1 e2 h1 h2 v1 v2 x q * dt
      + upwind e1 e2 h1 h2 v1 v2 (fun q => x q + upwind e1 e2 h1 h2 v1 v2 x q * dt) q * dt) := by
    rw [upwindStep, upwind_lin, upwind_lin]; ring
  rw [key]
  have := abs_le.mp (hx q)
  have := abs_le.mp e2'
  rw [abs_le]; constructor <;> linarith

theorem upwindStep_sub (dt : ℝ) (x y : Q → ℝ) (q : Q) : upwindStep e1 e2 h1 h2 v1 v2 dt x q - upwindStep e1 e2 h1 h2 v1 v2 dt y q
    = upwindStep e1 e2 h1 h2 v1 v2 dt (fun q => x q - y q) q := by
  simp only [upwindStep, upwind]; ring

end upwind

/-- First-order Taylor remainder for a Lipschitz gradient. -/
theorem taylor_remainder {g : ℝ × ℝ → ℝ} {g' : ℝ × ℝ → ℝ × ℝ →L[ℝ] ℝ} {M : ℝ} (hM : 0 ≤ M) (hg : ∀ x, HasFDerivAt g (g' x) x)
    (hl : ∀ x y, ‖g' x - g' y‖ ≤ M * ‖x - y‖) (x a : ℝ × ℝ) : |g (x + a) - g x - g' x a| ≤ M * ‖a‖ * ‖a‖ := by
  have h := (convex_closedBall x ‖a‖).norm_image_sub_le_of_norm_hasFDerivWithin_le' (f := g) (f' := g') (φ := g' x) (C := M * ‖a‖)
    (fun y _ => (hg y).hasFDerivWithinAt)
    (fun y hy => (hl y x).trans (by
      rw [Metric.mem_closedBall, dist_eq_norm] at hy; gcongr))
    (x := x) (y := x + a) (by simp) (by simp)
  simpa using h

/-- Second differences for a Lipschitz gradient. -/
theorem second_difference {g : ℝ × ℝ → ℝ} {g' : ℝ × ℝ → ℝ × ℝ →L[ℝ] ℝ} {M : ℝ} (hg : ∀ x, HasFDerivAt g (g' x) x)
    (hl : ∀ x y, ‖g' x - g' y‖ ≤ M * ‖x - y‖) (x a b : ℝ × ℝ) : |(g x - g (x - a)) - (g (x - b) - g (x - a - b))| ≤ M * ‖a‖ * ‖b‖ := by
  have hd : ∀ y, HasFDerivAt (fun y => g y - g (y - a)) (g' y - g' (y - a)) y := by
    intro y
    refine (hg y).sub ?_
    have := (hg (y - a)).comp y ((hasFDerivAt_id y).sub_const a)
    simpa [Function.comp_def] using this
  have h := (convex_univ (𝕜 := ℝ) (E := ℝ × ℝ)).norm_image_sub_le_of_norm_hasFDerivWithin_le (C := M * ‖a‖)
    (fun y _ => (hd y).hasFDerivWithinAt) (fun y _ => by simpa using hl y (y - a)) (x := x - b) (y := x) trivial trivial
  simp only [sub_sub_cancel, Real.norm_eq_abs] at h
  rwa [show x - a - b = x - b - a by abel]

end Bolt

namespace Bolt

theorem norm_axis1 (a : ℝ) : ‖((a, 0) : ℝ × ℝ)‖ = |a| := by simp [Prod.norm_def]
theorem norm_axis2 (a : ℝ) : ‖((0, a) : ℝ × ℝ)‖ = |a| := by simp [Prod.norm_def]

/-- The displacement of the upwind neighbour. -/
noncomputable def upwindShift (v h : ℝ) : ℝ := if 0 < v then h else -h

theorem abs_upwindShift (v : ℝ) {h : ℝ} (hh : 0 < h) : |upwindShift v h| = h := by
  unfold upwindShift; split_ifs <;> simp [abs_of_pos hh]

theorem rate_upwindShift (v : ℝ) {h : ℝ} (hh : 0 < h) : |v| / h * upwindShift v h = v := by
  unfold upwindShift
  split_ifs with hv
  · rw [abs_of_pos hv]; field_simp
  · rw [abs_of_nonpos (not_lt.mp hv)]; field_simp

/-- The upwind operator acting on functions of the plane. -/
noncomputable def upwindPlane (h1 h2 v1 v2 : ℝ) (U : ℝ × ℝ → ℝ) (y : ℝ × ℝ) : ℝ :=
  -(|v1| / h1 * (U y - U (y - (upwindShift v1 h1, 0))) + |v2| / h2 * (U y - U (y - (0, upwindShift v2 h2))))

variable {U : ℝ × ℝ → ℝ} {U' : ℝ × ℝ → ℝ × ℝ →L[ℝ] ℝ} {M h1 h2 : ℝ}

theorem upwindPlane_consistent (hM : 0 ≤ M) (hg : ∀ x, HasFDerivAt U (U' x) x) (hl : ∀ x y, ‖U' x - U' y‖ ≤ M * ‖x - y‖)
    (hh1 : 0 < h1) (hh2 : 0 < h2) (v1 v2 : ℝ) (y : ℝ × ℝ) :
    |upwindPlane h1 h2 v1 v2 U y - U' y (-(v1, v2))| ≤ M * (|v1| * h1 + |v2| * h2) := by
  have r1 := taylor_remainder hM hg hl y (-(upwindShift v1 h1, 0))
  have r2 := taylor_remainder hM hg hl y (-(0, upwindShift v2 h2))
  rw [norm_neg, norm_axis1, abs_upwindShift v1 hh1, ← sub_eq_add_neg] at r1
  rw [norm_neg, norm_axis2, abs_upwindShift v2 hh2, ← sub_eq_add_neg] at r2
  set R1 := U (y - (upwindShift v1 h1, 0)) - U y - U' y (-(upwindShift v1 h1, 0)) with hR1
  set R2 := U (y - (0, upwindShift v2 h2)) - U y - U' y (-(0, upwindShift v2 h2)) with hR2
  have e : upwindPlane h1 h2 v1 v2 U y - U' y (-(v1, v2)) = |v1| / h1 * R1 + |v2| / h2 * R2 := by
    have hv : U' y (-(v1, v2)) = |v1| / h1 * U' y (-(upwindShift v1 h1, 0)) + |v2| / h2 * U' y (-(0, upwindShift v2 h2)) := by
      rw [← smul_eq_mul, ← smul_eq_mul, ← map_smul, ← map_smul, ← map_add]
      congr 1
      simp only [Prod.neg_mk, Prod.smul_mk, smul_eq_mul, Prod.mk_add_mk, mul_neg, rate_upwindShift v1 hh1, rate_upwindShift v2 hh2]
      simp
    rw [hv, upwindPlane, hR1, hR2]; ring
  rw [e]
  calc _ ≤ |v1| / h1 * |R1| + |v2| / h2 * |R2| := by
        refine (abs_add_le _ _).trans (le_of_eq ?_)
        rw [abs_mul, abs_mul, abs_of_nonneg (by positivity : 0 ≤ |v1| / h1), abs_of_nonneg (by positivity : 0 ≤ |v2| / h2)]
    _ ≤ |v1| / h1 * (M * h1 * h1) + |v2| / h2 * (M * h2 * h2) := by gcongr
    _ = _ := by field_simp

theorem upwindPlane_diff (hg : ∀ x, HasFDerivAt U (U' x) x) (hl : ∀ x y, ‖U' x - U' y‖ ≤ M * ‖x - y‖)
    (hh1 : 0 < h1) (hh2 : 0 < h2) (v1 v2 : ℝ) (y b : ℝ × ℝ) :
    |upwindPlane h1 h2 v1 v2 U y - upwindPlane h1 h2 v1 v2 U (y - b)| ≤ M * (|v1| + |v2|) * ‖b‖ := by
  have r1 := second_difference hg hl y (upwindShift v1 h1, 0) b
  have r2 := second_difference hg hl y (0, upwindShift v2 h2) b
  rw [norm_axis1, abs_upwindShift v1 hh1, show y - (upwindShift v1 h1, 0) - b = y - b - (upwindShift v1 h1, 0) by abel] at r1
  rw [norm_axis2, abs_upwindShift v2 hh2, show y - (0, upwindShift v2 h2) - b = y - b - (0, upwindShift v2 h2) by abel] at r2
  set R1 := U y - U (y - (upwindShift v1 h1, 0)) - (U (y - b) - U (y - b - (upwindShift v1 h1, 0))) with hR1
  set R2 := U y - U (y - (0, upwindShift v2 h2)) - (U (y - b) - U (y - b - (0, upwindShift v2 h2))) with hR2
  have e : upwindPlane h1 h2 v1 v2 U y - upwindPlane h1 h2 v1 v2 U (y - b) = -(|v1| / h1 * R1 + |v2| / h2 * R2) := by
    rw [hR1, hR2]; unfold upwindPlane; ring
  rw [e, abs_neg]
  calc _ ≤ |v1| / h1 * |R1| + |v2| / h2 * |R2| := by
        refine (abs_add_le _ _).trans (le_of_eq ?_)
        rw [abs_mul, abs_mul, abs_of_nonneg (by positivity : 0 ≤ |v1| / h1), abs_of_nonneg (by positivity : 0 ≤ |v2| / h2)]
    _ ≤ |v1| / h1 * (M * h1 * ‖b‖) + |v2| / h2 * (M * h2 * ‖b‖) := by gcongr
    _ = _ := by field_simp

theorem upwindPlane_twice (hg : ∀ x, HasFDerivAt U (U' x) x) (hl : ∀ x y, ‖U' x - U' y‖ ≤ M * ‖x - y‖)
    (hh1 : 0 < h1) (hh2 : 0 < h2) (v1 v2 : ℝ) (y : ℝ × ℝ) :
    |upwindPlane h1 h2 v1 v2 (upwindPlane h1 h2 v1 v2 U) y| ≤ M * (|v1| + |v2|) * (|v1| + |v2|) := by
  have r1 := upwindPlane_diff hg hl hh1 hh2 v1 v2 y (upwindShift v1 h1, 0)
  have r2 := upwindPlane_diff hg hl hh1 hh2 v1 v2 y (0, upwindShift v2 h2)
  rw [norm_axis1, abs_upwindShift v1 hh1] at r1
  rw [norm_axis2, abs_upwindShift v2 hh2] at r2
  generalize hW : upwindPlane h1 h2 v1 v2 U = W at r1 r2 ⊢
  rw [upwindPlane, abs_neg]
  set R1 := W y - W (y - (upwindShift v1 h1, 0))
  set R2 := W y - W (y - (0, upwindShift v2 h2))
  calc _ ≤ |v1| / h1 * |R1| + |v2| / h2 * |R2| := by
        refine (abs_add_le _ _).trans (le_of_eq ?_)
        rw [abs_mul, abs_mul, abs_of_nonneg (by positivity : 0 ≤ |v1| / h1), abs_of_nonneg (by positivity : 0 ≤ |v2| / h2)]
    _ ≤ |v1| / h1 * (M * (|v1| + |v2|) * h1) + |v2| / h2 * (M * (|v1| + |v2|) * h2) := by gcongr
    _ = _ := by field_simp

/-- Local truncation error of one two-stage step. -/
theorem truncation (hM : 0 ≤ M) (hg : ∀ x, HasFDerivAt U (U' x) x) (hl : ∀ x y, ‖U' x - U' y‖ ≤ M * ‖x - y‖)
    (hh1 : 0 < h1) (hh2 : 0 < h2) (v1 v2 dt : ℝ) (hdt : 0 ≤ dt) (y : ℝ × ℝ) :
    |U y + upwindPlane h1 h2 v1 v2 U y * dt + upwindPlane h1 h2 v1 v2 (upwindPlane h1 h2 v1 v2 U) y * (dt ^ 2 / 2)
      - U (y - dt • (v1, v2))| ≤ M * dt * (|v1| * h1 + |v2| * h2 + 3 / 2 * (|v1| + |v2|) ^ 2 * dt) := by
  have r0 := taylor_remainder hM hg hl y (dt • -(v1, v2))
  have r1 := upwindPlane_consistent hM hg hl hh1 hh2 v1 v2 y
  have r2 := upwindPlane_twice hg hl hh1 hh2 v1 v2 y
  have nv : ‖dt • -((v1, v2) : ℝ × ℝ)‖ ≤ dt * (|v1| + |v2|) := by
    rw [norm_smul, norm_neg, Real.norm_eq_abs, abs_of_nonneg hdt]
    gcongr
    rw [Prod.norm_def]
    simp only [Real.norm_eq_abs]
    exact max_le (by linarith [abs_nonneg v2]) (by linarith [abs_nonneg v1])
  have r0' : |U (y - dt • (v1, v2)) - U y - dt * U' y (-(v1, v2))| ≤ M * (dt * (|v1| + |v2|)) * (dt * (|v1| + |v2|)) := by
    rw [map_smul, smul_eq_mul, smul_neg, ← sub_eq_add_neg] at r0
    rw [smul_neg, norm_neg] at nv
    rw [norm_neg] at r0
    refine r0.trans ?_
    gcongr
  set W1 := upwindPlane h1 h2 v1 v2 U y
  set W2 := upwindPlane h1 h2 v1 v2 (upwindPlane h1 h2 v1 v2 U) y
  have s1 : |(W1 - U' y (-(v1, v2))) * dt| ≤ M * (|v1| * h1 + |v2| * h2) * dt := by
    rw [abs_mul, abs_of_nonneg hdt]; gcongr
  have s2 : |W2 * (dt ^ 2 / 2)| ≤ M * (|v1| + |v2|) * (|v1| + |v2|) * (dt ^ 2 / 2) := by
    rw [abs_mul, abs_of_nonneg (by positivity : 0 ≤ dt ^ 2 / 2)]; gcongr
  rw [abs_le] at *
  constructor <;> nlinarith [r0'.1, r0'.2, s1.1, s1.2, s2.1, s2.2]

end Bolt
