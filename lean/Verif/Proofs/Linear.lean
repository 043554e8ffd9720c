import Verif.Proofs.LinHoare
import Verif.Spec.Linear
import Verif.Props.FFT
import Mathlib.Analysis.Complex.Exponential
import Mathlib.Algebra.Order.Ring.GeomSum

/-! Helper lemmas for the linear solver. -/

set_option linter.unusedSectionVars false

namespace Bolt

open Complex Finset

section free

variable {V : Type} [AddCommGroup V] [Module ℝ V]

/-- One step of an integrator for a slope that depends on time and state only. -/
noncomputable def rkPure (m : LinScheme) (A : ℝ → V → V) (t : ℝ) (x0 : V) (dt : ℝ) : V :=
  match m with
  | .rk2 => x0 + dt • A (t + 0.5 * dt) (x0 + (dt / 2) • A t x0)
  | .rk4 =>
      let k1 := A t x0
      let k2 := A (t + 0.5 * dt) (x0 + dt • ((0.5 : ℝ) • k1))
      let k3 := A (t + 0.5 * dt) (x0 + dt • ((0.5 : ℝ) • k2))
      let k4 := A (t + 0.5 * dt + 0.5 * dt) (x0 + dt • k3)
      x0 + dt • ((1 / 6 : ℝ) • (k1 + (2 : ℝ) • k2 + (2 : ℝ) • k3 + k4))
  | .rk5 =>
      let k1 := A t x0
      let k2 := A (t + 0.25 * dt) (x0 + dt • ((0.25 : ℝ) • k1))
      let k3 := A (t + 0.25 * dt) (x0 + dt • ((1 / 8 : ℝ) • (k1 + k2)))
      let k4 := A (t + 0.25 * dt + 0.25 * dt) (x0 - dt • ((0.5 : ℝ) • k2 - k3))
      let k5 := A (t + 0.25 * dt + 0.25 * dt + 0.25 * dt) (x0 + (dt / 16) • ((3 : ℝ) • k1 + (9 : ℝ) • k4))
      let k6 := A (t + 0.25 * dt + 0.25 * dt + 0.25 * dt + 0.25 * dt)
        (x0 - (dt / 7) • ((3 : ℝ) • k1 - (2 : ℝ) • k2 - (12 : ℝ) • k3 + (12 : ℝ) • k4 - (8 : ℝ) • k5))
      x0 + (dt / 90) • ((7 : ℝ) • k1 + (32 : ℝ) • k3 + (12 : ℝ) • k4 + (32 : ℝ) • k5 + (7 : ℝ) • k6)

/-- Evaluating at one entry of the array. -/
theorem rkPure_map {X : Type} [AddCommGroup X] [Module ℝ X] (L : V →ₗ[ℝ] X) (m : LinScheme) (A : ℝ → V → V) (B : ℝ → X → X)
    (h : ∀ t x, L (A t x) = B t (L x)) (t : ℝ) (x : V) (dt : ℝ) : L (rkPure m A t x dt) = rkPure m B t (L x) dt := by
  cases m <;> simp only [rkPure, map_add, map_sub, map_smul, h]

theorem rkPure_const (m : LinScheme) (c : ℂ) (t dt : ℝ) (z : ℂ) :
    rkPure m (fun _ x => c * x) t z dt = m.poly (c * dt) * z := by
  cases m <;> simp only [rkPure, LinScheme.poly, Complex.real_smul] <;> push_cast <;> norm_num <;> ring

end free

variable {M1 M2 M3 ns N1 N2 : ℕ} [NeZero M1] [NeZero M2] [NeZero M3] [NeZero N1] [NeZero N2]

theorem dfHatDt_free (cfg : LinCfg M1 M2 M3 ns N1 N2) (hs : cfg.sourceEnabled = false) (hf : cfg.fieldsEnabled = false)
    (x : LinF M1 M2 M3 ns N1 N2 ℂ) (y : LinEM N1 N2) (s : LinState M1 M2 M3 ns N1 N2) :
    dfHatDt cfg x y s = .ok (linStreaming cfg s.time x, s) := by
  simp only [dfHatDt, hs, hf]
  change Except.ok (linStreaming cfg s.time x + 0 - 0, s) = _
  rw [add_zero, sub_zero]

theorem linStep_free (m : LinScheme) (cfg : LinCfg M1 M2 M3 ns N1 N2) (hs : cfg.sourceEnabled = false) (hf : cfg.fieldsEnabled = false)
    (hi : cfg.instantaneous = false) (dt : ℝ) (s : LinState M1 M2 M3 ns N1 N2) :
    linStep m cfg dt s = .ok ((), { s with fHat := rkPure m (linStreaming cfg) s.time s.fHat dt, time := s.time + dt }) := by
  have e : ∀ em, (fun x : LinF M1 M2 M3 ns N1 N2 ℂ => dfHatDt cfg x em) = fun x s => .ok (linStreaming cfg s.time x, s) := by
    intro em; funext x s; exact dfHatDt_free cfg hs hf x em s
  simp only [linStep, hi, hf, e, Bool.false_eq_true, false_and, if_false]
  cases m
  · change Except.ok (_, _) = _
    simp only [Except.ok.injEq, Prod.mk.injEq, true_and]
    congr 1
    ring
  · change Except.ok (_, _) = _
    simp only [Except.ok.injEq, Prod.mk.injEq, true_and]
    congr 1
    ring
  · change Except.ok (_, _) = _
    simp only [Except.ok.injEq, Prod.mk.injEq, true_and]
    congr 1
    ring

theorem linRun_cons (cfg : LinCfg M1 M2 M3 ns N1 N2) (m : LinScheme) (dt : ℝ) (l : List (LinScheme × ℝ))
    (s : LinState M1 M2 M3 ns N1 N2) : linRun cfg ((m, dt) :: l) s = (linStep m cfg dt s >>= fun r => linRun cfg l r.2) := rfl

/-- Evaluation of an array at one entry. -/
def evalAt (p : MomIx M1 M2 M3) (i : Fin ns) (q : ZMod N1 × ZMod N2) : LinF M1 M2 M3 ns N1 N2 ℂ →ₗ[ℝ] ℂ where
  toFun x := x p i q
  map_add' _ _ := rfl
  map_smul' _ _ := rfl

theorem rkPure_entry (m : LinScheme) (cfg : LinCfg M1 M2 M3 ns N1 N2) (t dt : ℝ) (x : LinF M1 M2 M3 ns N1 N2 ℂ) (p : MomIx M1 M2 M3)
    (i : Fin ns) (q : ZMod N1 × ZMod N2) :
    rkPure m (linStreaming cfg) t x dt p i q
      = rkPure m (fun t z => -I * (((calculateK cfg.dq1 cfg.dq2 q).1 * (cfg.Aq t).1 p i q
          + (calculateK cfg.dq1 cfg.dq2 q).2 * (cfg.Aq t).2 p i q : ℝ) : ℂ) * z) t (x p i q) dt :=
  rkPure_map (evalAt p i q) m _ _ (fun _ _ => rfl) t x dt

/-! ## Accuracy of the polynomials -/

theorem pow_sub_pow_bound (a b : ℂ) (M : ℝ) (ha : ‖a‖ ≤ M) (hb : ‖b‖ ≤ M) (n : ℕ) :
    ‖a ^ n - b ^ n‖ ≤ n * ‖a - b‖ * M ^ (n - 1) := by
  have hM : 0 ≤ M := (norm_nonneg a).trans ha
  rw [← (Commute.all a b).mul_geom_sum₂ n, norm_mul]
  have : ‖∑ i ∈ range n, a ^ i * b ^ (n - 1 - i)‖ ≤ ∑ _i ∈ range n, M ^ (n - 1) := by
    refine (norm_sum_le _ _).trans (sum_le_sum fun i hi => ?_)
    rw [norm_mul, norm_pow, norm_pow]
    have hi' : i ≤ n - 1 := by have := mem_range.mp hi; omega
    calc ‖a‖ ^ i * ‖b‖ ^ (n - 1 - i) ≤ M ^ i * M ^ (n - 1 - i) := by gcongr
      _ = M ^ (n - 1) := by rw [← pow_add]; congr 1; omega
  rw [sum_const, card_range, nsmul_eq_mul] at this
  calc ‖a - b‖ * _ ≤ ‖a - b‖ * (n * M ^ (n - 1)) := by gcongr
    _ = _ := by ring

theorem poly_norm_le (m : LinScheme) (w : ℂ) : ‖m.poly w‖ ≤ Real.exp (2 * ‖w‖) := by
  have hx := norm_nonneg w
  have key := Real.sum_le_exp_of_nonneg (x := 2 * ‖w‖) (by positivity) 7
  simp only [sum_range_succ, sum_range_zero, Nat.factorial] at key
  have t1 : ‖(1 : ℂ)‖ = 1 := norm_one
  set x := ‖w‖ with hxd
  have nn : ∀ j : ℕ, ∀ c : ℂ, ‖w ^ j / c‖ = x ^ j / ‖c‖ := fun j c => by rw [norm_div, norm_pow]
  have P : ∀ j : ℕ, 0 ≤ x ^ j := fun j => pow_nonneg hx j
  refine le_trans ?_ key
  cases m
  · simp only [LinScheme.poly]
    refine (norm_add₃_le).trans ?_
    rw [nn, t1]
    norm_num
    nlinarith [P 1, P 2, P 3, P 4, P 5, P 6]
  · simp only [LinScheme.poly]
    refine (norm_add_le _ _).trans ?_
    refine (add_le_add_left ((norm_add_le _ _).trans (add_le_add_left norm_add₃_le _)) _).trans ?_
    rw [nn, nn, nn, t1]
    norm_num
    nlinarith [P 1, P 2, P 3, P 4, P 5, P 6]
  · simp only [LinScheme.poly]
    refine (norm_add_le _ _).trans ?_
    refine (add_le_add_left ((norm_add_le _ _).trans (add_le_add_left ((norm_add_le _ _).trans
      (add_le_add_left ((norm_add_le _ _).trans (add_le_add_left norm_add₃_le _)) _)) _)) _).trans ?_
    rw [nn, nn, nn, nn, nn, t1]
    norm_num
    nlinarith [P 1, P 2, P 3, P 4, P 5, P 6]

theorem poly_sub_exp (m : LinScheme) (w : ℂ) (hw : ‖w‖ ≤ 1) : ‖m.poly w - exp w‖ ≤ ‖w‖ ^ (m.order + 1) := by
  have hx := norm_nonneg w
  cases m
  · have h := Complex.exp_bound hw (n := 3) (by norm_num)
    simp only [sum_range_succ, sum_range_zero, Nat.factorial] at h
    rw [norm_sub_rev]
    refine le_trans (le_of_eq ?_) (h.trans ?_)
    · congr 1; simp only [LinScheme.poly]; push_cast; ring
    · simp only [LinScheme.order]
      have := pow_nonneg hx 3
      push_cast; norm_num; linarith
  · have h := Complex.exp_bound hw (n := 5) (by norm_num)
    simp only [sum_range_succ, sum_range_zero, Nat.factorial] at h
    rw [norm_sub_rev]
    refine le_trans (le_of_eq ?_) (h.trans ?_)
    · congr 1; simp only [LinScheme.poly]; push_cast; ring
    · simp only [LinScheme.order]
      have := pow_nonneg hx 5
      push_cast; norm_num; linarith
  · have h := Complex.exp_bound hw (n := 6) (by norm_num)
    simp only [sum_range_succ, sum_range_zero, Nat.factorial] at h
    have e : LinScheme.poly .rk5 w - exp w
        = w ^ 6 / 640 - (exp w - (0 + w ^ 0 / ((0 : ℕ) + 1 : ℕ) + w ^ 1 / 1 + w ^ 2 / 2 + w ^ 3 / 6 + w ^ 4 / 24 + w ^ 5 / 120)) := by
      simp only [LinScheme.poly]; push_cast; ring
    rw [e]
    refine (norm_sub_le _ _).trans ?_
    have h6 : ‖w ^ 6 / 640‖ = ‖w‖ ^ 6 / 640 := by rw [norm_div, norm_pow]; norm_num
    rw [h6]
    have h2 : ‖exp w - (0 + w ^ 0 / ((0 : ℕ) + 1 : ℕ) + w ^ 1 / 1 + w ^ 2 / 2 + w ^ 3 / 6 + w ^ 4 / 24 + w ^ 5 / 120)‖ ≤ ‖w‖ ^ 6 / 2 := by
      refine le_trans (le_of_eq ?_) (h.trans ?_)
      · congr 1; push_cast; ring
      · have := pow_nonneg hx 6
        push_cast; norm_num; linarith
    have := pow_nonneg hx 6
    simp only [LinScheme.order]
    linarith

/-- Global accuracy: `n` steps of size `z / n`. -/
theorem poly_pow_error (m : LinScheme) (z : ℂ) (n : ℕ) (hn : 0 < n) (hz : ‖z‖ ≤ n) :
    ‖m.poly (z / n) ^ n - exp z‖ ≤ ‖z‖ ^ (m.order + 1) * Real.exp (2 * ‖z‖) / (n : ℝ) ^ m.order := by
  have hn' : (0 : ℝ) < n := by exact_mod_cast hn
  have hnc : (n : ℂ) ≠ 0 := by exact_mod_cast hn.ne'
  have hw : ‖z / n‖ = ‖z‖ / n := by rw [norm_div, Complex.norm_natCast]
  have hw1 : ‖z / n‖ ≤ 1 := by rw [hw, div_le_one hn']; exact hz
  have e : exp z = exp (z / n) ^ n := by rw [← Complex.exp_nat_mul]; congr 1; field_simp
  rw [e]
  have hb : ‖exp (z / n)‖ ≤ Real.exp (2 * ‖z / n‖) := by
    refine (Complex.norm_exp_le_exp_norm _).trans (Real.exp_le_exp.mpr ?_)
    nlinarith [norm_nonneg (z / n)]
  refine (pow_sub_pow_bound _ _ _ (poly_norm_le m _) hb n).trans ?_
  have h1 := poly_sub_exp m (z / n) hw1
  have h2 : Real.exp (2 * ‖z / n‖) ^ (n - 1) ≤ Real.exp (2 * ‖z‖) := by
    rw [← Real.exp_nat_mul]
    refine Real.exp_le_exp.mpr ?_
    have : ((n - 1 : ℕ) : ℝ) ≤ n := by exact_mod_cast Nat.sub_le n 1
    calc ((n - 1 : ℕ) : ℝ) * (2 * ‖z / n‖) ≤ n * (2 * ‖z / n‖) := by gcongr
      _ = 2 * ‖z‖ := by rw [hw]; field_simp
  calc (n : ℝ) * ‖m.poly (z / n) - exp (z / n)‖ * Real.exp (2 * ‖z / n‖) ^ (n - 1)
      ≤ n * ‖z / n‖ ^ (m.order + 1) * Real.exp (2 * ‖z‖) := by gcongr
    _ = _ := by rw [hw, div_pow, pow_succ (n : ℝ)]; field_simp

end Bolt
