import Verif.Model.Temporal
import Verif.Spec.Temporal
import Verif.Proofs.BSeries
import Mathlib.Analysis.Normed.Algebra.Exponential
import Mathlib.Analysis.Calculus.FDeriv.Analytic

/-!
# Lemmas about time integration
-/

namespace Bolt

set_option linter.unusedSectionVars false

open Asymptotics Topology Filter Finset

section RK

theorem rk2_order : HasOrder 2 (fun {E} _ _ F x dt => integratorRK2 (K := ℝ) (V := E) F x dt) := by
  intro E _ _ F y hF hy
  obtain ⟨D⟩ := exists_derivs hF
  have k1 : D.IsB (fun _ => F (y 0)) _ := Derivs.IsB.first
  have k2 := (k1.smul (1 / 2)).stage
  have := k2.order hy rfl (p := 2) (by norm_num) (fun k hk => by
    interval_cases k <;> simp only [Derivs.B, Derivs.stageB, Derivs.exactB] ; norm_num)
  refine this.congr_left fun h => ?_
  simp only [integratorRK2, smul_smul]
  rw [show h * (1 / 2) = h / 2 by ring]

theorem rk4_order : HasOrder 4 (fun {E} _ _ F x dt => integratorRK4 (K := ℝ) (V := E) F x dt) := by
  intro E _ _ F y hF hy
  obtain ⟨D⟩ := exists_derivs hF
  have k1 : D.IsB (fun _ => F (y 0)) _ := Derivs.IsB.first
  have k2 := (k1.smul (1 / 2)).stage
  have k3 := (k2.smul (1 / 2)).stage
  have k4 := k3.stage
  have g := (((k1.add (k2.smul 2)).add (k3.smul 2)).add k4).smul (1 / 6)
  have := g.order hy rfl (p := 4) (by norm_num) (fun k hk => by
    interval_cases k <;> simp only [Derivs.B, Derivs.stageB, Derivs.exactB] <;> norm_num)
  exact this

theorem rk5_order : HasOrder 5 (fun {E} _ _ F x dt => integratorRK5 (K := ℝ) (V := E) F x dt) := by
  intro E _ _ F y hF hy
  obtain ⟨D⟩ := exists_derivs hF
  have k1 : D.IsB (fun _ => F (y 0)) _ := Derivs.IsB.first
  have k2 := (k1.smul (1 / 4)).stage
  have k3 := ((k1.add (k2.smul 3)).smul (3 / 32)).stage
  have k4 := ((((k1.smul 161).sub (k2.smul 600)).add (k3.smul 608)).smul (12 / 2197)).stage
  have k5 := (((((k1.smul 8341).sub (k2.smul 32832)).add (k3.smul 29440)).sub (k4.smul 845)).smul
    (1 / 4104)).stage
  have k6 := ((((((k1.smul (8 / 27)).smul (-1)).add (k2.smul 2)).sub (k3.smul (3544 / 2565))).add
    (k4.smul (1859 / 4104))).sub (k5.smul (11 / 40))).stage
  have g := (((((k1.smul (16 / 27)).add (k3.smul (6656 / 2565))).add (k4.smul (28561 / 11286))).sub
    (k5.smul (9 / 10))).add (k6.smul (2 / 11))).smul (1 / 5)
  have := g.order hy rfl (p := 5) (by norm_num) (fun k hk => by
    interval_cases k <;> simp only [Derivs.B, Derivs.stageB, Derivs.exactB] <;> norm_num)
  refine this.congr_left fun h => ?_
  simp only [integratorRK5, neg_smul, one_smul]

end RK

section Linear

variable {K V : Type} [Field K] [CharZero K] [AddCommGroup V] [Module K V]

theorem rk2_linear (A : V →ₗ[K] V) (x : V) (h : K) :
    integratorRK2 A x h = x + h • A x + (h ^ 2 / 2) • A (A x) := by
  simp only [integratorRK2, map_add, map_smul]
  module

theorem rk4_linear (A : V →ₗ[K] V) (x : V) (h : K) :
    integratorRK4 A x h = x + h • A x + (h ^ 2 / 2) • A (A x) + (h ^ 3 / 6) • A (A (A x))
      + (h ^ 4 / 24) • A (A (A (A x))) := by
  simp only [integratorRK4, map_add, map_smul]
  module

theorem rk5_linear (A : V →ₗ[K] V) (x : V) (h : K) :
    integratorRK5 A x h = x + h • A x + (h ^ 2 / 2) • A (A x) + (h ^ 3 / 6) • A (A (A x))
      + (h ^ 4 / 24) • A (A (A (A x))) + (h ^ 5 / 120) • A (A (A (A (A x))))
      + (h ^ 6 / 2080) • A (A (A (A (A (A x))))) := by
  simp only [integratorRK5, map_add, map_smul, map_neg, map_sub]
  module

end Linear

section ExpJet

variable {𝔸 : Type} [NormedRing 𝔸] [NormedAlgebra ℝ 𝔸] [CompleteSpace 𝔸]

/-- Expansion of the exponential. -/
theorem jet_exp (n : ℕ) (A : 𝔸) :
    Jet n (fun h : ℝ => NormedSpace.exp (h • A)) (fun k => ((k.factorial : ℝ)⁻¹) • A ^ k) := by
  have h1 := (NormedSpace.exp_hasFPowerSeriesAt_zero (𝕂 := ℝ) (𝔸 := 𝔸)).isBigO_sub_partialSum_pow n
  have ht : Tendsto (fun h : ℝ => h • A) (𝓝 0) (𝓝 0) := by
    have := (by fun_prop : Continuous fun h : ℝ => h • A).tendsto 0
    rwa [zero_smul] at this
  have h2 := h1.comp_tendsto ht
  have h3 : (fun h : ℝ => ‖h • A‖ ^ n) =O[𝓝 0] fun h : ℝ => h ^ n := by
    refine IsBigO.of_bound (‖A‖ ^ n) (Eventually.of_forall fun h => ?_)
    rw [norm_smul, mul_pow, norm_mul, norm_pow, norm_pow, norm_pow, norm_norm, norm_norm, mul_comm]
  refine (h2.trans h3).congr_left fun h => ?_
  simp only [Function.comp, zero_add, FormalMultilinearSeries.partialSum]
  congr 1
  refine sum_congr rfl fun k _ => ?_
  rw [NormedSpace.expSeries_apply_eq, smul_pow, smul_comm]

theorem Jet.mul {n : ℕ} {f g : ℝ → 𝔸} {a b : ℕ → 𝔸} (hf : Jet n f a) (hg : Jet n g b) :
    Jet n (fun h => f h * g h) (fun k => ∑ ij ∈ antidiagonal k, a ij.1 * b ij.2) := by
  have := (hf.clm (ContinuousLinearMap.mul ℝ 𝔸)).apply hg
  simpa using this

/-- The expansion of `exp (c h A)`. -/
theorem jet_exp_scaled (n : ℕ) (A : 𝔸) (c : ℝ) :
    Jet n (fun h : ℝ => NormedSpace.exp ((h * c) • A)) (fun k => (c ^ k * (k.factorial : ℝ)⁻¹) • A ^ k) := by
  have := jet_exp n (c • A)
  refine (this.congr fun k _ => ?_).congr_fun (Eventually.of_forall fun h => by rw [smul_smul])
  rw [smul_pow, smul_smul, mul_comm]

theorem jet_order {n m : ℕ} {f g : ℝ → 𝔸} {a b : ℕ → 𝔸} (hf : Jet n f a) (hg : Jet n g b) (hm : m ≤ n)
    (hab : ∀ k < m, a k = b k) : (fun h => f h - g h) =O[𝓝 0] fun h : ℝ => h ^ m :=
  (hf.sub hg).of_coeff_zero hm fun k hk => by rw [hab k hk, sub_self]

/-- Product of exponentials as in the Strang step. -/
noncomputable def strangE (A B : 𝔸) (h : ℝ) : 𝔸 :=
  NormedSpace.exp ((h / 2) • A) * (NormedSpace.exp (h • B) * NormedSpace.exp ((h / 2) • A))

/-- Product of exponentials as in the Lie step. -/
noncomputable def lieE (A B : 𝔸) (h : ℝ) : 𝔸 := NormedSpace.exp (h • B) * NormedSpace.exp (h • A)

theorem jet_lieE (A B : 𝔸) : Jet 4 (lieE A B) (fun k => ∑ ij ∈ antidiagonal k,
    ((ij.1.factorial : ℝ)⁻¹ • B ^ ij.1) * ((ij.2.factorial : ℝ)⁻¹ • A ^ ij.2)) :=
  (jet_exp 4 B).mul (jet_exp 4 A)

theorem jet_strangE (A B : 𝔸) : Jet 4 (strangE A B) (fun k => ∑ ij ∈ antidiagonal k,
    (((1 / 2) ^ ij.1 * (ij.1.factorial : ℝ)⁻¹) • A ^ ij.1) * (∑ lm ∈ antidiagonal ij.2,
      ((lm.1.factorial : ℝ)⁻¹ • B ^ lm.1) * (((1 / 2) ^ lm.2 * (lm.2.factorial : ℝ)⁻¹) • A ^ lm.2))) := by
  have h := jet_exp_scaled 4 A (1 / 2)
  have := h.mul ((jet_exp 4 B).mul h)
  refine this.congr_fun (Eventually.of_forall fun x => ?_)
  simp only [strangE]
  rw [show x * (1 / 2) = x / 2 by ring]

theorem lie_isBigO (A B : 𝔸) :
    (fun h => lieE A B h - NormedSpace.exp (h • (A + B))) =O[𝓝 0] fun h : ℝ => h ^ 2 := by
  refine jet_order (jet_lieE A B) (jet_exp 4 (A + B)) (by norm_num) fun k hk => ?_
  simp only [Nat.sum_antidiagonal_eq_sum_range_succ_mk]
  interval_cases k <;> simp [sum_range_succ, Nat.factorial]

theorem strang_isBigO (A B : 𝔸) :
    (fun h => strangE A B h - NormedSpace.exp (h • (A + B))) =O[𝓝 0] fun h : ℝ => h ^ 3 := by
  refine jet_order (jet_strangE A B) (jet_exp 4 (A + B)) (by norm_num) fun k hk => ?_
  simp only [Nat.sum_antidiagonal_eq_sum_range_succ_mk]
  interval_cases k <;> simp [sum_range_succ, Nat.factorial, pow_succ, mul_add, add_mul]
  · module
  · module

theorem swss_isBigO (A B : 𝔸) :
    (fun h => (1 / 2 : ℝ) • (lieE B A h + lieE A B h) - NormedSpace.exp (h • (A + B)))
      =O[𝓝 0] fun h : ℝ => h ^ 3 := by
  refine jet_order (((jet_lieE B A).add (jet_lieE A B)).const_smul (1 / 2)) (jet_exp 4 (A + B))
    (by norm_num) fun k hk => ?_
  simp only [Nat.sum_antidiagonal_eq_sum_range_succ_mk]
  interval_cases k <;> simp [sum_range_succ, Nat.factorial, pow_succ, mul_add, add_mul]
  · module
  · module
  · module

theorem jia_isBigO (A B : 𝔸) :
    (fun h => (2 / 3 : ℝ) • (strangE A B h + strangE B A h)
      - (1 / 3 : ℝ) • ((1 / 2 : ℝ) • (lieE B A h + lieE A B h)) - NormedSpace.exp (h • (A + B)))
      =O[𝓝 0] fun h : ℝ => h ^ 4 := by
  refine jet_order ((((jet_strangE A B).add (jet_strangE B A)).const_smul (2 / 3)).sub
    ((((jet_lieE B A).add (jet_lieE A B)).const_smul (1 / 2)).const_smul (1 / 3))) (jet_exp 4 (A + B))
    (by norm_num) fun k hk => ?_
  simp only [Nat.sum_antidiagonal_eq_sum_range_succ_mk]
  interval_cases k <;> simp [sum_range_succ, Nat.factorial, pow_succ, mul_add, add_mul, mul_assoc]
  all_goals module

end ExpJet

end Bolt
