import Verif.Spec.Energy
import Verif.Props.Maxwell
import Verif.Props.TimeLevels
import Verif.Proofs.Electrostatic

/-!
# Helper lemmas for C109
-/

set_option linter.unusedSectionVars false

namespace Bolt

open Finset

section fields
variable {Q K : Type} [AddCommGroup Q] [Field K] [LinearOrder K] [IsStrictOrderedRing K] [Fintype Q]

/-- Summation by parts: the curl of `B` against `E` is `B` against the curl of `E`. -/
theorem ampere_by_parts (q1 q2 : Q) (dq1 dq2 mu : K) (B E : Fin 3 → Q → K) :
    ∑ i, ∑ k, ampere q1 q2 dq1 dq2 mu B k i * E k i = 1 / mu * ∑ i, ∑ k, B k i * curlOfE q1 q2 dq1 dq2 E k i := by
  have tr : ∀ (x y : Q → K) (t : Q), ∑ i, x (i + t) * y i = ∑ i, x i * y (i - t) := by
    intro x y t
    rw [← Equiv.sum_comp (Equiv.addRight t) (fun i => x i * y (i - t))]
    simp
  have e : ∀ (x y : Q → K) (t : Q) (d : K), ∑ i, (x (i + t) - x i) / d * y i = -∑ i, x i * ((y i - y (i - t)) / d) := by
    intro x y t d
    have := tr x y t
    rw [← sub_eq_zero, sub_neg_eq_add, ← sum_add_distrib]
    rw [← sub_eq_zero, ← sum_sub_distrib] at this
    rw [show (0 : K) = 1 / d * 0 by ring, ← this, mul_sum]
    exact sum_congr rfl fun i _ => by ring
  simp only [Fin.sum_univ_three, ampere, curlOfE]
  have a1 := e (B 2) (E 0) q2 dq2
  have a2 := e (B 2) (E 1) q1 dq1
  have a3 := e (B 1) (E 2) q1 dq1
  have a4 := e (B 0) (E 2) q2 dq2
  simp only [sum_add_distrib]
  have b1 : ∑ i, (B 2 (i + q2) - B 2 i) / dq2 / mu * E 0 i = 1 / mu * ∑ i, (B 2 (i + q2) - B 2 i) / dq2 * E 0 i := by
    rw [mul_sum]; exact sum_congr rfl fun i _ => by ring
  have b2 : ∑ i, -((B 2 (i + q1) - B 2 i) / dq1) / mu * E 1 i = -(1 / mu * ∑ i, (B 2 (i + q1) - B 2 i) / dq1 * E 1 i) := by
    rw [mul_sum, ← sum_neg_distrib]; exact sum_congr rfl fun i _ => by ring
  have b3 : ∑ i, ((B 1 (i + q1) - B 1 i) / dq1 - (B 0 (i + q2) - B 0 i) / dq2) / mu * E 2 i =
      1 / mu * (∑ i, (B 1 (i + q1) - B 1 i) / dq1 * E 2 i - ∑ i, (B 0 (i + q2) - B 0 i) / dq2 * E 2 i) := by
    rw [← sum_sub_distrib, mul_sum]; exact sum_congr rfl fun i _ => by ring
  have c1 : ∑ i, B 1 i * -((E 2 i - E 2 (i - q1)) / dq1) = -∑ i, B 1 i * ((E 2 i - E 2 (i - q1)) / dq1) := by
    rw [← sum_neg_distrib]; exact sum_congr rfl fun i _ => by ring
  have c2 : ∑ i, B 2 i * ((E 1 i - E 1 (i - q1)) / dq1 - (E 0 i - E 0 (i - q2)) / dq2) =
      ∑ i, B 2 i * ((E 1 i - E 1 (i - q1)) / dq1) - ∑ i, B 2 i * ((E 0 i - E 0 (i - q2)) / dq2) := by
    rw [← sum_sub_distrib]; exact sum_congr rfl fun i _ => by ring
  rw [b1, b2, b3, c1, c2, a1, a2, a3, a4]
  ring

theorem curlOfE_add (q1 q2 : Q) (dq1 dq2 : K) (E E' : Fin 3 → Q → K) (k : Fin 3) (i : Q) :
    curlOfE q1 q2 dq1 dq2 (fun k i => E k i + E' k i) k i = curlOfE q1 q2 dq1 dq2 E k i + curlOfE q1 q2 dq1 dq2 E' k i := by
  fin_cases k <;> simp only [curlOfE] <;> ring

/-- The energy identity of the leapfrog scheme. -/
theorem poynting_identity (q1 q2 : Q) (dq1 dq2 eps mu dt dt' : K) (he : eps ≠ 0) (E E' B0 B B' J : Fin 3 → Q → K)
    (hE : ∀ k i, E' k i = E k i + dt' * ((ampere q1 q2 dq1 dq2 mu B k i - J k i) / eps))
    (hB : ∀ k i, B k i = B0 k i - dt * curlOfE q1 q2 dq1 dq2 E k i)
    (hB' : ∀ k i, B' k i = B k i - dt' * curlOfE q1 q2 dq1 dq2 E' k i) :
    fieldEnergy eps mu E' B B' - fieldEnergy eps mu E B0 B =
      -(dt' * power J (fun k i => (E k i + E' k i) / 2)) + (dt' - dt) / (2 * mu) * ∑ i, ∑ k, B k i * curlOfE q1 q2 dq1 dq2 E k i := by
  have key := ampere_by_parts q1 q2 dq1 dq2 mu B (fun k i => E k i + E' k i)
  simp only [curlOfE_add] at key
  rw [← sub_eq_zero, mul_sum, ← sum_sub_distrib] at key
  simp only [mul_sum, ← sum_sub_distrib] at key
  rw [← sub_eq_zero, fieldEnergy, fieldEnergy, power]
  rw [← mul_zero (dt' / 2), ← key]
  simp only [mul_sum, ← sum_sub_distrib, ← sum_add_distrib, ← sum_neg_distrib]
  refine sum_congr rfl fun i _ => sum_congr rfl fun k _ => ?_
  have h0 : B0 k i = B k i + dt * curlOfE q1 q2 dq1 dq2 E k i := by rw [hB k i]; ring
  have h1 : eps * E' k i ^ 2 = eps * E k i ^ 2 + dt' * (ampere q1 q2 dq1 dq2 mu B k i - J k i) * (E k i + E' k i) := by
    have := hE k i
    have h2 : eps * (E' k i - E k i) = dt' * (ampere q1 q2 dq1 dq2 mu B k i - J k i) := by
      rw [this]; field_simp; ring
    rw [← h2]; ring
  rw [h1, hB' k i, h0]
  rcases eq_or_ne mu 0 with hm | hm
  · subst hm
    simp; ring
  · field_simp
    ring

end fields

section particles
variable {S Q K : Type} [AddCommGroup Q] [Field K] [LinearOrder K] [IsStrictOrderedRing K] {N1 N2 N3 : ℕ} [NeZero N1] [NeZero N2] [NeZero N3]
  {cfg : FVMConfig S K} {ax : Axes (PIdx N1 N2 N3) Q} (s1 s2 s3 : S → K) (e m : S → K) (cor : PCoords S (PIdx N1 N2 N3) K)

/-- The rate of change of the kinetic energy of one species, summed over the positions. -/
theorem energy_slope [Fintype Q] (hax : MomentumAxes ax) (hdp : ∀ s, cfg.dp1 s ≠ 0 ∧ cfg.dp2 s ≠ 0 ∧ cfg.dp3 s ≠ 0)
    (hp : cfg.solverMethodInP = "FVM" ∧ cfg.fieldsEnabled = true) (hsrc : cfg.sourceEnabled = false)
    (hm : cfg.reconstructionInP = "piecewise-constant") (F : Fin 3 → Fin 6 → Q → K)
    {cb : Callbacks S (PIdx N1 N2 N3) Q K} (hC : (cb.Cp1, cb.Cp2, cb.Cp3) = nonrelCallbacksP e m (centres cfg s1 s2 s3) cor F)
    {f k : Dist S (PIdx N1 N2 N3) Q K} (hk : dfdtFVM ax cfg cb f = .ok k) 
    (hj : ∀ j, if ![N1, N2, N3] j = 1 then ∀ s (p : PIdx N1 N2 N3), cellVelocity (centres cfg s1 s2 s3) s p j = 0 else ClearOfEdges j 1 f) (s : S) :
    ∑ q, ∑ p, k s p q * (1 / 2 * ∑ j, cellVelocity (centres cfg s1 s2 s3) s p j ^ 2) =
      ∑ q, ∑ p, (∑ j, (lorentz (e s) (m s) (fieldE F j q) (fieldB F j q) (cellVelocity (centres cfg s1 s2 s3) s p) j *
          cellVelocity (centres cfg s1 s2 s3) s p j +
        (if ![N1, N2, N3] j = 1 then 0 else
          |lorentz (e s) (m s) (fieldE F j q) (fieldB F j q) (cellVelocity (centres cfg s1 s2 s3) s p) j| *
          ![cfg.dp1 s, cfg.dp2 s, cfg.dp3 s] j / 2))) * f s p q := by
  obtain ⟨a, b, h1, h2, h3⟩ := dfdtFVM_ok hk
  have ha : ∀ p, ∑ q, a s p q = 0 := by
    intro p
    rcases h2 with ⟨_, m, _, h⟩ | ⟨_, h⟩
    · simp [h, hsrc, sum_dfdtQ]
    · simp [h]
  have hb : ∀ p q, b s p q = dfdtP ax .piecewiseConstant cfg.dp1 cfg.dp2 cfg.dp3 cb.Cp1 cb.Cp2 cb.Cp3 f s p q := by
    intro p q
    rcases h3 with ⟨_, m, hm', h⟩ | ⟨hn, _⟩
    · rw [hm] at hm'
      cases hm'
      exact h s p q
    · exact absurd hp hn
  have wt : ∀ w : PIdx N1 N2 N3 → K, ∑ q, ∑ p, k s p q * w p = ∑ q, ∑ p, b s p q * w p := by
    intro w
    have : ∑ q, (∑ p, a s p q * w p) = 0 := by
      rw [sum_comm]
      exact sum_eq_zero fun p _ => by rw [← sum_mul, ha, zero_mul]
    simp only [h1, add_mul, sum_add_distrib]
    rw [this, zero_add]
  rw [wt]
  refine sum_congr rfl fun q _ => ?_
  have key : ∀ j, ∑ p, b s p q * (1 / 2 * cellVelocity (centres cfg s1 s2 s3) s p j ^ 2) =
      ∑ p, (lorentz (e s) (m s) (fieldE F j q) (fieldB F j q) (cellVelocity (centres cfg s1 s2 s3) s p) j *
          cellVelocity (centres cfg s1 s2 s3) s p j +
        (if ![N1, N2, N3] j = 1 then 0 else
          |lorentz (e s) (m s) (fieldE F j q) (fieldB F j q) (cellVelocity (centres cfg s1 s2 s3) s p) j| *
          ![cfg.dp1 s, cfg.dp2 s, cfg.dp3 s] j / 2)) * f s p q := by
    intro j
    have h := hj j
    split_ifs at h with h1
    · simp [h, h1]
    · have := (moments_dfdtP s1 s2 s3 e m cor F hax hdp hC f s q j h).2
      simp only [h1, if_false, hb]
      exact this
  simp only [Fin.sum_univ_three, add_mul, mul_add, sum_add_distrib] at key ⊢
  rw [key 0, key 1, key 2]
  ring

end particles

end Bolt
