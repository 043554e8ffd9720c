import Verif.Props.FDTD
import Mathlib.Analysis.SpecialFunctions.Pow.NNReal
import Mathlib.Algebra.QuadraticDiscriminant

/-!
# Lemmas for C94: the energy norm of the field update
-/

set_option linter.unusedSectionVars false

namespace Bolt

open Finset

variable {Q : Type} [AddCommGroup Q] [Fintype Q]

/-- `F + t G`. -/
noncomputable def EM.axpy (F : EM Q ℝ) (t : ℝ) (G : EM Q ℝ) : EM Q ℝ :=
  ⟨fun i => F.E1 i + t * G.E1 i, fun i => F.E2 i + t * G.E2 i, fun i => F.E3 i + t * G.E3 i,
   fun i => F.B1 i + t * G.B1 i, fun i => F.B2 i + t * G.B2 i, fun i => F.B3 i + t * G.B3 i⟩

theorem vac_axpy (pr : FieldParams Q ℝ) (dt : ℝ) (F G : EM Q ℝ) (t : ℝ) : vac pr dt (F.axpy t G) = (vac pr dt F).axpy t (vac pr dt G) := by
  ext i <;> simp only [vac, evolveB, addCurlB, EM.axpy, curlE1, curlE2, curlE3, curlB1, curlB2, curlB3, Currents.zero, afShift_fwd, afShift_back] <;> ring

/-- Sum over the grid of the energy density. -/
noncomputable def stagEnergy (pr : FieldParams Q ℝ) (F : EM Q ℝ) : ℝ :=
  ∑ i, (pr.eps * (F.E1 i ^ 2 + F.E2 i ^ 2 + F.E3 i ^ 2) + (F.B1 i ^ 2 + F.B2 i ^ 2 + F.B3 i ^ 2) / pr.mu)

/-- The cross term. -/
noncomputable def crossTerm (pr : FieldParams Q ℝ) (F G : EM Q ℝ) : ℝ := ∑ i, (F.B1 i * curlE1 pr G i + F.B2 i * curlE2 pr G i + F.B3 i * curlE3 pr G i)

/-- The quadratic form kept by the update. -/
noncomputable def keptEnergy (pr : FieldParams Q ℝ) (dt : ℝ) (F : EM Q ℝ) : ℝ := stagEnergy pr F + dt / pr.mu * crossTerm pr F F

theorem keptEnergy_vac' (pr : FieldParams Q ℝ) (dt : ℝ) (G : EM Q ℝ) : keptEnergy pr dt (vac pr dt G) = staggeredEnergy pr G (vac pr dt G) := by
  rw [keptEnergy, stagEnergy, crossTerm, staggeredEnergy, mul_sum, ← sum_add_distrib]
  refine sum_congr rfl fun i _ => ?_
  have b : G.B1 i = (vac pr dt G).B1 i + dt * curlE1 pr (vac pr dt G) i
      ∧ G.B2 i = (vac pr dt G).B2 i + dt * curlE2 pr (vac pr dt G) i
      ∧ G.B3 i = (vac pr dt G).B3 i + dt * curlE3 pr (vac pr dt G) i := by
    refine ⟨?_, ?_, ?_⟩ <;> simp only [vac, evolveB, addCurlB, curlE1, curlE2, curlE3] <;> ring
  obtain ⟨b1, b2, b3⟩ := b
  rw [b1, b2, b3]
  ring

theorem keptEnergy_vac (pr : FieldParams Q ℝ) (hh : pr.hybrid = false) (he : pr.eps ≠ 0) (hm : pr.mu ≠ 0) (dt : ℝ) (F : EM Q ℝ) :
    keptEnergy pr dt (vac pr dt F) = keptEnergy pr dt F := by
  obtain ⟨step, ⟨-, hs⟩, he'⟩ := C17_bijective pr hh Currents.zero dt
  obtain ⟨G, rfl⟩ := hs F
  have : step G = vac pr dt G := by
    have := he' G
    rw [fdtd_eq pr hh, Except.ok.injEq] at this
    exact this.symm
  rw [this, keptEnergy_vac', keptEnergy_vac', energy_step pr he hm]

theorem crossTerm_bound (pr : FieldParams Q ℝ) (he : 0 < pr.eps) (hm : 0 < pr.mu) {dt θ : ℝ} (hθ : 0 < θ)
    (hcfl : dt ^ 2 * (1 / pr.dq1 ^ 2 + 1 / pr.dq2 ^ 2) ≤ θ ^ 2 * (pr.eps * pr.mu)) (F : EM Q ℝ) :
    |dt / pr.mu * crossTerm pr F F| ≤ θ * stagEnergy pr F := by
  have cb := curlE_bound pr F
  have p : ∀ i, |dt / pr.mu * (F.B1 i * curlE1 pr F i + F.B2 i * curlE2 pr F i + F.B3 i * curlE3 pr F i)| ≤
      dt ^ 2 / (4 * θ * pr.mu) * (curlE1 pr F i ^ 2 + curlE2 pr F i ^ 2 + curlE3 pr F i ^ 2)
        + θ * ((F.B1 i ^ 2 + F.B2 i ^ 2 + F.B3 i ^ 2) / pr.mu) := by
    intro i
    have key : ∀ b c : ℝ, |dt * (b * c)| ≤ dt ^ 2 / (4 * θ) * c ^ 2 + θ * b ^ 2 := by
      intro b c
      have e : dt ^ 2 / (4 * θ) * c ^ 2 + θ * b ^ 2 - dt * (b * c) = θ * (b - dt * c / (2 * θ)) ^ 2 := by field_simp; ring
      have e' : dt ^ 2 / (4 * θ) * c ^ 2 + θ * b ^ 2 + dt * (b * c) = θ * (b + dt * c / (2 * θ)) ^ 2 := by field_simp; ring
      rw [abs_le]
      have := mul_nonneg hθ.le (sq_nonneg (b - dt * c / (2 * θ)))
      have := mul_nonneg hθ.le (sq_nonneg (b + dt * c / (2 * θ)))
      constructor <;> linarith
    have k1 := key (F.B1 i) (curlE1 pr F i)
    have k2 := key (F.B2 i) (curlE2 pr F i)
    have k3 := key (F.B3 i) (curlE3 pr F i)
    have e : dt / pr.mu * (F.B1 i * curlE1 pr F i + F.B2 i * curlE2 pr F i + F.B3 i * curlE3 pr F i)
        = (dt * (F.B1 i * curlE1 pr F i) + dt * (F.B2 i * curlE2 pr F i) + dt * (F.B3 i * curlE3 pr F i)) / pr.mu := by ring
    rw [e, abs_div, abs_of_pos hm, div_le_iff₀ hm]
    have e2 : (dt ^ 2 / (4 * θ * pr.mu) * (curlE1 pr F i ^ 2 + curlE2 pr F i ^ 2 + curlE3 pr F i ^ 2)
        + θ * ((F.B1 i ^ 2 + F.B2 i ^ 2 + F.B3 i ^ 2) / pr.mu)) * pr.mu
        = (dt ^ 2 / (4 * θ) * curlE1 pr F i ^ 2 + θ * F.B1 i ^ 2) + (dt ^ 2 / (4 * θ) * curlE2 pr F i ^ 2 + θ * F.B2 i ^ 2)
          + (dt ^ 2 / (4 * θ) * curlE3 pr F i ^ 2 + θ * F.B3 i ^ 2) := by field_simp; ring
    rw [e2]
    exact ((abs_add_le _ _).trans (add_le_add_left (abs_add_le _ _) _)).trans (by linarith)
  rw [crossTerm, mul_sum]
  refine (abs_sum_le_sum_abs _ _).trans ((sum_le_sum fun i _ => p i).trans ?_)
  rw [sum_add_distrib, ← mul_sum, ← mul_sum]
  have hE0 : 0 ≤ normE2 F := sum_nonneg fun i _ => by positivity
  have h1 : dt ^ 2 / (4 * θ * pr.mu) * ∑ i, (curlE1 pr F i ^ 2 + curlE2 pr F i ^ 2 + curlE3 pr F i ^ 2) ≤ θ * (pr.eps * normE2 F) := by
    have hp : 0 ≤ dt ^ 2 / (4 * θ * pr.mu) := by positivity
    refine (mul_le_mul_of_nonneg_left cb hp).trans ?_
    have e : dt ^ 2 / (4 * θ * pr.mu) * (4 * (1 / pr.dq1 ^ 2 + 1 / pr.dq2 ^ 2) * normE2 F)
        = (dt ^ 2 * (1 / pr.dq1 ^ 2 + 1 / pr.dq2 ^ 2)) * (normE2 F / (θ * pr.mu)) := by field_simp
    rw [e]
    refine (mul_le_mul_of_nonneg_right hcfl (by positivity)).trans (le_of_eq ?_)
    field_simp
  have e : stagEnergy pr F = pr.eps * normE2 F + ∑ i, (F.B1 i ^ 2 + F.B2 i ^ 2 + F.B3 i ^ 2) / pr.mu := by
    rw [stagEnergy, sum_add_distrib, normE2, mul_sum]
  rw [e, mul_add]
  linarith

theorem stagEnergy_nonneg (pr : FieldParams Q ℝ) (he : 0 < pr.eps) (hm : 0 < pr.mu) (F : EM Q ℝ) : 0 ≤ stagEnergy pr F :=
  sum_nonneg fun i _ => by positivity

theorem keptEnergy_bounds (pr : FieldParams Q ℝ) (he : 0 < pr.eps) (hm : 0 < pr.mu) {dt θ : ℝ} (hθ : 0 < θ)
    (hcfl : dt ^ 2 * (1 / pr.dq1 ^ 2 + 1 / pr.dq2 ^ 2) ≤ θ ^ 2 * (pr.eps * pr.mu)) (F : EM Q ℝ) :
    (1 - θ) * stagEnergy pr F ≤ keptEnergy pr dt F ∧ keptEnergy pr dt F ≤ (1 + θ) * stagEnergy pr F := by
  have := abs_le.1 (crossTerm_bound pr he hm hθ hcfl F)
  rw [keptEnergy]
  constructor <;> nlinarith [this.1, this.2]

/-- The form is quadratic. -/
theorem keptEnergy_axpy (pr : FieldParams Q ℝ) (dt : ℝ) (F G : EM Q ℝ) : ∃ b : ℝ, ∀ t,
    keptEnergy pr dt (F.axpy t G) = keptEnergy pr dt G * (t * t) + b * t + keptEnergy pr dt F := by
  refine ⟨∑ i, (pr.eps * (2 * (F.E1 i * G.E1 i + F.E2 i * G.E2 i + F.E3 i * G.E3 i)) + 2 * (F.B1 i * G.B1 i + F.B2 i * G.B2 i + F.B3 i * G.B3 i) / pr.mu
    + dt / pr.mu * ((F.B1 i * curlE1 pr G i + F.B2 i * curlE2 pr G i + F.B3 i * curlE3 pr G i)
      + (G.B1 i * curlE1 pr F i + G.B2 i * curlE2 pr F i + G.B3 i * curlE3 pr F i))), fun t => ?_⟩
  simp only [keptEnergy, stagEnergy, crossTerm, mul_sum, sum_mul, ← sum_add_distrib]
  refine sum_congr rfl fun i _ => ?_
  simp only [EM.axpy, curlE1, curlE2, curlE3, afShift_fwd]
  ring

/-- The triangle inequality. -/
theorem keptEnergy_triangle (pr : FieldParams Q ℝ) {dt : ℝ} (h0 : ∀ F : EM Q ℝ, 0 ≤ keptEnergy pr dt F) (F G : EM Q ℝ) :
    √(keptEnergy pr dt (F.axpy 1 G)) ≤ √(keptEnergy pr dt F) + √(keptEnergy pr dt G) := by
  obtain ⟨b, hb⟩ := keptEnergy_axpy pr dt F G
  have hd := discrim_le_zero (a := keptEnergy pr dt G) (b := b) (c := keptEnergy pr dt F) fun t => by rw [← hb t]; exact h0 _
  rw [discrim] at hd
  have hF := h0 F
  have hG := h0 G
  rw [Real.sqrt_le_left (by positivity), hb 1, add_sq, Real.sq_sqrt hF, Real.sq_sqrt hG]
  have : b ≤ 2 * √(keptEnergy pr dt F) * √(keptEnergy pr dt G) := by
    rw [mul_assoc, ← Real.sqrt_mul hF]
    have hq : b ^ 2 ≤ (2 * √(keptEnergy pr dt F * keptEnergy pr dt G)) ^ 2 := by
      rw [mul_pow, Real.sq_sqrt (mul_nonneg hF hG)]
      linarith
    exact (abs_le_of_sq_le_sq' hq (by positivity)).2
  linarith

/-- Error of one step: the fields of a solution `X`, `X'` before and after, and the defects `d` of the two equations. -/
theorem step_defect (pr : FieldParams Q ℝ) (dt : ℝ) (J : Currents Q ℝ) (F X X' : EM Q ℝ) :
    let d : EM Q ℝ := ⟨fun i => (addCurlB pr J dt X).E1 i - X'.E1 i, fun i => (addCurlB pr J dt X).E2 i - X'.E2 i,
      fun i => (addCurlB pr J dt X).E3 i - X'.E3 i, fun i => X.B1 i - dt * curlE1 pr X' i - X'.B1 i,
      fun i => X.B2 i - dt * curlE2 pr X' i - X'.B2 i, fun i => X.B3 i - dt * curlE3 pr X' i - X'.B3 i⟩
    (evolveB pr dt (addCurlB pr J dt F)).axpy (-1) X' = (vac pr dt (F.axpy (-1) X)).axpy 1 (evolveB pr dt d) ∧
      keptEnergy pr dt (evolveB pr dt d) = keptEnergy pr (-dt) d := by
  intro d
  constructor
  · ext i <;> simp only [d, vac, evolveB, addCurlB, EM.axpy, curlE1, curlE2, curlE3, curlB1, curlB2, curlB3, Currents.zero, afShift_fwd, afShift_back] <;> ring
  · generalize d = d
    have e1 : curlE1 pr (evolveB pr dt d) = curlE1 pr d := rfl
    have e2 : curlE2 pr (evolveB pr dt d) = curlE2 pr d := rfl
    have e3 : curlE3 pr (evolveB pr dt d) = curlE3 pr d := rfl
    simp only [keptEnergy, stagEnergy, crossTerm, mul_sum, ← sum_add_distrib, e1, e2, e3]
    refine sum_congr rfl fun i _ => ?_
    simp only [evolveB]
    ring

end Bolt
