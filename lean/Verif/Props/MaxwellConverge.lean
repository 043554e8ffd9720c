import Verif.Proofs.MaxwellConverge
import Mathlib.Analysis.SpecialFunctions.Trigonometric.Deriv

/-!
# C94: the field solver converges to Maxwell's equations
-/

set_option linter.unusedSectionVars false

namespace Bolt

open Finset

variable {G : Rect} [NeZero G.N1] [NeZero G.N2] {eps mu M : ℝ} {E B J : Fin 3 → ℝ → ℝ × ℝ → ℝ}

theorem energyDistance_eq (F F' : EM G.Cell ℝ) :
    energyDistance eps mu F F' = √(stagEnergy (G.params eps mu) (F.axpy (-1) F') / Fintype.card G.Cell) := by
  rw [energyDistance, stagEnergy]
  refine congrArg _ (congrArg (· / _) (sum_congr rfl fun i _ => ?_))
  simp only [EM.axpy, Rect.params]
  ring

section
variable (hs : MaxwellSolution G.L1 G.L2 eps mu M E B J) (he : 0 < eps) (hm : 0 < mu) (hL1 : 0 < G.L1) (hL2 : 0 < G.L2)
  {dt θ : ℝ} (hdt : 0 ≤ dt) (hθ : 0 < θ) (hθ1 : θ < 1) (hcfl : dt ^ 2 * (1 / G.h1 ^ 2 + 1 / G.h2 ^ 2) ≤ θ ^ 2 * (eps * mu))
include hs he hm hL1 hL2 hdt hθ hθ1 hcfl

theorem kept_nonneg (F : EM G.Cell ℝ) : 0 ≤ keptEnergy (G.params eps mu) dt F :=
  (mul_nonneg (sub_nonneg.2 hθ1.le) (stagEnergy_nonneg _ he hm F)).trans (keptEnergy_bounds (G.params eps mu) he hm hθ hcfl F).1

theorem defect_energy (t : ℝ) : stagEnergy (G.params eps mu) (defect G eps mu E B J dt t) ≤
    Fintype.card G.Cell * ((3 * (eps + 1 / mu)) * defectBound G eps mu M dt ^ 2) := by
  have h : ∀ i, eps * ((defect G eps mu E B J dt t).E1 i ^ 2 + (defect G eps mu E B J dt t).E2 i ^ 2 + (defect G eps mu E B J dt t).E3 i ^ 2)
      + ((defect G eps mu E B J dt t).B1 i ^ 2 + (defect G eps mu E B J dt t).B2 i ^ 2 + (defect G eps mu E B J dt t).B3 i ^ 2) / mu ≤
      3 * (eps + 1 / mu) * defectBound G eps mu M dt ^ 2 := by
    intro i
    obtain ⟨a1, a2, a3, b1, b2, b3⟩ := defect_le hs he hm hL1 hL2 hdt t i
    have sq : ∀ {x b : ℝ}, |x| ≤ b → x ^ 2 ≤ b ^ 2 := fun {x b} h => by
      rw [← sq_abs x]; exact pow_le_pow_left₀ (abs_nonneg _) h 2
    have s1 := sq a1; have s2 := sq a2; have s3 := sq a3; have s4 := sq b1; have s5 := sq b2; have s6 := sq b3
    have e1 := mul_le_mul_of_nonneg_left (add_le_add (add_le_add s1 s2) s3) he.le
    have e2 := div_le_div_of_nonneg_right (add_le_add (add_le_add s4 s5) s6) hm.le
    refine (add_le_add e1 e2).trans (le_of_eq ?_)
    field_simp
    ring
  rw [stagEnergy]
  refine (sum_le_sum fun i _ => h i).trans (le_of_eq ?_)
  simp

theorem fdtd_step_error (t : ℝ) (F : EM G.Cell ℝ) :
    √(keptEnergy (G.params eps mu) dt ((evolveB (G.params eps mu) dt (addCurlB (G.params eps mu) (G.currents J (t + dt / 2)) dt F)).axpy (-1)
        (G.fields E B (t + dt) (t + dt + dt / 2)))) ≤
      √(keptEnergy (G.params eps mu) dt (F.axpy (-1) (G.fields E B t (t + dt / 2))))
        + √((1 + θ) * (Fintype.card G.Cell * ((3 * (eps + 1 / mu)) * defectBound G eps mu M dt ^ 2))) := by
  obtain ⟨e1, e2⟩ := step_defect (G.params eps mu) dt (G.currents J (t + dt / 2)) F (G.fields E B t (t + dt / 2))
    (G.fields E B (t + dt) (t + dt + dt / 2))
  rw [e1]
  refine (keptEnergy_triangle _ (kept_nonneg hs he hm hL1 hL2 hdt hθ hθ1 hcfl) _ _).trans ?_
  rw [keptEnergy_vac _ rfl (show (G.params eps mu).eps ≠ 0 from he.ne') (show (G.params eps mu).mu ≠ 0 from hm.ne'), e2]
  refine add_le_add le_rfl (Real.sqrt_le_sqrt ?_)
  have hcfl' : (-dt) ^ 2 * (1 / G.h1 ^ 2 + 1 / G.h2 ^ 2) ≤ θ ^ 2 * (eps * mu) := by rw [neg_sq]; exact hcfl
  refine (keptEnergy_bounds (G.params eps mu) he hm hθ hcfl' _).2.trans ?_
  exact mul_le_mul_of_nonneg_left (defect_energy hs he hm hL1 hL2 hdt hθ hθ1 hcfl t) (by linarith)

theorem fdtd_run_error (n : ℕ) : ∀ (t : ℝ) (F F' : EM G.Cell ℝ), runFDTD (G.params eps mu) (G.steps J dt n t) F = .ok F' →
    √(keptEnergy (G.params eps mu) dt (F'.axpy (-1) (G.fields E B (t + n * dt) (t + n * dt + dt / 2)))) ≤
      √(keptEnergy (G.params eps mu) dt (F.axpy (-1) (G.fields E B t (t + dt / 2))))
        + n * √((1 + θ) * (Fintype.card G.Cell * ((3 * (eps + 1 / mu)) * defectBound G eps mu M dt ^ 2))) := by
  induction n with
  | zero =>
    intro t F F' h
    simp only [Rect.steps, runFDTD, Except.ok.injEq] at h
    subst h
    simp
  | succ n ih =>
    intro t F F' h
    simp only [Rect.steps, runFDTD, EM.setE, fdtd_eq (G.params eps mu) rfl, bind, Except.bind] at h
    have h1 := ih _ _ _ h
    have h2 := fdtd_step_error hs he hm hL1 hL2 hdt hθ hθ1 hcfl t F
    rw [show t + dt + n * dt = t + (n + 1 : ℕ) * dt by push_cast; ring] at h1
    push_cast at h1 ⊢
    linarith

/-- **C94 (error bound).** Let `E`, `B` be a periodic solution of Maxwell's equations for the currents `J` with third derivatives bounded by `M`.
A run of `n` steps of size `dt` with a Courant number `θ < 1`, given the currents half-way through each step, ends within a constant times the
distance it started at plus the elapsed time times `dt² + h1² + h2²` of the solution, electric field at the time reached and magnetic field
half a step later, in the root mean square of the energy density. -/
theorem C94_error_bound (n : ℕ) (t : ℝ) (F F' : EM G.Cell ℝ) (h : runFDTD (G.params eps mu) (G.steps J dt n t) F = .ok F') :
    energyDistance eps mu F' (G.fields E B (t + n * dt) (t + n * dt + dt / 2)) ≤
      √((1 + θ) / (1 - θ)) * (energyDistance eps mu F (G.fields E B t (t + dt / 2))
        + √(3 * (eps + 1 / mu)) * (M / 24) * (n * dt) * (dt ^ 2 + (1 + 1 / (eps * mu)) * (G.h1 ^ 2 + G.h2 ^ 2))) := by
  have hr := fdtd_run_error hs he hm hL1 hL2 hdt hθ hθ1 hcfl n t F F' h
  have θ' : 0 < 1 - θ := sub_pos.2 hθ1
  have θ2 : 0 ≤ 1 + θ := by linarith
  have n0 : (0 : ℝ) < Fintype.card G.Cell := Nat.cast_pos.2 Fintype.card_pos
  have δ0 : 0 ≤ defectBound G eps mu M dt := (abs_nonneg _).trans (defect_le hs he hm hL1 hL2 hdt 0 0).1
  rw [energyDistance_eq, energyDistance_eq]
  set e' := F'.axpy (-1) (G.fields E B (t + n * dt) (t + n * dt + dt / 2))
  set e := F.axpy (-1) (G.fields E B t (t + dt / 2))
  have l := (keptEnergy_bounds (G.params eps mu) he hm hθ hcfl e').1
  have u := (keptEnergy_bounds (G.params eps mu) he hm hθ hcfl e).2
  have a1 : √(stagEnergy (G.params eps mu) e' / Fintype.card G.Cell) ≤ √(keptEnergy (G.params eps mu) dt e') / √((1 - θ) * Fintype.card G.Cell) := by
    rw [← Real.sqrt_div' _ (by positivity)]
    refine Real.sqrt_le_sqrt ?_
    rw [div_le_div_iff₀ n0 (by positivity)]
    nlinarith
  have a2 : √(keptEnergy (G.params eps mu) dt e) ≤ √((1 + θ) * stagEnergy (G.params eps mu) e) := Real.sqrt_le_sqrt u
  have d0 : 0 < √((1 - θ) * Fintype.card G.Cell) := Real.sqrt_pos.2 (by positivity)
  refine a1.trans ?_
  rw [div_le_iff₀ d0]
  refine hr.trans ((add_le_add a2 le_rfl).trans (le_of_eq ?_))
  rw [Real.sqrt_div θ2, Real.sqrt_mul θ'.le, Real.sqrt_mul θ2, Real.sqrt_mul θ2, Real.sqrt_mul n0.le, Real.sqrt_mul (by positivity),
    Real.sqrt_sq δ0, Real.sqrt_div' _ n0.le, defectBound]
  have w1 : √(1 - θ) ≠ 0 := (Real.sqrt_pos.2 θ').ne'
  have w2 : √(Fintype.card G.Cell : ℝ) ≠ 0 := (Real.sqrt_pos.2 n0).ne'
  field_simp

end

/-- **C94 (convergence).** Let `E`, `B` be a periodic solution of Maxwell's equations with bounded third derivatives. Given an elapsed time `T`, a
Courant number `θ < 1` and a tolerance `η`, every run on cells that are small enough, started close enough to the solution, with the currents of the
solution and a time step that keeps the Courant number, stays within `η` of the solution for the time `T`. -/
theorem C94_convergence {L1 L2 : ℝ} (hs : MaxwellSolution L1 L2 eps mu M E B J) (he : 0 < eps) (hm : 0 < mu) (hL1 : 0 < L1) (hL2 : 0 < L2)
    (T : ℝ) {θ η : ℝ} (hθ : 0 < θ) (hθ1 : θ < 1) (hη : 0 < η) :
    ∃ H > 0, ∀ (G : Rect) [NeZero G.N1] [NeZero G.N2], G.L1 = L1 → G.L2 = L2 → G.h1 ≤ H → G.h2 ≤ H →
      ∀ dt : ℝ, 0 ≤ dt → dt ^ 2 * (1 / G.h1 ^ 2 + 1 / G.h2 ^ 2) ≤ θ ^ 2 * (eps * mu) →
      ∀ (n : ℕ) (t : ℝ) (F F' : EM G.Cell ℝ), n * dt ≤ T → energyDistance eps mu F (G.fields E B t (t + dt / 2)) ≤ H →
        runFDTD (G.params eps mu) (G.steps J dt n t) F = .ok F' →
        energyDistance eps mu F' (G.fields E B (t + n * dt) (t + n * dt + dt / 2)) ≤ η := by
  have em : 0 < eps * mu := mul_pos he hm
  have hM : 0 ≤ M := (abs_nonneg _).trans ((hs.smoothE 0).bound 0 0)
  set r := √((1 + θ) / (1 - θ)) with hr
  set k := √(3 * (eps + 1 / mu)) * (M / 24) with hk
  set c := eps * mu + (1 + 1 / (eps * mu)) * 2 with hc
  have r0 : 0 ≤ r := Real.sqrt_nonneg _
  have k0 : 0 ≤ k := by positivity
  have c0 : 0 ≤ c := by positivity
  set A := r * (1 + k * |T| * c) with hA
  have A0 : 0 ≤ A := by positivity
  refine ⟨min 1 (η / (A + 1)), by positivity, ?_⟩
  intro G _ _ g1 g2 b1 b2 dt hdt hcfl n t F F' hn hF h
  subst g1 g2
  set H := min 1 (η / (A + 1)) with hH
  have H0 : 0 < H := by positivity
  have H1 : H ≤ 1 := min_le_left _ _
  have H2 : H * (A + 1) ≤ η := by
    have := min_le_right 1 (η / (A + 1))
    rw [← hH, le_div_iff₀ (by positivity)] at this
    exact this
  have p1 : 0 < G.h1 := h1_pos hs he hm hL1 hL2
  have p2 : 0 < G.h2 := h2_pos hs he hm hL1 hL2
  have q1 : G.h1 ^ 2 ≤ H ^ 2 := pow_le_pow_left₀ p1.le b1 2
  have q2 : G.h2 ^ 2 ≤ H ^ 2 := pow_le_pow_left₀ p2.le b2 2
  have hh : H ^ 2 ≤ H := by nlinarith
  have qd : dt ^ 2 ≤ (eps * mu) * H ^ 2 := by
    have s1 : dt ^ 2 * (1 / G.h1 ^ 2) ≤ eps * mu := by
      have : 0 ≤ dt ^ 2 * (1 / G.h2 ^ 2) := by positivity
      have t2 : θ ^ 2 * (eps * mu) ≤ 1 * (eps * mu) := mul_le_mul_of_nonneg_right (by nlinarith) em.le
      rw [mul_add] at hcfl
      linarith
    rw [mul_one_div, div_le_iff₀ (by positivity)] at s1
    exact s1.trans (mul_le_mul_of_nonneg_left q1 em.le)
  have hb := C94_error_bound hs he hm hL1 hL2 hdt hθ hθ1 hcfl n t F F' h
  have i0 : 0 ≤ (1 + 1 / (eps * mu)) := by positivity
  have hsum : dt ^ 2 + (1 + 1 / (eps * mu)) * (G.h1 ^ 2 + G.h2 ^ 2) ≤ c * H := by
    have := mul_le_mul_of_nonneg_left (add_le_add q1 q2) i0
    calc _ ≤ (eps * mu) * H ^ 2 + (1 + 1 / (eps * mu)) * (H ^ 2 + H ^ 2) := add_le_add qd this
      _ = c * H ^ 2 := by rw [hc]; ring
      _ ≤ c * H := mul_le_mul_of_nonneg_left hh c0
  have hT : n * dt ≤ |T| := hn.trans (le_abs_self T)
  have hn0 : 0 ≤ n * dt := by positivity
  have hprod : k * (n * dt) * (dt ^ 2 + (1 + 1 / (eps * mu)) * (G.h1 ^ 2 + G.h2 ^ 2)) ≤ k * |T| * (c * H) :=
    mul_le_mul (mul_le_mul_of_nonneg_left hT k0) hsum (by positivity) (by positivity)
  refine hb.trans ((mul_le_mul_of_nonneg_left (add_le_add hF hprod) r0).trans ?_)
  calc r * (H + k * |T| * (c * H)) = H * A := by rw [hA]; ring
    _ ≤ H * (A + 1) := mul_le_mul_of_nonneg_left (by linarith) H0.le
    _ ≤ η := H2

/-- **C94 (start).** Started, as the code is, with both fields at the same time, the run starts at a distance of at most half a time step times the
rate of change of the magnetic field. -/
theorem C94_same_time (hs : MaxwellSolution G.L1 G.L2 eps mu M E B J) (hm : 0 < mu) {R dt : ℝ} (hdt : 0 ≤ dt)
    (hR : ∀ k t p, |deriv (fun t => B k t p) t| ≤ R) (t : ℝ) :
    energyDistance eps mu (G.fields E B t t) (G.fields E B t (t + dt / 2)) ≤ √(3 / mu) * (R * (dt / 2)) := by
  have R0 : 0 ≤ R := (abs_nonneg _).trans (hR 0 0 0)
  have hb : ∀ k p, (B k t p - B k (t + dt / 2) p) ^ 2 ≤ (R * (dt / 2)) ^ 2 := by
    intro k p
    have hd : Differentiable ℝ fun t => B k t p := ((hs.smoothB k).smooth p).differentiable (by norm_num)
    have := Convex.norm_image_sub_le_of_norm_deriv_le (f := fun t => B k t p) (s := Set.univ) (C := R) (fun x _ => hd x)
      (fun x _ => hR k x p) convex_univ (Set.mem_univ (t + dt / 2)) (Set.mem_univ t)
    rw [Real.norm_eq_abs, Real.norm_eq_abs, show t - (t + dt / 2) = -(dt / 2) by ring, abs_neg, abs_of_nonneg (by linarith : 0 ≤ dt / 2)] at this
    rw [← sq_abs]
    exact pow_le_pow_left₀ (abs_nonneg _) this 2
  have n0 : (0 : ℝ) < Fintype.card G.Cell := Nat.cast_pos.2 Fintype.card_pos
  rw [energyDistance, ← Real.sqrt_sq (show 0 ≤ R * (dt / 2) by positivity), ← Real.sqrt_mul (by positivity)]
  refine Real.sqrt_le_sqrt ?_
  rw [div_le_iff₀ n0]
  refine (sum_le_sum fun i _ => ?_ : _ ≤ ∑ i : G.Cell, 3 / mu * (R * (dt / 2)) ^ 2).trans (le_of_eq ?_)
  · simp only [Rect.fields, sub_self]
    have a := hb 0 (G.bottom i); have b := hb 1 (G.left i); have c := hb 2 (G.corner i)
    have := div_le_div_of_nonneg_right (add_le_add (add_le_add a b) c) hm.le
    refine le_trans (le_of_eq ?_) (this.trans (le_of_eq ?_))
    · ring
    · ring
  · simp [mul_comm]

/-- **C94 (runs as the code starts them).** With both fields initialised at the same time the runs converge as well: the initialisation only adds a
term that is proportional to the time step. -/
theorem C94_convergence_same_time {L1 L2 : ℝ} (hs : MaxwellSolution L1 L2 eps mu M E B J) (he : 0 < eps) (hm : 0 < mu) (hL1 : 0 < L1)
    (hL2 : 0 < L2) {R : ℝ} (hR : ∀ k t p, |deriv (fun t => B k t p) t| ≤ R) (T : ℝ) {θ η : ℝ} (hθ : 0 < θ) (hθ1 : θ < 1) (hη : 0 < η) :
    ∃ H > 0, ∀ (G : Rect) [NeZero G.N1] [NeZero G.N2], G.L1 = L1 → G.L2 = L2 → G.h1 ≤ H → G.h2 ≤ H →
      ∀ dt : ℝ, 0 ≤ dt → dt ≤ H → dt ^ 2 * (1 / G.h1 ^ 2 + 1 / G.h2 ^ 2) ≤ θ ^ 2 * (eps * mu) →
      ∀ (n : ℕ) (t : ℝ) (F' : EM G.Cell ℝ), n * dt ≤ T → runFDTD (G.params eps mu) (G.steps J dt n t) (G.fields E B t t) = .ok F' →
        energyDistance eps mu F' (G.fields E B (t + n * dt) (t + n * dt + dt / 2)) ≤ η := by
  obtain ⟨H, H0, hH⟩ := C94_convergence hs he hm hL1 hL2 T hθ hθ1 hη
  have R0 : 0 ≤ R := (abs_nonneg _).trans (hR 0 0 0)
  set c := √(3 / mu) * R with hc
  have c0 : 0 ≤ c := by positivity
  refine ⟨min H (H / (c + 1)), by positivity, ?_⟩
  intro G _ _ g1 g2 b1 b2 dt hdt bd hcfl n t F' hn h
  refine hH G g1 g2 (b1.trans (min_le_left _ _)) (b2.trans (min_le_left _ _)) dt hdt hcfl n t _ F' hn ?_ h
  subst g1 g2
  refine (C94_same_time hs hm hdt hR t).trans ?_
  have := bd.trans (min_le_right _ _)
  rw [le_div_iff₀ (by positivity)] at this
  calc _ = c * dt / 2 := by rw [hc]; ring
    _ ≤ c * dt := by nlinarith [mul_nonneg c0 hdt]
    _ ≤ H := by linarith

/-- Electric field of a plane wave along q1, polarised along q3. -/
noncomputable def waveE : Fin 3 → ℝ → ℝ × ℝ → ℝ
  | 2 => fun t p => Real.sin (p.1 - t)
  | _ => fun _ _ => 0

/-- Its magnetic field. -/
noncomputable def waveB : Fin 3 → ℝ → ℝ × ℝ → ℝ
  | 1 => fun t p => -Real.sin (p.1 - t)
  | _ => fun _ _ => 0

theorem deriv_sin_sub (t : ℝ) : (deriv fun x => Real.sin (x - t)) = fun x => Real.cos (x - t) := by
  funext x
  have := ((hasDerivAt_id x).sub_const t).sin
  simpa using this.deriv

theorem deriv_cos_sub (t : ℝ) : (deriv fun x => Real.cos (x - t)) = fun x => -Real.sin (x - t) := by
  funext x
  have := ((hasDerivAt_id x).sub_const t).cos
  simpa using this.deriv

theorem deriv_sin_rsub (t : ℝ) : (deriv fun x => Real.sin (t - x)) = fun x => -Real.cos (t - x) := by
  funext x
  have := ((hasDerivAt_id x).const_sub t).sin
  simpa using this.deriv

theorem deriv_cos_rsub (t : ℝ) : (deriv fun x => Real.cos (t - x)) = fun x => Real.sin (t - x) := by
  funext x
  have := ((hasDerivAt_id x).const_sub t).cos
  simpa using this.deriv

theorem wave_sin (a : ℝ) (ha : |a| ≤ 1) : SmoothInTime (2 * Real.pi) (2 * Real.pi) 1 fun t p => a * Real.sin (p.1 - t) where
  space t :=
    { smooth1 := fun y => by fun_prop
      smooth2 := fun x => (contDiff_const : ContDiff ℝ 3 fun _ : ℝ => a * Real.sin (x - t))
      bound1 := fun x y => by
        have : ∀ x, iteratedDeriv 3 (fun x => a * Real.sin (x - t)) x = -(a * Real.cos (x - t)) := by
          intro x
          simp [iteratedDeriv_succ, iteratedDeriv_zero, deriv_sin_sub, deriv_cos_sub]
        rw [show (fun x => a * Real.sin ((x, y).1 - t)) = fun x => a * Real.sin (x - t) from rfl, this, abs_neg, abs_mul]
        exact mul_le_one₀ ha (abs_nonneg _) (Real.abs_cos_le_one _)
      bound2 := fun x y => by simp [iteratedDeriv_succ, iteratedDeriv_zero]
      periodic1 := fun x y => by
        rw [show (x + 2 * Real.pi, y).1 - t = x - t + 2 * Real.pi by ring, Real.sin_add_two_pi]
      periodic2 := fun x y => rfl }
  smooth p := by fun_prop
  bound t p := by
    have : ∀ t, iteratedDeriv 3 (fun t => a * Real.sin (p.1 - t)) t = a * Real.cos (p.1 - t) := by
      intro t
      simp [iteratedDeriv_succ, iteratedDeriv_zero, deriv_sin_rsub, deriv_cos_rsub]
    rw [this, abs_mul]
    exact mul_le_one₀ ha (abs_nonneg _) (Real.abs_cos_le_one _)

/-- The plane wave solves Maxwell's equations without currents. -/
theorem wave_solution : MaxwellSolution (2 * Real.pi) (2 * Real.pi) 1 1 1 waveE waveB (fun _ _ _ => 0) where
  smoothE k := by
    have z := wave_sin 0 (by simp)
    have o := wave_sin 1 (by simp)
    simp only [zero_mul, one_mul] at z o
    match k with
    | 0 => exact z
    | 1 => exact z
    | 2 => exact o
  smoothB k := by
    have z := wave_sin 0 (by simp)
    have o := wave_sin (-1) (by simp)
    simp only [zero_mul, neg_one_mul] at z o
    match k with
    | 0 => exact z
    | 1 => exact o
    | 2 => exact z
  ampere1 t x y := by simp [waveE, waveB]
  ampere2 t x y := by simp [waveE, waveB]
  ampere3 t x y := by simp [waveE, waveB, deriv_sin_sub, deriv_sin_rsub]
  faraday1 t x y := by simp [waveE, waveB]
  faraday2 t x y := by simp [waveE, waveB, deriv_sin_sub, deriv_sin_rsub]
  faraday3 t x y := by simp [waveE, waveB]

/-- A grid of 8 × 8 cells. -/
noncomputable def waveGrid : Rect := ⟨0, 0, 2 * Real.pi, 2 * Real.pi, 8, 8⟩

instance : NeZero waveGrid.N1 := ⟨by simp [waveGrid]⟩
instance : NeZero waveGrid.N2 := ⟨by simp [waveGrid]⟩

/-- Non-vacuity: the plane wave with time steps of half a cell, a Courant number below 3/4, for a hundred steps. -/
example : ∃ F', runFDTD (waveGrid.params 1 1) (waveGrid.steps (fun _ _ _ => 0) (Real.pi / 8) 100 0)
      (waveGrid.fields waveE waveB 0 (0 + Real.pi / 8 / 2)) = .ok F' ∧
    energyDistance 1 1 F' (waveGrid.fields waveE waveB (0 + (100 : ℕ) * (Real.pi / 8)) (0 + (100 : ℕ) * (Real.pi / 8) + Real.pi / 8 / 2)) ≤
      √((1 + 3 / 4) / (1 - 3 / 4)) * (energyDistance 1 1 (waveGrid.fields waveE waveB 0 (0 + Real.pi / 8 / 2))
          (waveGrid.fields waveE waveB 0 (0 + Real.pi / 8 / 2))
        + √(3 * (1 + 1 / 1)) * (1 / 24) * ((100 : ℕ) * (Real.pi / 8))
          * ((Real.pi / 8) ^ 2 + (1 + 1 / (1 * 1)) * (waveGrid.h1 ^ 2 + waveGrid.h2 ^ 2))) := by
  obtain ⟨F', h⟩ := C13_run_succeeds (waveGrid.params 1 1) rfl (waveGrid.steps (fun _ _ _ => 0) (Real.pi / 8) 100 0)
    (waveGrid.fields waveE waveB 0 (0 + Real.pi / 8 / 2))
  have pp := Real.pi_pos
  exact ⟨F', h, C94_error_bound (G := waveGrid) wave_solution one_pos one_pos (by simp [waveGrid, pp]) (by simp [waveGrid, pp]) (by positivity)
    (by norm_num) (by norm_num) (by
      simp only [Rect.h1, Rect.h2, waveGrid]
      push_cast
      field_simp
      norm_num) 100 0 _ F' h⟩

end Bolt
