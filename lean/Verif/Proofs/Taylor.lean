import Verif.Proofs.Jet
import Mathlib.Analysis.Calculus.FDeriv.Symmetric
import Mathlib.Analysis.Calculus.FDeriv.CompCLM
import Mathlib.Analysis.Calculus.ContDiff.Basic
import Mathlib.Tactic.Module

/-!
# Taylor expansion of a vector field through fourth order, with curried derivatives
-/

namespace Bolt

set_option synthInstance.maxHeartbeats 400000
set_option maxSynthPendingDepth 10
set_option linter.unusedSectionVars false

open Asymptotics Filter Topology Finset

section
variable {E G : Type} [NormedAddCommGroup E] [NormedSpace ℝ E] [NormedAddCommGroup G] [NormedSpace ℝ G]

theorem isBigO_of_fderiv {n : ℕ} {g : E → G} {g' : E → E →L[ℝ] G}
    (hd : ∀ᶠ x in 𝓝 0, HasFDerivAt g (g' x) x) (h0 : g 0 = 0)
    (hO : g' =O[𝓝 0] fun x => ‖x‖ ^ n) : g =O[𝓝 0] fun x => ‖x‖ ^ (n + 1) := by
  obtain ⟨C, hCpos, hC⟩ := hO.exists_pos
  obtain ⟨r, hr, hball⟩ := Metric.eventually_nhds_iff_ball.1 (hd.and hC.bound)
  refine IsBigO.of_bound C ?_
  filter_upwards [Metric.ball_mem_nhds (0 : E) hr] with x hx
  have hx' : ‖x‖ < r := by simpa using hx
  have hseg : ∀ t ∈ segment ℝ 0 x, ‖t‖ ≤ ‖x‖ := by
    intro t ht
    obtain ⟨u, v, hu, hv, huv, rfl⟩ := ht
    rw [smul_zero, zero_add, norm_smul, Real.norm_of_nonneg hv]
    exact mul_le_of_le_one_left (norm_nonneg _) (by linarith)
  have := (convex_segment (𝕜 := ℝ) 0 x).norm_image_sub_le_of_norm_hasFDerivWithin_le (f := g)
    (f' := g') (C := C * ‖x‖ ^ n)
    (fun t ht => (hball t (by simpa using (hseg t ht).trans_lt hx')).1.hasFDerivWithinAt)
    (fun t ht => by
      refine (hball t (by simpa using (hseg t ht).trans_lt hx')).2.trans ?_
      rw [norm_pow, norm_norm]
      exact mul_le_mul_of_nonneg_left (pow_le_pow_left₀ (norm_nonneg _) (hseg t ht) _) hCpos.le)
    (left_mem_segment ℝ 0 x) (right_mem_segment ℝ 0 x)
  rw [h0, sub_zero, sub_zero] at this
  rw [norm_pow, norm_norm, pow_succ, ← mul_assoc]
  exact this

theorem eventually_shift {x0 : E} {p : E → Prop} (h : ∀ᶠ x in 𝓝 x0, p x) : ∀ᶠ d in 𝓝 (0 : E), p (x0 + d) := by
  have : Tendsto (fun d : E => x0 + d) (𝓝 0) (𝓝 x0) := by
    have := (by fun_prop : Continuous fun d : E => x0 + d).tendsto 0
    rwa [add_zero] at this
  exact this.eventually h

theorem taylor1 {F : E → G} {x0 : E} {D1 : E →L[ℝ] G} (h : HasFDerivAt F D1 x0) :
    (fun d => F (x0 + d) - F x0) =O[𝓝 0] fun d => ‖d‖ ^ 1 := by
  have h1 := h.isBigO_sub
  have : Tendsto (fun d : E => x0 + d) (𝓝 0) (𝓝 x0) := by
    have := (by fun_prop : Continuous fun d : E => x0 + d).tendsto 0
    rwa [add_zero] at this
  have h2 := h1.comp_tendsto this
  simp only [pow_one]
  refine (h2.congr_right fun d => ?_).norm_right
  simp

theorem hasFDerivAt_shift {F : E → G} {x0 d : E} {L : E →L[ℝ] G} (h : HasFDerivAt F L (x0 + d)) :
    HasFDerivAt (fun d => F (x0 + d)) L d := by
  have := h.comp d ((hasFDerivAt_id d).const_add x0)
  rw [ContinuousLinearMap.comp_id] at this
  exact this

theorem taylor2 {F : E → G} {F1 : E → E →L[ℝ] G} {x0 : E}
    (h1 : ∀ᶠ x in 𝓝 x0, HasFDerivAt F (F1 x) x) (h2 : (fun d => F1 (x0 + d) - F1 x0) =O[𝓝 0] fun d => ‖d‖ ^ 1) :
    (fun d => F (x0 + d) - F x0 - F1 x0 d) =O[𝓝 0] fun d => ‖d‖ ^ 2 := by
  refine isBigO_of_fderiv (g' := fun d => F1 (x0 + d) - F1 x0) ?_ (by simp) h2
  filter_upwards [eventually_shift h1] with d hd
  exact ((hasFDerivAt_shift hd).sub_const _).sub (F1 x0).hasFDerivAt

theorem taylor3 {F : E → G} {F1 : E → E →L[ℝ] G} {F2 : E → E →L[ℝ] E →L[ℝ] G} {x0 : E}
    (h1 : ∀ᶠ x in 𝓝 x0, HasFDerivAt F (F1 x) x) (h2 : ∀ᶠ x in 𝓝 x0, HasFDerivAt F1 (F2 x) x)
    (h3 : (fun d => F2 (x0 + d) - F2 x0) =O[𝓝 0] fun d => ‖d‖ ^ 1) (s2 : ∀ u v, F2 x0 u v = F2 x0 v u) :
    (fun d => F (x0 + d) - F x0 - F1 x0 d - (1 / 2 : ℝ) • F2 x0 d d) =O[𝓝 0] fun d => ‖d‖ ^ 3 := by
  refine isBigO_of_fderiv (g' := fun d => F1 (x0 + d) - F1 x0 - F2 x0 d) ?_ (by simp) (taylor2 h2 h3)
  filter_upwards [eventually_shift h1] with d hd
  have hq : HasFDerivAt (fun d => (1 / 2 : ℝ) • F2 x0 d d) (F2 x0 d) d := by
    have := (((F2 x0).hasFDerivAt (x := d)).clm_apply (hasFDerivAt_id d)).const_smul (1 / 2 : ℝ)
    refine this.congr_fderiv ?_
    ext v
    simp [s2 v d]
    module
  exact (((hasFDerivAt_shift hd).sub_const _).sub (F1 x0).hasFDerivAt).sub hq

theorem taylor4 {F : E → G} {F1 : E → E →L[ℝ] G} {F2 : E → E →L[ℝ] E →L[ℝ] G}
    {F3 : E → E →L[ℝ] E →L[ℝ] E →L[ℝ] G} {x0 : E}
    (h1 : ∀ᶠ x in 𝓝 x0, HasFDerivAt F (F1 x) x) (h2 : ∀ᶠ x in 𝓝 x0, HasFDerivAt F1 (F2 x) x)
    (h3 : ∀ᶠ x in 𝓝 x0, HasFDerivAt F2 (F3 x) x) (h4 : (fun d => F3 (x0 + d) - F3 x0) =O[𝓝 0] fun d => ‖d‖ ^ 1)
    (s2 : ∀ u v, F2 x0 u v = F2 x0 v u) (s3 : ∀ u v, F3 x0 u v = F3 x0 v u)
    (s3' : ∀ u v w, F3 x0 u v w = F3 x0 u w v) :
    (fun d => F (x0 + d) - F x0 - F1 x0 d - (1 / 2 : ℝ) • F2 x0 d d - (1 / 6 : ℝ) • F3 x0 d d d)
      =O[𝓝 0] fun d => ‖d‖ ^ 4 := by
  refine isBigO_of_fderiv (g' := fun d => F1 (x0 + d) - F1 x0 - F2 x0 d - (1 / 2 : ℝ) • F3 x0 d d) ?_
    (by simp) (taylor3 h2 h3 h4 s3)
  filter_upwards [eventually_shift h1] with d hd
  have hq : HasFDerivAt (fun d => (1 / 2 : ℝ) • F2 x0 d d) (F2 x0 d) d := by
    have := (((F2 x0).hasFDerivAt (x := d)).clm_apply (hasFDerivAt_id d)).const_smul (1 / 2 : ℝ)
    refine this.congr_fderiv ?_
    ext v
    simp [s2 v d]
    module
  have hc : HasFDerivAt (fun d => (1 / 6 : ℝ) • F3 x0 d d d) ((1 / 2 : ℝ) • F3 x0 d d) d := by
    have := ((((F3 x0).hasFDerivAt (x := d)).clm_apply (hasFDerivAt_id d)).clm_apply
      (hasFDerivAt_id d)).const_smul (1 / 6 : ℝ)
    refine this.congr_fderiv ?_
    ext v
    simp [s3 v d, s3' d v d]
    module
  exact ((((hasFDerivAt_shift hd).sub_const _).sub (F1 x0).hasFDerivAt).sub hq).sub hc

theorem taylor5 {F : E → G} {F1 : E → E →L[ℝ] G} {F2 : E → E →L[ℝ] E →L[ℝ] G}
    {F3 : E → E →L[ℝ] E →L[ℝ] E →L[ℝ] G} {F4 : E → E →L[ℝ] E →L[ℝ] E →L[ℝ] E →L[ℝ] G} {x0 : E}
    (h1 : ∀ᶠ x in 𝓝 x0, HasFDerivAt F (F1 x) x) (h2 : ∀ᶠ x in 𝓝 x0, HasFDerivAt F1 (F2 x) x)
    (h3 : ∀ᶠ x in 𝓝 x0, HasFDerivAt F2 (F3 x) x) (h4 : ∀ᶠ x in 𝓝 x0, HasFDerivAt F3 (F4 x) x)
    (h5 : (fun d => F4 (x0 + d) - F4 x0) =O[𝓝 0] fun d => ‖d‖ ^ 1)
    (s2 : ∀ u v, F2 x0 u v = F2 x0 v u) (s3 : ∀ u v, F3 x0 u v = F3 x0 v u)
    (s3' : ∀ u v w, F3 x0 u v w = F3 x0 u w v) (s4 : ∀ u v, F4 x0 u v = F4 x0 v u)
    (s4' : ∀ u v w, F4 x0 u v w = F4 x0 u w v) (s4'' : ∀ u v w z, F4 x0 u v w z = F4 x0 u v z w) :
    (fun d => F (x0 + d) - F x0 - F1 x0 d - (1 / 2 : ℝ) • F2 x0 d d - (1 / 6 : ℝ) • F3 x0 d d d
      - (1 / 24 : ℝ) • F4 x0 d d d d) =O[𝓝 0] fun d => ‖d‖ ^ 5 := by
  refine isBigO_of_fderiv (g' := fun d => F1 (x0 + d) - F1 x0 - F2 x0 d - (1 / 2 : ℝ) • F3 x0 d d
    - (1 / 6 : ℝ) • F4 x0 d d d) ?_
    (by simp) (taylor4 h2 h3 h4 h5 s3 s4 s4')
  filter_upwards [eventually_shift h1] with d hd
  have hq : HasFDerivAt (fun d => (1 / 2 : ℝ) • F2 x0 d d) (F2 x0 d) d := by
    have := (((F2 x0).hasFDerivAt (x := d)).clm_apply (hasFDerivAt_id d)).const_smul (1 / 2 : ℝ)
    refine this.congr_fderiv ?_
    ext v
    simp [s2 v d]
    module
  have hc : HasFDerivAt (fun d => (1 / 6 : ℝ) • F3 x0 d d d) ((1 / 2 : ℝ) • F3 x0 d d) d := by
    have := ((((F3 x0).hasFDerivAt (x := d)).clm_apply (hasFDerivAt_id d)).clm_apply
      (hasFDerivAt_id d)).const_smul (1 / 6 : ℝ)
    refine this.congr_fderiv ?_
    ext v
    simp [s3 v d, s3' d v d]
    module
  have hr : HasFDerivAt (fun d => (1 / 24 : ℝ) • F4 x0 d d d d) ((1 / 6 : ℝ) • F4 x0 d d d) d := by
    have := (((((F4 x0).hasFDerivAt (x := d)).clm_apply (hasFDerivAt_id d)).clm_apply
      (hasFDerivAt_id d)).clm_apply (hasFDerivAt_id d)).const_smul (1 / 24 : ℝ)
    refine this.congr_fderiv ?_
    ext v
    simp [s4 v d, s4' d v d, s4'' d d v d]
    module
  exact (((((hasFDerivAt_shift hd).sub_const _).sub (F1 x0).hasFDerivAt).sub hq).sub hc).sub hr

end

end Bolt
