import Verif.Proofs.Vlasov
import Mathlib.Analysis.SpecialFunctions.Trigonometric.Deriv
import Mathlib.Analysis.SpecialFunctions.Trigonometric.Bounds

/-!
# C97: the first-order scheme with forces converges to the Vlasov equation
-/

set_option linter.unusedSectionVars false

namespace Bolt

open Finset

variable {N1 N2 Np1 Np2 Np3 : ℕ} [NeZero N1] [NeZero N2] [NeZero Np1] [NeZero Np2] [NeZero Np3]
variable {start L : PhasePoint} {M : ℝ} {a : Fin 5 → ℝ → PhasePoint → ℝ} {u : ℝ → PhasePoint → ℝ} {S : Type} {s : S} {cfg : FVMConfig S ℝ}

/-- C97: **average error.**  Let `u` be a smooth solution of the Vlasov equation for given velocities and forces, which may depend on time and on
every coordinate.  A run of the first-order scheme under the CFL condition that is given these velocities and forces at the cell faces, at the time
at which each step begins, ends with an average error of at most the initial one plus the elapsed time times a constant times the sum of the five
cell sizes and the largest time step. -/
theorem C97_average_error (hu : VlasovSolution start L M a u) (hc : FirstOrderVlasov N1 N2 Np1 Np2 Np3 L s cfg) (hpos : cfg.PositiveSpacing) (τ : ℝ)
    (steps : List (ℝ × (Fin 2 → Callbacks S (PIdx Np1 Np2 Np3) (ZMod N1 × ZMod N2) ℝ)))
    (hst : StableSteps (phaseAxes N1 N2 Np1 Np2 Np3) cfg steps) (hτ : ∀ st ∈ steps, st.1 ≤ τ)
    (t : ℝ) (hv : TimedVelocities start L a s t steps) (f f' : Dist S (PIdx Np1 Np2 Np3) (ZMod N1 × ZMod N2) ℝ)
    (h : runFVM (phaseAxes N1 N2 Np1 Np2 Np3) cfg steps f = .ok f') :
    averageError start L (f' s) (u (t + elapsed steps)) ≤ averageError start L (f s) (u t)
      + elapsed steps * (8 * M ^ 2 * ∑ k, spacing N1 N2 Np1 Np2 Np3 L k + (M + 15 / 2 * M ^ 2) * τ) := by
  have key := run_error hu hc (average_measure (X := PIdx Np1 Np2 Np3 × (ZMod N1 × ZMod N2))) τ steps hst hτ
    (fun st hs w => by
      obtain ⟨hdt, -, hcfl⟩ := hst st hs
      exact div_le_div_of_nonneg_right (linmap_abs _ (eulerMap_nonneg _ cfg (st.2 0) hpos st.1 hdt hcfl s) (eulerMap_sum _ cfg (st.2 0) st.1 s) w)
        (Nat.cast_nonneg _)) t hv f f' h
  have card : ((Fintype.card (PIdx Np1 Np2 Np3 × (ZMod N1 × ZMod N2)) : ℕ) : ℝ) = N1 * N2 * Np1 * Np2 * Np3 := by
    simp only [Fintype.card_prod, ZMod.card]
    push_cast
    ring
  simp only [card, Fintype.sum_prod_type (f := fun x : PIdx Np1 Np2 Np3 × (ZMod N1 × ZMod N2) =>
    |f' s x.1 x.2 - u (t + elapsed steps) (phaseCentre start L x.1 x.2)|),
    Fintype.sum_prod_type (f := fun x : PIdx Np1 Np2 Np3 × (ZMod N1 × ZMod N2) => |f s x.1 x.2 - u t (phaseCentre start L x.1 x.2)|)] at key
  exact key

/-- C97: **largest error.**  If moreover no velocity depends on its own coordinate — as with a velocity that is a function of momentum and a Lorentz
force — the same bound holds in every single cell. -/
theorem C97_largest_error (hu : VlasovSolution start L M a u) (ha : ∀ k t x y, a k t (moved x k y) = a k t x)
    (hc : FirstOrderVlasov N1 N2 Np1 Np2 Np3 L s cfg) (hpos : cfg.PositiveSpacing) (τ : ℝ)
    (steps : List (ℝ × (Fin 2 → Callbacks S (PIdx Np1 Np2 Np3) (ZMod N1 × ZMod N2) ℝ)))
    (hst : StableSteps (phaseAxes N1 N2 Np1 Np2 Np3) cfg steps) (hτ : ∀ st ∈ steps, st.1 ≤ τ)
    (t : ℝ) (hv : TimedVelocities start L a s t steps) (f f' : Dist S (PIdx Np1 Np2 Np3) (ZMod N1 × ZMod N2) ℝ)
    (err : ℝ) (hf : ∀ p q, |f s p q - u t (phaseCentre start L p q)| ≤ err)
    (h : runFVM (phaseAxes N1 N2 Np1 Np2 Np3) cfg steps f = .ok f') (p : PIdx Np1 Np2 Np3) (q : ZMod N1 × ZMod N2) :
    |f' s p q - u (t + elapsed steps) (phaseCentre start L p q)| ≤ err
      + elapsed steps * (8 * M ^ 2 * ∑ k, spacing N1 N2 Np1 Np2 Np3 L k + (M + 15 / 2 * M ^ 2) * τ) := by
  have hd : ∀ st ∈ steps, ∀ p q, velocityDivergence (phaseAxes N1 N2 Np1 Np2 Np3) cfg (st.2 0) s p q = 0 := by
    clear h hf hτ hst
    induction steps generalizing t with
    | nil => simp
    | cons st rest ih =>
      intro st' hs
      rcases List.mem_cons.mp hs with h | h
      · subst h
        exact divergence_free hc hv.1 (fun k x y => ha k t x y)
      · exact ih (t + st.1) hv.2 st' h
  have key := run_error hu hc (largest_measure (X := PIdx Np1 Np2 Np3 × (ZMod N1 × ZMod N2))) τ steps hst hτ
    (fun st hs w => by
      obtain ⟨hdt, -, hcfl⟩ := hst st hs
      refine linmap_sup _ (eulerMap_nonneg _ cfg (st.2 0) hpos st.1 hdt hcfl s) (fun x => ?_) w
      simp only [eulerMap, LinearMap.coe_mk, AddHom.coe_mk]
      rw [pcSlope_const, hd st hs]; ring) t hv f f' h
  have e0 : ‖(fun z : PIdx Np1 Np2 Np3 × (ZMod N1 × ZMod N2) => f s z.1 z.2 - u t (phaseCentre start L z.1 z.2))‖ ≤ err :=
    (pi_norm_le_iff_of_nonempty _).mpr fun z => hf z.1 z.2
  have e1 := norm_le_pi_norm (fun z : PIdx Np1 Np2 Np3 × (ZMod N1 × ZMod N2) =>
    f' s z.1 z.2 - u (t + elapsed steps) (phaseCentre start L z.1 z.2)) (p, q)
  rw [Real.norm_eq_abs] at e1
  linarith

/-- C97: **convergence.**  Given a smooth solution of the Vlasov equation and a final time, every run that starts from the values of the solution at
the cell centres comes as close as one likes to the solution on average, on every grid that is fine enough with time steps that are short enough and
meet the CFL condition; and in every cell if no velocity depends on its own coordinate. -/
theorem C97_convergence (hu : VlasovSolution start L M a u) (t T ε : ℝ) (hε : 0 < ε) :
    ∃ δ > 0, ∀ (N1 N2 Np1 Np2 Np3 : ℕ) [NeZero N1] [NeZero N2] [NeZero Np1] [NeZero Np2] [NeZero Np3] (cfg : FVMConfig S ℝ),
      FirstOrderVlasov N1 N2 Np1 Np2 Np3 L s cfg → cfg.PositiveSpacing → (∀ k, spacing N1 N2 Np1 Np2 Np3 L k < δ) →
      ∀ steps : List (ℝ × (Fin 2 → Callbacks S (PIdx Np1 Np2 Np3) (ZMod N1 × ZMod N2) ℝ)),
      StableSteps (phaseAxes N1 N2 Np1 Np2 Np3) cfg steps → (∀ st ∈ steps, st.1 < δ) → elapsed steps ≤ T → TimedVelocities start L a s t steps →
      ∃ f', runFVM (phaseAxes N1 N2 Np1 Np2 Np3) cfg steps (fun _ p q => u t (phaseCentre start L p q)) = .ok f' ∧
        averageError start L (f' s) (u (t + elapsed steps)) < ε ∧
        ((∀ k t x y, a k t (moved x k y) = a k t x) → ∀ p q, |f' s p q - u (t + elapsed steps) (phaseCentre start L p q)| < ε) := by
  have M0 : 0 ≤ M := (hu.smoothTime start).nonneg
  set C := max T 0 * (8 * M ^ 2 * 5 + (M + 15 / 2 * M ^ 2)) with hC
  have C0 : 0 ≤ C := by positivity
  refine ⟨ε / (C + 1), by positivity, ?_⟩
  intro N1 N2 Np1 Np2 Np3 _ _ _ _ _ cfg hc hpos hh steps hst hτ hT hv
  set δ := ε / (C + 1) with hδ
  have δ0 : 0 < δ := by positivity
  obtain ⟨f', h⟩ := C09_run_succeeds (phaseAxes N1 N2 Np1 Np2 Np3) cfg (Or.inl hc.reconQ) (Or.inl hc.reconP) steps
    (fun _ p q => u t (phaseCentre start L p q))
  have e0 : 0 ≤ elapsed steps := List.sum_nonneg fun x hx => by
    obtain ⟨st, hs, rfl⟩ := List.mem_map.mp hx
    exact (hst st hs).1
  have hs5 : ∑ k, spacing N1 N2 Np1 Np2 Np3 L k ≤ 5 * δ := by
    calc _ ≤ ∑ _k : Fin 5, δ := Finset.sum_le_sum fun k _ => (hh k).le
      _ = 5 * δ := by simp
  have bound : elapsed steps * (8 * M ^ 2 * ∑ k, spacing N1 N2 Np1 Np2 Np3 L k + (M + 15 / 2 * M ^ 2) * δ) < ε := by
    have h1 : 8 * M ^ 2 * ∑ k, spacing N1 N2 Np1 Np2 Np3 L k ≤ 8 * M ^ 2 * (5 * δ) := mul_le_mul_of_nonneg_left hs5 (by positivity)
    have h2 : (0 : ℝ) ≤ 8 * M ^ 2 * (5 * δ) + (M + 15 / 2 * M ^ 2) * δ := by positivity
    calc _ ≤ elapsed steps * (8 * M ^ 2 * (5 * δ) + (M + 15 / 2 * M ^ 2) * δ) := mul_le_mul_of_nonneg_left (by linarith) e0
      _ ≤ max T 0 * (8 * M ^ 2 * (5 * δ) + (M + 15 / 2 * M ^ 2) * δ) := mul_le_mul_of_nonneg_right (hT.trans (le_max_left _ _)) h2
      _ = C * δ := by rw [hC]; ring
      _ < (C + 1) * δ := by linarith
      _ = ε := by rw [hδ]; field_simp
  refine ⟨f', h, ?_, fun ha p q => ?_⟩
  · have := C97_average_error hu hc hpos δ steps hst (fun st hs => (hτ st hs).le) t hv _ f' h
    have z : averageError start L (fun p q => u t (phaseCentre start L p q) : PIdx Np1 Np2 Np3 → ZMod N1 × ZMod N2 → ℝ) (u t) = 0 := by
      simp [averageError]
    rw [z] at this
    linarith
  · have := C97_largest_error hu ha hc hpos δ steps hst (fun st hs => (hτ st hs).le) t hv _ f' 0 (fun p q => by simp) h p q
    linarith

/-- C97: the bound in every cell holds for runs on many processes, for every partition of the position grid and ghost widths that cover the stencil. -/
theorem C97_many_processes {R : Type} (D : Decomp N1 N2 R) (g1 g2 : ℕ)
    (hgh : GhostsSuffice .piecewiseConstant g1 N1 ∧ GhostsSuffice .piecewiseConstant g2 N2)
    (hu : VlasovSolution start L M a u) (ha : ∀ k t x y, a k t (moved x k y) = a k t x)
    (hc : FirstOrderVlasov N1 N2 Np1 Np2 Np3 L s cfg) (hpos : cfg.PositiveSpacing) (τ : ℝ)
    (steps : List (ℝ × (Fin 2 → ∀ r, Callbacks S (PIdx Np1 Np2 Np3) (D.Loc g1 g2 r) ℝ) × (Fin 2 → Callbacks S (PIdx Np1 Np2 Np3) (ZMod N1 × ZMod N2) ℝ)))
    (hcb : ∀ st ∈ steps, ∀ k r, D.CallbacksAgree g1 g2 r (st.2.1 k r) (st.2.2 k))
    (hst : StableSteps (phaseAxes N1 N2 Np1 Np2 Np3) cfg (steps.map fun st => (st.1, st.2.2))) (hτ : ∀ st ∈ steps, st.1 ≤ τ)
    (t : ℝ) (hv : TimedVelocities start L a s t (steps.map fun st => (st.1, st.2.2)))
    (F F' : ∀ r, Dist S (PIdx Np1 Np2 Np3) (D.Loc g1 g2 r) ℝ)
    (hF : ∀ r σ p l, D.Interior g1 g2 r l → F r σ p l = u t (phaseCentre start L p (D.toGlob g1 g2 r l)))
    (h : D.PeriodicRun g1 g2 ((1, 0, 0), (0, 1, 0), (0, 0, 1)) cfg (steps.map fun st => (st.1, st.2.1)) F F') :
    ∀ r p l, D.Interior g1 g2 r l → |F' r s p l - u (t + elapsed steps) (phaseCentre start L p (D.toGlob g1 g2 r l))| ≤
      elapsed steps * (8 * M ^ 2 * ∑ k, spacing N1 N2 Np1 Np2 Np3 L k + (M + 15 / 2 * M ^ 2) * τ) := by
  obtain ⟨f', h'⟩ := C09_run_succeeds (phaseAxes N1 N2 Np1 Np2 Np3) cfg (Or.inl hc.reconQ) (Or.inl hc.reconP) (steps.map fun st => (st.1, st.2.2))
    (fun _ p q => u t (phaseCentre start L p q))
  have hh := D.C11_decomposition_independence g1 g2 ((1, 0, 0), (0, 1, 0), (0, 0, 1)) cfg
    (fun m hm => by
      rw [hc.reconQ] at hm
      simp only [reconMethod, if_true, Except.ok.injEq] at hm
      rw [← hm]; exact hgh) steps hcb F F' (fun _ p q => u t (phaseCentre start L p q)) f' hF h h'
  have el : elapsed (steps.map fun st => (st.1, st.2.2)) = elapsed steps := by
    simp only [elapsed, List.map_map]; rfl
  intro r p l hl
  rw [hh r s p l hl]
  have := C97_largest_error hu ha hc hpos τ _ hst (by intro st hs; obtain ⟨x, hx, rfl⟩ := List.mem_map.mp hs; exact hτ x hx) t hv _ f' 0
    (fun p q => by simp) h' p (D.toGlob g1 g2 r l)
  rw [el, zero_add] at this
  exact this

/-! ## A wave and particles that it accelerates -/

/-- The velocity `1 + sin p1` along q1 and the force of a travelling wave. -/
noncomputable def waveVelocity : Fin 5 → ℝ → PhasePoint → ℝ :=
  ![fun _ x => 1 + Real.sin (x 2), fun _ _ => 0, fun t x => -Real.sin (x 0 - t), fun _ _ => 0, fun _ _ => 0]

/-- A distribution that travels with the wave. -/
noncomputable def waveDist (t : ℝ) (x : PhasePoint) : ℝ := 2 + Real.cos (x 0 - t) + Real.cos (x 2)

theorem smoothLine_const (c M : ℝ) (h : |c| ≤ M) : SmoothLine M (fun _ => c) where
  diff := differentiable_const c
  bound _ := h
  bound' y := by simpa using (abs_nonneg c).trans h
  lip' y z := by simpa using mul_nonneg ((abs_nonneg c).trans h) (abs_nonneg _)

theorem smoothLine_cos (b c : ℝ) (hb : |b| ≤ 3) : SmoothLine 4 (fun y => b + Real.cos (y - c)) where
  diff := by fun_prop
  bound y := by
    rw [abs_le] at hb ⊢
    constructor <;> linarith [Real.neg_one_le_cos (y - c), Real.cos_le_one (y - c)]
  bound' y := by
    have : deriv (fun y => b + Real.cos (y - c)) y = -Real.sin (y - c) := by
      have := ((Real.hasDerivAt_cos (y - c)).comp y ((hasDerivAt_id y).sub_const c)).const_add b
      simpa using this.deriv
    rw [this, abs_neg]
    linarith [Real.abs_sin_le_one (y - c)]
  lip' y z := by
    have : ∀ y, deriv (fun y => b + Real.cos (y - c)) y = -Real.sin (y - c) := fun y => by
      have := ((Real.hasDerivAt_cos (y - c)).comp y ((hasDerivAt_id y).sub_const c)).const_add b
      simpa using this.deriv
    rw [this, this, neg_sub_neg, abs_sub_comm]
    have h := Real.abs_sin_sub_sin_le (y - c) (z - c)
    rw [sub_sub_sub_cancel_right] at h
    have := abs_nonneg (y - z)
    linarith

/-- As a function of time. -/
theorem smooth_cos_time (b c : ℝ) (hb : |b| ≤ 3) : SmoothLine 4 (fun t => b + Real.cos (c - t)) := by
  have : (fun t => b + Real.cos (c - t)) = fun t => b + Real.cos (t - c) := by
    funext t
    rw [← Real.cos_neg, neg_sub]
  rw [this]
  exact smoothLine_cos b c hb

theorem waveVelocity_own (k : Fin 5) (t : ℝ) (x : PhasePoint) (y : ℝ) : waveVelocity k t (moved x k y) = waveVelocity k t x := by
  fin_cases k <;> simp [waveVelocity, moved]

theorem wave_rate (t : ℝ) (x : PhasePoint) : deriv (fun t => waveDist t x) t = Real.sin (x 0 - t) := by
  have h : HasDerivAt (fun t => x 0 - t) (-1) t := by simpa using (hasDerivAt_id t).const_sub (x 0)
  have := (((Real.hasDerivAt_cos (x 0 - t)).comp t h).const_add 2).add_const (Real.cos (x 2))
  simpa [waveDist] using this.deriv

theorem two_cos (y : ℝ) : |2 + Real.cos y| ≤ 3 := by
  rw [abs_le]; constructor <;> linarith [Real.neg_one_le_cos y, Real.cos_le_one y]

/-- The wave distribution solves the Vlasov equation, with the bound 4. -/
theorem vlasov_wave : VlasovSolution 0 (fun _ => 2 * Real.pi) 4 waveVelocity waveDist where
  periodic t k x := by
    fin_cases k
    · simp only [waveDist, moved]
      simp [show x 0 + 2 * Real.pi - t = x 0 - t + 2 * Real.pi by ring, Real.cos_add_two_pi]
    · simp [waveDist, moved]
    · simp [waveDist, moved]
    · simp [waveDist, moved]
    · simp [waveDist, moved]
  periodicVelocity t k x := waveVelocity_own k t x _
  smooth t k x _ := by
    have c0 : |waveDist t x| ≤ 4 := by
      rw [waveDist, abs_le]
      constructor <;> linarith [Real.neg_one_le_cos (x 0 - t), Real.cos_le_one (x 0 - t), Real.neg_one_le_cos (x 2), Real.cos_le_one (x 2)]
    fin_cases k
    · have := smoothLine_cos (2 + Real.cos (x 2)) t (two_cos _)
      convert this using 2 with y
      simp [waveDist, moved]; ring
    · convert smoothLine_const (waveDist t x) 4 c0 using 2 with y
      simp [waveDist, moved]
    · have := smoothLine_cos (2 + Real.cos (x 0 - t)) 0 (two_cos _)
      convert this using 2 with y
      simp [waveDist, moved]
    · convert smoothLine_const (waveDist t x) 4 c0 using 2 with y
      simp [waveDist, moved]
    · convert smoothLine_const (waveDist t x) 4 c0 using 2 with y
      simp [waveDist, moved]
  smoothVelocity t k x _ := by
    simp only [waveVelocity_own]
    refine smoothLine_const _ 4 ?_
    have s1 := abs_le.mp (Real.abs_sin_le_one (x 2))
    have s2 := abs_le.mp (Real.abs_sin_le_one (x 0 - t))
    fin_cases k <;> simp [waveVelocity, abs_le] <;> constructor <;> linarith
  smoothTime x := by
    have := smooth_cos_time (2 + Real.cos (x 2)) (x 0) (two_cos _)
    convert this using 2 with t
    simp [waveDist]; ring
  smoothRate t k x y z _ := by
    rw [wave_rate, wave_rate]
    fin_cases k
    · have h := Real.abs_sin_sub_sin_le (y - t) (z - t)
      rw [sub_sub_sub_cancel_right] at h
      have := abs_nonneg (y - z)
      simp [moved]
      linarith
    all_goals simp [moved]
  equation t x _ := by
    rw [wave_rate]
    have h0 : HasDerivAt (fun y => (1 + Real.sin (x 2)) * (2 + Real.cos (y - t) + Real.cos (x 2))) (-(1 + Real.sin (x 2)) * Real.sin (x 0 - t)) (x 0) := by
      have := ((((Real.hasDerivAt_cos (x 0 - t)).comp (x 0) ((hasDerivAt_id (x 0)).sub_const t)).const_add 2).add_const (Real.cos (x 2))).const_mul (1 + Real.sin (x 2))
      refine this.congr_deriv ?_
      simp
      try ring
    have h2 : HasDerivAt (fun y => -Real.sin (x 0 - t) * (2 + Real.cos (x 0 - t) + Real.cos y)) (Real.sin (x 0 - t) * Real.sin (x 2)) (x 2) := by
      have := (((Real.hasDerivAt_cos (x 2))).const_add (2 + Real.cos (x 0 - t))).const_mul (-Real.sin (x 0 - t))
      refine this.congr_deriv ?_
      simp
      try ring
    have d0 := h0.deriv
    have d2 := h2.deriv
    simp only [Fin.sum_univ_five, waveVelocity, waveDist, moved, Matrix.cons_val, Function.update_self, zero_mul, deriv_const, add_zero]
    simp only [ne_eq, Fin.reduceEq, not_false_eq_true, Function.update_of_ne]
    rw [d0, d2]
    ring

/-- The configuration on a grid of 8 cells in q1 and p1. -/
noncomputable def waveCfg : FVMConfig Unit ℝ :=
  { solverMethodInQ := "FVM", solverMethodInP := "FVM", reconstructionInQ := "piecewise-constant", reconstructionInP := "piecewise-constant",
    riemannInQ := "upwind-flux", riemannInP := "upwind-flux", sourceEnabled := false, fieldsEnabled := true,
    dq1 := spacing 8 1 8 1 1 (fun _ => 2 * Real.pi) 0, dq2 := spacing 8 1 8 1 1 (fun _ => 2 * Real.pi) 1,
    dp1 := fun _ => spacing 8 1 8 1 1 (fun _ => 2 * Real.pi) 2, dp2 := fun _ => spacing 8 1 8 1 1 (fun _ => 2 * Real.pi) 3,
    dp3 := fun _ => spacing 8 1 8 1 1 (fun _ => 2 * Real.pi) 4 }

/-- The callbacks at time `t`. -/
noncomputable def waveCb (t : ℝ) : Callbacks Unit (PIdx 8 1 1) (ZMod 8 × ZMod 1) ℝ :=
  { Cq1 := fun _ p q => waveVelocity 0 t (leftFace 0 (fun _ => 2 * Real.pi) 0 p q)
    Cq2 := fun _ p q => waveVelocity 1 t (leftFace 0 (fun _ => 2 * Real.pi) 1 p q)
    Cp1 := fun _ p q => waveVelocity 2 t (leftFace 0 (fun _ => 2 * Real.pi) 2 p q)
    Cp2 := fun _ p q => waveVelocity 3 t (leftFace 0 (fun _ => 2 * Real.pi) 3 p q)
    Cp3 := fun _ p q => waveVelocity 4 t (leftFace 0 (fun _ => 2 * Real.pi) 4 p q)
    source := id }

/-- `n` steps of size 1/5 from time `t`. -/
noncomputable def waveSteps : ℕ → ℝ → List (ℝ × (Fin 2 → Callbacks Unit (PIdx 8 1 1) (ZMod 8 × ZMod 1) ℝ))
  | 0, _ => []
  | n + 1, t => (1 / 5, fun _ => waveCb t) :: waveSteps n (t + 1 / 5)

theorem waveCfg_ok : FirstOrderVlasov 8 1 8 1 1 (fun _ => 2 * Real.pi) () waveCfg where
  methodQ := rfl
  methodP := rfl
  fields := rfl
  reconQ := rfl
  reconP := rfl
  noSource := rfl
  pos _ := by positivity
  dq1 := rfl
  dq2 := rfl
  dp1 := rfl
  dp2 := rfl
  dp3 := rfl

theorem waveCfg_pos : waveCfg.PositiveSpacing := by
  have h : ∀ k, 0 < spacing 8 1 8 1 1 (fun _ => 2 * Real.pi) k := fun k => spacing_pos (N1 := 8) (N2 := 1) (Np1 := 8) (Np2 := 1) (Np3 := 1) vlasov_wave waveCfg_ok k
  exact ⟨h 0, h 1, fun _ => h 2, fun _ => h 3, fun _ => h 4⟩

theorem waveFace (t : ℝ) : FaceVelocities 0 (fun _ => 2 * Real.pi) waveVelocity () t (waveCb t) :=
  ⟨fun _ _ => rfl, fun _ _ => rfl, fun _ _ => rfl, fun _ _ => rfl, fun _ _ => rfl⟩

theorem waveSteps_timed (n : ℕ) (t : ℝ) : TimedVelocities 0 (fun _ => 2 * Real.pi) waveVelocity () t (waveSteps n t) := by
  induction n generalizing t with
  | zero => trivial
  | succ n ih => exact ⟨waveFace t, ih _⟩

theorem waveSteps_stable (n : ℕ) (t : ℝ) : StableSteps (phaseAxes 8 1 8 1 1) waveCfg (waveSteps n t) := by
  induction n generalizing t with
  | zero => intro st hs; simp [waveSteps] at hs
  | succ n ih =>
    intro st hs
    rcases List.mem_cons.mp hs with h | h
    · subst h
      refine ⟨by norm_num, ⟨rfl, rfl, rfl, rfl, rfl⟩, fun s p q => ?_⟩
      rw [show s = () from rfl, outflow_eq waveCfg_ok (waveFace t) (fun k x y => waveVelocity_own k t x y)]
      set x := phaseCentre 0 (fun _ => 2 * Real.pi) p q
      have s1 := abs_le.mp (Real.abs_sin_le_one (x 2))
      have s2 := Real.abs_sin_le_one (x 0 - t)
      have a1 : |1 + Real.sin (x 2)| ≤ 2 := by rw [abs_le]; constructor <;> linarith
      simp only [Fin.sum_univ_five, waveVelocity, Matrix.cons_val, abs_zero, zero_div, add_zero, abs_neg, spacing, cellsAlong]
      push_cast
      rw [div_div_eq_mul_div, div_div_eq_mul_div, ← add_div, mul_div_assoc', div_le_one (by positivity)]
      have := Real.pi_gt_three
      linarith
    · exact ih _ st h

theorem waveSteps_elapsed (n : ℕ) (t : ℝ) : elapsed (waveSteps n t) = n / 5 := by
  induction n generalizing t with
  | zero => simp [waveSteps, elapsed]
  | succ n ih => rw [waveSteps, elapsed_cons, ih]; push_cast; ring

/-- Non-vacuity of C97: a wave that accelerates particles, on a grid of 8 by 8 cells, for any number of steps. -/
example (n : ℕ) : ∃ f', runFVM (phaseAxes 8 1 8 1 1) waveCfg (waveSteps n 0)
      (fun _ p q => waveDist 0 (phaseCentre 0 (fun _ => 2 * Real.pi) p q)) = .ok f' ∧
    ∀ p q, |f' () p q - waveDist (n / 5) (phaseCentre 0 (fun _ => 2 * Real.pi) p q)| ≤
      n / 5 * (8 * 4 ^ 2 * ∑ k, spacing 8 1 8 1 1 (fun _ => 2 * Real.pi) k + (4 + 15 / 2 * 4 ^ 2) * (1 / 5)) := by
  obtain ⟨f', h⟩ := C09_run_succeeds (phaseAxes 8 1 8 1 1) waveCfg (Or.inl rfl) (Or.inl rfl) (waveSteps n 0)
    (fun _ p q => waveDist 0 (phaseCentre 0 (fun _ => 2 * Real.pi) p q))
  refine ⟨f', h, fun p q => ?_⟩
  have hτ : ∀ n t, ∀ st ∈ waveSteps n t, st.1 ≤ 1 / 5 := by
    intro n
    induction n with
    | zero => intro t st hs; simp [waveSteps] at hs
    | succ n ih =>
      intro t st hs
      rcases List.mem_cons.mp hs with h | h
      · subst h; exact le_refl _
      · exact ih _ st h
  have := C97_largest_error vlasov_wave waveVelocity_own waveCfg_ok waveCfg_pos (1 / 5) (waveSteps n 0) (waveSteps_stable n 0) (hτ n 0)
    0 (waveSteps_timed n 0) _ f' 0 (fun p q => by simp) h p q
  rwa [waveSteps_elapsed, zero_add, zero_add] at this

end Bolt
