import Verif.Model.Polar
import Verif.Spec.Polar
import Verif.Props.Force
import Verif.Props.System
import Mathlib.Analysis.Calculus.FDeriv.Comp
import Mathlib.Analysis.Calculus.Deriv.Comp
import Mathlib.Analysis.Calculus.Deriv.Prod
import Mathlib.Analysis.Calculus.Deriv.Mul
import Mathlib.MeasureTheory.Measure.Lebesgue.EqHaar
import Mathlib.MeasureTheory.Integral.Bochner.Basic
import Mathlib.Tactic.LinearCombination
import Mathlib.Tactic.FieldSimp

/-!
# C101: the polar-coordinate and beam-optics packages
-/

set_option linter.unusedSectionVars false

namespace Bolt

section law

/-- The partial derivatives of a freely streaming distribution. -/
theorem freeStream_partials {G : ℝ × ℝ × ℝ × ℝ → ℝ → ℝ} (hG : ∀ pd, Differentiable ℝ fun x => G x pd) (t r θ rd td pd : ℝ) :
    ∃ L : ℝ × ℝ × ℝ × ℝ →L[ℝ] ℝ,
      HasDerivAt (fun t => freeStream G t r θ rd td pd)
        (L (-(rd * Real.cos θ - r * Real.sin θ * td), -(rd * Real.sin θ + r * Real.cos θ * td), 0, 0)) t ∧
      HasDerivAt (fun r => freeStream G t r θ rd td pd)
        (L (Real.cos θ + t * (Real.sin θ * td), Real.sin θ - t * (Real.cos θ * td), -(Real.sin θ * td), Real.cos θ * td)) r ∧
      HasDerivAt (fun θ => freeStream G t r θ rd td pd)
        (L (-(r * Real.sin θ) - t * (-(rd * Real.sin θ) - r * Real.cos θ * td), r * Real.cos θ - t * (rd * Real.cos θ - r * Real.sin θ * td),
          -(rd * Real.sin θ) - r * Real.cos θ * td, rd * Real.cos θ - r * Real.sin θ * td)) θ ∧
      HasDerivAt (fun rd => freeStream G t r θ rd td pd) (L (-(t * Real.cos θ), -(t * Real.sin θ), Real.cos θ, Real.sin θ)) rd ∧
      HasDerivAt (fun td => freeStream G t r θ rd td pd)
        (L (t * (r * Real.sin θ), -(t * (r * Real.cos θ)), -(r * Real.sin θ), r * Real.cos θ)) td := by
  let c := toCartesian r θ rd td
  let arg : ℝ → ℝ → ℝ → ℝ → ℝ → ℝ × ℝ × ℝ × ℝ := fun t r θ rd td => (r * Real.cos θ - t * (rd * Real.cos θ - r * Real.sin θ * td),
    r * Real.sin θ - t * (rd * Real.sin θ + r * Real.cos θ * td), rd * Real.cos θ - r * Real.sin θ * td, rd * Real.sin θ + r * Real.cos θ * td)
  have key : ∀ (f : ℝ → ℝ × ℝ × ℝ × ℝ) (f' : ℝ × ℝ × ℝ × ℝ) (x : ℝ), f x = arg t r θ rd td → HasDerivAt f f' x →
      HasDerivAt (fun y => G (f y) pd) (fderiv ℝ (fun x => G x pd) (arg t r θ rd td) f') x := fun f f' x hx hf => by
    have := (hG pd (f x)).hasFDerivAt.comp_hasDerivAt x hf
    rw [hx] at this; exact this
  refine ⟨fderiv ℝ (fun x => G x pd) (arg t r θ rd td), ?_, ?_, ?_, ?_, ?_⟩
  · refine key (fun y => arg y r θ rd td) _ t rfl ?_
    refine HasDerivAt.prodMk ?_ (HasDerivAt.prodMk ?_ (HasDerivAt.prodMk (hasDerivAt_const _ _) (hasDerivAt_const _ _)))
    · exact (((hasDerivAt_id t).mul_const c.2.2.1).const_sub c.1).congr_deriv (by simp [c, toCartesian])
    · exact (((hasDerivAt_id t).mul_const c.2.2.2).const_sub c.2.1).congr_deriv (by simp [c, toCartesian])
  · have v1 : HasDerivAt (fun r => rd * Real.cos θ - r * Real.sin θ * td) (-(Real.sin θ * td)) r :=
      ((((hasDerivAt_id r).mul_const (Real.sin θ)).mul_const td).const_sub (rd * Real.cos θ)).congr_deriv (by simp)
    have v2 : HasDerivAt (fun r => rd * Real.sin θ + r * Real.cos θ * td) (Real.cos θ * td) r :=
      ((((hasDerivAt_id r).mul_const (Real.cos θ)).mul_const td).const_add (rd * Real.sin θ)).congr_deriv (by simp)
    refine key (fun y => arg t y θ rd td) _ r rfl ?_
    refine HasDerivAt.prodMk ?_ (HasDerivAt.prodMk ?_ (HasDerivAt.prodMk v1 v2))
    · exact (((hasDerivAt_id r).mul_const (Real.cos θ)).sub (v1.const_mul t)).congr_deriv (by simp)
    · exact (((hasDerivAt_id r).mul_const (Real.sin θ)).sub (v2.const_mul t)).congr_deriv (by simp)
  · have hc := Real.hasDerivAt_cos θ
    have hs := Real.hasDerivAt_sin θ
    have v1 : HasDerivAt (fun θ => rd * Real.cos θ - r * Real.sin θ * td) (-(rd * Real.sin θ) - r * Real.cos θ * td) θ :=
      ((hc.const_mul rd).sub ((hs.const_mul r).mul_const td)).congr_deriv (by ring)
    have v2 : HasDerivAt (fun θ => rd * Real.sin θ + r * Real.cos θ * td) (rd * Real.cos θ - r * Real.sin θ * td) θ :=
      ((hs.const_mul rd).add ((hc.const_mul r).mul_const td)).congr_deriv (by ring)
    refine key (fun y => arg t r y rd td) _ θ rfl ?_
    refine HasDerivAt.prodMk ?_ (HasDerivAt.prodMk ?_ (HasDerivAt.prodMk v1 v2))
    · exact ((hc.const_mul r).sub (v1.const_mul t)).congr_deriv (by ring)
    · exact ((hs.const_mul r).sub (v2.const_mul t)).congr_deriv (by ring)
  · have v1 : HasDerivAt (fun rd => rd * Real.cos θ - r * Real.sin θ * td) (Real.cos θ) rd :=
      (((hasDerivAt_id rd).mul_const (Real.cos θ)).sub_const _).congr_deriv (by simp)
    have v2 : HasDerivAt (fun rd => rd * Real.sin θ + r * Real.cos θ * td) (Real.sin θ) rd :=
      (((hasDerivAt_id rd).mul_const (Real.sin θ)).add_const _).congr_deriv (by simp)
    refine key (fun y => arg t r θ y td) _ rd rfl ?_
    exact ((v1.const_mul t).const_sub _).prodMk (((v2.const_mul t).const_sub _).prodMk (v1.prodMk v2))
  · have v1 : HasDerivAt (fun td => rd * Real.cos θ - r * Real.sin θ * td) (-(r * Real.sin θ)) td :=
      (((hasDerivAt_id td).const_mul (r * Real.sin θ)).const_sub _).congr_deriv (by simp)
    have v2 : HasDerivAt (fun td => rd * Real.sin θ + r * Real.cos θ * td) (r * Real.cos θ) td :=
      (((hasDerivAt_id td).const_mul (r * Real.cos θ)).const_add _).congr_deriv (by simp)
    refine key (fun y => arg t r θ rd y) _ td rfl ?_
    refine HasDerivAt.prodMk ?_ (HasDerivAt.prodMk ?_ (HasDerivAt.prodMk v1 v2))
    · exact ((v1.const_mul t).const_sub _).congr_deriv (by ring)
    · exact ((v2.const_mul t).const_sub _).congr_deriv (by ring)

theorem clm_split (L : ℝ × ℝ × ℝ × ℝ →L[ℝ] ℝ) (a b c d : ℝ) :
    L (a, b, c, d) = a * L (1, 0, 0, 0) + b * L (0, 1, 0, 0) + c * L (0, 0, 1, 0) + d * L (0, 0, 0, 1) := by
  have : ((a, b, c, d) : ℝ × ℝ × ℝ × ℝ) = a • (1, 0, 0, 0) + b • (0, 1, 0, 0) + c • (0, 0, 1, 0) + d • (0, 0, 0, 1) := by simp
  rw [this]
  simp only [map_add, map_smul, smul_eq_mul]

/-- The conservation law with a weight that depends on the radius. -/
theorem law_weighted {G : ℝ × ℝ × ℝ × ℝ → ℝ → ℝ} (hG : ∀ pd, Differentiable ℝ fun x => G x pd) (w : ℝ → ℝ) (w' t r θ rd td pd : ℝ) (hr : r ≠ 0)
    (hw : HasDerivAt w w' r) :
    conservationLaw polarCq polarCp (fun t r θ rd td pd => w r * freeStream G t r θ rd td pd) t r θ rd td pd =
      (w' * rd - 2 * rd / r * w r) * freeStream G t r θ rd td pd := by
  obtain ⟨L, ht, h1, h2, h3, h4⟩ := freeStream_partials hG t r θ rd td pd
  have e4 : HasDerivAt (fun td => -2 * rd * td / r) (-2 * rd / r) td :=
    (((hasDerivAt_id td).const_mul (-2 * rd)).div_const r).congr_deriv (by simp)
  have e6 : (fun pd => (polarCp r θ rd td pd).2.2 * (w r * freeStream G t r θ rd td pd)) = fun _ => 0 := by
    funext x; simp [polarCp]
  unfold conservationLaw
  rw [e6, deriv_const, (ht.const_mul (w r)).deriv]
  have d1 : deriv (fun x => (polarCq rd td pd).1 * (w x * freeStream G t x θ rd td pd)) r = _ := ((hw.mul h1).const_mul rd).deriv
  have d2 : deriv (fun θ => (polarCq rd td pd).2 * (w r * freeStream G t r θ rd td pd)) θ = _ := ((h2.const_mul (w r)).const_mul td).deriv
  have d3 : deriv (fun rd => (polarCp r θ rd td pd).1 * (w r * freeStream G t r θ rd td pd)) rd = _ :=
    ((h3.const_mul (w r)).const_mul (r * td ^ 2)).deriv
  have d4 : deriv (fun td => (polarCp r θ rd td pd).2.1 * (w r * freeStream G t r θ rd td pd)) td = _ := (e4.mul (h4.const_mul (w r))).deriv
  rw [d1, d2, d3, d4]
  rw [clm_split L (-(rd * Real.cos θ - r * Real.sin θ * td)), clm_split L (Real.cos θ + t * (Real.sin θ * td)),
    clm_split L (-(r * Real.sin θ) - t * (-(rd * Real.sin θ) - r * Real.cos θ * td)), clm_split L (-(t * Real.cos θ)),
    clm_split L (t * (r * Real.sin θ))]
  field_simp
  ring

/-- C101: the advection terms and the source of the polar package together describe free particles: for every differentiable initial distribution, given in
Cartesian coordinates, the distribution of the freely moving particles, written in polar coordinates, satisfies at every point off the origin, at every
time, the equation the solver integrates: conservation law = source. -/
theorem C101_free_particles {G : ℝ × ℝ × ℝ × ℝ → ℝ → ℝ} (hG : ∀ pd, Differentiable ℝ fun x => G x pd) (t r θ rd td pd : ℝ) (hr : r ≠ 0) :
    conservationLaw polarCq polarCp (freeStream G) t r θ rd td pd = polarSource (freeStream G t r θ rd td pd) r θ rd td pd := by
  have := law_weighted hG (fun _ => 1) 0 t r θ rd td pd hr (hasDerivAt_const _ _)
  simp only [one_mul] at this
  rw [this, polarSource]; ring

/-- C101 (negative): with `source_enabled = False`, as in `coordinate_transformation/convergence_test`, that distribution (which
`convergence_check.py` takes as the reference) does not satisfy the equation at any point where there are particles and the radial velocity is not
zero. -/
theorem C101_source_needed {G : ℝ × ℝ × ℝ × ℝ → ℝ → ℝ} (hG : ∀ pd, Differentiable ℝ fun x => G x pd) (t r θ rd td pd : ℝ) (hr : r ≠ 0) :
    conservationLaw polarCq polarCp (freeStream G) t r θ rd td pd = 0 ↔ rd = 0 ∨ freeStream G t r θ rd td pd = 0 := by
  rw [C101_free_particles hG t r θ rd td pd hr, polarSource, div_eq_zero_iff, or_iff_left hr]
  simp

/-- C101: what the equation without the source describes is the distribution times the square of the radius (the number of particles per unit of `r`, `θ`,
`rd`, `td`): started from the same values `f₀`, it is `(r/r₀)²` times the reference, where `r₀` is the radius at which the particle started. -/
theorem C101_without_source {G : ℝ × ℝ × ℝ × ℝ → ℝ → ℝ} (hG : ∀ pd, Differentiable ℝ fun x => G x pd) (t r θ rd td pd : ℝ) (hr : r ≠ 0) :
    conservationLaw polarCq polarCp (fun t r θ rd td pd => r ^ 2 * freeStream G t r θ rd td pd) t r θ rd td pd = 0 := by
  have := law_weighted hG (fun r => r ^ 2) (2 * r) t r θ rd td pd hr ((hasDerivAt_pow 2 r).congr_deriv (by simp))
  rw [this]
  field_simp
  ring

/-- A travelling bump: the hypotheses are met, and the reference of the convergence test fails the source-free equation at `r = rd = 1`. -/
example : ∃ G : ℝ × ℝ × ℝ × ℝ → ℝ → ℝ, (∀ pd, Differentiable ℝ fun x => G x pd) ∧
    conservationLaw polarCq polarCp (freeStream G) 0 1 0 1 0 0 = -2 * (1 / 1) * Real.exp (-1) ∧
    conservationLaw polarCq polarCp (freeStream G) 0 1 0 1 0 0 ≠ 0 := by
  have hd : ∀ pd : ℝ, Differentiable ℝ fun x : ℝ × ℝ × ℝ × ℝ => Real.exp (-x.1 ^ 2) := fun _ => by fun_prop
  have h := C101_free_particles (G := fun x _ => Real.exp (-x.1 ^ 2)) hd 0 1 0 1 0 0 one_ne_zero
  have e : freeStream (fun x _ => Real.exp (-x.1 ^ 2)) 0 1 0 1 0 0 = Real.exp (-1) := by simp [freeStream, toCartesian]
  refine ⟨_, hd, ?_, fun h0 => ?_⟩
  · rw [h, e, polarSource]; ring
  · rcases (C101_source_needed hd 0 1 0 1 0 0 one_ne_zero).mp h0 with h1 | h1
    · exact one_ne_zero h1
    · rw [e] at h1; exact (Real.exp_pos _).ne' h1

end law

section grid

variable {S Q K : Type} [AddCommGroup Q] [Field K] [LinearOrder K] [IsStrictOrderedRing K]
  {N1 N2 N3 : ℕ} [NeZero N1] [NeZero N2] [NeZero N3] {ax : Axes (PIdx N1 N2 N3) Q} {cfg : FVMConfig S K}

/-- The slope of a uniform distribution. -/
theorem polar_uniform_slope (hax : MomentumAxes ax) (hq : cfg.solverMethodInQ = "FVM") (hp : cfg.solverMethodInP = "FVM" ∧ cfg.fieldsEnabled = true)
    (s1 s2 s3 : S → K) (r θ : Q → K) (c : S → K) {k : Dist S (PIdx N1 N2 N3) Q K}
    (hk : dfdtFVM ax cfg (polarCallbacks (centres cfg s1 s2 s3) (gridCoords N1 N2 N3 0 s1 s2 s3 cfg.dp1 cfg.dp2 cfg.dp3) r θ) (fun s _ _ => c s) = .ok k)
    (s : S) (p : PIdx N1 N2 N3) (q : Q) :
    k s p q = (if cfg.sourceEnabled = true then -2 * (centres cfg s1 s2 s3).p1 s p * c s / r q else 0) +
      2 * (centres cfg s1 s2 s3).p1 s p / r q * (((p.2.1 + 1).val : K) - p.2.1.val) * cfg.dp2 s * (1 / cfg.dp2 s) * c s := by
  obtain ⟨a, b, h1, h2, h3⟩ := dfdtFVM_ok hk
  obtain ⟨m, -, ha⟩ : ∃ m, reconMethod cfg.reconstructionInQ = .ok m ∧ _ := (h2.resolve_right fun h => h.1 hq).2
  obtain ⟨m', -, hb⟩ : ∃ m, reconMethod cfg.reconstructionInP = .ok m ∧ _ := (h3.resolve_right fun h => h.1 hp).2
  rw [h1, ha, hb]
  have eq0 : dfdtQ ax m cfg.dq1 cfg.dq2
      (polarCallbacks (centres cfg s1 s2 s3) (gridCoords N1 N2 N3 0 s1 s2 s3 cfg.dp1 cfg.dp2 cfg.dp3) r θ).Cq1
      (polarCallbacks (centres cfg s1 s2 s3) (gridCoords N1 N2 N3 0 s1 s2 s3 cfg.dp1 cfg.dp2 cfg.dp3) r θ).Cq2 (fun s _ _ => c s) s p q = 0 := by
    simp only [dfdtQ, fluxDiv_eq, leftState_const, polarCallbacks]; simp
  rw [eq0]
  have ep : dfdtP ax m' cfg.dp1 cfg.dp2 cfg.dp3
      (polarCallbacks (centres cfg s1 s2 s3) (gridCoords N1 N2 N3 0 s1 s2 s3 cfg.dp1 cfg.dp2 cfg.dp3) r θ).Cp1
      (polarCallbacks (centres cfg s1 s2 s3) (gridCoords N1 N2 N3 0 s1 s2 s3 cfg.dp1 cfg.dp2 cfg.dp3) r θ).Cp2
      (polarCallbacks (centres cfg s1 s2 s3) (gridCoords N1 N2 N3 0 s1 s2 s3 cfg.dp1 cfg.dp2 cfg.dp3) r θ).Cp3 (fun s _ _ => c s) s p q =
      2 * (centres cfg s1 s2 s3).p1 s p / r q * (((p.2.1 + 1).val : K) - p.2.1.val) * cfg.dp2 s * (1 / cfg.dp2 s) * c s := by
    simp only [dfdtP, dFluxP, leftFlux, afShift_neg_one, leftState_const, hax.p1, hax.p2, hax.p3, polarCallbacks, polarCp, gridCoords,
      Prod.fst_add, Prod.snd_add, add_zero, zero_mul, sub_self]
    ring
  rw [ep]
  simp only [polarCallbacks, polarSource]
  ring

/-- C101: **a uniform gas stays uniform.**  On the grid, with any of the reconstructions and any spacings, the polar package's fluxes and source cancel
exactly for a uniform distribution in every momentum cell but those of the last row in `thetadot`. -/
theorem C101_uniform_gas (hax : MomentumAxes ax) (hq : cfg.solverMethodInQ = "FVM") (hp : cfg.solverMethodInP = "FVM" ∧ cfg.fieldsEnabled = true)
    (hsrc : cfg.sourceEnabled = true) (hdp : ∀ s, cfg.dp2 s ≠ 0) (s1 s2 s3 : S → K) (r θ : Q → K) (c : S → K) {k : Dist S (PIdx N1 N2 N3) Q K}
    (hk : dfdtFVM ax cfg (polarCallbacks (centres cfg s1 s2 s3) (gridCoords N1 N2 N3 0 s1 s2 s3 cfg.dp1 cfg.dp2 cfg.dp3) r θ) (fun s _ _ => c s) = .ok k)
    (s : S) (p : PIdx N1 N2 N3) (q : Q) :
    k s p q = if p.2.1.val + 1 < N2 then 0 else -2 * N2 * (centres cfg s1 s2 s3).p1 s p * c s / r q := by
  rw [polar_uniform_slope hax hq hp s1 s2 s3 r θ c hk s p q, if_pos hsrc]
  have hd := hdp s
  split_ifs with h
  · have : (p.2.1 + 1).val = p.2.1.val + 1 := by
      have := val_sub_one (p.2.1 + 1) (fun h0 => by
        have : p.2.1 = -1 := eq_neg_of_add_eq_zero_left h0
        rw [this] at h; have := val_neg_one' (N := N2); omega)
      rw [add_sub_cancel_right] at this; exact this.symm
    rw [this, mul_assoc _ (cfg.dp2 s), mul_one_div_cancel hd]; push_cast; ring
  · have h0 : p.2.1 + 1 = 0 := by
      have l := ZMod.val_lt p.2.1
      have : ((p.2.1.val + 1 : ℕ) : ZMod N2) = ((N2 : ℕ) : ZMod N2) := by congr 1; omega
      rw [Nat.cast_add, ZMod.natCast_zmod_val, Nat.cast_one, ZMod.natCast_self] at this
      exact this
    have l := ZMod.val_lt p.2.1
    have hv : (p.2.1.val : K) = N2 - 1 := by
      have : p.2.1.val + 1 = N2 := by omega
      have h' : ((p.2.1.val + 1 : ℕ) : K) = N2 := congrArg _ this
      push_cast at h'; linear_combination h'
    rw [h0, ZMod.val_zero, hv, mul_assoc _ (cfg.dp2 s), mul_one_div_cancel hd]; push_cast; ring

/-- C101 (negative): without the source the uniform gas piles up where it moves outwards and thins out where it moves inwards: the slope is
`2 rdot c / r`. -/
theorem C101_uniform_gas_without_source (hax : MomentumAxes ax) (hq : cfg.solverMethodInQ = "FVM")
    (hp : cfg.solverMethodInP = "FVM" ∧ cfg.fieldsEnabled = true) (hsrc : cfg.sourceEnabled = false) (hdp : ∀ s, cfg.dp2 s ≠ 0) (s1 s2 s3 : S → K)
    (r θ : Q → K) (c : S → K) {k : Dist S (PIdx N1 N2 N3) Q K}
    (hk : dfdtFVM ax cfg (polarCallbacks (centres cfg s1 s2 s3) (gridCoords N1 N2 N3 0 s1 s2 s3 cfg.dp1 cfg.dp2 cfg.dp3) r θ) (fun s _ _ => c s) = .ok k)
    (s : S) (p : PIdx N1 N2 N3) (q : Q) (h : p.2.1.val + 1 < N2) : k s p q = 2 * (centres cfg s1 s2 s3).p1 s p * c s / r q := by
  rw [polar_uniform_slope hax hq hp s1 s2 s3 r θ c hk s p q, if_neg (by simp [hsrc])]
  have hd := hdp s
  have : (p.2.1 + 1).val = p.2.1.val + 1 := by
    have := val_sub_one (p.2.1 + 1) (fun h0 => by
      have : p.2.1 = -1 := eq_neg_of_add_eq_zero_left h0
      rw [this] at h; have := val_neg_one' (N := N2); omega)
    rw [add_sub_cancel_right] at this; exact this.symm
  rw [this, mul_assoc _ (cfg.dp2 s), mul_one_div_cancel hd]; push_cast; ring

/-- C101: **the third velocity is carried along.**  Particles move neither out of nor into a cell in `phidot`, and `phidot` acts on nothing: whatever the spacing
and the coordinates along it, the slope of every distribution is the same. -/
theorem C101_third_velocity {P : Type} [AddCommGroup P] {ax : Axes P Q} (ctr cor : PCoords S P K) (x3 y3 : S → P → K) (d : S → K) (r θ : Q → K) (f : Dist S P Q K) :
    dfdtFVM ax { cfg with dp3 := d } (polarCallbacks { ctr with p3 := x3 } { cor with p3 := y3 } r θ) f = dfdtFVM ax cfg (polarCallbacks ctr cor r θ) f := by
  have none : ∀ (m : Recon) (d : S → K), dFluxP m ax.p3 d (fun (_ : S) (_ : P) (_ : Q) => (0 : K)) f = fun _ _ _ => 0 := by
    intro m d; funext s p q
    simp [dFluxP, leftFlux, afShift]
  have key : ∀ m, dfdtP ax m cfg.dp1 cfg.dp2 d (polarCallbacks { ctr with p3 := x3 } { cor with p3 := y3 } r θ).Cp1
      (polarCallbacks { ctr with p3 := x3 } { cor with p3 := y3 } r θ).Cp2 (polarCallbacks { ctr with p3 := x3 } { cor with p3 := y3 } r θ).Cp3 f =
      dfdtP ax m cfg.dp1 cfg.dp2 cfg.dp3 (polarCallbacks ctr cor r θ).Cp1 (polarCallbacks ctr cor r θ).Cp2 (polarCallbacks ctr cor r θ).Cp3 f := by
    intro m; funext s p q
    unfold dfdtP
    have h := none m
    rw [show (polarCallbacks { ctr with p3 := x3 } { cor with p3 := y3 } r θ).Cp3 = fun _ _ _ => 0 from by funext s p q; simp [polarCallbacks, polarCp],
      show (polarCallbacks ctr cor r θ).Cp3 = fun _ _ _ => 0 from by funext s p q; simp [polarCallbacks, polarCp], h, h]
    rfl
  unfold dfdtFVM
  simp only [key]
  rfl

/-- The slope exists with the polar package on a grid of 5 x 5 x 5 momentum cells, with the source: zero in the middle, not in the last row. -/
example : ∃ k, dfdtFVM c75Ax { c75Cfg with sourceEnabled := true }
      (polarCallbacks (centres c75Cfg 0 0 0) (gridCoords 5 5 5 0 0 0 0 c75Cfg.dp1 c75Cfg.dp2 c75Cfg.dp3) (fun _ => 2) (fun _ => 0)) (fun _ _ _ => 3) = .ok k ∧
    k () (2, 2, 2) (0, 0) = 0 ∧ k () (2, 4, 2) (0, 0) ≠ 0 := by
  refine ⟨_, rfl, ?_, ?_⟩
  · exact (C101_uniform_gas (ax := c75Ax) (cfg := { c75Cfg with sourceEnabled := true }) ⟨rfl, rfl, rfl⟩ rfl ⟨rfl, rfl⟩ rfl (by simp [c75Cfg]) 0 0 0
      (fun _ => 2) (fun _ => 0) (fun _ => 3) rfl () (2, 2, 2) (0, 0)).trans (if_pos (by decide))
  · rw [(C101_uniform_gas (ax := c75Ax) (cfg := { c75Cfg with sourceEnabled := true }) ⟨rfl, rfl, rfl⟩ rfl ⟨rfl, rfl⟩ rfl (by simp [c75Cfg]) 0 0 0
      (fun _ => 2) (fun _ => 0) (fun _ => 3) rfl () (2, 4, 2) (0, 0)).trans (if_neg (by decide))]
    have v2 : ((2 : ZMod 5).val : ℚ) = 2 := by norm_cast
    simp [-ZMod.natCast_val, centres, gridCoords, c75Cfg, v2]
    try norm_num

end grid

section moments

variable {S P Q : Type} [Fintype P]

/-- C101 (negative): the moment called `energy` is not the kinetic energy, which is `(rdot² + r² thetadot² + phidot²)/2` per particle: they differ by
`(1 - r²)/2` times the integral of `f thetadot²`. -/
theorem C101_energy_moment (c : PCoords S P ℝ) (measure : S → ℝ) (f : Dist S P Q ℝ) (r : Q → ℝ) (s : S) (q : Q) :
    energy c measure f s q = integralOverV (fun s p q => f s p q * (1 / 2 * (c.p1 s p ^ 2 + (r q * c.p2 s p) ^ 2 + c.p3 s p ^ 2))) measure s q +
      (1 - r q ^ 2) / 2 * integralOverV (fun s p q => f s p q * c.p2 s p ^ 2) measure s q := by
  simp only [energy, integralOverV, ← mul_assoc, ← add_mul]
  congr 1
  rw [Finset.mul_sum, ← Finset.sum_add_distrib]
  exact Finset.sum_congr rfl fun p _ => by ring

open MeasureTheory in
/-- C101 (negative): the moment called `density` (the integral over `rdot`, `thetadot`) is not the number of particles per area: that is the integral over
the Cartesian velocities, which is `r` times as large, at every point and for every distribution. -/
theorem C101_density_moment (F : (Fin 2 → ℝ) → ℝ) (r θ : ℝ) (hr : 0 < r) :
    ∫ v, F v = r * ∫ w : Fin 2 → ℝ, F ![(toCartesian r θ (w 0) (w 1)).2.2.1, (toCartesian r θ (w 0) (w 1)).2.2.2] := by
  let M : Matrix (Fin 2) (Fin 2) ℝ := !![Real.cos θ, -(r * Real.sin θ); Real.sin θ, r * Real.cos θ]
  have hM : M.det = r := by
    simp only [M, Matrix.det_fin_two_of]
    linear_combination r * Real.cos_sq_add_sin_sq θ
  have hM0 : M.det ≠ 0 := by rw [hM]; exact hr.ne'
  have map := Real.map_matrix_volume_pi_eq_smul_volume_pi hM0
  have emb : MeasurableEmbedding (Matrix.toLin' M) := by
    have : (Matrix.toLin' M).det ≠ 0 := by rw [LinearMap.det_toLin']; exact hM0
    exact (LinearMap.equivOfDetNeZero (Matrix.toLin' M) this).toContinuousLinearEquiv.toHomeomorph.measurableEmbedding
  have key := emb.integral_map (μ := volume) F
  rw [map, hM, integral_smul_measure, ENNReal.toReal_ofReal (abs_nonneg _), abs_of_pos (inv_pos.mpr hr), smul_eq_mul] at key
  have e : ∀ w : Fin 2 → ℝ, Matrix.toLin' M w = ![(toCartesian r θ (w 0) (w 1)).2.2.1, (toCartesian r θ (w 0) (w 1)).2.2.2] := fun w => by
    ext i
    fin_cases i <;> simp [M, Matrix.toLin'_apply, Matrix.mulVec, dotProduct, Fin.sum_univ_two, toCartesian] <;> ring
  simp only [e] at key
  rw [← key, ← mul_assoc, mul_inv_cancel₀ hr.ne', one_mul]

end moments

section beam

/-- C101: a beam with refractive index `n` would move along its momentum with speed `1/n`. -/
theorem C101_beam_speed (n p1 p2 : ℝ) (hn : 0 < n) (hp : p1 ^ 2 + p2 ^ 2 ≠ 0) :
    (beamAq n p1 p2).1 ^ 2 + (beamAq n p1 p2).2 ^ 2 = (1 / n) ^ 2 ∧
      ∃ c > 0, (beamAq n p1 p2).1 = c * p1 ∧ (beamAq n p1 p2).2 = c * p2 := by
  have h0 : 0 < p1 ^ 2 + p2 ^ 2 := lt_of_le_of_ne (by positivity) (Ne.symm hp)
  have hs := Real.sq_sqrt h0.le
  have hs0 := Real.sqrt_pos.mpr h0
  refine ⟨?_, 1 / n * (1 / Real.sqrt (p1 ^ 2 + p2 ^ 2)), by positivity, by simp only [beamAq]; ring, by simp only [beamAq]; ring⟩
  simp only [beamAq, mul_pow, div_pow, hs]
  field_simp

/-- C101 (negative): the refractive index of the package is zero everywhere, so no velocity is that of light in the medium. -/
theorem C101_beam_index (q1 q2 v : ℝ) : v * beamN q1 q2 ≠ 1 := by simp [beamN]

/-- C101 (negative): with the beam-optics package no physical system can be made.  Its moments are dictionaries, which raises `TypeError`; with other
moments it raises `AttributeError` for want of `C_q` and `C_p`, unless something else is wrong. -/
theorem C101_beam_rejected {K : Type} [Field K] [LinearOrder K] (x : SystemIn K) (hadv : x.advAttrs = beamAdvAttrs) :
    (∀ sys, physicalSystem x ≠ .ok sys) ∧
    (x.momentAttrs = beamMomentAttrs → physicalSystem x = .error .typeError) ∧
    (Acceptable { x with advAttrs := polarAdvAttrs } → physicalSystem x = .error .attributeError) := by
  have hna : ∀ k, ("C_q", k) ∉ x.advAttrs := fun k h => by rw [hadv] at h; simp [beamAdvAttrs] at h
  refine ⟨fun sys h => ?_, fun hm => ?_, fun hA => ?_⟩
  · have := ((C49_accepted_iff x).1.mp ⟨sys, h⟩).advTerms "C_q" (by simp)
    exact hna _ this.choose_spec
  · have : checkTypes x = .error .typeError := by
      have hne : checkTypes x ≠ .ok () := fun h => by
        have := ((checkTypes_iff x).mp h).2.2.2.2 ("moment_coeffs", .other) (by rw [hm]; simp [beamMomentAttrs])
        rcases this with h | h | h
        · simp at h
        · cases h
        · cases h
      have : checkTypes x = .error .typeError ∨ checkTypes x = .ok () := by
        unfold checkTypes; split_ifs <;> simp
      exact this.resolve_right hne
    rw [physicalSystem, this]; rfl
  · obtain ⟨sys, hs⟩ := (C49_accepted_iff _).1.mpr hA
    have ht : checkTypes x = .ok () := (checkTypes_iff x).mpr ⟨hA.bcTypes, hA.initial, hA.source, by
      rw [hadv]; simp [beamAdvAttrs], hA.momentTypes⟩
    have hc : checkAdvection x = .error .attributeError := by
      have : checkAdvection x ≠ .ok () := fun h => hna _ (((checkAdvection_iff x).mp h) "C_q" (by simp)).choose_spec
      unfold checkAdvection at this ⊢
      split_ifs at this ⊢
      · exact absurd rfl this
      · rfl
    have ht' := (checkTypes_iff _).mpr ⟨hA.bcTypes, hA.initial, hA.source, hA.advTypes, hA.momentTypes⟩
    have hsp : checkSpecies x = .ok () := (checkSpecies_iff x).mpr ⟨hA.species, hA.hybrid, hA.limits⟩
    rw [physicalSystem, ht', show checkSpecies { x with advAttrs := polarAdvAttrs } = .ok () from hsp] at hs
    rw [physicalSystem, ht, hsp]
    cases hd : checkDomain x.domain with
    | error e => simp only [hd] at hs; cases hs
    | ok u =>
    simp only [hd] at hs
    cases e1 : pyDiv (x.domain.q1End - x.domain.q1Start) x.domain.Nq1 with
    | error e => simp only [e1] at hs; cases hs
    | ok v1 =>
    cases e2 : pyDiv (x.domain.q2End - x.domain.q2Start) x.domain.Nq2 with
    | error e => simp only [e1, e2] at hs; cases hs
    | ok v2 =>
    cases e3 : dpLoop x.domain.Np1 x.domain.p1Start.entries x.domain.p1End.entries with
    | error e => simp only [e1, e2, e3] at hs; cases hs
    | ok v3 =>
    cases e4 : dpLoop x.domain.Np2 x.domain.p2Start.entries x.domain.p2End.entries with
    | error e => simp only [e1, e2, e3, e4] at hs; cases hs
    | ok v4 =>
    cases e5 : dpLoop x.domain.Np3 x.domain.p3Start.entries x.domain.p3End.entries with
    | error e => simp only [e1, e2, e3, e4, e5] at hs; cases hs
    | ok v5 => simp only [e1, e2, e3, e4, e5, hc]; rfl

/-- A system that is accepted with the polar package's advection terms, and refused with those of the beam-optics package. -/
example : (∃ sys, physicalSystem { exSystem (-2) 2 "electrodynamic" "fdtd" with advAttrs := polarAdvAttrs } = .ok sys) ∧
    physicalSystem { exSystem (-2) 2 "electrodynamic" "fdtd" with advAttrs := beamAdvAttrs } = .error .attributeError ∧
    physicalSystem { exSystem (-2) 2 "electrodynamic" "fdtd" with advAttrs := beamAdvAttrs, momentAttrs := beamMomentAttrs } = .error .typeError := by
  have hA : Acceptable { exSystem (-2) 2 "electrodynamic" "fdtd" with advAttrs := polarAdvAttrs } :=
    { exSystem_acceptable (-2) 2 "electrodynamic" "fdtd" (fun _ => by decide) (fun h => absurd h (by decide)) with
      advTypes := by simp [polarAdvAttrs]
      advTerms := by
        intro n hn
        simp only [List.mem_cons, List.not_mem_nil, or_false] at hn
        rcases hn with rfl | rfl | rfl | rfl <;> exact ⟨.function, by simp [polarAdvAttrs]⟩ }
  exact ⟨(C49_accepted_iff _).1.mpr hA,
    (C101_beam_rejected { exSystem (-2) 2 "electrodynamic" "fdtd" with advAttrs := beamAdvAttrs } rfl).2.2 hA,
    (C101_beam_rejected { exSystem (-2) 2 "electrodynamic" "fdtd" with advAttrs := beamAdvAttrs, momentAttrs := beamMomentAttrs } rfl).2.1 rfl⟩

end beam

end Bolt
