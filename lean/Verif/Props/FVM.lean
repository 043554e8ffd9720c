import Verif.Proofs.FVM
import Mathlib.Data.ZMod.Basic
import Mathlib.Algebra.Order.Ring.Rat

/-!
# C01–C04, C10: the finite-volume scheme
-/

set_option linter.unusedSectionVars false

namespace Bolt

open Finset

variable {K : Type} [Field K] [LinearOrder K] [IsStrictOrderedRing K]
variable {S P Q : Type} [AddCommGroup P] [AddCommGroup Q]

theorem runFVM_cons {ax : Axes P Q} {cfg : FVMConfig S K} {dt : K} {cb : Fin 2 → Callbacks S P Q K}
    {rest : List (K × (Fin 2 → Callbacks S P Q K))} {f f' : Dist S P Q K}
    (h : runFVM ax cfg ((dt, cb) :: rest) f = .ok f') :
    ∃ g k0 k1, dfdtFVM ax cfg (cb 0) f = .ok k0 ∧
      dfdtFVM ax cfg (cb 1) (fun s p q => f s p q + k0 s p q * (dt / 2)) = .ok k1 ∧
      (∀ s p q, g s p q = f s p q + k1 s p q * dt) ∧ runFVM ax cfg rest g = .ok f' := by
  simp only [runFVM, bind, Except.bind] at h
  cases h0 : timestepFVM (fun f => .ok f) (fun k => dfdtFVM ax cfg (cb k)) dt f with
  | error e => simp [h0] at h
  | ok g =>
    simp only [h0] at h
    obtain ⟨f0, k0, fh, k1, a, b, c, d, e⟩ := timestepFVM_ok h0
    simp only [Except.ok.injEq] at a c
    subst a; subst c
    exact ⟨g, k0, k1, b, d, e, h⟩

/-- Induction principle: a quantity `Φ` of the distribution that is unchanged whenever a multiple of a slope is added is
unchanged by every run. -/
theorem runFVM_invariant {α : Type} (Φ : Dist S P Q K → α) (ax : Axes P Q) (cfg : FVMConfig S K)
    (hΦ : ∀ cb f g k c, dfdtFVM ax cfg cb g = .ok k → Φ (fun s p q => f s p q + k s p q * c) = Φ f)
    (steps : List (K × (Fin 2 → Callbacks S P Q K))) :
    ∀ f f' : Dist S P Q K, runFVM ax cfg steps f = .ok f' → Φ f' = Φ f := by
  induction steps with
  | nil => intro f f' h; simp only [runFVM, Except.ok.injEq] at h; rw [h]
  | cons st rest ih =>
    obtain ⟨dt, cb⟩ := st
    intro f f' h
    obtain ⟨g, k0, k1, a, b, c, d⟩ := runFVM_cons h
    rw [ih g f' d]
    have : g = fun s p q => f s p q + k1 s p q * dt := by funext s p q; exact c s p q
    rw [this]
    exact hΦ _ _ _ _ _ b

/-! ## C01 conservation of particle number -/

/-- C01: with fields off and no source, the number of particles of every species at every momentum is conserved by any
number of finite-volume steps on the periodic grid. -/
theorem C01_particle_number_each_momentum [Fintype Q] (ax : Axes P Q) (cfg : FVMConfig S K)
    (hsrc : cfg.sourceEnabled = false) (hfields : cfg.fieldsEnabled = false)
    (steps : List (K × (Fin 2 → Callbacks S P Q K))) (f f' : Dist S P Q K)
    (h : runFVM ax cfg steps f = .ok f') (s : S) (p : P) :
    ∑ q, f' s p q = ∑ q, f s p q := by
  refine runFVM_invariant (fun f => ∑ q, f s p q) ax cfg ?_ steps f f' h
  intro cb f g k c hk
  obtain ⟨a, b, h1, h2, h3⟩ := dfdtFVM_ok hk
  have hb : ∀ s p q, b s p q = 0 := by
    rcases h3 with ⟨⟨_, h4⟩, _⟩ | ⟨_, h4⟩
    · simp [hfields] at h4
    · exact h4
  have ha : ∑ q, a s p q = 0 := by
    rcases h2 with ⟨_, m, _, h4⟩ | ⟨_, h4⟩
    · simp [h4, hsrc, sum_dfdtQ]
    · simp [h4]
  simp only [h1, hb, add_zero, Finset.sum_add_distrib, ← Finset.sum_mul, ha, zero_mul]

/-- C01: with fields on (or off) and no source, the total number of particles of every species is conserved by any number
of finite-volume steps on the periodic grid. -/
theorem C01_total_particle_number [Fintype P] [Fintype Q] (ax : Axes P Q) (cfg : FVMConfig S K)
    (hsrc : cfg.sourceEnabled = false)
    (steps : List (K × (Fin 2 → Callbacks S P Q K))) (f f' : Dist S P Q K)
    (h : runFVM ax cfg steps f = .ok f') (s : S) :
    ∑ p, ∑ q, f' s p q = ∑ p, ∑ q, f s p q := by
  refine runFVM_invariant (fun f => ∑ p, ∑ q, f s p q) ax cfg ?_ steps f f' h
  intro cb f g k c hk
  obtain ⟨a, b, h1, h2, h3⟩ := dfdtFVM_ok hk
  have hb : ∑ p, ∑ q, b s p q = 0 := by
    rw [Finset.sum_comm]
    rcases h3 with ⟨_, m, _, h4⟩ | ⟨_, h4⟩
    · simp [h4, sum_dfdtP]
    · simp [h4]
  have ha : ∑ p, ∑ q, a s p q = 0 := by
    rcases h2 with ⟨_, m, _, h4⟩ | ⟨_, h4⟩
    · simp [h4, hsrc, sum_dfdtQ]
    · simp [h4]
  simp only [h1, add_mul, Finset.sum_add_distrib, ← Finset.sum_mul, ha, hb, zero_mul, add_zero]

/-! ## C02 momentum advection conserves density -/

/-- C02: the momentum-space part of the slope does not change the density of any species at any position, whatever the
forces. -/
theorem C02_momentum_advection_conserves_density [Fintype P] (ax : Axes P Q) (cfg : FVMConfig S K)
    (hq : cfg.solverMethodInQ ≠ "FVM")
    (steps : List (K × (Fin 2 → Callbacks S P Q K))) (f f' : Dist S P Q K)
    (h : runFVM ax cfg steps f = .ok f') (s : S) (q : Q) :
    ∑ p, f' s p q = ∑ p, f s p q := by
  refine runFVM_invariant (fun f => ∑ p, f s p q) ax cfg ?_ steps f f' h
  intro cb f g k c hk
  obtain ⟨a, b, h1, h2, h3⟩ := dfdtFVM_ok hk
  have ha : ∀ s p q, a s p q = 0 := by
    rcases h2 with ⟨h4, _⟩ | ⟨_, h4⟩
    · exact absurd h4 hq
    · exact h4
  have hb : ∑ p, b s p q = 0 := by
    rcases h3 with ⟨_, m, _, h4⟩ | ⟨_, h4⟩
    · simp [h4, sum_dfdtP]
    · simp [h4]
  simp only [h1, ha, zero_add, Finset.sum_add_distrib, ← Finset.sum_mul, hb, zero_mul, add_zero]

/-- C02: when both spaces are advected, switching the fields on changes the slope of the density by exactly zero: the
density slope equals that of the run with fields disabled. -/
theorem C02_density_slope_independent_of_fields [Fintype P] (ax : Axes P Q) (cfg : FVMConfig S K)
    (cb : Callbacks S P Q K) (f k k' : Dist S P Q K)
    (hk : dfdtFVM ax cfg cb f = .ok k)
    (hk' : dfdtFVM ax { cfg with fieldsEnabled := false } cb f = .ok k') (s : S) (q : Q) :
    ∑ p, k s p q = ∑ p, k' s p q := by
  obtain ⟨a, b, h1, h2, h3⟩ := dfdtFVM_ok hk
  obtain ⟨a', b', h1', h2', h3'⟩ := dfdtFVM_ok hk'
  have hb' : ∀ s p q, b' s p q = 0 := by
    rcases h3' with ⟨⟨_, h4⟩, _⟩ | ⟨_, h4⟩
    · simp at h4
    · exact h4
  have hb : ∑ p, b s p q = 0 := by
    rcases h3 with ⟨_, m, _, h4⟩ | ⟨_, h4⟩
    · simp [h4, sum_dfdtP]
    · simp [h4]
  have ha : ∀ s p q, a s p q = a' s p q := by
    intro s p q
    rcases h2 with ⟨g1, m, g2, g3⟩ | ⟨g1, g3⟩ <;> rcases h2' with ⟨g1', m', g2', g3'⟩ | ⟨g1', g3'⟩
    · simp only at g2'
      rw [g2] at g2'
      simp only [Except.ok.injEq] at g2'
      subst g2'; rw [g3, g3']
    · exact absurd g1 g1'
    · exact absurd g1' g1
    · rw [g3, g3']
  simp only [h1, h1', hb', add_zero, Finset.sum_add_distrib, hb, ha]

/-! ## C03 uniform states -/

/-- C03: if the distribution does not vary in position and the interface velocities of every momentum do not vary in
position, any number of position-space finite-volume steps leaves it exactly unchanged. -/
theorem C03_uniform_state_preserved (ax : Axes P Q) (cfg : FVMConfig S K)
    (hsrc : cfg.sourceEnabled = false) (hfields : cfg.fieldsEnabled = false)
    (steps : List (K × (Fin 2 → Callbacks S P Q K)))
    (hv : ∀ st ∈ steps, ∀ k s p q q', (st.2 k).Cq1 s p q = (st.2 k).Cq1 s p q' ∧
      (st.2 k).Cq2 s p q = (st.2 k).Cq2 s p q')
    (f f' : Dist S P Q K) (hf : ∀ s p q q', f s p q = f s p q')
    (h : runFVM ax cfg steps f = .ok f') : f' = f := by
  have slope0 : ∀ (cb : Callbacks S P Q K) (g k : Dist S P Q K),
      (∀ s p q q', cb.Cq1 s p q = cb.Cq1 s p q' ∧ cb.Cq2 s p q = cb.Cq2 s p q') →
      (∀ s p q q', g s p q = g s p q') → dfdtFVM ax cfg cb g = .ok k → ∀ s p q, k s p q = 0 := by
    intro cb g k hcb hg hk s p q
    obtain ⟨a, b, h1, h2, h3⟩ := dfdtFVM_ok hk
    have hb : b s p q = 0 := by
      rcases h3 with ⟨⟨_, h4⟩, _⟩ | ⟨_, h4⟩
      · simp [hfields] at h4
      · exact h4 s p q
    have ha : a s p q = 0 := by
      rcases h2 with ⟨_, m, _, h4⟩ | ⟨_, h4⟩
      · have hgs : g s p = fun _ => g s p q := by funext q'; exact hg s p q' q
        simp only [h4, hsrc, dfdtQ, fluxDiv_eq]
        rw [hgs]
        simp only [leftState_const]
        rw [(hcb s p (q + ax.q1) q).1, (hcb s p (q + ax.q2) q).2]; simp
      · exact h4 s p q
    rw [h1, ha, hb, add_zero]
  induction steps generalizing f with
  | nil => simp only [runFVM, Except.ok.injEq] at h; exact h.symm
  | cons st rest ih =>
    obtain ⟨dt, cb⟩ := st
    obtain ⟨g, k0, k1, a, b, c, d⟩ := runFVM_cons h
    have hcb := hv (dt, cb) (by simp)
    have z0 := slope0 (cb 0) f k0 (hcb 0) hf a
    have z1 := slope0 (cb 1) _ k1 (hcb 1) (by intro s p q q'; simp [z0, hf s p q q']) b
    have hg : g = f := by funext s p q; rw [c, z1]; simp
    subst hg
    exact ih (fun st hst => hv st (by simp [hst])) g hf d

/-! ## C04 upwinding -/

/-- C04: the state at the left interface of cell `i` is the right face value of the upwind cell `i - e` when the interface
velocity is positive and the left face value of cell `i` itself otherwise. -/
theorem C04_upwind_state {I : Type} [AddCommGroup I] (m : Recon) (e : I) (C x : I → K) (i : I) :
    (0 < C i → leftState m e C x i = (reconFaces m e x).2 (i - e)) ∧
    (C i ≤ 0 → leftState m e C x i = (reconFaces m e x).1 i) := by
  rw [leftState_eq]
  constructor
  · intro h; rw [if_pos h]
  · intro h; rw [if_neg (not_lt.mpr h)]

/-- C04: with first-order reconstruction the flux through the left interface of cell `i` is
`C⁺ x(i-e) + C⁻ x(i)`, where `C⁺`/`C⁻` are the positive and negative part of the interface velocity. -/
theorem C04_first_order_upwind_flux {I : Type} [AddCommGroup I] (e : I) (C x : I → K) (i : I) :
    leftFlux .piecewiseConstant e C x i = max (C i) 0 * x (i - e) + min (C i) 0 * x i := by
  simp only [leftFlux, leftState_eq, reconFaces]
  split_ifs with h
  · rw [max_eq_left h.le, min_eq_right h.le]; ring
  · push Not at h; rw [max_eq_right h, min_eq_left h]; ring

/-- C04: the slope is the negative flux difference: what leaves a cell through an interface enters the neighbour through
the same interface, in both position directions. -/
theorem C04_slope_is_flux_difference (ax : Axes P Q) (m : Recon) (dq1 dq2 : K) (C1 C2 f : Dist S P Q K)
    (s : S) (p : P) (q : Q) :
    dfdtQ ax m dq1 dq2 C1 C2 f s p q =
      (leftFlux m ax.q1 (C1 s p) (f s p) q - leftFlux m ax.q1 (C1 s p) (f s p) (q + ax.q1)) / dq1 +
      (leftFlux m ax.q2 (C2 s p) (f s p) q - leftFlux m ax.q2 (C2 s p) (f s p) (q + ax.q2)) / dq2 := by
  simp only [dfdtQ, fluxDiv, afShift_neg_one]; ring

/-- C04: the same for the three momentum directions, at every position. -/
theorem C04_momentum_slope_is_flux_difference (ax : Axes P Q) (m : Recon) (dp1 dp2 dp3 : S → K) (C1 C2 C3 f : Dist S P Q K)
    (s : S) (p : P) (q : Q) :
    dfdtP ax m dp1 dp2 dp3 C1 C2 C3 f s p q =
      (leftFlux m ax.p1 (C1 s · q) (f s · q) p - leftFlux m ax.p1 (C1 s · q) (f s · q) (p + ax.p1)) / dp1 s +
      (leftFlux m ax.p2 (C2 s · q) (f s · q) p - leftFlux m ax.p2 (C2 s · q) (f s · q) (p + ax.p2)) / dp2 s +
      (leftFlux m ax.p3 (C3 s · q) (f s · q) p - leftFlux m ax.p3 (C3 s · q) (f s · q) (p + ax.p3)) / dp3 s := by
  simp only [dfdtP, dFluxP, leftFlux, leftState, afShift_neg_one]; ring

/-- C09 (negative part): the Riemann-solver options are read but have no effect on the slope; any name is accepted. -/
theorem C09_riemann_option_ignored (ax : Axes P Q) (cfg : FVMConfig S K) (cb : Callbacks S P Q K)
    (f : Dist S P Q K) (nameQ nameP : String) :
    dfdtFVM ax { cfg with riemannInQ := nameQ, riemannInP := nameP } cb f = dfdtFVM ax cfg cb f := rfl

/-- C09: `df_dt_fvm` succeeds exactly when the reconstruction options it actually uses are implemented. -/
theorem C09_slope_ok_iff (ax : Axes P Q) (cfg : FVMConfig S K) (cb : Callbacks S P Q K) (f : Dist S P Q K) :
    (∃ k, dfdtFVM ax cfg cb f = .ok k) ↔
      (cfg.solverMethodInQ = "FVM" →
        cfg.reconstructionInQ = "piecewise-constant" ∨ cfg.reconstructionInQ = "minmod" ∨ cfg.reconstructionInQ = "ppm") ∧
      (cfg.solverMethodInP = "FVM" ∧ cfg.fieldsEnabled = true →
        cfg.reconstructionInP = "piecewise-constant" ∨ cfg.reconstructionInP = "minmod" ∨ cfg.reconstructionInP = "ppm") := by
  have key : ∀ name : String, (∃ m, reconMethod name = .ok m) ↔
      (name = "piecewise-constant" ∨ name = "minmod" ∨ name = "ppm") := by
    intro name
    simp only [reconMethod]
    split_ifs <;> simp_all
  constructor
  · rintro ⟨k, hk⟩
    obtain ⟨a, b, h1, h2, h3⟩ := dfdtFVM_ok hk
    constructor
    · intro hq
      rcases h2 with ⟨_, m, h4, _⟩ | ⟨h4, _⟩
      · exact (key _).mp ⟨m, h4⟩
      · exact absurd hq h4
    · intro hp
      rcases h3 with ⟨_, m, h4, _⟩ | ⟨h4, _⟩
      · exact (key _).mp ⟨m, h4⟩
      · exact absurd hp h4
  · rintro ⟨hq, hp⟩
    rw [← key] at hq hp
    unfold dfdtFVM
    by_cases c1 : cfg.solverMethodInQ = "FVM"
    · obtain ⟨m, hm⟩ := hq c1
      by_cases c2 : cfg.solverMethodInP = "FVM" ∧ cfg.fieldsEnabled = true
      · obtain ⟨m2, hm2⟩ := hp c2
        by_cases c3 : cfg.sourceEnabled = true <;>
          simp [c1, c2, c3, hm, hm2, bind, Except.bind, pure, Except.pure]
      · by_cases c3 : cfg.sourceEnabled = true <;>
          simp only [c1, c2, c3, hm, bind, Except.bind, pure, Except.pure, if_true, if_false] <;> exact ⟨_, rfl⟩
    · by_cases c2 : cfg.solverMethodInP = "FVM" ∧ cfg.fieldsEnabled = true
      · obtain ⟨m2, hm2⟩ := hp c2
        simp [c1, c2, hm2, bind, Except.bind, pure, Except.pure]
      · simp only [c1, c2, bind, Except.bind, pure, Except.pure, if_false]; exact ⟨_, rfl⟩

/-- C09: a run of any length succeeds when the reconstruction options are implemented names. -/
theorem C09_run_succeeds (ax : Axes P Q) (cfg : FVMConfig S K)
    (hq : cfg.reconstructionInQ = "piecewise-constant" ∨ cfg.reconstructionInQ = "minmod" ∨ cfg.reconstructionInQ = "ppm")
    (hp : cfg.reconstructionInP = "piecewise-constant" ∨ cfg.reconstructionInP = "minmod" ∨ cfg.reconstructionInP = "ppm")
    (steps : List (K × (Fin 2 → Callbacks S P Q K))) (f : Dist S P Q K) :
    ∃ f', runFVM ax cfg steps f = .ok f' := by
  induction steps generalizing f with
  | nil => exact ⟨f, rfl⟩
  | cons st rest ih =>
    obtain ⟨dt, cb⟩ := st
    obtain ⟨k0, h0⟩ := (C09_slope_ok_iff ax cfg (cb 0) f).mpr ⟨fun _ => hq, fun _ => hp⟩
    obtain ⟨k1, h1⟩ := (C09_slope_ok_iff ax cfg (cb 1) (fun s p q => f s p q + k0 s p q * (dt / 2))).mpr
      ⟨fun _ => hq, fun _ => hp⟩
    obtain ⟨f', h'⟩ := ih (fun s p q => f s p q + k1 s p q * dt)
    refine ⟨f', ?_⟩
    simp only [runFVM, timestepFVM, bind, Except.bind, pure, Except.pure, h0, h1, h']

/-! ## A concrete non-trivial instance -/

/-- Example grid: `2 × 1 × 1` momenta, `3 × 2` positions. -/
def exAxes : Axes (ZMod 2 × ZMod 1 × ZMod 1) (ZMod 3 × ZMod 2) :=
  ⟨(1, 0, 0), (0, 1, 0), (0, 0, 1), (1, 0), (0, 1)⟩

/-- Example configuration: minmod in position, PPM in momentum, fields on. -/
def exCfg : FVMConfig Unit ℚ :=
  ⟨"FVM", "FVM", "minmod", "ppm", "upwind-flux", "upwind-flux", false, true, 1 / 2, 1, fun _ => 1, fun _ => 1, fun _ => 1⟩

/-- Example velocities: opposite signs for the two momenta, a force that changes sign in space. -/
def exCb : Callbacks Unit (ZMod 2 × ZMod 1 × ZMod 1) (ZMod 3 × ZMod 2) ℚ :=
  ⟨fun _ p _ => if p.1 = 0 then -1 else 1, fun _ _ _ => 1, fun _ _ q => if q.1 = 0 then 1 else -1,
    fun _ _ _ => 0, fun _ _ _ => 0, fun f => f⟩

/-- Example distribution (non-uniform). -/
def exF : Dist Unit (ZMod 2 × ZMod 1 × ZMod 1) (ZMod 3 × ZMod 2) ℚ :=
  fun _ p q => p.1.val + q.1.val ^ 2 + 2 * q.2.val

/-- The hypotheses of C01 are met by a two-step run on the example. -/
example : ∃ f', runFVM exAxes exCfg [(1 / 10, fun _ => exCb), (1 / 5, fun _ => exCb)] exF = .ok f' ∧
    ∑ p, ∑ q, f' () p q = ∑ p, ∑ q, exF () p q := by
  obtain ⟨f', h⟩ := C09_run_succeeds exAxes exCfg (Or.inr (Or.inl rfl)) (Or.inr (Or.inr rfl))
    [(1 / 10, fun _ => exCb), (1 / 5, fun _ => exCb)] exF
  exact ⟨f', h, C01_total_particle_number exAxes exCfg rfl _ _ _ h ()⟩

/-- The first-order slope on the example is not zero: the conserved total is not conserved for lack of motion. -/
example : dfdtQ exAxes .piecewiseConstant (1 / 2) 1 exCb.Cq1 exCb.Cq2 exF () (0, 0, 0) (1, 0) = 8 := by
  rw [C04_slope_is_flux_difference]
  simp only [C04_first_order_upwind_flux]
  simp only [exCb, exF, exAxes]
  have e1 : ((1, 0) : ZMod 3 × ZMod 2) + (1, 0) = (2, 0) := by decide
  have e2 : ((1, 0) : ZMod 3 × ZMod 2) + (0, 1) = (1, 1) := by decide
  have e3 : ((1, 1) : ZMod 3 × ZMod 2) - (0, 1) = (1, 0) := by decide
  have e4 : ((1, 0) : ZMod 3 × ZMod 2) - (0, 1) = (1, 1) := by decide
  have e5 : ((1, 0) : ZMod 3 × ZMod 2) - (1, 0) = (0, 0) := by decide
  have e6 : ((2, 0) : ZMod 3 × ZMod 2) - (1, 0) = (1, 0) := by decide
  rw [e1, e2, e3, e4, e5, e6]
  have v1 : (1 : ZMod 3).val = 1 := rfl
  have v2 : (2 : ZMod 3).val = 2 := rfl
  have v3 : (1 : ZMod 2).val = 1 := rfl
  norm_num [v1, v2, v3]

end Bolt
