import Verif.Props.FVM
import Verif.Spec.Transport
import Mathlib.Tactic.LinearCombination

/-!
# C10: positivity and maximum principle of the first-order scheme
-/

set_option linter.unusedSectionVars false

namespace Bolt

open Finset

variable {K : Type} [Field K] [LinearOrder K] [IsStrictOrderedRing K]

section oneD
variable {I : Type} [AddCommGroup I]

/-- Flux difference along one axis for the first-order scheme. -/
def pcDiv (e : I) (C x : I → K) (i : I) : K :=
  leftFlux .piecewiseConstant e C x (i + e) - leftFlux .piecewiseConstant e C x i

theorem pcDiv_eq (e : I) (C x : I → K) (i : I) :
    pcDiv e C x i = max (C (i + e)) 0 * x i + min (C (i + e)) 0 * x (i + e)
      - (max (C i) 0 * x (i - e) + min (C i) 0 * x i) := by
  simp only [pcDiv, C04_first_order_upwind_flux, add_sub_cancel_right]

theorem pcDiv_lin (e : I) (C x y : I → K) (c : K) (i : I) :
    pcDiv e C (fun j => x j + y j * c) i = pcDiv e C x i + pcDiv e C y i * c := by
  simp only [pcDiv_eq]; ring

theorem pcDiv_const (e : I) (C : I → K) (c : K) (i : I) :
    pcDiv e C (fun _ => c) i = (C (i + e) - C i) * c := by
  have h : ∀ a : K, max a 0 + min a 0 = a := fun a => by rw [max_add_min]; simp
  simp only [pcDiv_eq]
  linear_combination c * h (C (i + e)) - c * h (C i)

theorem pcDiv_le (e : I) (C x : I → K) (i : I) (d : K) (hd : 0 < d) (hx : ∀ j, 0 ≤ x j) :
    pcDiv e C x i / d ≤ faceOutflow (C i) (C (i + e)) d * x i := by
  have h1 : max (-(C i)) 0 = - min (C i) 0 := by rw [← neg_zero, max_neg_neg, neg_zero]
  rw [pcDiv_eq, faceOutflow, h1, div_mul_eq_mul_div]
  apply div_le_div_of_nonneg_right _ hd.le
  have h2 : min (C (i + e)) 0 * x (i + e) ≤ 0 := mul_nonpos_of_nonpos_of_nonneg (min_le_right _ _) (hx _)
  have h3 : 0 ≤ max (C i) 0 * x (i - e) := mul_nonneg (le_max_right _ _) (hx _)
  linarith
end oneD

variable {S P Q : Type} [AddCommGroup P] [AddCommGroup Q]

/-- The first-order slope without source. -/
def pcSlope (ax : Axes P Q) (cfg : FVMConfig S K) (cb : Callbacks S P Q K) (f : Dist S P Q K) : Dist S P Q K :=
  fun s p q =>
    -((if cfg.solverMethodInQ = "FVM" then
        pcDiv ax.q1 (cb.Cq1 s p) (f s p) q / cfg.dq1 + pcDiv ax.q2 (cb.Cq2 s p) (f s p) q / cfg.dq2 else 0) +
      (if cfg.advectsP then
        pcDiv ax.p1 (fun p => cb.Cp1 s p q) (fun p => f s p q) p / cfg.dp1 s
        + pcDiv ax.p2 (fun p => cb.Cp2 s p q) (fun p => f s p q) p / cfg.dp2 s
        + pcDiv ax.p3 (fun p => cb.Cp3 s p q) (fun p => f s p q) p / cfg.dp3 s else 0))

theorem dfdtFVM_pc {ax : Axes P Q} {cfg : FVMConfig S K} {cb : Callbacks S P Q K} {f k : Dist S P Q K}
    (hsrc : cfg.sourceEnabled = false)
    (hq : cfg.reconstructionInQ = "piecewise-constant") (hp : cfg.reconstructionInP = "piecewise-constant")
    (h : dfdtFVM ax cfg cb f = .ok k) : k = pcSlope ax cfg cb f := by
  obtain ⟨a, b, h1, h2, h3⟩ := dfdtFVM_ok h
  have hm : ∀ {name : String} {m : Recon}, name = "piecewise-constant" → reconMethod name = .ok m → m = .piecewiseConstant := by
    intro name m h0 h
    simp only [reconMethod, h0, if_true, Except.ok.injEq] at h
    exact h.symm
  funext s p q
  rw [h1, pcSlope, neg_add]
  congr 1
  · rcases h2 with ⟨g1, m, g2, g3⟩ | ⟨g1, g3⟩
    · rw [g3, hm hq g2]
      simp only [g1, hsrc, dfdtQ, fluxDiv, afShift_neg_one, pcDiv, if_true, Bool.false_eq_true, if_false]
      ring
    · simp [g1, g3]
  · rcases h3 with ⟨g1, m, g2, g3⟩ | ⟨g1, g3⟩
    · rw [g3, hm hp g2]
      have : cfg.advectsP := g1
      simp only [this, if_true, dfdtP, dFluxP, afShift_neg_one, pcDiv, div_eq_mul_inv, one_mul]
    · have : ¬ cfg.advectsP := g1
      simp [this, g3]

theorem pcSlope_lin (ax : Axes P Q) (cfg : FVMConfig S K) (cb : Callbacks S P Q K) (f g : Dist S P Q K) (c : K)
    (s : S) (p : P) (q : Q) :
    pcSlope ax cfg cb (fun s p q => f s p q + g s p q * c) s p q
      = pcSlope ax cfg cb f s p q + pcSlope ax cfg cb g s p q * c := by
  simp only [pcSlope, pcDiv_lin]
  split_ifs <;> ring

theorem pcSlope_const (ax : Axes P Q) (cfg : FVMConfig S K) (cb : Callbacks S P Q K) (c : K)
    (s : S) (p : P) (q : Q) :
    pcSlope ax cfg cb (fun _ _ _ => c) s p q = - velocityDivergence ax cfg cb s p q * c := by
  simp only [pcSlope, pcDiv_const, velocityDivergence]
  split_ifs <;> ring

theorem pcSlope_same (ax : Axes P Q) (cfg : FVMConfig S K) (cb cb' : Callbacks S P Q K) (h : SameVelocities cb cb')
    (f : Dist S P Q K) : pcSlope ax cfg cb f = pcSlope ax cfg cb' f := by
  obtain ⟨h1, h2, h3, h4, h5⟩ := h
  funext s p q
  simp only [pcSlope, h1, h2, h3, h4, h5]

/-- Positive grid spacings. -/
def FVMConfig.PositiveSpacing (cfg : FVMConfig S K) : Prop :=
  0 < cfg.dq1 ∧ 0 < cfg.dq2 ∧ (∀ s, 0 < cfg.dp1 s) ∧ (∀ s, 0 < cfg.dp2 s) ∧ (∀ s, 0 < cfg.dp3 s)

theorem pcSlope_lower (ax : Axes P Q) (cfg : FVMConfig S K) (cb : Callbacks S P Q K) (hpos : cfg.PositiveSpacing)
    (f : Dist S P Q K) (hf : ∀ s p q, 0 ≤ f s p q) (s : S) (p : P) (q : Q) :
    - (outflowRate ax cfg cb s p q * f s p q) ≤ pcSlope ax cfg cb f s p q := by
  obtain ⟨d1, d2, d3, d4, d5⟩ := hpos
  simp only [pcSlope, outflowRate]
  apply neg_le_neg
  have a1 := pcDiv_le ax.q1 (cb.Cq1 s p) (f s p) q cfg.dq1 d1 (fun j => hf s p j)
  have a2 := pcDiv_le ax.q2 (cb.Cq2 s p) (f s p) q cfg.dq2 d2 (fun j => hf s p j)
  have a3 := pcDiv_le ax.p1 (fun p => cb.Cp1 s p q) (fun p => f s p q) p (cfg.dp1 s) (d3 s) (fun j => hf s j q)
  have a4 := pcDiv_le ax.p2 (fun p => cb.Cp2 s p q) (fun p => f s p q) p (cfg.dp2 s) (d4 s) (fun j => hf s j q)
  have a5 := pcDiv_le ax.p3 (fun p => cb.Cp3 s p q) (fun p => f s p q) p (cfg.dp3 s) (d5 s) (fun j => hf s j q)
  split_ifs <;> linarith

/-- One forward-Euler stage keeps a nonnegative state nonnegative under the CFL condition. -/
theorem euler_nonneg (ax : Axes P Q) (cfg : FVMConfig S K) (cb : Callbacks S P Q K) (hpos : cfg.PositiveSpacing)
    (dt : K) (hdt : 0 ≤ dt) (hcfl : ∀ s p q, dt * outflowRate ax cfg cb s p q ≤ 1)
    (f : Dist S P Q K) (hf : ∀ s p q, 0 ≤ f s p q) (s : S) (p : P) (q : Q) :
    0 ≤ f s p q + pcSlope ax cfg cb f s p q * dt := by
  have h := mul_le_mul_of_nonneg_right (pcSlope_lower ax cfg cb hpos f hf s p q) hdt
  have h2 := mul_le_mul_of_nonneg_right (hcfl s p q) (hf s p q)
  nlinarith

/-- The two-stage step is the average of the identity and two Euler stages (frozen velocities). -/
theorem rk2_average (ax : Axes P Q) (cfg : FVMConfig S K) (cb : Callbacks S P Q K) (dt : K) (f : Dist S P Q K)
    (s : S) (p : P) (q : Q) :
    f s p q + pcSlope ax cfg cb (fun s p q => f s p q + pcSlope ax cfg cb f s p q * (dt / 2)) s p q * dt
      = 1 / 2 * f s p q + 1 / 2 * ((f s p q + pcSlope ax cfg cb f s p q * dt)
        + pcSlope ax cfg cb (fun s p q => f s p q + pcSlope ax cfg cb f s p q * dt) s p q * dt) := by
  rw [pcSlope_lin, pcSlope_lin]; ring

/-- What is assumed of a run: nonnegative step sizes, velocities equal in the two stages of each step, CFL condition
`dt · (outflow rate) ≤ 1` in every cell. -/
def StableSteps (ax : Axes P Q) (cfg : FVMConfig S K) (steps : List (K × (Fin 2 → Callbacks S P Q K))) : Prop :=
  ∀ st ∈ steps, 0 ≤ st.1 ∧ SameVelocities (st.2 0) (st.2 1) ∧ ∀ s p q, st.1 * outflowRate ax cfg (st.2 0) s p q ≤ 1

/-- C10: with piecewise-constant reconstruction and no source, a nonnegative distribution stays nonnegative after any
number of finite-volume steps (position and, when fields are on, momentum space) under the CFL condition. -/
theorem C10_positivity (ax : Axes P Q) (cfg : FVMConfig S K) (hsrc : cfg.sourceEnabled = false)
    (hq : cfg.reconstructionInQ = "piecewise-constant") (hp : cfg.reconstructionInP = "piecewise-constant")
    (hpos : cfg.PositiveSpacing) (steps : List (K × (Fin 2 → Callbacks S P Q K))) (hst : StableSteps ax cfg steps)
    (f f' : Dist S P Q K) (hf : ∀ s p q, 0 ≤ f s p q) (h : runFVM ax cfg steps f = .ok f') :
    ∀ s p q, 0 ≤ f' s p q := by
  induction steps generalizing f with
  | nil => simp only [runFVM, Except.ok.injEq] at h; subst h; exact hf
  | cons st rest ih =>
    obtain ⟨dt, cb⟩ := st
    obtain ⟨g, k0, k1, a, b, c, d⟩ := runFVM_cons h
    obtain ⟨hdt, hsame, hcfl⟩ := hst (dt, cb) (by simp)
    simp only at hdt hsame hcfl
    refine ih (fun st hs => hst st (by simp [hs])) g ?_ d
    intro s p q
    have e0 := dfdtFVM_pc hsrc hq hp a
    have e1 := dfdtFVM_pc hsrc hq hp b
    rw [← pcSlope_same ax cfg _ _ hsame, e0] at e1
    rw [c, e1, rk2_average]
    have n1 := euler_nonneg ax cfg (cb 0) hpos dt hdt hcfl f hf
    have n2 := euler_nonneg ax cfg (cb 0) hpos dt hdt hcfl _ n1 s p q
    have n3 := hf s p q
    linarith

/-- C10: if in addition the discrete velocity field is divergence-free, every value stays within the initial bounds. -/
theorem C10_maximum_principle (ax : Axes P Q) (cfg : FVMConfig S K) (hsrc : cfg.sourceEnabled = false)
    (hq : cfg.reconstructionInQ = "piecewise-constant") (hp : cfg.reconstructionInP = "piecewise-constant")
    (hpos : cfg.PositiveSpacing) (steps : List (K × (Fin 2 → Callbacks S P Q K))) (hst : StableSteps ax cfg steps)
    (hdiv : ∀ st ∈ steps, ∀ s p q, velocityDivergence ax cfg (st.2 0) s p q = 0)
    (lo hi : K) (f f' : Dist S P Q K) (hf : ∀ s p q, lo ≤ f s p q ∧ f s p q ≤ hi)
    (h : runFVM ax cfg steps f = .ok f') :
    ∀ s p q, lo ≤ f' s p q ∧ f' s p q ≤ hi := by
  induction steps generalizing f with
  | nil => simp only [runFVM, Except.ok.injEq] at h; subst h; exact hf
  | cons st rest ih =>
    obtain ⟨dt, cb⟩ := st
    obtain ⟨g, k0, k1, a, b, c, d⟩ := runFVM_cons h
    obtain ⟨hdt, hsame, hcfl⟩ := hst (dt, cb) (by simp)
    have hd := hdiv (dt, cb) (by simp)
    simp only at hdt hsame hcfl hd
    refine ih (fun st hs => hst st (by simp [hs])) (fun st hs => hdiv st (by simp [hs])) g ?_ d
    have e0 := dfdtFVM_pc hsrc hq hp a
    have e1 := dfdtFVM_pc hsrc hq hp b
    rw [← pcSlope_same ax cfg _ _ hsame, e0] at e1
    -- slope of an affine image of a state
    have aff : ∀ (u : Dist S P Q K) (x y : K) s p q,
        pcSlope ax cfg (cb 0) (fun s p q => y + u s p q * x) s p q = pcSlope ax cfg (cb 0) u s p q * x := by
      intro u x y s p q
      rw [pcSlope_lin ax cfg (cb 0) (fun _ _ _ => y) u x, pcSlope_const, hd]; ring
    have stage : ∀ u : Dist S P Q K, (∀ s p q, lo ≤ u s p q ∧ u s p q ≤ hi) →
        ∀ s p q, lo ≤ u s p q + pcSlope ax cfg (cb 0) u s p q * dt ∧ u s p q + pcSlope ax cfg (cb 0) u s p q * dt ≤ hi := by
      intro u hu s p q
      have n1 := euler_nonneg ax cfg (cb 0) hpos dt hdt hcfl (fun s p q => -lo + u s p q * 1)
        (fun s p q => by linarith [(hu s p q).1]) s p q
      have n2 := euler_nonneg ax cfg (cb 0) hpos dt hdt hcfl (fun s p q => hi + u s p q * (-1))
        (fun s p q => by linarith [(hu s p q).2]) s p q
      rw [aff] at n1 n2
      constructor <;> linarith
    intro s p q
    rw [c, e1, rk2_average]
    have n1 := stage f hf
    have n2 := stage _ n1 s p q
    have n3 := hf s p q
    constructor <;> linarith [n2.1, n2.2, n3.1, n3.2]

/-- A configuration, velocities and a time step that meet the hypotheses (unit speeds of both signs, CFL number 3/10). -/
example : StableSteps exAxes { exCfg with reconstructionInQ := "piecewise-constant", reconstructionInP := "piecewise-constant", fieldsEnabled := false }
      [(1 / 10, fun _ => exCb), (1 / 10, fun _ => exCb)] ∧
    (∀ s p q, velocityDivergence exAxes { exCfg with fieldsEnabled := false } exCb s p q = 0) ∧
    FVMConfig.PositiveSpacing exCfg := by
  refine ⟨?_, ?_, ?_⟩
  · intro st hst
    have : st = (1 / 10, fun _ => exCb) := by simpa using hst
    subst this
    refine ⟨by norm_num, ⟨rfl, rfl, rfl, rfl, rfl⟩, ?_⟩
    intro s p q
    simp only [outflowRate, exCfg, exCb, faceOutflow, FVMConfig.advectsP]
    simp only [Bool.false_eq_true, and_false, if_false, if_true]
    split_ifs <;> norm_num
  · intro s p q
    simp [velocityDivergence, exCfg, exCb, FVMConfig.advectsP]
  · refine ⟨?_, ?_, ?_, ?_, ?_⟩ <;> simp [exCfg]

end Bolt
