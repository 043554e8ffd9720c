import Verif.Proofs.Contraction
import Mathlib.Analysis.Convex.Jensen
import Mathlib.Analysis.SpecialFunctions.Log.NegMulLog
import Mathlib.Algebra.BigOperators.Pi
import Mathlib.Algebra.Order.BigOperators.Group.Finset

/-!
# C86: the first-order scheme never amplifies differences
-/

set_option linter.unusedSectionVars false

namespace Bolt

open Finset

variable {K : Type} [Field K] [LinearOrder K] [IsStrictOrderedRing K]
variable {S P Q : Type} [AddCommGroup P] [AddCommGroup Q] [Fintype P] [Fintype Q]

/-- C86: with piecewise-constant reconstruction, no source and the CFL condition, two runs with the same velocities and time steps never move
apart: the sum over phase space of the absolute differences does not grow. -/
theorem C86_contraction (ax : Axes P Q) (cfg : FVMConfig S K) (hsrc : cfg.sourceEnabled = false)
    (hq : cfg.reconstructionInQ = "piecewise-constant") (hp : cfg.reconstructionInP = "piecewise-constant")
    (hpos : cfg.PositiveSpacing) (steps : List (K × (Fin 2 → Callbacks S P Q K))) (hst : StableSteps ax cfg steps)
    (f g f' g' : Dist S P Q K) (hf : runFVM ax cfg steps f = .ok f') (hg : runFVM ax cfg steps g = .ok g') (s : S) :
    ∑ p, ∑ q, |f' s p q - g' s p q| ≤ ∑ p, ∑ q, |f s p q - g s p q| := by
  simp only [← Fintype.sum_prod_type (f := fun x : P × Q => |f' s x.1 x.2 - g' s x.1 x.2|),
    ← Fintype.sum_prod_type (f := fun x : P × Q => |f s x.1 x.2 - g s x.1 x.2|)]
  induction steps generalizing f g with
  | nil =>
    simp only [runFVM, Except.ok.injEq] at hf hg
    rw [hf, hg]
  | cons st rest ih =>
    obtain ⟨dt, cb⟩ := st
    obtain ⟨u, k0, k1, a, b, c, d⟩ := runFVM_cons hf
    obtain ⟨v, l0, l1, a', b', c', d'⟩ := runFVM_cons hg
    obtain ⟨hdt, hsame, hcfl⟩ := hst (dt, cb) (by simp)
    simp only at hdt hsame hcfl
    refine (ih (fun st hs => hst st (by simp [hs])) u v d d').trans ?_
    set T := eulerMap ax cfg (cb 0) dt s with hT
    have h0 := eulerMap_nonneg ax cfg (cb 0) hpos dt hdt hcfl s
    have hs := eulerMap_sum ax cfg (cb 0) dt s
    set w : P × Q → K := fun x => f s x.1 x.2 - g s x.1 x.2 with hw
    have hx : ∀ x : P × Q, u s x.1 x.2 - v s x.1 x.2 = 1 / 2 * w x + 1 / 2 * T (T w) x := by
      intro x
      rw [pc_step hsrc hq hp hsame a b c, pc_step hsrc hq hp hsame a' b' c']
      have : w = (fun x : P × Q => f s x.1 x.2) - (fun x : P × Q => g s x.1 x.2) := rfl
      rw [this, map_sub, map_sub, Pi.sub_apply, Pi.sub_apply]; ring
    simp only [hx]
    have t1 := (linmap_abs T h0 hs (T w)).trans (linmap_abs T h0 hs w)
    calc ∑ x, |1 / 2 * w x + 1 / 2 * T (T w) x| ≤ ∑ x, (1 / 2 * |w x| + 1 / 2 * |T (T w) x|) := by
          refine Finset.sum_le_sum fun x _ => (abs_add_le _ _).trans ?_
          rw [abs_mul, abs_mul, abs_of_pos (by norm_num : (0 : K) < 1 / 2)]
      _ = 1 / 2 * ∑ x, |w x| + 1 / 2 * ∑ x, |T (T w) x| := by rw [Finset.sum_add_distrib, Finset.mul_sum, Finset.mul_sum]
      _ ≤ ∑ x, |w x| := by linarith

/-- C86: if the discrete velocity field is divergence-free as well, the sum over phase space of any convex function of the distribution does
not grow: squares, higher powers, and minus the entropy. -/
theorem C86_convex_functionals (ax : Axes P Q) (cfg : FVMConfig S K) (hsrc : cfg.sourceEnabled = false)
    (hq : cfg.reconstructionInQ = "piecewise-constant") (hp : cfg.reconstructionInP = "piecewise-constant")
    (hpos : cfg.PositiveSpacing) (steps : List (K × (Fin 2 → Callbacks S P Q K))) (hst : StableSteps ax cfg steps)
    (hdiv : ∀ st ∈ steps, ∀ s p q, velocityDivergence ax cfg (st.2 0) s p q = 0)
    (D : Set K) (phi : K → K) (hphi : ConvexOn K D phi) (s : S)
    (f f' : Dist S P Q K) (hf : ∀ p q, f s p q ∈ D) (h : runFVM ax cfg steps f = .ok f') :
    ∑ p, ∑ q, phi (f' s p q) ≤ ∑ p, ∑ q, phi (f s p q) := by
  simp only [← Fintype.sum_prod_type (f := fun x : P × Q => phi (f' s x.1 x.2)), ← Fintype.sum_prod_type (f := fun x : P × Q => phi (f s x.1 x.2))]
  induction steps generalizing f with
  | nil => simp only [runFVM, Except.ok.injEq] at h; rw [h]
  | cons st rest ih =>
    obtain ⟨dt, cb⟩ := st
    obtain ⟨u, k0, k1, a, b, c, d⟩ := runFVM_cons h
    obtain ⟨hdt, hsame, hcfl⟩ := hst (dt, cb) (by simp)
    have hd := hdiv (dt, cb) (by simp) s
    simp only at hdt hsame hcfl hd
    set T := eulerMap ax cfg (cb 0) dt s with hT
    have h0 := eulerMap_nonneg ax cfg (cb 0) hpos dt hdt hcfl s
    have hs := eulerMap_sum ax cfg (cb 0) dt s
    have h1 : ∀ x, T (fun _ => 1) x = 1 := fun x => by
      simp only [hT, eulerMap, LinearMap.coe_mk, AddHom.coe_mk]
      rw [pcSlope_const, hd]; ring
    set w : P × Q → K := fun x => f s x.1 x.2 with hw
    obtain ⟨m1, i1⟩ := linmap_convex T h0 hs h1 D phi hphi w (fun x => hf x.1 x.2)
    obtain ⟨m2, i2⟩ := linmap_convex T h0 hs h1 D phi hphi (T w) m1
    have hx : ∀ x : P × Q, u s x.1 x.2 = (1 / 2 : K) • w x + (1 / 2 : K) • T (T w) x := fun x => by
      rw [pc_step hsrc hq hp hsame a b c]; rfl
    refine (ih (fun st hs => hst st (by simp [hs])) (fun st hs => hdiv st (by simp [hs])) u ?_ d).trans ?_
    · intro p q
      rw [hx (p, q)]
      exact hphi.1 (hf p q) (m2 (p, q)) (by norm_num) (by norm_num) (by norm_num)
    · calc ∑ x : P × Q, phi (u s x.1 x.2) ≤ ∑ x, (1 / 2 * phi (w x) + 1 / 2 * phi (T (T w) x)) := by
            refine Finset.sum_le_sum fun x _ => ?_
            rw [hx]
            exact hphi.2 (hf x.1 x.2) (m2 x) (by norm_num) (by norm_num) (by norm_num)
        _ = 1 / 2 * ∑ x, phi (w x) + 1 / 2 * ∑ x, phi (T (T w) x) := by rw [Finset.sum_add_distrib, Finset.mul_sum, Finset.mul_sum]
        _ ≤ ∑ x, phi (w x) := by linarith

/-- C86: in particular the sum of squares does not grow. -/
theorem C86_squares (ax : Axes P Q) (cfg : FVMConfig S K) (hsrc : cfg.sourceEnabled = false)
    (hq : cfg.reconstructionInQ = "piecewise-constant") (hp : cfg.reconstructionInP = "piecewise-constant")
    (hpos : cfg.PositiveSpacing) (steps : List (K × (Fin 2 → Callbacks S P Q K))) (hst : StableSteps ax cfg steps)
    (hdiv : ∀ st ∈ steps, ∀ s p q, velocityDivergence ax cfg (st.2 0) s p q = 0) (s : S)
    (f f' : Dist S P Q K) (h : runFVM ax cfg steps f = .ok f') :
    ∑ p, ∑ q, f' s p q ^ 2 ≤ ∑ p, ∑ q, f s p q ^ 2 := by
  refine C86_convex_functionals ax cfg hsrc hq hp hpos steps hst hdiv Set.univ (fun x => x ^ 2) ⟨convex_univ, ?_⟩ s f f' (fun _ _ => trivial) h
  intro x _ y _ a b ha hb hab
  simp only [smul_eq_mul]
  have hb' : b = 1 - a := by linarith
  subst hb'
  nlinarith [mul_nonneg (mul_nonneg ha hb) (sq_nonneg (x - y))]

/-- C86: the entropy `-∑ f log f` of a nonnegative distribution does not decrease. -/
theorem C86_entropy (ax : Axes P Q) (cfg : FVMConfig S ℝ) (hsrc : cfg.sourceEnabled = false)
    (hq : cfg.reconstructionInQ = "piecewise-constant") (hp : cfg.reconstructionInP = "piecewise-constant")
    (hpos : cfg.PositiveSpacing) (steps : List (ℝ × (Fin 2 → Callbacks S P Q ℝ))) (hst : StableSteps ax cfg steps)
    (hdiv : ∀ st ∈ steps, ∀ s p q, velocityDivergence ax cfg (st.2 0) s p q = 0) (s : S)
    (f f' : Dist S P Q ℝ) (hf : ∀ p q, 0 ≤ f s p q) (h : runFVM ax cfg steps f = .ok f') :
    -∑ p, ∑ q, f s p q * Real.log (f s p q) ≤ -∑ p, ∑ q, f' s p q * Real.log (f' s p q) :=
  neg_le_neg (C86_convex_functionals ax cfg hsrc hq hp hpos steps hst hdiv (Set.Ici 0) (fun x => x * Real.log x) Real.convexOn_mul_log s f f'
    (fun p q => hf p q) h)

/-- The first-order variant of the example configuration, fields on. -/
def c86Cfg : FVMConfig Unit ℚ :=
  { exCfg with reconstructionInQ := "piecewise-constant", reconstructionInP := "piecewise-constant" }

/-- Velocities of both signs and a force that changes sign in space meet the hypotheses; the data are not uniform. -/
example (g : Dist Unit (ZMod 2 × ZMod 1 × ZMod 1) (ZMod 3 × ZMod 2) ℚ) :
    ∃ f' g', runFVM exAxes c86Cfg [(1 / 10, fun _ => exCb), (1 / 10, fun _ => exCb)] exF = .ok f' ∧
    runFVM exAxes c86Cfg [(1 / 10, fun _ => exCb), (1 / 10, fun _ => exCb)] g = .ok g' ∧
    ∑ p, ∑ q, f' () p q ^ 2 ≤ ∑ p, ∑ q, exF () p q ^ 2 ∧ ∑ p, ∑ q, |f' () p q - g' () p q| ≤ ∑ p, ∑ q, |exF () p q - g () p q| := by
  obtain ⟨g', hg⟩ := C09_run_succeeds exAxes c86Cfg (Or.inl rfl) (Or.inl rfl) [(1 / 10, fun _ => exCb), (1 / 10, fun _ => exCb)] g
  obtain ⟨f', h⟩ := C09_run_succeeds exAxes c86Cfg (Or.inl rfl) (Or.inl rfl) [(1 / 10, fun _ => exCb), (1 / 10, fun _ => exCb)] exF
  have hpos : c86Cfg.PositiveSpacing := by
    refine ⟨?_, ?_, ?_, ?_, ?_⟩ <;> simp [c86Cfg, exCfg]
  have hst : StableSteps exAxes c86Cfg [(1 / 10, fun _ => exCb), (1 / 10, fun _ => exCb)] := by
    intro st hst
    have : st = (1 / 10, fun _ => exCb) := by simpa using hst
    subst this
    refine ⟨by norm_num, ⟨rfl, rfl, rfl, rfl, rfl⟩, ?_⟩
    intro s p q
    simp only [outflowRate, c86Cfg, exCfg, exCb, faceOutflow, FVMConfig.advectsP]
    simp only [and_self, if_true]
    split_ifs <;> norm_num
  refine ⟨f', g', h, hg, C86_squares exAxes c86Cfg rfl rfl rfl hpos _ hst ?_ () exF f' h,
    C86_contraction exAxes c86Cfg rfl rfl rfl hpos _ hst exF g f' g' h hg ()⟩
  intro st hst s p q
  have : st = (1 / 10, fun _ => exCb) := by simpa using hst
  subst this
  simp [velocityDivergence, c86Cfg, exCfg, exCb, FVMConfig.advectsP]

end Bolt
