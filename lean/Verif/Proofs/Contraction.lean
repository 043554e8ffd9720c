import Verif.Props.HighOrder
import Mathlib.Analysis.Convex.Jensen
import Mathlib.Analysis.SpecialFunctions.Log.NegMulLog
import Mathlib.Algebra.BigOperators.Pi
import Mathlib.Algebra.Order.BigOperators.Group.Finset

/-!
# One forward-Euler stage of the first-order scheme is a positive linear map that keeps sums
-/

set_option linter.unusedSectionVars false

namespace Bolt

open Finset

variable {K : Type} [Field K] [LinearOrder K] [IsStrictOrderedRing K]
variable {S P Q : Type} [AddCommGroup P] [AddCommGroup Q] [Fintype P] [Fintype Q]

/-- One forward-Euler stage of size `dt`, for one species, as a linear map on functions of momentum and position. -/
def eulerMap (ax : Axes P Q) (cfg : FVMConfig S K) (cb : Callbacks S P Q K) (dt : K) (s : S) : (P × Q → K) →ₗ[K] (P × Q → K) where
  toFun u := fun x => u x + pcSlope ax cfg cb (fun _ p q => u (p, q)) s x.1 x.2 * dt
  map_add' u v := by
    funext x
    have := pcSlope_lin ax cfg cb (fun _ p q => u (p, q)) (fun _ p q => v (p, q)) 1 s x.1 x.2
    simp only [mul_one] at this
    simp only [Pi.add_apply, this]; ring
  map_smul' c u := by
    funext x
    have := pcSlope_lin ax cfg cb (fun _ _ _ => 0) (fun _ p q => u (p, q)) c s x.1 x.2
    rw [pcSlope_const] at this
    simp only [zero_add, mul_zero] at this
    simp only [Pi.smul_apply, smul_eq_mul, RingHom.id_apply, mul_comm c (u _), this]; ring

theorem pcSlope_species (ax : Axes P Q) (cfg : FVMConfig S K) (cb : Callbacks S P Q K) (f : Dist S P Q K) (s : S) (p : P) (q : Q) :
    pcSlope ax cfg cb (fun _ p q => f s p q) s p q = pcSlope ax cfg cb f s p q := rfl

theorem pcSlope_sum (ax : Axes P Q) (cfg : FVMConfig S K) (cb : Callbacks S P Q K) (f : Dist S P Q K) (s : S) :
    ∑ p, ∑ q, pcSlope ax cfg cb f s p q = 0 := by
  have hQ : ∀ (e : Q) (C x : Q → K) (d : K), ∑ q, pcDiv e C x q / d = 0 := by
    intro e C x d
    simp only [pcDiv]
    have := Equiv.sum_comp (Equiv.addRight e) (leftFlux .piecewiseConstant e C x)
    simp only [Equiv.coe_addRight] at this
    rw [← Finset.sum_div, Finset.sum_sub_distrib, this]; simp
  have hP : ∀ (e : P) (C x : P → K) (d : K), ∑ p, pcDiv e C x p / d = 0 := by
    intro e C x d
    simp only [pcDiv]
    have := Equiv.sum_comp (Equiv.addRight e) (leftFlux .piecewiseConstant e C x)
    simp only [Equiv.coe_addRight] at this
    rw [← Finset.sum_div, Finset.sum_sub_distrib, this]; simp
  simp only [pcSlope, Finset.sum_neg_distrib, Finset.sum_add_distrib, neg_eq_zero]
  have a : ∑ p, ∑ q, (if cfg.solverMethodInQ = "FVM" then
        pcDiv ax.q1 (cb.Cq1 s p) (f s p) q / cfg.dq1 + pcDiv ax.q2 (cb.Cq2 s p) (f s p) q / cfg.dq2 else 0) = 0 := by
    split_ifs
    · simp only [Finset.sum_add_distrib, hQ]; simp
    · simp
  have b : ∑ p, ∑ q, (if cfg.advectsP then
        pcDiv ax.p1 (fun p => cb.Cp1 s p q) (fun p => f s p q) p / cfg.dp1 s
        + pcDiv ax.p2 (fun p => cb.Cp2 s p q) (fun p => f s p q) p / cfg.dp2 s
        + pcDiv ax.p3 (fun p => cb.Cp3 s p q) (fun p => f s p q) p / cfg.dp3 s else 0) = 0 := by
    rw [Finset.sum_comm]
    split_ifs
    · simp only [Finset.sum_add_distrib, hP]; simp
    · simp
  rw [a, b, add_zero]

theorem eulerMap_sum (ax : Axes P Q) (cfg : FVMConfig S K) (cb : Callbacks S P Q K) (dt : K) (s : S) (u : P × Q → K) :
    ∑ x, eulerMap ax cfg cb dt s u x = ∑ x, u x := by
  simp only [eulerMap, LinearMap.coe_mk, AddHom.coe_mk, Finset.sum_add_distrib, ← Finset.sum_mul]
  rw [Fintype.sum_prod_type (f := fun x => pcSlope ax cfg cb (fun _ p q => u (p, q)) s x.1 x.2), pcSlope_sum]; simp

theorem eulerMap_nonneg (ax : Axes P Q) (cfg : FVMConfig S K) (cb : Callbacks S P Q K) (hpos : cfg.PositiveSpacing)
    (dt : K) (hdt : 0 ≤ dt) (hcfl : ∀ s p q, dt * outflowRate ax cfg cb s p q ≤ 1) (s : S) (u : P × Q → K) (hu : ∀ x, 0 ≤ u x) (x : P × Q) :
    0 ≤ eulerMap ax cfg cb dt s u x :=
  euler_nonneg ax cfg cb hpos dt hdt hcfl (fun _ p q => u (p, q)) (fun _ p q => hu (p, q)) s x.1 x.2

/-- A linear map on functions over a finite set is given by a matrix. -/
theorem linmap_matrix {X : Type} [Fintype X] [DecidableEq X] (T : (X → K) →ₗ[K] (X → K)) (u : X → K) (x : X) :
    T u x = ∑ y, T (Pi.single y 1) x * u y := by
  conv_lhs => rw [show u = ∑ y, u y • (Pi.single y (1 : K) : X → K) by
    funext z; simp [Finset.sum_apply, Pi.single_apply]]
  rw [map_sum, Finset.sum_apply]
  exact Finset.sum_congr rfl fun y _ => by rw [map_smul, Pi.smul_apply, smul_eq_mul, mul_comm]

/-- A positive linear map that keeps sums does not increase the sum of absolute values. -/
theorem linmap_abs {X : Type} [Fintype X] (T : (X → K) →ₗ[K] (X → K)) (h0 : ∀ u, (∀ x, 0 ≤ u x) → ∀ x, 0 ≤ T u x)
    (hs : ∀ u, ∑ x, T u x = ∑ x, u x) (u : X → K) : ∑ x, |T u x| ≤ ∑ x, |u x| := by
  rw [← hs (fun x => |u x|)]
  refine Finset.sum_le_sum fun x _ => abs_le.mpr ⟨?_, ?_⟩
  · have := h0 ((fun x => |u x|) + u) (fun x => by simp only [Pi.add_apply]; linarith [neg_abs_le (u x)]) x
    rw [map_add, Pi.add_apply] at this; linarith
  · have := h0 ((fun x => |u x|) - u) (fun x => by simp only [Pi.sub_apply]; linarith [le_abs_self (u x)]) x
    rw [map_sub, Pi.sub_apply] at this; linarith

/-- Jensen's inequality for a positive linear map that keeps constants and sums. -/
theorem linmap_convex {X : Type} [Fintype X] (T : (X → K) →ₗ[K] (X → K)) (h0 : ∀ u, (∀ x, 0 ≤ u x) → ∀ x, 0 ≤ T u x)
    (hs : ∀ u, ∑ x, T u x = ∑ x, u x) (h1 : ∀ x, T (fun _ => 1) x = 1) (D : Set K) (phi : K → K) (hphi : ConvexOn K D phi)
    (u : X → K) (hu : ∀ x, u x ∈ D) : (∀ x, T u x ∈ D) ∧ ∑ x, phi (T u x) ≤ ∑ x, phi (u x) := by
  classical
  have w0 : ∀ x, ∀ y ∈ (Finset.univ : Finset X), 0 ≤ T (Pi.single y 1) x := fun x y _ => h0 _ (fun z => by
    rcases eq_or_ne z y with h | h
    · subst h; simp
    · simp [h]) x
  have w1 : ∀ x, ∑ y, T (Pi.single y 1) x = 1 := fun x => by
    have := linmap_matrix T (fun _ => 1) x
    rw [h1] at this
    simpa using this.symm
  have hT : ∀ x, T u x = ∑ y, T (Pi.single y 1) x • u y := fun x => by rw [linmap_matrix]; simp
  constructor
  · intro x
    rw [hT]
    exact hphi.1.sum_mem (w0 x) (w1 x) (fun y _ => hu y)
  · rw [← hs (fun x => phi (u x))]
    refine Finset.sum_le_sum fun x _ => ?_
    rw [hT, linmap_matrix T (fun x => phi (u x)) x]
    exact hphi.map_sum_le (w0 x) (w1 x) (fun y _ => hu y)

theorem pc_step {ax : Axes P Q} {cfg : FVMConfig S K} (hsrc : cfg.sourceEnabled = false)
    (hq : cfg.reconstructionInQ = "piecewise-constant") (hp : cfg.reconstructionInP = "piecewise-constant")
    {dt : K} {cb : Fin 2 → Callbacks S P Q K} (hsame : SameVelocities (cb 0) (cb 1)) {f g k0 k1 : Dist S P Q K}
    (a : dfdtFVM ax cfg (cb 0) f = .ok k0) (b : dfdtFVM ax cfg (cb 1) (fun s p q => f s p q + k0 s p q * (dt / 2)) = .ok k1)
    (c : ∀ s p q, g s p q = f s p q + k1 s p q * dt) (s : S) (x : P × Q) :
    g s x.1 x.2 = 1 / 2 * f s x.1 x.2 +
      1 / 2 * eulerMap ax cfg (cb 0) dt s (eulerMap ax cfg (cb 0) dt s (fun x => f s x.1 x.2)) x := by
  have e0 := dfdtFVM_pc hsrc hq hp a
  have e1 := dfdtFVM_pc hsrc hq hp b
  rw [← pcSlope_same ax cfg _ _ hsame, e0] at e1
  rw [c, e1, rk2_average]
  rfl

end Bolt
