import Mathlib.Analysis.Calculus.MeanValue
import Mathlib.Analysis.Asymptotics.Lemmas
import Mathlib.Analysis.Calculus.Deriv.Pow
import Mathlib.Analysis.Normed.Operator.Bilinear
import Mathlib.Algebra.BigOperators.NatAntidiagonal

/-!
# Truncated expansions in the step size

`Jet n f a` says `f h = a 0 + h a 1 + ... + h^(n-1) a (n-1) + O(h^n)` as `h → 0`.
-/

namespace Bolt

open Asymptotics Filter Topology Finset

section
variable {E G : Type} [NormedAddCommGroup E] [NormedSpace ℝ E] [NormedAddCommGroup G] [NormedSpace ℝ G]

/-- `f` has the expansion `a` up to `O(h^n)`. -/
def Jet (n : ℕ) (f : ℝ → E) (a : ℕ → E) : Prop :=
  (fun h => f h - ∑ k ∈ range n, h ^ k • a k) =O[𝓝 0] fun h : ℝ => h ^ n

theorem isBigO_pow_le {m n : ℕ} (h : n ≤ m) : (fun x : ℝ => x ^ m) =O[𝓝 0] fun x : ℝ => x ^ n :=
  IsBigO.of_bound 1 (by
    filter_upwards [Metric.ball_mem_nhds (0 : ℝ) one_pos] with x hx
    have hx : |x| ≤ 1 := by simpa using (Metric.mem_ball.1 hx).le
    rw [norm_pow, norm_pow, one_mul]
    exact pow_le_pow_of_le_one (norm_nonneg _) hx h)

theorem isBigO_pow_smul (k n : ℕ) (h : n ≤ k) (a : E) :
    (fun x : ℝ => x ^ k • a) =O[𝓝 0] fun x : ℝ => x ^ n := by
  have h1 : (fun x : ℝ => x ^ k • a) =O[𝓝 0] fun x : ℝ => x ^ k :=
    IsBigO.of_bound ‖a‖ (Eventually.of_forall fun x => by rw [norm_smul, mul_comm])
  exact h1.trans (isBigO_pow_le h)

theorem Jet.congr {n : ℕ} {f : ℝ → E} {a b : ℕ → E} (h : Jet n f a) (hab : ∀ k < n, a k = b k) :
    Jet n f b := by
  refine IsBigO.congr_left h fun x => ?_
  congr 1
  exact sum_congr rfl fun k hk => by rw [hab k (mem_range.1 hk)]

theorem Jet.congr_fun {n : ℕ} {f g : ℝ → E} {a : ℕ → E} (h : Jet n f a) (hfg : ∀ᶠ x in 𝓝 0, f x = g x) :
    Jet n g a := by
  refine IsBigO.congr' h ?_ EventuallyEq.rfl
  filter_upwards [hfg] with x hx
  rw [hx]

theorem Jet.mono {n m : ℕ} {f : ℝ → E} {a : ℕ → E} (h : Jet n f a) (hm : m ≤ n) : Jet m f a := by
  have h1 : (fun x => f x - ∑ k ∈ range n, x ^ k • a k) =O[𝓝 0] fun x : ℝ => x ^ m :=
    IsBigO.trans h (isBigO_pow_le hm)
  have h2 : (fun x : ℝ => ∑ k ∈ range n \ range m, x ^ k • a k) =O[𝓝 0] fun x : ℝ => x ^ m := by
    refine IsBigO.fun_sum fun k hk => isBigO_pow_smul k m ?_ (a k)
    have := (mem_sdiff.1 hk).2
    simpa using this
  have := h1.add h2
  refine IsBigO.congr_left this fun x => ?_
  rw [← sum_sdiff (range_mono hm : range m ⊆ range n)]
  abel

theorem Jet.add {n : ℕ} {f g : ℝ → E} {a b : ℕ → E} (hf : Jet n f a) (hg : Jet n g b) :
    Jet n (fun h => f h + g h) (fun k => a k + b k) := by
  have := IsBigO.add hf hg
  refine IsBigO.congr_left this fun x => ?_
  simp only [smul_add, sum_add_distrib]
  abel

theorem Jet.const_smul {n : ℕ} {f : ℝ → E} {a : ℕ → E} (hf : Jet n f a) (c : ℝ) :
    Jet n (fun h => c • f h) (fun k => c • a k) := by
  have := IsBigO.const_smul_left hf c
  refine IsBigO.congr_left this fun x => ?_
  simp only [smul_sub, smul_sum, Pi.smul_apply]
  congr 1
  exact sum_congr rfl fun k _ => smul_comm _ _ _

theorem Jet.neg {n : ℕ} {f : ℝ → E} {a : ℕ → E} (hf : Jet n f a) :
    Jet n (fun h => -f h) (fun k => -a k) := by
  have := hf.const_smul (-1)
  simpa using this

theorem Jet.sub {n : ℕ} {f g : ℝ → E} {a b : ℕ → E} (hf : Jet n f a) (hg : Jet n g b) :
    Jet n (fun h => f h - g h) (fun k => a k - b k) := by
  simpa [sub_eq_add_neg] using hf.add hg.neg

theorem Jet.const (n : ℕ) (c : E) : Jet n (fun _ => c) (fun k => if k = 0 then c else 0) := by
  unfold Jet
  rcases n with _ | n
  · simpa using isBigO_const_const c (one_ne_zero (α := ℝ)) (𝓝 (0 : ℝ))
  · have : (fun h : ℝ => c - ∑ k ∈ range (n + 1), h ^ k • (if k = 0 then c else 0)) = fun _ => 0 := by
      funext h
      rw [sum_eq_single 0] <;> simp +contextual
    rw [this]
    exact isBigO_zero _ _

theorem Jet.clm {n : ℕ} {f : ℝ → E} {a : ℕ → E} (hf : Jet n f a) (L : E →L[ℝ] G) :
    Jet n (fun h => L (f h)) (fun k => L (a k)) := by
  have := (L.isBigO_comp (fun h => f h - ∑ k ∈ range n, h ^ k • a k) (𝓝 0)).trans hf
  refine IsBigO.congr_left this fun x => ?_
  simp [map_sum]

theorem Jet.isBigO_one {n : ℕ} {f : ℝ → E} {a : ℕ → E} (hf : Jet n f a) :
    f =O[𝓝 0] fun _ : ℝ => (1 : ℝ) := by
  have h0 : Jet 0 f a := hf.mono (Nat.zero_le _)
  unfold Jet at h0
  simpa using h0

theorem Jet.apply {n : ℕ} {L : ℝ → E →L[ℝ] G} {u : ℝ → E} {l : ℕ → E →L[ℝ] G} {a : ℕ → E}
    (hL : Jet n L l) (hu : Jet n u a) :
    Jet n (fun h => L h (u h)) (fun k => ∑ ij ∈ antidiagonal k, l ij.1 (a ij.2)) := by
  have key : ∀ (A : ℝ → E →L[ℝ] G) (v : ℝ → E) (p q : ℝ → ℝ), A =O[𝓝 0] p → v =O[𝓝 0] q →
      (fun h => A h (v h)) =O[𝓝 0] fun h => p h * q h := by
    intro A v p q hA hv
    have h1 : (fun h => A h (v h)) =O[𝓝 0] fun h => ‖A h‖ * ‖v h‖ :=
      IsBigO.of_bound 1 (Eventually.of_forall fun h => by
        rw [one_mul, norm_mul, norm_norm, norm_norm]
        exact (A h).le_opNorm (v h))
    exact h1.trans (IsBigO.mul (IsBigO.norm_left hA) (IsBigO.norm_left hv))
  -- replace both factors by their polynomials
  have hPa : (fun h : ℝ => ∑ k ∈ range n, h ^ k • a k) =O[𝓝 0] fun _ : ℝ => (1 : ℝ) := by
    refine IsBigO.fun_sum fun k _ => ?_
    simpa using isBigO_pow_smul k 0 (Nat.zero_le _) (a k)
  have h1 : (fun h => L h (u h - ∑ k ∈ range n, h ^ k • a k)) =O[𝓝 0] fun h : ℝ => h ^ n := by
    simpa using key _ _ _ _ hL.isBigO_one hu
  have h2 : (fun h => (L h - ∑ k ∈ range n, h ^ k • l k) (∑ k ∈ range n, h ^ k • a k))
      =O[𝓝 0] fun h : ℝ => h ^ n := by
    simpa using key _ _ _ _ hL hPa
  have h3 : (fun h : ℝ => ∑ ij ∈ (range n ×ˢ range n).filter (fun ij => ¬ ij.1 + ij.2 < n),
      h ^ (ij.1 + ij.2) • l ij.1 (a ij.2)) =O[𝓝 0] fun h : ℝ => h ^ n := by
    refine IsBigO.fun_sum fun ij hij => isBigO_pow_smul _ n ?_ _
    simp only [mem_filter, not_lt] at hij
    exact hij.2
  have h4 := (h1.add h2).add h3
  refine IsBigO.congr_left h4 fun h => ?_
  have e1 : (∑ k ∈ range n, h ^ k • l k) (∑ k ∈ range n, h ^ k • a k)
      = ∑ ij ∈ range n ×ˢ range n, h ^ (ij.1 + ij.2) • l ij.1 (a ij.2) := by
    rw [sum_product]
    simp only [_root_.sum_apply, map_sum, smul_apply, map_smul, smul_smul, pow_add, smul_sum]
    rw [sum_comm]
    exact sum_congr rfl fun i _ => sum_congr rfl fun j _ => by rw [mul_comm]
  have e2 : ∑ k ∈ range n, h ^ k • ∑ ij ∈ antidiagonal k, l ij.1 (a ij.2)
      = ∑ ij ∈ (range n ×ˢ range n).filter (fun ij => ij.1 + ij.2 < n),
          h ^ (ij.1 + ij.2) • l ij.1 (a ij.2) := by
    rw [← sum_fiberwise_of_maps_to (s := (range n ×ˢ range n).filter (fun ij => ij.1 + ij.2 < n))
      (t := range n) (g := fun ij => ij.1 + ij.2)]
    · refine sum_congr rfl fun k hk => ?_
      rw [smul_sum]
      have : ((range n ×ˢ range n).filter (fun ij => ij.1 + ij.2 < n)).filter (fun ij => ij.1 + ij.2 = k)
          = antidiagonal k := by
        ext ⟨i, j⟩
        simp only [mem_filter, mem_product, mem_range, mem_antidiagonal] at *
        omega
      rw [this]
      refine sum_congr rfl fun ij hij => ?_
      rw [mem_antidiagonal.1 hij]
    · intro ij hij
      simp only [mem_filter] at hij
      exact mem_range.2 hij.2
  have e3 := sum_filter_add_sum_filter_not (range n ×ˢ range n) (fun ij : ℕ × ℕ => ij.1 + ij.2 < n)
    (fun ij => h ^ (ij.1 + ij.2) • l ij.1 (a ij.2))
  rw [e2, map_sub, sub_apply, e1, ← e3]
  abel

/-- Coefficients of `h * f h`. -/
def shiftCoeff (a : ℕ → E) : ℕ → E
  | 0 => 0
  | k + 1 => a k

theorem Jet.smul_h {n : ℕ} {f : ℝ → E} {a : ℕ → E} (hf : Jet n f a) :
    Jet (n + 1) (fun h => h • f h) (shiftCoeff a) := by
  have := (isBigO_refl (fun h : ℝ => h) (𝓝 0)).smul hf
  refine IsBigO.congr this (fun x => ?_) (fun x => ?_)
  · rw [sum_range_succ']
    simp only [shiftCoeff, smul_zero, add_zero, smul_sub, smul_sum, smul_smul, pow_succ']
  · simp [pow_succ']

theorem Jet.of_coeff_zero {n m : ℕ} {f : ℝ → E} {a : ℕ → E} (hf : Jet n f a) (hm : m ≤ n)
    (h0 : ∀ k < m, a k = 0) : f =O[𝓝 0] fun h : ℝ => h ^ m := by
  have := (hf.mono hm).congr (b := fun _ => 0) h0
  unfold Jet at this
  simpa using this

theorem Jet.isBigO_id {n : ℕ} {f : ℝ → E} {a : ℕ → E} (hf : Jet n f a) (hn : 1 ≤ n)
    (h0 : a 0 = 0) : f =O[𝓝 0] fun h : ℝ => h := by
  have := hf.of_coeff_zero hn (fun k hk => by obtain rfl : k = 0 := by omega
                                              exact h0)
  simpa using this

/-- Integration: if the derivative of `f` has the expansion `a` then `f - f 0` has the expansion
`0, a 0, a 1 / 2, a 2 / 3, ...`. -/
theorem Jet.integrate {n : ℕ} {f f' : ℝ → E} {a : ℕ → E} (hd : ∀ᶠ t in 𝓝 0, HasDerivAt f (f' t) t)
    (hf : Jet n f' a) :
    Jet (n + 1) (fun h => f h - f 0) (shiftCoeff fun k => ((k + 1 : ℝ))⁻¹ • a k) := by
  obtain ⟨C, hC⟩ := IsBigO.bound hf
  obtain ⟨r, hr, hball⟩ := Metric.eventually_nhds_iff_ball.1 (hd.and hC)
  refine IsBigO.of_bound C ?_
  filter_upwards [Metric.ball_mem_nhds (0 : ℝ) hr] with h hh
  have hh' : |h| < r := by simpa using hh
  set g : ℝ → E := fun t => f t - f 0 - ∑ k ∈ range (n + 1), t ^ k •
    (shiftCoeff (fun k => ((k + 1 : ℝ))⁻¹ • a k) k) with hg
  have hgd : ∀ t ∈ Metric.ball (0 : ℝ) r, HasDerivAt g (f' t - ∑ k ∈ range n, t ^ k • a k) t := by
    intro t ht
    have h1 := ((hball t ht).1).sub_const (f 0)
    have h2 : HasDerivAt (fun t : ℝ => ∑ k ∈ range (n + 1), t ^ k •
        (shiftCoeff (fun k => ((k + 1 : ℝ))⁻¹ • a k) k)) (∑ k ∈ range n, t ^ k • a k) t := by
      have : (fun t : ℝ => ∑ k ∈ range (n + 1), t ^ k •
          (shiftCoeff (fun k => ((k + 1 : ℝ))⁻¹ • a k) k))
          = fun t : ℝ => ∑ k ∈ range n, (t ^ (k + 1)) • (((k + 1 : ℝ))⁻¹ • a k) := by
        funext t
        rw [sum_range_succ']
        simp [shiftCoeff]
      rw [this]
      refine HasDerivAt.fun_sum fun k _ => ?_
      have h3 := ((hasDerivAt_pow (k + 1) t).smul_const (((k + 1 : ℝ))⁻¹ • a k))
      convert h3 using 1
      rw [smul_smul]
      congr 1
      have : (k + 1 : ℝ) ≠ 0 := by positivity
      push_cast
      field_simp
    exact h1.sub h2
  have hg0 : g 0 = 0 := by
    simp only [hg, sub_self, zero_sub, neg_eq_zero]
    refine sum_eq_zero fun k _ => ?_
    rcases k with _ | k <;> simp [shiftCoeff]
  have hseg : ∀ t ∈ segment ℝ 0 h, |t| ≤ |h| := by
    intro t ht
    obtain ⟨u, v, hu, hv, huv, rfl⟩ := ht
    simp only [smul_eq_mul, mul_zero, zero_add, abs_mul]
    calc |v| * |h| ≤ 1 * |h| := by
          refine mul_le_mul_of_nonneg_right ?_ (abs_nonneg _)
          rw [abs_of_nonneg hv]
          linarith
      _ = |h| := one_mul _
  have := (convex_segment (𝕜 := ℝ) 0 h).norm_image_sub_le_of_norm_hasDerivWithin_le (f := g)
    (f' := fun t => f' t - ∑ k ∈ range n, t ^ k • a k) (C := C * |h| ^ n)
    (fun t ht => (hgd t (by simpa using (hseg t ht).trans_lt hh')).hasDerivWithinAt)
    (fun t ht => by
      have h5 := (hball t (by simpa using (hseg t ht).trans_lt hh')).2
      refine h5.trans ?_
      rw [norm_pow]
      rcases le_or_gt 0 C with hC0 | hC0
      · exact mul_le_mul_of_nonneg_left (pow_le_pow_left₀ (norm_nonneg _) (hseg t ht) _) hC0
      · have h6 : C * ‖t‖ ^ n ≤ 0 := mul_nonpos_of_nonpos_of_nonneg hC0.le (by positivity)
        have h7 : (0 : ℝ) ≤ C * ‖t‖ ^ n := by
          rw [← norm_pow]; exact (norm_nonneg _).trans h5
        have h8 : ‖t‖ ^ n = 0 := by
          have : C * ‖t‖ ^ n = 0 := le_antisymm h6 h7
          exact (mul_eq_zero.1 this).resolve_left hC0.ne
        have h9 : ∀ s ∈ Metric.ball (0 : ℝ) r, ‖s ^ n‖ = 0 := by
          intro s hs
          have h5 := (hball s hs).2
          have : (0 : ℝ) ≤ C * ‖s ^ n‖ := (norm_nonneg _).trans h5
          exact le_antisymm (nonpos_of_mul_nonneg_right this hC0) (norm_nonneg _)
        have h10 := h9 h hh
        rw [norm_pow] at h10
        rw [h8]
        rw [show |h| ^ n = 0 from h10])
    (left_mem_segment ℝ 0 h) (right_mem_segment ℝ 0 h)
  rw [hg0, sub_zero] at this
  calc ‖g h‖ ≤ C * |h| ^ n * ‖h - 0‖ := this
    _ = C * ‖h ^ (n + 1)‖ := by
        rw [sub_zero, norm_pow, pow_succ, mul_assoc, Real.norm_eq_abs]

end

end Bolt
