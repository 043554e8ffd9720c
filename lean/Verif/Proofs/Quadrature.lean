import Verif.Spec.Collisions
import Mathlib.Analysis.Calculus.Deriv.MeanValue
import Mathlib.Analysis.Calculus.Deriv.Mul
import Mathlib.Analysis.Calculus.Deriv.Pow
import Mathlib.Analysis.SpecialFunctions.ExpDeriv
import Mathlib.Analysis.SpecialFunctions.Gaussian.GaussianIntegral
import Mathlib.MeasureTheory.Integral.IntervalIntegral.FundThmCalculus
import Mathlib.MeasureTheory.Integral.IntegralEqImproper
import Mathlib.Tactic.Linarith
import Mathlib.Tactic.FieldSimp
import Mathlib.Tactic.Positivity
import Mathlib.Tactic.LinearCombination

/-!
# The midpoint rule, and sums over a grid of a Gaussian times a power
-/

namespace Bolt

/-- A function with nonnegative derivative grows. -/
theorem le_of_deriv_nonneg {f f' : ℝ → ℝ} (h : ∀ x, HasDerivAt f (f' x) x) {a b : ℝ} (hab : a ≤ b) (h0 : ∀ x, a ≤ x → x ≤ b → 0 ≤ f' x) : f a ≤ f b := by
  refine monotoneOn_of_deriv_nonneg (convex_Icc a b) (fun x _ => (h x).continuousAt.continuousWithinAt)
    (fun x _ => (h x).differentiableAt.differentiableWithinAt) (fun x hx => ?_) ⟨le_rfl, hab⟩ ⟨hab, le_rfl⟩ hab
  rw [interior_Icc] at hx
  rw [(h x).deriv]
  exact h0 x hx.1.le hx.2.le

/-- Two functions, one changing at most as fast as the other grows. -/
theorem abs_sub_le_of_deriv {f f' g g' : ℝ → ℝ} (hf : ∀ x, HasDerivAt f (f' x) x) (hg : ∀ x, HasDerivAt g (g' x) x) {a b : ℝ} (hab : a ≤ b)
    (h : ∀ x, a ≤ x → x ≤ b → |f' x| ≤ g' x) : |f b - f a| ≤ g b - g a := by
  have h1 := le_of_deriv_nonneg (fun x => (hg x).sub (hf x)) hab (fun x hx hx' => by linarith [h x hx hx', le_abs_self (f' x)])
  have h2 := le_of_deriv_nonneg (fun x => (hg x).add (hf x)) hab (fun x hx hx' => by linarith [h x hx hx', neg_abs_le (f' x)])
  simp only [Pi.sub_apply, Pi.add_apply] at h1 h2
  exact abs_le.mpr ⟨by linarith, by linarith⟩

variable {G g g' g'' H b : ℝ → ℝ}

/-- One cell of half width `h`: the error of the midpoint value, where `b` bounds the second derivative and `H` is an integral of `b`. -/
theorem midpoint_cell (hG : ∀ x, HasDerivAt G (g x) x) (hg : ∀ x, HasDerivAt g (g' x) x) (hg' : ∀ x, HasDerivAt g' (g'' x) x)
    (hH : ∀ x, HasDerivAt H (b x) x) (hb : ∀ x, |g'' x| ≤ b x) (c : ℝ) {h : ℝ} (hh : 0 ≤ h) :
    |G (c + h) - G (c - h) - 2 * h * g c| ≤ h ^ 2 / 2 * (H (c + h) - H (c - h)) := by
  have dp : ∀ {F F' : ℝ → ℝ}, (∀ x, HasDerivAt F (F' x) x) → ∀ s, HasDerivAt (fun s => F (c + s)) (F' (c + s)) s := fun hF s => by
    have := (hF (c + s)).comp s ((hasDerivAt_id s).const_add c)
    rwa [mul_one] at this
  have dm : ∀ {F F' : ℝ → ℝ}, (∀ x, HasDerivAt F (F' x) x) → ∀ s, HasDerivAt (fun s => F (c - s)) (-F' (c - s)) s := fun hF s => by
    have := (hF (c - s)).comp s ((hasDerivAt_id s).const_sub c)
    rwa [mul_neg, mul_one] at this
  have b0 : ∀ x, 0 ≤ b x := fun x => (abs_nonneg _).trans (hb x)
  set M := H (c + h) - H (c - h) with hM
  -- difference of the derivatives at the two ends
  have s1 : ∀ s, 0 ≤ s → s ≤ h → |g' (c + s) - g' (c - s)| ≤ M := by
    intro s hs hsh
    have e1 := abs_sub_le_of_deriv hg' hH (show c - s ≤ c + s by linarith) fun x _ _ => hb x
    have e2 := le_of_deriv_nonneg hH (show c + s ≤ c + h by linarith) fun x _ _ => b0 x
    have e3 := le_of_deriv_nonneg hH (show c - h ≤ c - s by linarith) fun x _ _ => b0 x
    rw [hM]; linarith
  have s2 : ∀ s, 0 ≤ s → s ≤ h → |g (c + s) + g (c - s) - 2 * g c| ≤ M * s := by
    intro s hs hsh
    have := abs_sub_le_of_deriv (f := fun s => g (c + s) + g (c - s)) (g := fun s => M * s) (fun x => (dp hg x).add (dm hg x))
      (fun x => by simpa using (hasDerivAt_id x).const_mul M) hs fun x hx hx' => by
        have := s1 x hx (hx'.trans hsh)
        simpa [← sub_eq_add_neg] using this
    simpa [two_mul] using this
  have := abs_sub_le_of_deriv (f := fun s => G (c + s) - G (c - s) - 2 * s * g c) (g := fun s => s ^ 2 / 2 * M)
    (f' := fun s => g (c + s) + g (c - s) - 2 * g c) (g' := fun s => M * s) (fun x => by
      have h1 := ((dp hG x).sub (dm hG x)).sub (((hasDerivAt_id x).const_mul 2).mul_const (g c))
      refine h1.congr_deriv ?_; simp) (fun x => by
      have h1 := (((hasDerivAt_id x).pow 2).div_const 2).mul_const M
      refine h1.congr_deriv ?_; simp; ring) hh fun x hx hx' => s2 x hx hx'
  simpa using this

/-- A row of `N` cells of width `d` starting at `a`. -/
theorem midpoint_sum (hG : ∀ x, HasDerivAt G (g x) x) (hg : ∀ x, HasDerivAt g (g' x) x) (hg' : ∀ x, HasDerivAt g' (g'' x) x)
    (hH : ∀ x, HasDerivAt H (b x) x) (hb : ∀ x, |g'' x| ≤ b x) (a : ℝ) {d : ℝ} (hd : 0 ≤ d) (N : ℕ) :
    |d * ∑ j ∈ Finset.range N, g (a + (1 / 2 + j) * d) - (G (a + N * d) - G a)| ≤ d ^ 2 / 8 * (H (a + N * d) - H a) := by
  induction N with
  | zero => simp
  | succ N ih =>
    have := midpoint_cell hG hg hg' hH hb (a + (1 / 2 + N) * d) (show 0 ≤ d / 2 by linarith)
    rw [show a + (1 / 2 + (N : ℝ)) * d + d / 2 = a + (N + 1 : ℕ) * d by push_cast; ring,
      show a + (1 / 2 + (N : ℝ)) * d - d / 2 = a + N * d by ring] at this
    rw [Finset.sum_range_succ]
    rw [abs_le] at *
    constructor <;> nlinarith [this.1, this.2, ih.1, ih.2]

/-! ### the normal distribution of variance `v` -/

section gauss
variable {v : ℝ}

/-- Its density. -/
noncomputable def normalPdf (v y : ℝ) : ℝ := Real.sqrt (1 / (2 * Real.pi * v)) * Real.exp (-y ^ 2 / (2 * v))

/-- Its integral from 0. -/
noncomputable def normalInt (v y : ℝ) : ℝ := ∫ x in (0)..y, normalPdf v x

theorem continuous_normalPdf : Continuous (normalPdf v) := by unfold normalPdf; fun_prop

theorem normalPdf_pos (hv : 0 < v) (y : ℝ) : 0 < normalPdf v y := by
  unfold normalPdf; have := Real.pi_pos; positivity

theorem normalPdf_neg (y : ℝ) : normalPdf v (-y) = normalPdf v y := by simp [normalPdf]

theorem hasDerivAt_normalInt (y : ℝ) : HasDerivAt (normalInt v) (normalPdf v y) y :=
  intervalIntegral.integral_hasDerivAt_right (continuous_normalPdf.intervalIntegrable _ _) (continuous_normalPdf.stronglyMeasurableAtFilter _ _)
    continuous_normalPdf.continuousAt

theorem hasDerivAt_normalPdf (hv : v ≠ 0) (y : ℝ) : HasDerivAt (normalPdf v) (-(y / v) * normalPdf v y) y := by
  have h1 : HasDerivAt (fun y : ℝ => -y ^ 2 / (2 * v)) (-(y / v)) y := by
    refine ((((hasDerivAt_id y).pow 2).neg).div_const (2 * v)).congr_deriv ?_
    simp only [id_eq, Nat.cast_ofNat, Nat.add_one_sub_one, pow_one, mul_one]
    field_simp
  refine (h1.exp.const_mul (Real.sqrt (1 / (2 * Real.pi * v)))).congr_deriv ?_
  simp only [normalPdf]; ring

theorem normalInt_zero : normalInt v 0 = 0 := by simp [normalInt]

theorem normalInt_neg (y : ℝ) : normalInt v (-y) = -normalInt v y := by
  have := intervalIntegral.integral_comp_neg (a := 0) (b := y) (fun x => normalPdf v x)
  simp only [normalPdf_neg, neg_zero] at this
  rw [normalInt, normalInt, this, intervalIntegral.integral_symm]

theorem integrable_normalPdf (hv : 0 < v) : MeasureTheory.Integrable (normalPdf v) := by
  have := (integrable_exp_neg_mul_sq (show 0 < 1 / (2 * v) by positivity)).const_mul (Real.sqrt (1 / (2 * Real.pi * v)))
  refine this.congr (Filter.Eventually.of_forall fun x => ?_)
  simp only [normalPdf]; congr 2; ring

theorem integral_normalPdf_Ioi (hv : 0 < v) : ∫ x in Set.Ioi 0, normalPdf v x = 1 / 2 := by
  have e : ∀ x, normalPdf v x = Real.sqrt (1 / (2 * Real.pi * v)) * Real.exp (-(1 / (2 * v)) * x ^ 2) := fun x => by
    simp only [normalPdf]; congr 2; ring
  simp only [e, MeasureTheory.integral_const_mul, integral_gaussian_Ioi]
  rw [show Real.pi / (1 / (2 * v)) = (1 / (2 * Real.pi * v))⁻¹ * (Real.pi * Real.pi) * (1 / Real.pi ^ 2) by
    have := Real.pi_pos; field_simp]
  have hpi := Real.pi_pos
  rw [show (1 / (2 * Real.pi * v))⁻¹ * (Real.pi * Real.pi) * (1 / Real.pi ^ 2) = (1 / (2 * Real.pi * v))⁻¹ by field_simp]
  rw [Real.sqrt_inv]
  have : 0 < Real.sqrt (1 / (2 * Real.pi * v)) := Real.sqrt_pos.mpr (by positivity)
  field_simp

theorem tendsto_normalInt (hv : 0 < v) : Filter.Tendsto (normalInt v) Filter.atTop (nhds (1 / 2)) := by
  rw [← integral_normalPdf_Ioi hv]
  exact MeasureTheory.intervalIntegral_tendsto_integral_Ioi 0 (integrable_normalPdf hv).integrableOn Filter.tendsto_id

theorem normalInt_mono (hv : 0 < v) {x y : ℝ} (h : x ≤ y) : normalInt v x ≤ normalInt v y :=
  le_of_deriv_nonneg hasDerivAt_normalInt h fun z _ _ => (normalPdf_pos hv z).le

theorem normalInt_le (hv : 0 < v) (y : ℝ) : normalInt v y ≤ 1 / 2 :=
  ge_of_tendsto (tendsto_normalInt hv) (Filter.eventually_atTop.mpr ⟨y, fun _ hz => normalInt_mono hv hz⟩)

/-- The mass beyond `L`. -/
theorem normal_tail (hv : 0 < v) {L : ℝ} (hL : 0 ≤ L) : 1 / 2 - normalInt v L ≤ Real.exp (-L ^ 2 / (2 * v)) / 2 := by
  have key : ∀ M, 0 ≤ M → normalInt v (L + M) - normalInt v L ≤ Real.exp (-L ^ 2 / (2 * v)) / 2 := by
    intro M hM
    have h1 := le_of_deriv_nonneg (f := fun s => Real.exp (-L ^ 2 / (2 * v)) * normalInt v s - normalInt v (L + s))
      (f' := fun s => Real.exp (-L ^ 2 / (2 * v)) * normalPdf v s - normalPdf v (L + s)) (fun s => by
        have h2 := (hasDerivAt_normalInt (v := v) (L + s)).comp s ((hasDerivAt_id s).const_add L)
        rw [mul_one] at h2
        exact ((hasDerivAt_normalInt s).const_mul _).sub h2) hM (fun s hs _ => by
        simp only [normalPdf, sub_nonneg]
        rw [mul_left_comm, ← Real.exp_add]
        refine mul_le_mul_of_nonneg_left (Real.exp_le_exp.mpr ?_) (Real.sqrt_nonneg _)
        rw [← add_div, div_le_div_iff_of_pos_right (by positivity)]
        nlinarith [mul_nonneg hL hs])
    simp only [normalInt_zero, add_zero, mul_zero, zero_sub] at h1
    have h2 := mul_le_mul_of_nonneg_left (normalInt_le hv M) (Real.exp_pos (-L ^ 2 / (2 * v))).le
    linarith
  have ht : Filter.Tendsto (fun M => normalInt v (L + M) - normalInt v L) Filter.atTop (nhds (1 / 2 - normalInt v L)) :=
    ((tendsto_normalInt hv).comp (Filter.tendsto_atTop_add_const_left _ L Filter.tendsto_id)).sub_const _
  exact le_of_tendsto ht (Filter.eventually_atTop.mpr ⟨0, key⟩)

/-! ### sums over a grid of cells -/

/-- `A2` is an integral of `y²/v` times the density. -/
noncomputable def normalVar (v y : ℝ) : ℝ := normalInt v y - y * normalPdf v y

theorem hasDerivAt_mul_pdf (hv : v ≠ 0) (y : ℝ) : HasDerivAt (fun y => y * normalPdf v y) ((1 - y ^ 2 / v) * normalPdf v y) y := by
  refine ((hasDerivAt_id y).mul (hasDerivAt_normalPdf hv y)).congr_deriv ?_
  simp only [id_eq]; ring

theorem hasDerivAt_cube_pdf (hv : v ≠ 0) (y : ℝ) :
    HasDerivAt (fun y => y ^ 3 / v * normalPdf v y) ((3 * (y ^ 2 / v) - y ^ 4 / v ^ 2) * normalPdf v y) y := by
  refine (((hasDerivAt_pow 3 y).div_const v).mul (hasDerivAt_normalPdf hv y)).congr_deriv ?_
  field_simp; push_cast; ring

theorem hasDerivAt_normalVar (hv : v ≠ 0) (y : ℝ) : HasDerivAt (normalVar v) (y ^ 2 / v * normalPdf v y) y := by
  refine ((hasDerivAt_normalInt y).sub (hasDerivAt_mul_pdf hv y)).congr_deriv ?_
  ring

theorem normalVar_neg (y : ℝ) : normalVar v (-y) = -normalVar v y := by
  simp [normalVar, normalInt_neg, normalPdf_neg]; ring

/-- A function that vanishes at 0, is odd, grows, and on the positive side stays below `B`, stays between `-B` and `B`. -/
theorem odd_diff_le {H : ℝ → ℝ} {B : ℝ} (hodd : ∀ y, H (-y) = -H y) (hpos : ∀ y, 0 ≤ y → 0 ≤ H y) (hB : ∀ y, 0 ≤ y → H y ≤ B)
    (x y : ℝ) : H y - H x ≤ 2 * B := by
  have up : ∀ y, H y ≤ B := fun y => by
    rcases le_total 0 y with h | h
    · exact hB y h
    · have h1 := hpos (-y) (by linarith)
      have h2 := (hpos (-y) (by linarith)).trans (hB (-y) (by linarith))
      rw [hodd] at h1; linarith
  have h1 := up y
  have h2 := up (-x)
  rw [hodd] at h2; linarith

theorem sqrt_pdf_le (hv : 0 < v) : Real.sqrt (1 / (2 * Real.pi * v)) ≤ 1 / 2 / Real.sqrt v := by
  have h : (0:ℝ) < Real.sqrt v := Real.sqrt_pos.mpr hv
  have hs : Real.sqrt v * Real.sqrt v = v := Real.mul_self_sqrt hv.le
  refine Real.sqrt_le_iff.mpr ⟨by positivity, ?_⟩
  rw [div_pow, div_pow, sq (Real.sqrt v), hs, div_div, div_le_div_iff₀ (by positivity) (by positivity)]
  nlinarith [mul_le_mul_of_nonneg_right Real.two_le_pi hv.le]

variable (a u d : ℝ) (N : ℕ)

/-- The number of particles of the discretised normal distribution. -/
theorem grid_mass (hv : 0 < v) (hd : 0 ≤ d) (ha : a ≤ u) (hu : u ≤ a + N * d) :
    |d * ∑ j ∈ Finset.range N, normalPdf v (a + (1 / 2 + j) * d - u) - 1| ≤ gridDefect v d (u - a) (a + N * d - u) := by
  have hv' := hv.ne'
  have h0 : (0:ℝ) < Real.sqrt v := Real.sqrt_pos.mpr hv
  have g0 := fun y => (normalPdf_pos hv y).le
  set H : ℝ → ℝ := fun y => (2 * normalInt v y - y * normalPdf v y) / v with hHd
  have hH : ∀ y, HasDerivAt H ((1 + y ^ 2 / v) / v * normalPdf v y) y := fun y => by
    refine ((((hasDerivAt_normalInt y).const_mul 2).sub (hasDerivAt_mul_pdf hv' y)).div_const v).congr_deriv ?_
    ring
  have hg' : ∀ y, HasDerivAt (fun y => -(y / v) * normalPdf v y) ((-1 / v + y ^ 2 / v ^ 2) * normalPdf v y) y := fun y => by
    refine (((hasDerivAt_id y).div_const v).neg.mul (hasDerivAt_normalPdf hv' y)).congr_deriv ?_
    simp only [Pi.neg_apply, id_eq]; ring
  have hm := midpoint_sum hasDerivAt_normalInt (hasDerivAt_normalPdf hv') hg' hH (fun y => by
    rw [abs_mul, abs_of_nonneg (g0 y)]
    refine mul_le_mul_of_nonneg_right ?_ (g0 y)
    have : (1 + y ^ 2 / v) / v = 1 / v + y ^ 2 / v ^ 2 := by field_simp
    rw [this, abs_le]
    have h1 : 0 ≤ 1 / v := by positivity
    have h2 : 0 ≤ y ^ 2 / v ^ 2 := by positivity
    rw [neg_div]
    constructor <;> linarith) (a - u) hd N
  have hHle := odd_diff_le (H := H) (B := 1 / v) (fun y => by simp only [hHd, normalInt_neg, normalPdf_neg]; ring)
    (fun y hy => by
      have := le_of_deriv_nonneg hH hy fun x _ _ => mul_nonneg (by positivity) (g0 x)
      simpa [hHd, normalInt_zero] using this)
    (fun y hy => by
      simp only [hHd]
      refine div_le_div_of_nonneg_right ?_ hv.le
      linarith [normalInt_le hv y, mul_nonneg hy (g0 y)]) (a - u) (a - u + N * d)
  have t1 := normal_tail hv (L := u - a) (by linarith)
  have t2 := normal_tail hv (L := a + N * d - u) (by linarith)
  have l1 := normalInt_le hv (u - a)
  have l2 := normalInt_le hv (a + N * d - u)
  rw [show a - u + N * d = a + N * d - u by ring] at *
  rw [show a - u = -(u - a) by ring, normalInt_neg] at hm
  simp only [show ∀ j : ℕ, -(u - a) + (1 / 2 + (j : ℝ)) * d = a + (1 / 2 + j) * d - u from fun j => by ring] at hm
  have hd2 := mul_le_mul_of_nonneg_left hHle (show 0 ≤ d ^ 2 / 8 by positivity)
  rw [show a - u = -(u - a) by ring] at hd2
  have e1 : 0 ≤ (u - a) / Real.sqrt v * Real.exp (-(u - a) ^ 2 / (2 * v)) := mul_nonneg (div_nonneg (by linarith) h0.le) (Real.exp_pos _).le
  have e2 : 0 ≤ (a + N * d - u) / Real.sqrt v * Real.exp (-(a + N * d - u) ^ 2 / (2 * v)) :=
    mul_nonneg (div_nonneg (by linarith) h0.le) (Real.exp_pos _).le
  have e3 : d ^ 2 / 8 * (2 * (1 / v)) = 1 / 4 * (d ^ 2 / v) := by field_simp; ring
  have e4 : 0 ≤ d ^ 2 / v := by positivity
  unfold gridDefect
  rw [abs_le] at *
  constructor <;> linarith [hm.1, hm.2]

/-- Its momentum relative to the mean. -/
theorem grid_mean (hv : 0 < v) (hd : 0 ≤ d) (ha : a ≤ u) (hu : u ≤ a + N * d) :
    |d * ∑ j ∈ Finset.range N, (a + (1 / 2 + j) * d - u) * normalPdf v (a + (1 / 2 + j) * d - u)|
      ≤ Real.sqrt v * gridDefect v d (u - a) (a + N * d - u) := by
  have hv' := hv.ne'
  have h0 : (0:ℝ) < Real.sqrt v := Real.sqrt_pos.mpr hv
  have hs : Real.sqrt v * Real.sqrt v = v := Real.mul_self_sqrt hv.le
  have g0 := fun y => (normalPdf_pos hv y).le
  have hG : ∀ y, HasDerivAt (fun y => -v * normalPdf v y) (y * normalPdf v y) y := fun y => by
    refine ((hasDerivAt_normalPdf hv' y).const_mul (-v)).congr_deriv ?_
    field_simp
  have hg' : ∀ y, HasDerivAt (fun y => (1 - y ^ 2 / v) * normalPdf v y) ((-3 * (y / v) + y ^ 3 / v ^ 2) * normalPdf v y) y := fun y => by
    refine ((((hasDerivAt_pow 2 y).div_const v).const_sub 1).mul (hasDerivAt_normalPdf hv' y)).congr_deriv ?_
    field_simp; push_cast; ring
  set H : ℝ → ℝ := fun y => (3 / 2 * normalInt v y + 7 / 2 * normalVar v y - 1 / 2 * (y ^ 3 / v * normalPdf v y)) / Real.sqrt v with hHd
  have hH : ∀ y, HasDerivAt H ((3 / 2 + 2 * (y ^ 2 / v) + 1 / 2 * (y ^ 4 / v ^ 2)) / Real.sqrt v * normalPdf v y) y := fun y => by
    refine (((((hasDerivAt_normalInt y).const_mul (3 / 2)).add ((hasDerivAt_normalVar hv' y).const_mul (7 / 2))).sub
      ((hasDerivAt_cube_pdf hv' y).const_mul (1 / 2))).div_const (Real.sqrt v)).congr_deriv ?_
    ring
  have hm := midpoint_sum hG (hasDerivAt_mul_pdf hv') hg' hH (fun y => by
    rw [abs_mul, abs_of_nonneg (g0 y)]
    refine mul_le_mul_of_nonneg_right ?_ (g0 y)
    obtain ⟨z, rfl⟩ : ∃ z, y = z * Real.sqrt v := ⟨y / Real.sqrt v, by field_simp⟩
    have p2 : (z * Real.sqrt v) ^ 2 / v = z ^ 2 := by rw [mul_pow, sq (Real.sqrt v), hs]; field_simp
    have p1 : z * Real.sqrt v / v = z / Real.sqrt v := by rw [← hs, Real.sqrt_mul_self h0.le]; field_simp
    have p3 : (z * Real.sqrt v) ^ 3 / v ^ 2 = z ^ 3 / Real.sqrt v := by
      rw [← hs, Real.sqrt_mul_self h0.le]; field_simp
    have p4 : (z * Real.sqrt v) ^ 4 / v ^ 2 = z ^ 4 := by rw [← hs, Real.sqrt_mul_self h0.le]; field_simp
    rw [p1, p2, p3, p4, show -3 * (z / Real.sqrt v) + z ^ 3 / Real.sqrt v = (-3 * z + z ^ 3) / Real.sqrt v by ring, abs_div, abs_of_pos h0]
    refine div_le_div_of_nonneg_right ?_ h0.le
    rw [abs_le]
    constructor <;> nlinarith [sq_nonneg (z - 1), sq_nonneg (z + 1), sq_nonneg (z * (z - 1)), sq_nonneg (z * (z + 1))]) (a - u) hd N
  have hHle := odd_diff_le (H := H) (B := 5 / 2 / Real.sqrt v) (fun y => by simp only [hHd, normalInt_neg, normalVar_neg, normalPdf_neg]; ring)
    (fun y hy => by
      have := le_of_deriv_nonneg hH hy fun x _ _ => mul_nonneg (by positivity) (g0 x)
      simpa [hHd, normalInt_zero, normalVar] using this)
    (fun y hy => by
      simp only [hHd]
      refine div_le_div_of_nonneg_right ?_ h0.le
      have : 0 ≤ y ^ 3 / v * normalPdf v y := mul_nonneg (by positivity) (g0 y)
      simp only [normalVar]
      linarith [normalInt_le hv y, mul_nonneg hy (g0 y)]) (a - u) (a - u + N * d)
  rw [show a - u + N * d = a + N * d - u by ring] at *
  rw [show a - u = -(u - a) by ring, normalPdf_neg] at hm
  simp only [show ∀ j : ℕ, -(u - a) + (1 / 2 + (j : ℝ)) * d = a + (1 / 2 + j) * d - u from fun j => by ring] at hm
  have hd2 := mul_le_mul_of_nonneg_left hHle (show 0 ≤ d ^ 2 / 8 by positivity)
  rw [show a - u = -(u - a) by ring] at hd2
  have pb : ∀ L, v * normalPdf v L ≤ Real.sqrt v * (Real.exp (-L ^ 2 / (2 * v)) / 2) := fun L => by
    have := mul_le_mul_of_nonneg_left (mul_le_mul_of_nonneg_right (sqrt_pdf_le hv) (Real.exp_pos (-L ^ 2 / (2 * v))).le) hv.le
    refine this.trans (le_of_eq ?_)
    nth_rewrite 1 [← hs]
    field_simp
  have b1 := pb (u - a)
  have b2 := pb (a + N * d - u)
  have z1 := mul_nonneg hv.le (g0 (u - a))
  have z2 := mul_nonneg hv.le (g0 (a + N * d - u))
  have e1 : 0 ≤ (u - a) * Real.exp (-(u - a) ^ 2 / (2 * v)) := mul_nonneg (by linarith) (Real.exp_pos _).le
  have e2 : 0 ≤ (a + N * d - u) * Real.exp (-(a + N * d - u) ^ 2 / (2 * v)) := mul_nonneg (by linarith) (Real.exp_pos _).le
  have x1 := mul_pos h0 (Real.exp_pos (-(u - a) ^ 2 / (2 * v)))
  have x2 := mul_pos h0 (Real.exp_pos (-(a + N * d - u) ^ 2 / (2 * v)))
  have e3 : d ^ 2 / 8 * (2 * (5 / 2 / Real.sqrt v)) = 5 / 8 * (d ^ 2 / Real.sqrt v) := by field_simp
  have e4 : 0 ≤ d ^ 2 / Real.sqrt v := by positivity
  have e5 : Real.sqrt v * gridDefect v d (u - a) (a + N * d - u) = 5 / 4 * (d ^ 2 / Real.sqrt v)
      + (Real.sqrt v * Real.exp (-(u - a) ^ 2 / (2 * v)) + (u - a) * Real.exp (-(u - a) ^ 2 / (2 * v))
      + (Real.sqrt v * Real.exp (-(a + N * d - u) ^ 2 / (2 * v)) + (a + N * d - u) * Real.exp (-(a + N * d - u) ^ 2 / (2 * v)))) / 2 := by
    unfold gridDefect
    have : Real.sqrt v * (d ^ 2 / v) = d ^ 2 / Real.sqrt v := by nth_rewrite 2 [← hs]; field_simp
    rw [mul_add, mul_left_comm, this]
    field_simp
  rw [e5]
  rw [abs_le] at *
  constructor <;> linarith [hm.1, hm.2]

/-- Its second moment about the mean. -/
theorem grid_variance (hv : 0 < v) (hd : 0 ≤ d) (ha : a ≤ u) (hu : u ≤ a + N * d) :
    |d * ∑ j ∈ Finset.range N, (a + (1 / 2 + j) * d - u) ^ 2 * normalPdf v (a + (1 / 2 + j) * d - u) - v|
      ≤ v * gridDefect v d (u - a) (a + N * d - u) := by
  have hv' := hv.ne'
  have h0 : (0:ℝ) < Real.sqrt v := Real.sqrt_pos.mpr hv
  have hs : Real.sqrt v * Real.sqrt v = v := Real.mul_self_sqrt hv.le
  have g0 := fun y => (normalPdf_pos hv y).le
  have hG : ∀ y, HasDerivAt (fun y => v * normalVar v y) (y ^ 2 * normalPdf v y) y := fun y => by
    refine ((hasDerivAt_normalVar hv' y).const_mul v).congr_deriv ?_
    field_simp
  have hg : ∀ y, HasDerivAt (fun y => y ^ 2 * normalPdf v y) ((2 * y - y ^ 3 / v) * normalPdf v y) y := fun y => by
    refine ((hasDerivAt_pow 2 y).mul (hasDerivAt_normalPdf hv' y)).congr_deriv ?_
    field_simp; push_cast; ring
  have hg' : ∀ y, HasDerivAt (fun y => (2 * y - y ^ 3 / v) * normalPdf v y) ((2 - 5 * (y ^ 2 / v) + y ^ 4 / v ^ 2) * normalPdf v y) y := fun y => by
    refine ((((hasDerivAt_id y).const_mul 2).sub ((hasDerivAt_pow 3 y).div_const v)).mul (hasDerivAt_normalPdf hv' y)).congr_deriv ?_
    simp only [Pi.sub_apply, id_eq]
    field_simp; push_cast; ring
  set H : ℝ → ℝ := fun y => 2 * normalInt v y + 8 * normalVar v y - y ^ 3 / v * normalPdf v y with hHd
  have hH : ∀ y, HasDerivAt H ((2 + 5 * (y ^ 2 / v) + y ^ 4 / v ^ 2) * normalPdf v y) y := fun y => by
    refine ((((hasDerivAt_normalInt y).const_mul 2).add ((hasDerivAt_normalVar hv' y).const_mul 8)).sub (hasDerivAt_cube_pdf hv' y)).congr_deriv ?_
    ring
  have hm := midpoint_sum hG hg hg' hH (fun y => by
    rw [abs_mul, abs_of_nonneg (g0 y)]
    refine mul_le_mul_of_nonneg_right ?_ (g0 y)
    have h1 : 0 ≤ y ^ 2 / v := by positivity
    have h2 : 0 ≤ y ^ 4 / v ^ 2 := by positivity
    rw [abs_le]
    constructor <;> linarith) (a - u) hd N
  have hHle := odd_diff_le (H := H) (B := 5) (fun y => by simp only [hHd, normalInt_neg, normalVar_neg, normalPdf_neg]; ring)
    (fun y hy => by
      have := le_of_deriv_nonneg hH hy fun x _ _ => mul_nonneg (by positivity) (g0 x)
      simpa [hHd, normalInt_zero, normalVar] using this)
    (fun y hy => by
      simp only [hHd]
      have : 0 ≤ y ^ 3 / v * normalPdf v y := mul_nonneg (by positivity) (g0 y)
      simp only [normalVar]
      linarith [normalInt_le hv y, mul_nonneg hy (g0 y)]) (a - u) (a - u + N * d)
  rw [show a - u + N * d = a + N * d - u by ring] at *
  rw [show a - u = -(u - a) by ring, normalVar_neg] at hm
  simp only [show ∀ j : ℕ, -(u - a) + (1 / 2 + (j : ℝ)) * d = a + (1 / 2 + j) * d - u from fun j => by ring] at hm
  have hd2 := mul_le_mul_of_nonneg_left hHle (show 0 ≤ d ^ 2 / 8 by positivity)
  rw [show a - u = -(u - a) by ring] at hd2
  have tl : ∀ L, 0 ≤ L → 1 / 2 - normalVar v L ≤ (1 + L / Real.sqrt v) * Real.exp (-L ^ 2 / (2 * v)) / 2 := fun L hL => by
    have h1 := normal_tail hv hL
    have h2 := mul_le_mul_of_nonneg_left (mul_le_mul_of_nonneg_right (sqrt_pdf_le hv) (Real.exp_pos (-L ^ 2 / (2 * v))).le) hL
    have h3 : L * (1 / 2 / Real.sqrt v * Real.exp (-L ^ 2 / (2 * v))) = L / Real.sqrt v * Real.exp (-L ^ 2 / (2 * v)) / 2 := by field_simp
    rw [h3] at h2
    simp only [normalVar]
    have h4 : L * normalPdf v L = L * (Real.sqrt (1 / (2 * Real.pi * v)) * Real.exp (-L ^ 2 / (2 * v))) := rfl
    linarith
  have up : ∀ L, 0 ≤ L → normalVar v L ≤ 1 / 2 := fun L hL => by
    simp only [normalVar]
    linarith [normalInt_le hv L, mul_nonneg hL (g0 L)]
  have t1 := mul_le_mul_of_nonneg_left (tl (u - a) (by linarith)) hv.le
  have t2 := mul_le_mul_of_nonneg_left (tl (a + N * d - u) (by linarith)) hv.le
  have l1 := mul_le_mul_of_nonneg_left (up (u - a) (by linarith)) hv.le
  have l2 := mul_le_mul_of_nonneg_left (up (a + N * d - u) (by linarith)) hv.le
  have e5 : v * gridDefect v d (u - a) (a + N * d - u) = 5 / 4 * d ^ 2
      + (v * ((1 + (u - a) / Real.sqrt v) * Real.exp (-(u - a) ^ 2 / (2 * v)) / 2)
      + v * ((1 + (a + N * d - u) / Real.sqrt v) * Real.exp (-(a + N * d - u) ^ 2 / (2 * v)) / 2)) := by
    unfold gridDefect
    field_simp
  rw [e5]
  have e6 : 0 ≤ d ^ 2 := sq_nonneg d
  rw [abs_le] at *
  constructor <;> nlinarith [hm.1, hm.2]

theorem gridDefect_nonneg (hv : 0 < v) {L L' : ℝ} (hL : 0 ≤ L) (hL' : 0 ≤ L') : 0 ≤ gridDefect v d L L' := by
  unfold gridDefect; positivity

end gauss

end Bolt
