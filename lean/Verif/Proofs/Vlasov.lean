import Verif.Spec.Vlasov
import Verif.Proofs.Contraction
import Verif.Props.Convergence
import Mathlib.Analysis.Calculus.Deriv.Mul

/-!
# Truncation error of the first-order scheme for transport in phase space
-/

set_option linter.unusedSectionVars false

namespace Bolt

open Finset

section line
variable {M : ℝ} {g c φ : ℝ → ℝ}

theorem SmoothLine.nonneg (hg : SmoothLine M g) : 0 ≤ M := (abs_nonneg _).trans (hg.bound 0)

/-- A difference quotient is a derivative in between. -/
theorem SmoothLine.mean (hg : SmoothLine M g) {y z : ℝ} (h : y < z) : ∃ ξ, y < ξ ∧ ξ < z ∧ g z - g y = deriv g ξ * (z - y) := by
  obtain ⟨ξ, ⟨h1, h2⟩, h3⟩ := exists_deriv_eq_slope g h hg.diff.continuous.continuousOn hg.diff.differentiableOn
  refine ⟨ξ, h1, h2, ?_⟩
  rw [h3]; field_simp [(sub_pos.mpr h).ne']

theorem SmoothLine.lip (hg : SmoothLine M g) (y z : ℝ) : |g y - g z| ≤ M * |y - z| := by
  rcases lt_trichotomy y z with h | h | h
  · obtain ⟨ξ, -, -, e⟩ := hg.mean h
    rw [abs_sub_comm, abs_sub_comm y, e, abs_mul]
    exact mul_le_mul_of_nonneg_right (hg.bound' ξ) (abs_nonneg _)
  · subst h; simp
  · obtain ⟨ξ, -, -, e⟩ := hg.mean h
    rw [e, abs_mul]
    exact mul_le_mul_of_nonneg_right (hg.bound' ξ) (abs_nonneg _)

/-- The tangent is right to second order. -/
theorem SmoothLine.tangent (hg : SmoothLine M g) (y h : ℝ) (hh : 0 ≤ h) : |g (y + h) - g y - h * deriv g y| ≤ M * h ^ 2 := by
  rcases hh.eq_or_lt with h0 | h0
  · subst h0; simp
  · obtain ⟨ξ, h1, h2, e⟩ := hg.mean (show y < y + h by linarith)
    rw [e, show deriv g ξ * (y + h - y) - h * deriv g y = h * (deriv g ξ - deriv g y) by ring, abs_mul, abs_of_pos h0]
    have : |ξ - y| ≤ h := by rw [abs_of_pos (by linarith)]; linarith
    have := (hg.lip' ξ y).trans (mul_le_mul_of_nonneg_left this hg.nonneg)
    calc h * |deriv g ξ - deriv g y| ≤ h * (M * h) := mul_le_mul_of_nonneg_left this hh
      _ = M * h ^ 2 := by ring

/-- Upwind flux through a face with velocity `c`, between cells holding `l` and `r`. -/
noncomputable def upFlux (c l r : ℝ) : ℝ := max c 0 * l + min c 0 * r

theorem upFlux_eq (c l r : ℝ) : upFlux c l r = c * ((l + r) / 2) - |c| * ((r - l) / 2) := by
  unfold upFlux
  rcases le_total 0 c with h | h
  · rw [max_eq_left h, min_eq_right h, abs_of_nonneg h]; ring
  · rw [max_eq_right h, min_eq_left h, abs_of_nonpos h]; ring

theorem abs_mul_le {a b A B : ℝ} (ha : |a| ≤ A) (hb : |b| ≤ B) : |a * b| ≤ A * B := by
  rw [abs_mul]; exact mul_le_mul ha hb (abs_nonneg _) ((abs_nonneg _).trans ha)

/-- The difference of the upwind fluxes through the faces of a cell, over the cell size, is the derivative of the flux to first order. -/
theorem upFlux_consistent (hc : SmoothLine M c) (hφ : SmoothLine M φ) (y h : ℝ) (hh : 0 < h) :
    |(upFlux (c (y + h / 2)) (φ y) (φ (y + h)) - upFlux (c (y - h / 2)) (φ (y - h)) (φ y)) / h - deriv (fun z => c z * φ z) y|
      ≤ 4 * M ^ 2 * h := by
  have M0 := hc.nonneg
  rw [deriv_fun_mul (hc.diff y) (hφ.diff y)]
  obtain ⟨ξ, x1, x2, ex⟩ := hc.mean (show y - h / 2 < y + h / 2 by linarith)
  obtain ⟨α, a1, a2, ea⟩ := hφ.mean (show y < y + h by linarith)
  obtain ⟨β, b1, b2, eb⟩ := hφ.mean (show y - h < y by linarith)
  have ex : c (y + h / 2) - c (y - h / 2) = h * deriv c ξ := by rw [ex]; ring
  have ea : φ (y + h) = φ y + h * deriv φ α := by linear_combination ea
  have eb : φ (y - h) = φ y - h * deriv φ β := by linear_combination -eb
  have cm := hc.lip (y - h / 2) y
  have cb := hc.bound (y - h / 2)
  have ca := hc.bound (y + h / 2)
  have e1 : |deriv c ξ - deriv c y| ≤ M * (h / 2) := (hc.lip' ξ y).trans
    (mul_le_mul_of_nonneg_left (abs_le.mpr ⟨by linarith, by linarith⟩) M0)
  have e2 : |deriv φ α - deriv φ y| ≤ M * h := (hφ.lip' α y).trans (mul_le_mul_of_nonneg_left (abs_le.mpr ⟨by linarith, by linarith⟩) M0)
  have e3 : |deriv φ β - deriv φ y| ≤ M * h := (hφ.lip' β y).trans (mul_le_mul_of_nonneg_left (abs_le.mpr ⟨by linarith, by linarith⟩) M0)
  have e4 : |deriv φ α - deriv φ β| ≤ M * (2 * h) := (hφ.lip' α β).trans
    (mul_le_mul_of_nonneg_left (abs_le.mpr ⟨by linarith, by linarith⟩) M0)
  have e5 : |c (y - h / 2) - c y| ≤ M * (h / 2) := cm.trans (mul_le_mul_of_nonneg_left (abs_le.mpr ⟨by linarith, by linarith⟩) M0)
  have e6 : |(|c (y + h / 2)| - |c (y - h / 2)|)| ≤ M * h := by
    refine (abs_abs_sub_abs_le_abs_sub _ _).trans ?_
    rw [ex, abs_mul, abs_of_pos hh, mul_comm]
    exact mul_le_mul_of_nonneg_right (hc.bound' ξ) hh.le
  have e7 : |φ y + h * deriv φ α / 2| ≤ M := by
    have : φ y + h * deriv φ α / 2 = (φ y + φ (y + h)) / 2 := by rw [ea]; ring
    rw [this, abs_le]
    have := abs_le.mp (hφ.bound y)
    have := abs_le.mp (hφ.bound (y + h))
    constructor <;> linarith
  have key : (upFlux (c (y + h / 2)) (φ y) (φ (y + h)) - upFlux (c (y - h / 2)) (φ (y - h)) (φ y)) / h - (deriv c y * φ y + c y * deriv φ y)
      = (deriv c ξ - deriv c y) * (φ y + h * deriv φ α / 2) + deriv c y * (h / 2 * deriv φ α)
        + c (y - h / 2) * ((deriv φ α - deriv φ y) / 2 + (deriv φ β - deriv φ y) / 2) + (c (y - h / 2) - c y) * deriv φ y
        - |c (y + h / 2)| * ((deriv φ α - deriv φ β) / 2) - (|c (y + h / 2)| - |c (y - h / 2)|) * (deriv φ β / 2) := by
    rw [upFlux_eq, upFlux_eq, ea, eb]
    have hx : deriv c ξ = (c (y + h / 2) - c (y - h / 2)) / h := by rw [ex]; field_simp
    rw [hx]
    field_simp
    ring
  rw [key]
  have t1 := abs_mul_le e1 e7
  have t2 : |deriv c y * (h / 2 * deriv φ α)| ≤ M * (h / 2 * M) :=
    abs_mul_le (hc.bound' y) (abs_mul_le (abs_of_pos (by linarith)).le (hφ.bound' α))
  have t3 : |c (y - h / 2) * ((deriv φ α - deriv φ y) / 2 + (deriv φ β - deriv φ y) / 2)| ≤ M * (M * h) := by
    refine abs_mul_le cb ?_
    have := abs_le.mp e2
    have := abs_le.mp e3
    rw [abs_le]; constructor <;> linarith
  have t4 := abs_mul_le e5 (hφ.bound' y)
  have t5 : |(|c (y + h / 2)|) * ((deriv φ α - deriv φ β) / 2)| ≤ M * (M * h) := by
    refine abs_mul_le (by rwa [abs_abs]) ?_
    have := abs_le.mp e4
    rw [abs_le]; constructor <;> linarith
  have t6 : |(|c (y + h / 2)| - |c (y - h / 2)|) * (deriv φ β / 2)| ≤ M * h * (M / 2) := by
    refine abs_mul_le e6 ?_
    have := abs_le.mp (hφ.bound' β)
    rw [abs_le]; constructor <;> linarith
  rw [abs_le] at t1 t2 t3 t4 t5 t6 ⊢
  have q : M * (h / 2) * M + M * (h / 2 * M) + M * (M * h) + M * (h / 2) * M + M * (M * h) + M * h * (M / 2) = 4 * M ^ 2 * h := by ring
  constructor <;> linarith [t1.1, t2.1, t3.1, t4.1, t5.1, t6.1, t1.2, t2.2, t3.2, t4.2, t5.2, t6.2]

/-- For a bounded Lipschitz function the flux difference over the cell size is bounded. -/
theorem upFlux_bounded (hc : SmoothLine M c) (hb : ∀ y, |φ y| ≤ M) (hl : ∀ y z, |φ y - φ z| ≤ M * |y - z|) (y h : ℝ) (hh : 0 < h) :
    |(upFlux (c (y + h / 2)) (φ y) (φ (y + h)) - upFlux (c (y - h / 2)) (φ (y - h)) (φ y)) / h| ≤ 3 * M ^ 2 := by
  have M0 := hc.nonneg
  rw [abs_div, abs_of_pos hh, div_le_iff₀ hh, upFlux_eq, upFlux_eq]
  have e1 : |c (y + h / 2) - c (y - h / 2)| ≤ M * h := (hc.lip _ _).trans
    (mul_le_mul_of_nonneg_left (abs_le.mpr ⟨by linarith, by linarith⟩) M0)
  have e2 := (abs_abs_sub_abs_le_abs_sub (c (y + h / 2)) (c (y - h / 2))).trans e1
  have e3 : |φ (y + h) - φ y| ≤ M * h := (hl _ _).trans (mul_le_mul_of_nonneg_left (abs_le.mpr ⟨by linarith, by linarith⟩) M0)
  have e4 : |φ y - φ (y - h)| ≤ M * h := (hl _ _).trans (mul_le_mul_of_nonneg_left (abs_le.mpr ⟨by linarith, by linarith⟩) M0)
  have cb := hc.bound (y - h / 2)
  have ca := hc.bound (y + h / 2)
  have by' := abs_le.mp (hb y)
  have by1 := abs_le.mp (hb (y + h))
  have by2 := abs_le.mp (hb (y - h))
  have key : c (y + h / 2) * ((φ y + φ (y + h)) / 2) - |c (y + h / 2)| * ((φ (y + h) - φ y) / 2)
      - (c (y - h / 2) * ((φ (y - h) + φ y) / 2) - |c (y - h / 2)| * ((φ y - φ (y - h)) / 2))
      = (c (y + h / 2) - c (y - h / 2)) * ((φ y + φ (y + h)) / 2)
        + c (y - h / 2) * ((φ (y + h) - φ y) / 2 + (φ y - φ (y - h)) / 2)
        - |c (y + h / 2)| * ((φ (y + h) - φ y) / 2) + |c (y - h / 2)| * ((φ y - φ (y - h)) / 2) := by ring
  rw [key]
  have t1 : |(c (y + h / 2) - c (y - h / 2)) * ((φ y + φ (y + h)) / 2)| ≤ M * h * M :=
    abs_mul_le e1 (by rw [abs_le]; constructor <;> linarith)
  have t2 : |c (y - h / 2) * ((φ (y + h) - φ y) / 2 + (φ y - φ (y - h)) / 2)| ≤ M * (M * h) := by
    refine abs_mul_le cb ?_
    have := abs_le.mp e3
    have := abs_le.mp e4
    rw [abs_le]; constructor <;> linarith
  have t3 : |(|c (y + h / 2)|) * ((φ (y + h) - φ y) / 2)| ≤ M * (M * h / 2) := by
    refine abs_mul_le (by rwa [abs_abs]) ?_
    have := abs_le.mp e3
    rw [abs_le]; constructor <;> linarith
  have t4 : |(|c (y - h / 2)|) * ((φ y - φ (y - h)) / 2)| ≤ M * (M * h / 2) := by
    refine abs_mul_le (by rwa [abs_abs]) ?_
    have := abs_le.mp e4
    rw [abs_le]; constructor <;> linarith
  rw [abs_le] at t1 t2 t3 t4 ⊢
  have q : M * h * M + M * (M * h) + M * (M * h / 2) + M * (M * h / 2) = 3 * M ^ 2 * h := by ring
  constructor <;> linarith [t1.1, t2.1, t3.1, t4.1, t1.2, t2.2, t3.2, t4.2]

end line

section grid
variable {N1 N2 Np1 Np2 Np3 : ℕ} [NeZero N1] [NeZero N2] [NeZero Np1] [NeZero Np2] [NeZero Np3]

/-- Unit step along axis `k` of phase space. -/
def unitStep (N1 N2 Np1 Np2 Np3 : ℕ) : Fin 5 → PIdx Np1 Np2 Np3 × (ZMod N1 × ZMod N2) :=
  ![(0, (1, 0)), (0, (0, 1)), ((1, 0, 0), 0), ((0, 1, 0), 0), ((0, 0, 1), 0)]

theorem cellCentre_step (start L : ℝ) (N : ℕ) [NeZero N] (i : ZMod N) :
    ∃ m : ℤ, cellCentre start L N (i - 1) = cellCentre start L N i - L / N + m * L := by
  rcases cellCentre_sub_one start L N i with h | h
  · exact ⟨0, by rw [h]; simp⟩
  · exact ⟨1, by rw [h]; simp⟩

theorem moved_self (x : PhasePoint) (k : Fin 5) : moved x k (x k) = x := Function.update_eq_self k x

theorem moved_moved (x : PhasePoint) (k : Fin 5) (y z : ℝ) : moved (moved x k y) k z = moved x k z := by simp [moved]

theorem moved_at (x : PhasePoint) (k : Fin 5) (y : ℝ) : moved x k y k = y := by simp [moved]

/-- A step back along axis `k` moves the centre by one cell size, up to periods. -/
theorem phaseCentre_sub (start L : PhasePoint) (k : Fin 5) (z : PIdx Np1 Np2 Np3 × (ZMod N1 × ZMod N2)) :
    ∃ m : ℤ, phaseCentre start L (z - unitStep N1 N2 Np1 Np2 Np3 k).1 (z - unitStep N1 N2 Np1 Np2 Np3 k).2
      = moved (phaseCentre start L z.1 z.2) k
          (phaseCentre start L z.1 z.2 k - spacing N1 N2 Np1 Np2 Np3 L k + m * L k) := by
  fin_cases k
  · obtain ⟨m, h⟩ := cellCentre_step (start 0) (L 0) N1 z.2.1
    refine ⟨m, ?_⟩
    funext j
    fin_cases j <;> simp [phaseCentre, unitStep, moved, spacing, cellsAlong, h]
  · obtain ⟨m, h⟩ := cellCentre_step (start 1) (L 1) N2 z.2.2
    refine ⟨m, ?_⟩
    funext j
    fin_cases j <;> simp [phaseCentre, unitStep, moved, spacing, cellsAlong, h]
  · obtain ⟨m, h⟩ := cellCentre_step (start 2) (L 2) Np1 z.1.1
    refine ⟨m, ?_⟩
    funext j
    fin_cases j <;> simp [phaseCentre, unitStep, moved, spacing, cellsAlong, h]
  · obtain ⟨m, h⟩ := cellCentre_step (start 3) (L 3) Np2 z.1.2.1
    refine ⟨m, ?_⟩
    funext j
    fin_cases j <;> simp [phaseCentre, unitStep, moved, spacing, cellsAlong, h]
  · obtain ⟨m, h⟩ := cellCentre_step (start 4) (L 4) Np3 z.1.2.2
    refine ⟨m, ?_⟩
    funext j
    fin_cases j <;> simp [phaseCentre, unitStep, moved, spacing, cellsAlong, h]

/-- A step forward likewise. -/
theorem phaseCentre_add (start L : PhasePoint) (k : Fin 5) (z : PIdx Np1 Np2 Np3 × (ZMod N1 × ZMod N2)) :
    ∃ m : ℤ, phaseCentre start L (z + unitStep N1 N2 Np1 Np2 Np3 k).1 (z + unitStep N1 N2 Np1 Np2 Np3 k).2
      = moved (phaseCentre start L z.1 z.2) k
          (phaseCentre start L z.1 z.2 k + spacing N1 N2 Np1 Np2 Np3 L k + m * L k) := by
  obtain ⟨m, h⟩ := phaseCentre_sub start L k (z + unitStep N1 N2 Np1 Np2 Np3 k)
  rw [add_sub_cancel_right] at h
  refine ⟨-m, ?_⟩
  set w := phaseCentre start L (z + unitStep N1 N2 Np1 Np2 Np3 k).1 (z + unitStep N1 N2 Np1 Np2 Np3 k).2
  rw [h, moved_moved, moved_at]
  have : w k - spacing N1 N2 Np1 Np2 Np3 L k + m * L k + spacing N1 N2 Np1 Np2 Np3 L k + ((-m : ℤ) : ℝ) * L k = w k := by push_cast; ring
  rw [this, moved_self]

theorem periodic_int {g : PhasePoint → ℝ} {k : Fin 5} {l : ℝ} (h : ∀ x, g (moved x k (x k + l)) = g x) (x : PhasePoint) (y : ℝ) (m : ℤ) :
    g (moved x k (y + m * l)) = g (moved x k y) := by
  have p : Function.Periodic (fun y => g (moved x k y)) l := fun y => by
    have := h (moved x k y)
    rw [moved_moved, moved_at] at this
    exact this
  exact (p.int_mul m) y

theorem cellCentre_mem {start L : ℝ} {N : ℕ} [NeZero N] (hL : 0 < L) (i : ZMod N) :
    start ≤ cellCentre start L N i ∧ cellCentre start L N i ≤ start + L := by
  have hN : (0 : ℝ) < N := Nat.cast_pos.mpr (NeZero.pos N)
  have h1 : (i.val : ℝ) + 1 ≤ N := by exact_mod_cast ZMod.val_lt i
  have h0 : (0 : ℝ) ≤ i.val := Nat.cast_nonneg _
  unfold cellCentre
  constructor
  · have : 0 ≤ (i.val + 1 / 2 : ℝ) * (L / N) := by positivity
    linarith
  · have : (i.val + 1 / 2 : ℝ) * (L / N) ≤ N * (L / N) := mul_le_mul_of_nonneg_right (by linarith) (by positivity)
    rw [mul_div_cancel₀ _ hN.ne'] at this
    linarith

theorem phaseCentre_mem {start L : PhasePoint} (hL : ∀ k, 0 < L k) (p : PIdx Np1 Np2 Np3) (q : ZMod N1 × ZMod N2) :
    InBox start L (phaseCentre start L p q) := by
  intro k
  fin_cases k <;> simp only [phaseCentre] <;> exact cellCentre_mem (hL _) _

/-- One axis of the slope, for a function of phase space sampled at the centres and a velocity sampled at the faces. -/
theorem pcDiv_sample {start L : PhasePoint} (k : Fin 5) {g c : PhasePoint → ℝ} (hg : ∀ x, g (moved x k (x k + L k)) = g x)
    (hc : ∀ x, c (moved x k (x k + L k)) = c x) (z : PIdx Np1 Np2 Np3 × (ZMod N1 × ZMod N2)) :
    let x := phaseCentre start L z.1 z.2
    let h := spacing N1 N2 Np1 Np2 Np3 L k
    pcDiv (unitStep N1 N2 Np1 Np2 Np3 k) (fun z => c (leftFace start L k z.1 z.2)) (fun z => g (phaseCentre start L z.1 z.2)) z
      = upFlux (c (moved x k (x k + h / 2))) (g (moved x k (x k))) (g (moved x k (x k + h)))
        - upFlux (c (moved x k (x k - h / 2))) (g (moved x k (x k - h))) (g (moved x k (x k))) := by
  intro x h
  obtain ⟨m, e⟩ := phaseCentre_add start L k z
  obtain ⟨n, e'⟩ := phaseCentre_sub start L k z
  rw [pcDiv_eq]
  simp only [leftFace, e, e', moved_moved, moved_at, moved_self]
  have r : x k + h + m * L k - h / 2 = x k + h / 2 + m * L k := by ring
  have r1 := periodic_int hc x (x k + h / 2) m
  have r2 := periodic_int hg x (x k + h) m
  have r3 := periodic_int hg x (x k - h) n
  rw [← r] at r1
  rw [show phaseCentre start L z.1 z.2 k + spacing N1 N2 Np1 Np2 Np3 L k + m * L k - spacing N1 N2 Np1 Np2 Np3 L k / 2
    = x k + h + m * L k - h / 2 from rfl, r1, r2, r3]
  rfl

/-- The slope as a sum over the five axes of phase space. -/
theorem pcSlope_axes {S : Type} {L : PhasePoint} {s : S} {cfg : FVMConfig S ℝ} (hc : FirstOrderVlasov N1 N2 Np1 Np2 Np3 L s cfg)
    {start : PhasePoint} {a : Fin 5 → ℝ → PhasePoint → ℝ} {t : ℝ} {cb : Callbacks S (PIdx Np1 Np2 Np3) (ZMod N1 × ZMod N2) ℝ}
    (hcb : FaceVelocities start L a s t cb) (f : Dist S (PIdx Np1 Np2 Np3) (ZMod N1 × ZMod N2) ℝ) (z : PIdx Np1 Np2 Np3 × (ZMod N1 × ZMod N2)) :
    pcSlope (phaseAxes N1 N2 Np1 Np2 Np3) cfg cb f s z.1 z.2 = -∑ k, pcDiv (unitStep N1 N2 Np1 Np2 Np3 k)
      (fun z => a k t (leftFace start L k z.1 z.2)) (fun z => f s z.1 z.2) z / spacing N1 N2 Np1 Np2 Np3 L k := by
  have adv : cfg.advectsP := ⟨hc.methodP, hc.fields⟩
  simp only [pcSlope, hc.methodQ, adv, if_true, hc.dq1, hc.dq2, hc.dp1, hc.dp2, hc.dp3, Fin.sum_univ_five, pcDiv_eq, hcb.q1, hcb.q2, hcb.p1,
    hcb.p2, hcb.p3, phaseAxes, unitStep, Matrix.cons_val, Prod.fst_add, Prod.snd_add, Prod.fst_sub, Prod.snd_sub, add_zero, sub_zero]
  ring

section solution
variable {start L : PhasePoint} {M : ℝ} {a : Fin 5 → ℝ → PhasePoint → ℝ} {u : ℝ → PhasePoint → ℝ} (hu : VlasovSolution start L M a u)
  {S : Type} {s : S} {cfg : FVMConfig S ℝ} (hc : FirstOrderVlasov N1 N2 Np1 Np2 Np3 L s cfg) {t : ℝ}
  {cb : Callbacks S (PIdx Np1 Np2 Np3) (ZMod N1 × ZMod N2) ℝ} (hcb : FaceVelocities start L a s t cb)
include hu hc

theorem spacing_pos (k : Fin 5) : 0 < spacing N1 N2 Np1 Np2 Np3 L k := by
  refine div_pos (hc.pos k) (Nat.cast_pos.mpr ?_)
  fin_cases k
  exacts [NeZero.pos N1, NeZero.pos N2, NeZero.pos Np1, NeZero.pos Np2, NeZero.pos Np3]

include hcb

/-- The slope of the exact solution is its time derivative to first order. -/
theorem slope_consistent (z : PIdx Np1 Np2 Np3 × (ZMod N1 × ZMod N2)) :
    |pcSlope (phaseAxes N1 N2 Np1 Np2 Np3) cfg cb (fun _ p q => u t (phaseCentre start L p q)) s z.1 z.2
      - deriv (fun t => u t (phaseCentre start L z.1 z.2)) t| ≤ 4 * M ^ 2 * ∑ k, spacing N1 N2 Np1 Np2 Np3 L k := by
  have hx := phaseCentre_mem (start := start) hc.pos z.1 z.2
  rw [pcSlope_axes hc hcb, show deriv (fun t => u t (phaseCentre start L z.1 z.2)) t
    = -∑ k, deriv (fun y => a k t (moved (phaseCentre start L z.1 z.2) k y) * u t (moved (phaseCentre start L z.1 z.2) k y))
      (phaseCentre start L z.1 z.2 k) by linarith [hu.equation t _ hx]]
  rw [← neg_sub', abs_neg, ← Finset.sum_sub_distrib, Finset.mul_sum]
  refine (Finset.abs_sum_le_sum_abs _ _).trans (Finset.sum_le_sum fun k _ => ?_)
  have := pcDiv_sample (N1 := N1) (N2 := N2) (Np1 := Np1) (Np2 := Np2) (Np3 := Np3) (start := start) k (fun x => hu.periodic t k x) (fun x => hu.periodicVelocity t k x) z
  simp only at this
  rw [this]
  exact upFlux_consistent (hu.smoothVelocity t k _ hx) (hu.smooth t k _ hx) _ _ (spacing_pos hu hc k)

/-- The slope of the time derivative is bounded. -/
theorem slope_rate (z : PIdx Np1 Np2 Np3 × (ZMod N1 × ZMod N2)) :
    |pcSlope (phaseAxes N1 N2 Np1 Np2 Np3) cfg cb (fun _ p q => deriv (fun t => u t (phaseCentre start L p q)) t) s z.1 z.2| ≤ 15 * M ^ 2 := by
  have hx := phaseCentre_mem (start := start) hc.pos z.1 z.2
  rw [pcSlope_axes hc hcb, abs_neg]
  have hp : ∀ k x, deriv (fun t => u t (moved x k (x k + L k))) t = deriv (fun t => u t x) t := fun k x => by simp only [hu.periodic]
  calc _ ≤ ∑ k : Fin 5, 3 * M ^ 2 := by
        refine (Finset.abs_sum_le_sum_abs _ _).trans (Finset.sum_le_sum fun k _ => ?_)
        have := pcDiv_sample (N1 := N1) (N2 := N2) (Np1 := Np1) (Np2 := Np2) (Np3 := Np3) (start := start) k (g := fun x => deriv (fun t => u t x) t) (fun x => hp k x) (fun x => hu.periodicVelocity t k x) z
        simp only at this
        rw [this]
        exact upFlux_bounded (φ := fun y => deriv (fun t => u t (moved (phaseCentre start L z.1 z.2) k y)) t) (hu.smoothVelocity t k _ hx)
          (fun y => (hu.smoothTime _).bound' t) (fun y w => hu.smoothRate t k _ y w hx) _ _ (spacing_pos hu hc k)
    _ = 15 * M ^ 2 := by simp; ring

end solution

/-- A velocity that does not depend on its own coordinate is the same at both faces of a cell. -/
theorem leftFace_next {start L : PhasePoint} {k : Fin 5} {c : PhasePoint → ℝ} (hc : ∀ x y, c (moved x k y) = c x)
    (z : PIdx Np1 Np2 Np3 × (ZMod N1 × ZMod N2)) :
    c (leftFace start L k (z + unitStep N1 N2 Np1 Np2 Np3 k).1 (z + unitStep N1 N2 Np1 Np2 Np3 k).2) = c (leftFace start L k z.1 z.2) := by
  obtain ⟨m, e⟩ := phaseCentre_add start L k z
  simp only [leftFace, hc, e]

/-- Velocities that do not depend on their own coordinates are divergence-free on the grid. -/
theorem divergence_free {S : Type} {L : PhasePoint} {s : S} {cfg : FVMConfig S ℝ} (hc : FirstOrderVlasov N1 N2 Np1 Np2 Np3 L s cfg)
    {start : PhasePoint} {a : Fin 5 → ℝ → PhasePoint → ℝ} {t : ℝ} {cb : Callbacks S (PIdx Np1 Np2 Np3) (ZMod N1 × ZMod N2) ℝ}
    (hcb : FaceVelocities start L a s t cb) (ha : ∀ k x y, a k t (moved x k y) = a k t x) (p : PIdx Np1 Np2 Np3) (q : ZMod N1 × ZMod N2) :
    velocityDivergence (phaseAxes N1 N2 Np1 Np2 Np3) cfg cb s p q = 0 := by
  have h := pcSlope_const (phaseAxes N1 N2 Np1 Np2 Np3) cfg cb 1 s p q
  have e := pcSlope_axes hc hcb (fun _ _ _ => 1) (p, q)
  simp only [pcDiv_const] at e
  rw [h] at e
  have z : ∀ k, a k t (leftFace start L k ((p, q) + unitStep N1 N2 Np1 Np2 Np3 k).1 ((p, q) + unitStep N1 N2 Np1 Np2 Np3 k).2)
      - a k t (leftFace start L k p q) = 0 := fun k => sub_eq_zero.mpr (leftFace_next (ha k) (p, q))
  simp only [z, zero_mul, zero_div, Finset.sum_const_zero] at e
  linarith

/-- Their outflow rate is the sum of speed over cell size. -/
theorem outflow_eq {S : Type} {L : PhasePoint} {s : S} {cfg : FVMConfig S ℝ} (hc : FirstOrderVlasov N1 N2 Np1 Np2 Np3 L s cfg)
    {start : PhasePoint} {a : Fin 5 → ℝ → PhasePoint → ℝ} {t : ℝ} {cb : Callbacks S (PIdx Np1 Np2 Np3) (ZMod N1 × ZMod N2) ℝ}
    (hcb : FaceVelocities start L a s t cb) (ha : ∀ k x y, a k t (moved x k y) = a k t x) (p : PIdx Np1 Np2 Np3) (q : ZMod N1 × ZMod N2) :
    outflowRate (phaseAxes N1 N2 Np1 Np2 Np3) cfg cb s p q
      = ∑ k, |a k t (phaseCentre start L p q)| / spacing N1 N2 Np1 Np2 Np3 L k := by
  have adv : cfg.advectsP := ⟨hc.methodP, hc.fields⟩
  have z : ∀ k, a k t (leftFace start L k ((p, q) + unitStep N1 N2 Np1 Np2 Np3 k).1 ((p, q) + unitStep N1 N2 Np1 Np2 Np3 k).2)
      = a k t (phaseCentre start L p q) := fun k => by rw [leftFace_next (ha k) (p, q), leftFace, ha]
  have z0 : ∀ k, a k t (leftFace start L k p q) = a k t (phaseCentre start L p q) := fun k => by rw [leftFace, ha]
  have f : ∀ c d : ℝ, faceOutflow c c d = |c| / d := fun c d => by
    unfold faceOutflow
    rcases le_total 0 c with h | h
    · rw [max_eq_left h, max_eq_right (by linarith), abs_of_nonneg h, add_zero]
    · rw [max_eq_right h, max_eq_left (by linarith), abs_of_nonpos h, zero_add]
  have z1 := z 0
  have z2 := z 1
  have z3 := z 2
  have z4 := z 3
  have z5 := z 4
  simp only [unitStep, Matrix.cons_val, Prod.mk_add_mk, add_zero] at z1 z2 z3 z4 z5
  simp only [outflowRate, hc.methodQ, adv, if_true, hc.dq1, hc.dq2, hc.dp1, hc.dp2, hc.dp3, Fin.sum_univ_five, hcb.q1, hcb.q2, hcb.p1,
    hcb.p2, hcb.p3, phaseAxes, z0, z1, z2, z3, z4, z5, f]
  ring

/-- What is needed of a way to measure errors: subadditive, homogeneous, and bounded by the largest error. -/
structure ErrorMeasure {X : Type} (μ : (X → ℝ) → ℝ) : Prop where
  add : ∀ u v, μ (u + v) ≤ μ u + μ v
  smul : ∀ (c : ℝ) u, μ (c • u) = |c| * μ u
  le : ∀ u (b : ℝ), (∀ x, |u x| ≤ b) → μ u ≤ b

/-- Error of one step. -/
theorem vlasov_step {start L : PhasePoint} {M : ℝ} {a : Fin 5 → ℝ → PhasePoint → ℝ} {u : ℝ → PhasePoint → ℝ} (hu : VlasovSolution start L M a u)
    {S : Type} {s : S} {cfg : FVMConfig S ℝ} (hc : FirstOrderVlasov N1 N2 Np1 Np2 Np3 L s cfg) {t : ℝ}
    {cb : Callbacks S (PIdx Np1 Np2 Np3) (ZMod N1 × ZMod N2) ℝ} (hcb : FaceVelocities start L a s t cb)
    {μ : (PIdx Np1 Np2 Np3 × (ZMod N1 × ZMod N2) → ℝ) → ℝ} (hμ : ErrorMeasure μ) {dt : ℝ} (hdt : 0 ≤ dt)
    (hE : ∀ w, μ (eulerMap (phaseAxes N1 N2 Np1 Np2 Np3) cfg cb dt s w) ≤ μ w) (f g : PIdx Np1 Np2 Np3 × (ZMod N1 × ZMod N2) → ℝ)
    (hg : ∀ z, g z = 1 / 2 * f z + 1 / 2 * eulerMap (phaseAxes N1 N2 Np1 Np2 Np3) cfg cb dt s
      (eulerMap (phaseAxes N1 N2 Np1 Np2 Np3) cfg cb dt s f) z) :
    μ (fun z => g z - u (t + dt) (phaseCentre start L z.1 z.2)) ≤ μ (fun z => f z - u t (phaseCentre start L z.1 z.2))
      + dt * (8 * M ^ 2 * ∑ k, spacing N1 N2 Np1 Np2 Np3 L k + (M + 15 / 2 * M ^ 2) * dt) := by
  set E := eulerMap (phaseAxes N1 N2 Np1 Np2 Np3) cfg cb dt s with hEdef
  set η := 4 * M ^ 2 * ∑ k, spacing N1 N2 Np1 Np2 Np3 L k with hη
  set U : PIdx Np1 Np2 Np3 × (ZMod N1 × ZMod N2) → ℝ := fun z => u t (phaseCentre start L z.1 z.2) with hU
  set R : PIdx Np1 Np2 Np3 × (ZMod N1 × ZMod N2) → ℝ := fun z => deriv (fun t => u t (phaseCentre start L z.1 z.2)) t with hR
  set W : PIdx Np1 Np2 Np3 × (ZMod N1 × ZMod N2) → ℝ := fun z => u (t + dt) (phaseCentre start L z.1 z.2) with hW
  set Sl : (PIdx Np1 Np2 Np3 × (ZMod N1 × ZMod N2) → ℝ) → (PIdx Np1 Np2 Np3 × (ZMod N1 × ZMod N2) → ℝ) :=
    fun v z => pcSlope (phaseAxes N1 N2 Np1 Np2 Np3) cfg cb (fun _ p q => v (p, q)) s z.1 z.2 with hSl
  have eE : ∀ v, E v = v + dt • Sl v := fun v => by
    funext z
    simp only [hEdef, eulerMap, LinearMap.coe_mk, AddHom.coe_mk, hSl, Pi.add_apply, Pi.smul_apply, smul_eq_mul]; ring
  set e := Sl U - R with he
  have he' : ∀ z, |e z| ≤ η := fun z => slope_consistent hu hc hcb z
  have hr' : ∀ z, |Sl R z| ≤ 15 * M ^ 2 := fun z => slope_rate hu hc hcb z
  have μη := hμ.le e η he'
  -- the error splits
  have hEU : E U = U + dt • (R + e) := by rw [eE, he]; simp
  have hEEU : E (E U) = U + dt • (R + e) + (dt • R + (dt * dt) • Sl R) + dt • E e := by
    rw [hEU, map_add, map_smul, map_add, hEU, eE R]
    simp only [smul_add, smul_smul]
    abel
  have split : (fun z => g z - W z) = (1 / 2 : ℝ) • (f - U) + (1 / 2 : ℝ) • E (E (f - U))
      + ((fun z => U z + dt * R z - W z) + ((dt ^ 2 / 2) • Sl R + ((dt / 2) • e + (dt / 2) • E e))) := by
    funext z
    simp only [Pi.add_apply, Pi.smul_apply, smul_eq_mul, Pi.sub_apply, map_sub, hg, hEEU]
    ring
  rw [split]
  have m1 := (hE (E (f - U))).trans (hE (f - U))
  have m2 : μ (fun z => U z + dt * R z - W z) ≤ M * dt ^ 2 := hμ.le _ _ fun z => by
    have := (hu.smoothTime (phaseCentre start L z.1 z.2)).tangent t dt hdt
    rw [abs_sub_comm] at this
    convert this using 2
    simp only [hU, hR, hW]; ring
  have m3 : μ ((dt ^ 2 / 2) • Sl R) ≤ 15 / 2 * M ^ 2 * dt ^ 2 := by
    rw [hμ.smul, abs_of_nonneg (by positivity)]
    calc dt ^ 2 / 2 * μ (Sl R) ≤ dt ^ 2 / 2 * (15 * M ^ 2) := mul_le_mul_of_nonneg_left (hμ.le _ _ hr') (by positivity)
      _ = _ := by ring
  have m4 : μ ((dt / 2) • e) ≤ dt / 2 * η := by
    rw [hμ.smul, abs_of_nonneg (by positivity)]
    exact mul_le_mul_of_nonneg_left μη (by positivity)
  have m5 : μ ((dt / 2) • E e) ≤ dt / 2 * η := by
    rw [hμ.smul, abs_of_nonneg (by positivity)]
    exact mul_le_mul_of_nonneg_left ((hE e).trans μη) (by positivity)
  have m6 : μ ((1 / 2 : ℝ) • (f - U)) = 1 / 2 * μ (f - U) := by rw [hμ.smul, abs_of_nonneg (by norm_num)]
  have m7 : μ ((1 / 2 : ℝ) • E (E (f - U))) = 1 / 2 * μ (E (E (f - U))) := by rw [hμ.smul, abs_of_nonneg (by norm_num)]
  have a1 := hμ.add ((1 / 2 : ℝ) • (f - U) + (1 / 2 : ℝ) • E (E (f - U)))
    ((fun z => U z + dt * R z - W z) + ((dt ^ 2 / 2) • Sl R + ((dt / 2) • e + (dt / 2) • E e)))
  have a2 := hμ.add ((1 / 2 : ℝ) • (f - U)) ((1 / 2 : ℝ) • E (E (f - U)))
  have a3 := hμ.add (fun z => U z + dt * R z - W z) ((dt ^ 2 / 2) • Sl R + ((dt / 2) • e + (dt / 2) • E e))
  have a4 := hμ.add ((dt ^ 2 / 2) • Sl R) ((dt / 2) • e + (dt / 2) • E e)
  have a5 := hμ.add ((dt / 2) • e) ((dt / 2) • E e)
  have η0 : 0 ≤ η := (abs_nonneg _).trans (he' 0)
  have fin : dt * (8 * M ^ 2 * ∑ k, spacing N1 N2 Np1 Np2 Np3 L k + (M + 15 / 2 * M ^ 2) * dt)
      = M * dt ^ 2 + 15 / 2 * M ^ 2 * dt ^ 2 + 2 * (dt * η) := by rw [hη]; ring
  have h0 : (fun z => f z - U z) = f - U := rfl
  rw [fin, h0]
  have : 0 ≤ dt * η := mul_nonneg hdt η0
  linarith

theorem elapsed_cons {α : Type} (x : ℝ × α) (l : List (ℝ × α)) : elapsed (x :: l) = x.1 + elapsed l := by simp [elapsed]

/-- Error of a run, for any way to measure errors that one forward-Euler stage does not increase. -/
theorem run_error {start L : PhasePoint} {M : ℝ} {a : Fin 5 → ℝ → PhasePoint → ℝ} {u : ℝ → PhasePoint → ℝ} (hu : VlasovSolution start L M a u)
    {S : Type} {s : S} {cfg : FVMConfig S ℝ} (hc : FirstOrderVlasov N1 N2 Np1 Np2 Np3 L s cfg)
    {μ : (PIdx Np1 Np2 Np3 × (ZMod N1 × ZMod N2) → ℝ) → ℝ} (hμ : ErrorMeasure μ) (τ : ℝ)
    (steps : List (ℝ × (Fin 2 → Callbacks S (PIdx Np1 Np2 Np3) (ZMod N1 × ZMod N2) ℝ)))
    (hst : StableSteps (phaseAxes N1 N2 Np1 Np2 Np3) cfg steps) (hτ : ∀ st ∈ steps, st.1 ≤ τ)
    (hE : ∀ st ∈ steps, ∀ w, μ (eulerMap (phaseAxes N1 N2 Np1 Np2 Np3) cfg (st.2 0) st.1 s w) ≤ μ w)
    (t : ℝ) (hv : TimedVelocities start L a s t steps) (f f' : Dist S (PIdx Np1 Np2 Np3) (ZMod N1 × ZMod N2) ℝ)
    (h : runFVM (phaseAxes N1 N2 Np1 Np2 Np3) cfg steps f = .ok f') :
    μ (fun z => f' s z.1 z.2 - u (t + elapsed steps) (phaseCentre start L z.1 z.2)) ≤ μ (fun z => f s z.1 z.2 - u t (phaseCentre start L z.1 z.2))
      + elapsed steps * (8 * M ^ 2 * ∑ k, spacing N1 N2 Np1 Np2 Np3 L k + (M + 15 / 2 * M ^ 2) * τ) := by
  induction steps generalizing f t with
  | nil =>
    simp only [runFVM, Except.ok.injEq] at h
    subst h
    simp [elapsed]
  | cons st rest ih =>
    obtain ⟨dt, cb⟩ := st
    obtain ⟨g, k0, k1, e0, e1, e2, d⟩ := runFVM_cons h
    obtain ⟨hdt, hsame, hcfl⟩ := hst (dt, cb) (by simp)
    simp only at hdt hsame hcfl
    have i := ih (fun st hs => hst st (by simp [hs])) (fun st hs => hτ st (by simp [hs])) (fun st hs => hE st (by simp [hs]))
      (t + dt) hv.2 g d
    have l := vlasov_step hu hc hv.1 hμ hdt (hE (dt, cb) (by simp)) (fun z => f s z.1 z.2) (fun z => g s z.1 z.2)
      (fun z => pc_step hc.noSource hc.reconQ hc.reconP hsame e0 e1 e2 s z)
    rw [elapsed_cons, ← add_assoc]
    have M0 : 0 ≤ M := (hu.smoothTime start).nonneg
    have : dt * ((M + 15 / 2 * M ^ 2) * dt) ≤ dt * ((M + 15 / 2 * M ^ 2) * τ) :=
      mul_le_mul_of_nonneg_left (mul_le_mul_of_nonneg_left (hτ (dt, cb) (by simp)) (by positivity)) hdt
    simp only at i l ⊢
    linarith

/-- The average of the absolute values is such a measure. -/
theorem average_measure {X : Type} [Fintype X] [Nonempty X] : ErrorMeasure (fun u : X → ℝ => (∑ x, |u x|) / Fintype.card X) where
  add u v := by
    rw [← add_div, ← Finset.sum_add_distrib]
    exact div_le_div_of_nonneg_right (Finset.sum_le_sum fun x _ => abs_add_le _ _) (Nat.cast_nonneg _)
  smul c u := by
    simp only [Pi.smul_apply, smul_eq_mul, abs_mul, ← Finset.mul_sum, mul_div_assoc]
  le u b h := by
    have : (0 : ℝ) < Fintype.card X := Nat.cast_pos.mpr Fintype.card_pos
    rw [div_le_iff₀ this]
    calc ∑ x, |u x| ≤ ∑ _x : X, b := Finset.sum_le_sum fun x _ => h x
      _ = b * Fintype.card X := by simp [mul_comm]

/-- The largest absolute value is such a measure. -/
theorem largest_measure {X : Type} [Fintype X] [Nonempty X] : ErrorMeasure (fun u : X → ℝ => ‖u‖) where
  add u v := norm_add_le u v
  smul c u := norm_smul c u
  le u _ h := (pi_norm_le_iff_of_nonempty u).mpr h

/-- A positive linear map that keeps constants does not increase the largest absolute value. -/
theorem linmap_sup {X : Type} [Fintype X] [Nonempty X] (T : (X → ℝ) →ₗ[ℝ] (X → ℝ)) (h0 : ∀ u, (∀ x, 0 ≤ u x) → ∀ x, 0 ≤ T u x)
    (h1 : ∀ x, T (fun _ => 1) x = 1) (u : X → ℝ) : ‖T u‖ ≤ ‖u‖ := by
  rw [pi_norm_le_iff_of_nonempty]
  intro x
  have hb : ∀ y, |u y| ≤ ‖u‖ := fun y => norm_le_pi_norm u y
  have e : T (fun _ => ‖u‖) x = ‖u‖ := by
    have : (fun _ : X => ‖u‖) = ‖u‖ • (fun _ : X => (1 : ℝ)) := by funext y; simp
    rw [this, map_smul, Pi.smul_apply, h1, smul_eq_mul, mul_one]
  have p := h0 ((fun _ => ‖u‖) + u) (fun y => by simp only [Pi.add_apply]; linarith [(abs_le.mp (hb y)).1]) x
  have m := h0 ((fun _ => ‖u‖) - u) (fun y => by simp only [Pi.sub_apply]; linarith [(abs_le.mp (hb y)).2]) x
  rw [map_add, Pi.add_apply, e] at p
  rw [map_sub, Pi.sub_apply, e] at m
  rw [Real.norm_eq_abs, abs_le]
  constructor <;> linarith

end grid

end Bolt
