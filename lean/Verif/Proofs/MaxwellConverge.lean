import Verif.Proofs.FDTDNorm
import Verif.Proofs.AslConverge
import Verif.Spec.MaxwellConverge

/-!
# Lemmas for C94: truncation error of the field update
-/

set_option linter.unusedSectionVars false

namespace Bolt

open Finset

/-- The error of a central difference. -/
theorem central_diff {F : ℝ → ℝ} {M : ℝ} (hF : ContDiff ℝ 3 F) (hM : ∀ x, |iteratedDeriv 3 F x| ≤ M) (x h : ℝ) :
    |F (x + h / 2) - F (x - h / 2) - h * deriv F x| ≤ M / 24 * |h| ^ 3 := by
  obtain ⟨a, b, ht⟩ := quadratic_taylor hF hM x
  have ha : a = deriv F x := by
    have hd : HasDerivAt F a x := by
      rw [hasDerivAt_iff_isLittleO_nhds_zero]
      have e : (fun h => F (x + h) - F x - h • a) = fun h => (F (x + h) - (F x + a * h + b * h ^ 2)) + b * h ^ 2 := by
        funext h; simp only [smul_eq_mul]; ring
      rw [e]
      refine Asymptotics.IsLittleO.add ?_ ?_
      · refine Asymptotics.IsBigO.trans_isLittleO (g := fun h : ℝ => h ^ 3) (Asymptotics.IsBigO.of_bound (M / 6) (Filter.Eventually.of_forall fun h => ?_)) ?_
        · rw [Real.norm_eq_abs, Real.norm_eq_abs, abs_pow]; exact ht h
        · exact Asymptotics.isLittleO_pow_id (by norm_num)
      · exact (Asymptotics.isLittleO_pow_id (by norm_num : 1 < 2)).const_mul_left b
    exact hd.deriv.symm
  subst ha
  have h1 := ht (h / 2)
  have h2 := ht (-(h / 2))
  rw [show F (x + h / 2) - F (x - h / 2) - h * deriv F x = (F (x + h / 2) - (F x + deriv F x * (h / 2) + b * (h / 2) ^ 2))
    - (F (x + -(h / 2)) - (F x + deriv F x * -(h / 2) + b * (-(h / 2)) ^ 2)) by rw [← sub_eq_add_neg]; ring]
  refine (abs_sub _ _).trans ((add_le_add h1 h2).trans (le_of_eq ?_))
  rw [abs_neg, abs_div, abs_of_pos (show (0 : ℝ) < 2 by norm_num)]
  ring

section grid
variable {F : ℝ → ℝ} {L : ℝ} (hp : ∀ x, F (x + L) = F x) (s : ℝ) (N : ℕ) [NeZero N]
include hp

theorem centre_pred (i : ZMod N) : F (cellCentre s L N (i - 1)) = F (cellFace s L N i - L / N / 2) := by
  have := cellCentre_intCast hp s N ((i.val : ℤ) - 1)
  have e : (((i.val : ℤ) - 1 : ℤ) : ZMod N) = i - 1 := by push_cast; rw [ZMod.natCast_zmod_val]
  rw [e] at this
  rw [this, cellFace]
  congr 1
  push_cast
  ring

theorem face_succ (i : ZMod N) : F (cellFace s L N (i + 1)) = F (cellCentre s L N i + L / N / 2) := by
  have := cellCentre_intCast hp (s - L / N / 2) N ((i.val : ℤ) + 1)
  have e : (((i.val : ℤ) + 1 : ℤ) : ZMod N) = i + 1 := by push_cast; rw [ZMod.natCast_zmod_val]
  rw [e] at this
  have f : cellCentre (s - L / N / 2) L N (i + 1) = cellFace s L N (i + 1) := by rw [cellCentre, cellFace]; ring
  rw [← f, this, cellCentre]
  congr 1
  push_cast
  ring

end grid

theorem centre_face (s L : ℝ) (N : ℕ) (i : ZMod N) : cellCentre s L N i = cellFace s L N i + L / N / 2 := by
  rw [cellCentre, cellFace]; ring

theorem face_centre (s L : ℝ) (N : ℕ) (i : ZMod N) : cellFace s L N i = cellCentre s L N i - L / N / 2 := by
  rw [cellCentre, cellFace]; ring

variable {G : Rect} [NeZero G.N1] [NeZero G.N2] {eps mu M : ℝ} {E B J : Fin 3 → ℝ → ℝ × ℝ → ℝ}

/-- The defects of the update for a solution. -/
noncomputable def defect (G : Rect) (eps mu : ℝ) (E B J : Fin 3 → ℝ → ℝ × ℝ → ℝ) (dt t : ℝ) : EM G.Cell ℝ :=
  let pr := G.params eps mu
  let X := G.fields E B t (t + dt / 2)
  let X' := G.fields E B (t + dt) (t + dt + dt / 2)
  let Jt := G.currents J (t + dt / 2)
  ⟨fun i => (addCurlB pr Jt dt X).E1 i - X'.E1 i, fun i => (addCurlB pr Jt dt X).E2 i - X'.E2 i,
    fun i => (addCurlB pr Jt dt X).E3 i - X'.E3 i, fun i => X.B1 i - dt * curlE1 pr X' i - X'.B1 i,
    fun i => X.B2 i - dt * curlE2 pr X' i - X'.B2 i, fun i => X.B3 i - dt * curlE3 pr X' i - X'.B3 i⟩

/-- The bound. -/
noncomputable def defectBound (G : Rect) (eps mu M dt : ℝ) : ℝ := dt * (M / 24 * (dt ^ 2 + (1 + 1 / (eps * mu)) * (G.h1 ^ 2 + G.h2 ^ 2)))

section
variable (hs : MaxwellSolution G.L1 G.L2 eps mu M E B J) (he : 0 < eps) (hm : 0 < mu) (hL1 : 0 < G.L1) (hL2 : 0 < G.L2)
include hs he hm hL1 hL2

theorem h1_pos : 0 < G.h1 := div_pos hL1 (Nat.cast_pos.2 (Nat.pos_of_ne_zero (NeZero.ne _)))
theorem h2_pos : 0 < G.h2 := div_pos hL2 (Nat.cast_pos.2 (Nat.pos_of_ne_zero (NeZero.ne _)))

theorem M_nonneg : 0 ≤ M := (abs_nonneg _).trans ((hs.smoothE 0).bound 0 0)

/-- Time differences. -/
theorem time_diff {u : ℝ → ℝ × ℝ → ℝ} (hu : SmoothInTime G.L1 G.L2 M u) {dt : ℝ} (hdt : 0 ≤ dt) (t : ℝ) (p : ℝ × ℝ) :
    |u (t + dt) p - u t p - dt * deriv (fun t => u t p) (t + dt / 2)| ≤ M / 24 * dt ^ 3 := by
  have := central_diff (hu.smooth p) (fun t => hu.bound t p) (t + dt / 2) dt
  rw [show t + dt / 2 + dt / 2 = t + dt by ring, show t + dt / 2 - dt / 2 = t by ring, abs_of_nonneg hdt] at this
  exact this

/-- Space differences, over the cell divided by its size. -/
theorem space_diff {g : ℝ → ℝ} {h : ℝ} (hg : ContDiff ℝ 3 g) (hM : ∀ x, |iteratedDeriv 3 g x| ≤ M) (h0 : 0 < h) (x : ℝ) :
    |(g (x + h / 2) - g (x - h / 2)) / h - deriv g x| ≤ M / 24 * h ^ 2 := by
  have := central_diff hg hM x h
  rw [abs_of_pos h0] at this
  have e : (g (x + h / 2) - g (x - h / 2)) / h - deriv g x = (g (x + h / 2) - g (x - h / 2) - h * deriv g x) / h := by field_simp
  rw [e, abs_div, abs_of_pos h0, div_le_iff₀ h0]
  calc _ ≤ _ := this
    _ = _ := by ring

theorem combine_E {A D c dt τ k1 k2 x1 x2 : ℝ} (hc : 0 ≤ c) (hdt : 0 ≤ dt) (hτ : |D| ≤ τ * dt ^ 3) (h1 : |x1| ≤ τ * k1) (h2 : |x2| ≤ τ * k2)
    (hA : A = -D + dt * c * x1 - dt * c * x2) : |A| ≤ dt * (τ * (dt ^ 2 + c * (k1 + k2))) := by
  have p : 0 ≤ dt * c := mul_nonneg hdt hc
  have a := abs_le.1 hτ
  have b := abs_le.1 h1
  have d := abs_le.1 h2
  have b1 := mul_le_mul_of_nonneg_left b.1 p
  have b2 := mul_le_mul_of_nonneg_left b.2 p
  have d1 := mul_le_mul_of_nonneg_left d.1 p
  have d2 := mul_le_mul_of_nonneg_left d.2 p
  rw [abs_le, hA]
  constructor
  · have : dt * (τ * (dt ^ 2 + c * (k1 + k2))) = τ * dt ^ 3 + dt * c * (τ * k1) + dt * c * (τ * k2) := by ring
    rw [this]
    linarith [a.1, a.2]
  · have : dt * (τ * (dt ^ 2 + c * (k1 + k2))) = τ * dt ^ 3 + dt * c * (τ * k1) + dt * c * (τ * k2) := by ring
    rw [this]
    linarith [a.1, a.2]

theorem defect_le {dt : ℝ} (hdt : 0 ≤ dt) (t : ℝ) (i : G.Cell) :
    |(defect G eps mu E B J dt t).E1 i| ≤ defectBound G eps mu M dt ∧ |(defect G eps mu E B J dt t).E2 i| ≤ defectBound G eps mu M dt ∧
    |(defect G eps mu E B J dt t).E3 i| ≤ defectBound G eps mu M dt ∧ |(defect G eps mu E B J dt t).B1 i| ≤ defectBound G eps mu M dt ∧
    |(defect G eps mu E B J dt t).B2 i| ≤ defectBound G eps mu M dt ∧ |(defect G eps mu E B J dt t).B3 i| ≤ defectBound G eps mu M dt := by
  have M0 := M_nonneg hs he hm hL1 hL2
  have p1 := h1_pos hs he hm hL1 hL2
  have p2 := h2_pos hs he hm hL1 hL2
  have m0 : 0 ≤ M / 24 := by positivity
  have c0 : (0 : ℝ) ≤ 1 / (eps * mu) := by positivity
  obtain ⟨i1, i2⟩ := i
  have hx : ∀ u : ℝ → ℝ × ℝ → ℝ, SmoothInTime G.L1 G.L2 M u → ∀ t x y, |(u t (x + G.h1 / 2, y) - u t (x - G.h1 / 2, y)) / G.h1
      - deriv (fun x => u t (x, y)) x| ≤ M / 24 * G.h1 ^ 2 := fun u hu t x y =>
    space_diff hs he hm hL1 hL2 ((hu.space t).smooth1 y) (fun x => (hu.space t).bound1 x y) p1 x
  have hy : ∀ u : ℝ → ℝ × ℝ → ℝ, SmoothInTime G.L1 G.L2 M u → ∀ t x y, |(u t (x, y + G.h2 / 2) - u t (x, y - G.h2 / 2)) / G.h2
      - deriv (fun y => u t (x, y)) y| ≤ M / 24 * G.h2 ^ 2 := fun u hu t x y =>
    space_diff hs he hm hL1 hL2 ((hu.space t).smooth2 x) (fun y => (hu.space t).bound2 x y) p2 y
  have cs1 : ∀ u : ℝ → ℝ × ℝ → ℝ, SmoothInTime G.L1 G.L2 M u → ∀ t y, u t (cellCentre G.s1 G.L1 G.N1 (i1 - 1), y)
      = u t (cellFace G.s1 G.L1 G.N1 i1 - G.h1 / 2, y) := fun u hu t y =>
    centre_pred (F := fun x => u t (x, y)) (fun x => (hu.space t).periodic1 x y) G.s1 G.N1 i1
  have cs2 : ∀ u : ℝ → ℝ × ℝ → ℝ, SmoothInTime G.L1 G.L2 M u → ∀ t x, u t (x, cellCentre G.s2 G.L2 G.N2 (i2 - 1))
      = u t (x, cellFace G.s2 G.L2 G.N2 i2 - G.h2 / 2) := fun u hu t x =>
    centre_pred (F := fun y => u t (x, y)) (fun y => (hu.space t).periodic2 x y) G.s2 G.N2 i2
  have fs1 : ∀ u : ℝ → ℝ × ℝ → ℝ, SmoothInTime G.L1 G.L2 M u → ∀ t y, u t (cellFace G.s1 G.L1 G.N1 (i1 + 1), y)
      = u t (cellCentre G.s1 G.L1 G.N1 i1 + G.h1 / 2, y) := fun u hu t y =>
    face_succ (F := fun x => u t (x, y)) (fun x => (hu.space t).periodic1 x y) G.s1 G.N1 i1
  have fs2 : ∀ u : ℝ → ℝ × ℝ → ℝ, SmoothInTime G.L1 G.L2 M u → ∀ t x, u t (x, cellFace G.s2 G.L2 G.N2 (i2 + 1))
      = u t (x, cellCentre G.s2 G.L2 G.N2 i2 + G.h2 / 2) := fun u hu t x =>
    face_succ (F := fun y => u t (x, y)) (fun y => (hu.space t).periodic2 x y) G.s2 G.N2 i2
  have fc1 : cellFace G.s1 G.L1 G.N1 i1 = cellCentre G.s1 G.L1 G.N1 i1 - G.h1 / 2 := face_centre _ _ _ _
  have fc2 : cellFace G.s2 G.L2 G.N2 i2 = cellCentre G.s2 G.L2 G.N2 i2 - G.h2 / 2 := face_centre _ _ _ _
  have cf1 : cellCentre G.s1 G.L1 G.N1 i1 = cellFace G.s1 G.L1 G.N1 i1 + G.h1 / 2 := centre_face _ _ _ _
  have cf2 : cellCentre G.s2 G.L2 G.N2 i2 = cellFace G.s2 G.L2 G.N2 i2 + G.h2 / 2 := centre_face _ _ _ _
  have bE : ∀ k1 k2 : ℝ, k1 + k2 ≤ G.h1 ^ 2 + G.h2 ^ 2 →
      dt * (M / 24 * (dt ^ 2 + 1 / (eps * mu) * (k1 + k2))) ≤ defectBound G eps mu M dt := by
    intro k1 k2 h
    refine mul_le_mul_of_nonneg_left (mul_le_mul_of_nonneg_left ?_ m0) hdt
    have := mul_le_mul_of_nonneg_left h c0
    nlinarith [sq_nonneg G.h1, sq_nonneg G.h2]
  have bB : ∀ k1 k2 : ℝ, k1 + k2 ≤ G.h1 ^ 2 + G.h2 ^ 2 →
      dt * (M / 24 * (dt ^ 2 + 1 * (k1 + k2))) ≤ defectBound G eps mu M dt := by
    intro k1 k2 h
    refine mul_le_mul_of_nonneg_left (mul_le_mul_of_nonneg_left ?_ m0) hdt
    have := mul_nonneg c0 (add_nonneg (sq_nonneg G.h1) (sq_nonneg G.h2))
    nlinarith
  have z : |(0 : ℝ)| ≤ M / 24 * 0 := by simp
  have s1 := sq_nonneg G.h1
  have s2 := sq_nonneg G.h2
  have amp : ∀ {d r : ℝ}, eps * d = r → d = r / eps := fun h => by rw [← h]; field_simp
  refine ⟨?_, ?_, ?_, ?_, ?_, ?_⟩
  · refine (combine_E hs he hm hL1 hL2 c0 hdt (time_diff hs he hm hL1 hL2 (hs.smoothE 0) hdt t (G.left (i1, i2)))
      (hy (B 2) (hs.smoothB 2) (t + dt / 2) (cellFace G.s1 G.L1 G.N1 i1) (cellCentre G.s2 G.L2 G.N2 i2)) z ?_).trans
        (bE _ _ (by linarith))
    have a := amp (hs.ampere1 (t + dt / 2) (cellFace G.s1 G.L1 G.N1 i1) (cellCentre G.s2 G.L2 G.N2 i2))
    simp only [defect, addCurlB, curlB1, Rect.fields, Rect.params, Rect.currents, afShift_back, Rect.left, Rect.corner, Prod.mk_add_mk, add_zero]
    rw [a, fs2 (B 2) (hs.smoothB 2), fc2]
    field_simp
    ring
  · refine (combine_E hs he hm hL1 hL2 c0 hdt (time_diff hs he hm hL1 hL2 (hs.smoothE 1) hdt t (G.bottom (i1, i2)))
      z (hx (B 2) (hs.smoothB 2) (t + dt / 2) (cellCentre G.s1 G.L1 G.N1 i1) (cellFace G.s2 G.L2 G.N2 i2)) ?_).trans
        (bE _ _ (by linarith))
    have a := amp (hs.ampere2 (t + dt / 2) (cellCentre G.s1 G.L1 G.N1 i1) (cellFace G.s2 G.L2 G.N2 i2))
    simp only [defect, addCurlB, curlB2, Rect.fields, Rect.params, Rect.currents, afShift_back, Rect.bottom, Rect.corner, Prod.mk_add_mk, add_zero]
    rw [a, fs1 (B 2) (hs.smoothB 2), fc1]
    field_simp
    ring
  · refine (combine_E hs he hm hL1 hL2 c0 hdt (time_diff hs he hm hL1 hL2 (hs.smoothE 2) hdt t (G.centre (i1, i2)))
      (hx (B 1) (hs.smoothB 1) (t + dt / 2) (cellCentre G.s1 G.L1 G.N1 i1) (cellCentre G.s2 G.L2 G.N2 i2))
      (hy (B 0) (hs.smoothB 0) (t + dt / 2) (cellCentre G.s1 G.L1 G.N1 i1) (cellCentre G.s2 G.L2 G.N2 i2)) ?_).trans
        (bE _ _ (by linarith))
    have a := amp (hs.ampere3 (t + dt / 2) (cellCentre G.s1 G.L1 G.N1 i1) (cellCentre G.s2 G.L2 G.N2 i2))
    simp only [defect, addCurlB, curlB3, Rect.fields, Rect.params, Rect.currents, afShift_back, Rect.bottom, Rect.left, Rect.centre, Prod.mk_add_mk,
      add_zero]
    rw [a, fs1 (B 1) (hs.smoothB 1), fs2 (B 0) (hs.smoothB 0), fc1, fc2]
    field_simp
    ring
  · refine (combine_E hs he hm hL1 hL2 zero_le_one hdt (time_diff hs he hm hL1 hL2 (hs.smoothB 0) hdt (t + dt / 2) (G.bottom (i1, i2)))
      z (hy (E 2) (hs.smoothE 2) (t + dt) (cellCentre G.s1 G.L1 G.N1 i1) (cellFace G.s2 G.L2 G.N2 i2)) ?_).trans
        (bB _ _ (by linarith))
    have a := hs.faraday1 (t + dt) (cellCentre G.s1 G.L1 G.N1 i1) (cellFace G.s2 G.L2 G.N2 i2)
    simp only [defect, curlE1, Rect.fields, Rect.params, afShift_fwd, Rect.bottom, Rect.centre, Prod.mk_sub_mk, sub_zero]
    rw [show t + dt / 2 + dt / 2 = t + dt by ring, a, cs2 (E 2) (hs.smoothE 2), cf2, show t + dt / 2 + dt = t + dt + dt / 2 by ring]
    field_simp
    ring
  · refine (combine_E hs he hm hL1 hL2 zero_le_one hdt (time_diff hs he hm hL1 hL2 (hs.smoothB 1) hdt (t + dt / 2) (G.left (i1, i2)))
      (hx (E 2) (hs.smoothE 2) (t + dt) (cellFace G.s1 G.L1 G.N1 i1) (cellCentre G.s2 G.L2 G.N2 i2)) z ?_).trans
        (bB _ _ (by linarith))
    have a := hs.faraday2 (t + dt) (cellFace G.s1 G.L1 G.N1 i1) (cellCentre G.s2 G.L2 G.N2 i2)
    simp only [defect, curlE2, Rect.fields, Rect.params, afShift_fwd, Rect.left, Rect.centre, Prod.mk_sub_mk, sub_zero]
    rw [show t + dt / 2 + dt / 2 = t + dt by ring, a, cs1 (E 2) (hs.smoothE 2), cf1, show t + dt / 2 + dt = t + dt + dt / 2 by ring]
    field_simp
    ring
  · refine (combine_E hs he hm hL1 hL2 zero_le_one hdt (time_diff hs he hm hL1 hL2 (hs.smoothB 2) hdt (t + dt / 2) (G.corner (i1, i2)))
      (hy (E 0) (hs.smoothE 0) (t + dt) (cellFace G.s1 G.L1 G.N1 i1) (cellFace G.s2 G.L2 G.N2 i2))
      (hx (E 1) (hs.smoothE 1) (t + dt) (cellFace G.s1 G.L1 G.N1 i1) (cellFace G.s2 G.L2 G.N2 i2)) ?_).trans
        (bB _ _ (by linarith))
    have a := hs.faraday3 (t + dt) (cellFace G.s1 G.L1 G.N1 i1) (cellFace G.s2 G.L2 G.N2 i2)
    simp only [defect, curlE3, Rect.fields, Rect.params, afShift_fwd, Rect.left, Rect.bottom, Rect.corner, Prod.mk_sub_mk, sub_zero]
    rw [show t + dt / 2 + dt / 2 = t + dt by ring, a, cs1 (E 1) (hs.smoothE 1), cs2 (E 0) (hs.smoothE 0), cf1, cf2,
      show t + dt / 2 + dt = t + dt + dt / 2 by ring]
    field_simp
    ring

end

end Bolt
