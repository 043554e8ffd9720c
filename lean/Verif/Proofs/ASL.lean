import Verif.Spec.ASL
import Verif.Proofs.Decomp
import Mathlib.Algebra.Order.Floor.Ring
import Mathlib.Algebra.BigOperators.Group.Finset.Basic
import Mathlib.Algebra.BigOperators.Ring.Finset
import Mathlib.Data.ZMod.Basic
import Mathlib.Algebra.BigOperators.Fin
import Mathlib.Tactic.Ring
import Mathlib.Tactic.FieldSimp
import Mathlib.Tactic.Linarith
import Mathlib.Tactic.Push
import Mathlib.Tactic.LinearCombination

set_option linter.unusedSectionVars false

namespace Bolt

variable {K : Type} [Field K] [LinearOrder K] [IsStrictOrderedRing K] [FloorRing K] {S P : Type} {N1 N2 : ℕ}

/-! ## one axis -/

theorem cubicSpline_eq (v0 v1 v2 v3 t : K) : cubicSpline v0 v1 v2 v3 t =
    (2 * t ^ 3 - 3 * t ^ 2 + 1) * v1 + (t ^ 3 - 2 * t ^ 2 + t) * ((v2 - v0) / 2) + (-2 * t ^ 3 + 3 * t ^ 2) * v2 + (t ^ 3 - t ^ 2) * ((v3 - v1) / 2) := by
  simp only [cubicSpline]
  field_simp
  ring

theorem cubicSpline_zero (v0 v1 v2 v3 : K) : cubicSpline v0 v1 v2 v3 0 = v1 := by simp [cubicSpline]

theorem cubicSpline_const (c t : K) : cubicSpline c c c c t = c := by rw [cubicSpline_eq]; ring

theorem catmullRom_eq (w : ℤ → K) (x : K) : catmullRom w x = cubicSpline (w (⌊x⌋ - 1)) (w ⌊x⌋) (w (⌊x⌋ + 1)) (w (⌊x⌋ + 2)) (x - ⌊x⌋) := by
  rw [cubicSpline_eq]
  simp only [catmullRom]
  rw [show ⌊x⌋ + 1 + 1 = ⌊x⌋ + 2 by ring, show ⌊x⌋ + 1 - 1 = ⌊x⌋ by ring]

theorem catmullRom_int (w : ℤ → K) (k : ℤ) : catmullRom w (k : K) = w k := by
  rw [catmullRom_eq, Int.floor_intCast, sub_self, cubicSpline_zero]

theorem catmullRom_shift (w : ℤ → K) (k : ℤ) (x : K) : catmullRom (fun a => w (a + k)) x = catmullRom w (x + k) := by
  rw [catmullRom_eq, catmullRom_eq, Int.floor_add_intCast]
  congr 1
  · congr 1; ring
  · congr 1; ring
  · congr 1; ring
  · push_cast; ring

theorem catmullRom_congr (w w' : ℤ → K) (x : K) (h : ∀ k, ⌊x⌋ - 1 ≤ k → k ≤ ⌊x⌋ + 2 → w k = w' k) : catmullRom w x = catmullRom w' x := by
  rw [catmullRom_eq, catmullRom_eq, h _ le_rfl (by omega), h ⌊x⌋ (by omega) (by omega), h (⌊x⌋ + 1) (by omega) (by omega), h (⌊x⌋ + 2) (by omega) le_rfl]

/-- The weights of Catmull-Rom interpolation sum to one. -/
theorem catmullRom_const (c x : K) : catmullRom (fun _ => c) x = c := by rw [catmullRom_eq, cubicSpline_const]

theorem catmullRom_quadratic (a b c x : K) : catmullRom (fun k => a + b * k + c * (k : K) ^ 2) x = a + b * x + c * x ^ 2 := by
  rw [catmullRom_eq, cubicSpline_eq]
  push_cast
  ring

/-- Away from the ends (or at a grid point) ArrayFire's interpolation along an axis is Catmull-Rom interpolation. -/
theorem cubicAxis_inner (M : ℕ) (w : ℤ → K) (u : K) (h1 : 1 ≤ u) (h2 : u ≤ M - 2) : cubicAxis M w u = catmullRom w u := by
  have f1 : 1 ≤ ⌊u⌋ := Int.le_floor.mpr (by exact_mod_cast h1)
  have f2 : ⌊u⌋ ≤ (M : ℤ) - 2 := by
    have : (⌊u⌋ : K) ≤ ((M : ℤ) - 2 : ℤ) := (Int.floor_le u).trans (by push_cast; exact h2)
    exact_mod_cast this
  rw [catmullRom_eq]
  simp only [cubicAxis]
  rw [if_pos (by omega), if_pos (by omega)]
  by_cases h3 : ⌊u⌋ + 2 < M
  · rw [if_pos h3]
  · have he : ⌊u⌋ = (M : ℤ) - 2 := by omega
    have hu : u - ⌊u⌋ = 0 := by
      have h4 := Int.floor_le u
      rw [he] at h4 ⊢
      push_cast at h4 ⊢
      linarith
    rw [hu, cubicSpline_zero, cubicSpline_zero]

theorem cubicAxis_int (M : ℕ) (w : ℤ → K) (k : ℤ) : cubicAxis M w (k : K) = w k := by
  simp only [cubicAxis, Int.floor_intCast, sub_self, cubicSpline_zero]

theorem cubicAxis_congr (M : ℕ) (w w' : ℤ → K) (u : K) (h1 : 0 ≤ u) (h2 : u ≤ M - 1) (h : ∀ k : ℤ, 0 ≤ k → k < M → w k = w' k) :
    cubicAxis M w u = cubicAxis M w' u := by
  have f1 : 0 ≤ ⌊u⌋ := Int.floor_nonneg.mpr h1
  have f2 : ⌊u⌋ ≤ (M : ℤ) - 1 := by
    have : (⌊u⌋ : K) ≤ ((M : ℤ) - 1 : ℤ) := (Int.floor_le u).trans (by push_cast; exact h2)
    exact_mod_cast this
  simp only [cubicAxis]
  rw [h ⌊u⌋ f1 (by omega)]
  congr 1
  · split_ifs
    · exact h _ (by omega) (by omega)
    · exact h _ f1 (by omega)
  · split_ifs
    · exact h _ (by omega) (by omega)
    · exact h _ f1 (by omega)
  · split_ifs
    · exact h _ (by omega) (by omega)
    · exact h _ (by omega) (by omega)
    · exact h _ f1 (by omega)

theorem cubicAxis_const (M : ℕ) (c u : K) : cubicAxis M (fun _ => c) u = c := by
  simp only [cubicAxis, cubicSpline_const]

/-! ## two axes -/

theorem approx2_inside (M1 M2 : ℕ) (v : ℤ → ℤ → K) (x y : K) (hx : 0 ≤ x) (hx' : x ≤ M1 - 1) (hy : 0 ≤ y) (hy' : y ≤ M2 - 1) :
    approx2 M1 M2 v x y = cubicAxis M2 (fun b => cubicAxis M1 (fun a => v a b) x) y := by
  rw [approx2, if_neg]
  push Not
  exact ⟨hx, hy, by linarith, by linarith⟩

theorem approx2_outside (M1 M2 : ℕ) (v : ℤ → ℤ → K) (x y : K) (h : x < 0 ∨ (M1 : K) - 1 < x ∨ y < 0 ∨ (M2 : K) - 1 < y) :
    approx2 M1 M2 v x y = 0 := by
  rw [approx2, if_pos]
  rcases h with h | h | h | h
  · exact .inl h
  · exact .inr (.inr (.inl (by linarith)))
  · exact .inr (.inl h)
  · exact .inr (.inr (.inr (by linarith)))

theorem approx2_inner (M1 M2 : ℕ) (v : ℤ → ℤ → K) (x y : K) (hx : 1 ≤ x) (hx' : x ≤ M1 - 2) (hy : 1 ≤ y) (hy' : y ≤ M2 - 2) :
    approx2 M1 M2 v x y = catmullRom2 v x y := by
  rw [approx2_inside M1 M2 v x y (by linarith) (by linarith) (by linarith) (by linarith), catmullRom2, cubicAxis_inner M2 _ y hy hy']
  congr 1
  funext b
  rw [cubicAxis_inner M1 _ x hx hx']

theorem approx2_int (M1 M2 : ℕ) (v : ℤ → ℤ → K) (j k : ℤ) (hj : 0 ≤ j) (hj' : j < M1) (hk : 0 ≤ k) (hk' : k < M2) :
    approx2 M1 M2 v (j : K) (k : K) = v j k := by
  have c1 : (j : K) ≤ M1 - 1 := by
    have : j ≤ (M1 : ℤ) - 1 := by omega
    calc (j : K) ≤ ((M1 : ℤ) - 1 : ℤ) := by exact_mod_cast this
      _ = _ := by push_cast; ring
  have c2 : (k : K) ≤ M2 - 1 := by
    have : k ≤ (M2 : ℤ) - 1 := by omega
    calc (k : K) ≤ ((M2 : ℤ) - 1 : ℤ) := by exact_mod_cast this
      _ = _ := by push_cast; ring
  rw [approx2_inside M1 M2 v _ _ (by exact_mod_cast hj) c1 (by exact_mod_cast hk) c2, cubicAxis_int, cubicAxis_int]

theorem approx2_congr (M1 M2 : ℕ) (v v' : ℤ → ℤ → K) (x y : K)
    (h : ∀ a b : ℤ, 0 ≤ a → a < M1 → 0 ≤ b → b < M2 → v a b = v' a b) : approx2 M1 M2 v x y = approx2 M1 M2 v' x y := by
  by_cases ho : x < 0 ∨ y < 0 ∨ (M1 : K) < x + 1 ∨ (M2 : K) < y + 1
  · rw [approx2, approx2, if_pos ho, if_pos ho]
  · rw [approx2, approx2, if_neg ho, if_neg ho]
    push Not at ho
    obtain ⟨h1, h2, h3, h4⟩ := ho
    refine cubicAxis_congr M2 _ _ y h2 (by linarith) fun b hb hb' => ?_
    exact cubicAxis_congr M1 _ _ x h1 (by linarith) fun a ha ha' => h a b ha ha' hb hb'

theorem approx2_const (M1 M2 : ℕ) (c x y : K) (hx : 0 ≤ x) (hx' : x ≤ M1 - 1) (hy : 0 ≤ y) (hy' : y ≤ M2 - 1) :
    approx2 M1 M2 (fun _ _ => c) x y = c := by
  rw [approx2_inside M1 M2 _ x y hx hx' hy hy', cubicAxis_const, cubicAxis_const]

theorem catmullRom2_int (v : ℤ → ℤ → K) (j k : ℤ) : catmullRom2 v (j : K) (k : K) = v j k := by
  rw [catmullRom2, catmullRom_int, catmullRom_int]

theorem catmullRom2_shift (v : ℤ → ℤ → K) (j k : ℤ) (x y : K) :
    catmullRom2 (fun a b => v (a + j) (b + k)) x y = catmullRom2 v (x + j) (y + k) := by
  rw [catmullRom2, catmullRom2, ← catmullRom_shift (fun b => catmullRom (fun a => v a b) (x + j)) k y]
  congr 1
  funext b
  exact catmullRom_shift (fun a => v a (b + k)) j x

/-! ## one process -/

namespace Decomp

variable {R : Type} (D : Decomp N1 N2 R) (g1 g2 : ℕ) [NeZero N1] [NeZero N2]

theorem scalePos_coords (q1Start q2Start dq1 dq2 : K) (hd1 : dq1 ≠ 0) (hd2 : dq2 ≠ 0) (r : R) (a b : ℕ) (x y : K) :
    let q := (D.coords g1 g2 q1Start q2Start dq1 dq2 r).2.2.2
    scalePos (q.1 a b + -x) (q.1 0 0) (q.1 1 0) = a - x / dq1 ∧ scalePos (q.2 a b + -y) (q.2 0 0) (q.2 0 1) = b - y / dq2 := by
  simp only [coords, calculateQ, scalePos]
  push_cast
  constructor
  · have e : ∀ s : K, s + (-(g1 : K) + 1) * dq1 + 1 / 2 * dq1 - (s + (-(g1 : K) + 0) * dq1 + 1 / 2 * dq1) = dq1 := fun s => by ring
    rw [e, div_eq_iff hd1]
    field_simp
    ring
  · have e : ∀ s : K, s + (-(g2 : K) + 1) * dq2 + 1 / 2 * dq2 - (s + (-(g2 : K) + 0) * dq2 + 1 / 2 * dq2) = dq2 := fun s => by ring
    rw [e, div_eq_iff hd2]
    field_simp
    ring

/-- The interpolation done by a process, with the exchanged array replaced by the global one and the foot measured in cells. -/
theorem opAdvectQ_eq (q1Start q2Start dq1 dq2 : K) (hd1 : dq1 ≠ 0) (hd2 : dq2 ≠ 0) (A1 A2 : ∀ r, S → P → D.Loc g1 g2 r → K) (dt : K)
    (st F : ∀ r, Dist S P (D.Loc g1 g2 r) K) (f : Dist S P (ZMod N1 × ZMod N2) K) (hF : D.Holds g1 g2 F f) (r : R) (s : S) (p : P)
    (l : D.Loc g1 g2 r) :
    D.opAdvectQ g1 g2 q1Start q2Start dq1 dq2 A1 A2 dt st F r s p l =
      approx2 (D.n1 r + 2 * g1) (D.n2 r + 2 * g2)
        (fun a b => f s p (((D.start1 r + a - g1 : ℤ) : ZMod N1), ((D.start2 r + b - g2 : ℤ) : ZMod N2)))
        (l.1.val - A1 r s p l * dt / dq1) (l.2.val - A2 r s p l * dt / dq2) := by
  have hsc := D.scalePos_coords g1 g2 q1Start q2Start dq1 dq2 hd1 hd2 r l.1.val l.2.val (A1 r s p l * dt) (A2 r s p l * dt)
  simp only at hsc
  rw [opAdvectQ, fInterp2d]
  simp only [neg_mul]
  rw [hsc.1, hsc.2]
  refine approx2_congr _ _ _ _ _ _ fun a b ha ha' hb hb' => ?_
  rw [exchange_periodic, (holds_iff D g1 g2 F f).mp hF]
  have v1 : (((a : ZMod (D.n1 r + 2 * g1)).val : ℕ) : ℤ) = a := by rw [ZMod.val_intCast, Int.emod_eq_of_lt ha ha']
  have v2 : (((b : ZMod (D.n2 r + 2 * g2)).val : ℕ) : ℤ) = b := by rw [ZMod.val_intCast, Int.emod_eq_of_lt hb hb']
  rw [toGlob, globCoord, globCoord, v1, v2]

end Decomp

end Bolt
