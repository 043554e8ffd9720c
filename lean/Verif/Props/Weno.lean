import Verif.Spec.Weno
import Verif.Props.Recon

/-!
# C98: the WENO5 routine
-/

set_option linter.unusedSectionVars false

namespace Bolt

variable {I K : Type} [AddCommGroup I] [Field K] [LinearOrder K] [IsStrictOrderedRing K]

theorem parabolaThrough_at (a b c : K) : parabolaThrough a b c (-1) = a ∧ parabolaThrough a b c 0 = b ∧ parabolaThrough a b c 1 = c := by
  refine ⟨?_, ?_, ?_⟩ <;> unfold parabolaThrough <;> ring

theorem wenoBeta_eq (eps a b c : K) : wenoBeta eps a b c = roughness eps a b c 1 := by
  unfold wenoBeta roughness parabolaSlope; ring

theorem roughness_pos {eps a b c : K} (h : 0 < eps) (ξ : K) : 0 < roughness eps a b c ξ := by
  unfold roughness
  have := abs_nonneg a
  have := abs_nonneg b
  have := abs_nonneg c
  positivity

/-- C98: each face value of the WENO5 routine is an average of what the parabolas through the left, the middle and the right three of the five cells
around the face give there, with weights that fall with the square of the roughness of the three values.  The roughness is taken at the right end
of each triple; that is the cell itself for the left triple only (disagreement 16). -/
theorem C98_weighted_parabolas (e : I) (x : I → K) (i : I) :
    let y := fun k : ℤ => x (i + k • e)
    let r1 := roughness (1 / 10 ^ 17) (y (-2)) (y (-1)) (y 0) 1
    let r2 := roughness (1 / 10 ^ 17) (y (-1)) (y 0) (y 1) 1
    let r3 := roughness (1 / 10 ^ 17) (y 0) (y 1) (y 2) 1
    (reconstructWENO5 e x).1 i = roughnessAverage (5 / 16) (5 / 8) (1 / 16) r1 r2 r3 (parabolaThrough (y (-2)) (y (-1)) (y 0) (1 / 2))
      (parabolaThrough (y (-1)) (y 0) (y 1) (-1 / 2)) (parabolaThrough (y 0) (y 1) (y 2) (-3 / 2)) ∧
    (reconstructWENO5 e x).2 i = roughnessAverage (1 / 16) (5 / 8) (5 / 16) r1 r2 r3 (parabolaThrough (y (-2)) (y (-1)) (y 0) (3 / 2))
      (parabolaThrough (y (-1)) (y 0) (y 1) (1 / 2)) (parabolaThrough (y 0) (y 1) (y 2) (-1 / 2)) := by
  intro y r1 r2 r3
  have s : ∀ k : ℤ, afShift e k x i = y (-k) := fun k => by simp only [afShift, y, neg_smul, sub_eq_add_neg]
  have s0 : x i = y 0 := by simp [y]
  have e1 : ∀ (r d c : K), d / c / r ^ 2 = d / (c * r * r) := fun r d c => by rw [div_div]; congr 1; ring
  simp only [reconstructWENO5, wenoCell, wenoBeta_eq, wenoEps, s, s0, neg_neg, roughnessAverage, e1]
  constructor <;> (simp only [parabolaThrough, r1, r2, r3]; congr 1; ring)

/-- C98: hence each face value lies between the smallest and the largest of the three. -/
theorem C98_between (e : I) (x : I → K) (i : I) :
    let y := fun k : ℤ => x (i + k • e)
    let l := [parabolaThrough (y (-2)) (y (-1)) (y 0) (1 / 2), parabolaThrough (y (-1)) (y 0) (y 1) (-1 / 2), parabolaThrough (y 0) (y 1) (y 2) (-3 / 2)]
    let r := [parabolaThrough (y (-2)) (y (-1)) (y 0) (3 / 2), parabolaThrough (y (-1)) (y 0) (y 1) (1 / 2), parabolaThrough (y 0) (y 1) (y 2) (-1 / 2)]
    (∀ m, (∀ v ∈ l, m ≤ v) → m ≤ (reconstructWENO5 e x).1 i) ∧ (∀ m, (∀ v ∈ l, v ≤ m) → (reconstructWENO5 e x).1 i ≤ m) ∧
    (∀ m, (∀ v ∈ r, m ≤ v) → m ≤ (reconstructWENO5 e x).2 i) ∧ (∀ m, (∀ v ∈ r, v ≤ m) → (reconstructWENO5 e x).2 i ≤ m) := by
  intro y l r
  obtain ⟨h1, h2⟩ := C98_weighted_parabolas e x i
  have avg : ∀ d1 d2 d3 r1 r2 r3 u v w m : K, 0 < d1 → 0 < d2 → 0 < d3 → 0 < r1 → 0 < r2 → 0 < r3 →
      (m ≤ u → m ≤ v → m ≤ w → m ≤ roughnessAverage d1 d2 d3 r1 r2 r3 u v w) ∧
      (u ≤ m → v ≤ m → w ≤ m → roughnessAverage d1 d2 d3 r1 r2 r3 u v w ≤ m) := by
    intro d1 d2 d3 r1 r2 r3 u v w m a1 a2 a3 a4 a5 a6
    have b1 : 0 < d1 / r1 ^ 2 := by positivity
    have b2 : 0 < d2 / r2 ^ 2 := by positivity
    have b3 : 0 < d3 / r3 ^ 2 := by positivity
    have b : 0 < d1 / r1 ^ 2 + d2 / r2 ^ 2 + d3 / r3 ^ 2 := by positivity
    unfold roughnessAverage
    refine ⟨fun p q s => ?_, fun p q s => ?_⟩
    · rw [le_div_iff₀ b]
      linarith [mul_le_mul_of_nonneg_left p b1.le, mul_le_mul_of_nonneg_left q b2.le, mul_le_mul_of_nonneg_left s b3.le,
        mul_comm m (d1 / r1 ^ 2), mul_comm m (d2 / r2 ^ 2), mul_comm m (d3 / r3 ^ 2), mul_add m (d1 / r1 ^ 2 + d2 / r2 ^ 2) (d3 / r3 ^ 2), mul_add m (d1 / r1 ^ 2) (d2 / r2 ^ 2)]
    · rw [div_le_iff₀ b]
      linarith [mul_le_mul_of_nonneg_left p b1.le, mul_le_mul_of_nonneg_left q b2.le, mul_le_mul_of_nonneg_left s b3.le,
        mul_comm m (d1 / r1 ^ 2), mul_comm m (d2 / r2 ^ 2), mul_comm m (d3 / r3 ^ 2), mul_add m (d1 / r1 ^ 2 + d2 / r2 ^ 2) (d3 / r3 ^ 2), mul_add m (d1 / r1 ^ 2) (d2 / r2 ^ 2)]
  have pe : (0 : K) < 1 / 10 ^ 17 := by positivity
  have R := fun (a b c : K) => roughness_pos (a := a) (b := b) (c := c) pe 1
  refine ⟨fun m hm => ?_, fun m hm => ?_, fun m hm => ?_, fun m hm => ?_⟩
  · rw [h1]; exact (avg _ _ _ _ _ _ _ _ _ m (by norm_num) (by norm_num) (by norm_num) (R _ _ _) (R _ _ _) (R _ _ _)).1
      (hm _ (.head _)) (hm _ (.tail _ (.head _))) (hm _ (.tail _ (.tail _ (.head _))))
  · rw [h1]; exact (avg _ _ _ _ _ _ _ _ _ m (by norm_num) (by norm_num) (by norm_num) (R _ _ _) (R _ _ _) (R _ _ _)).2
      (hm _ (.head _)) (hm _ (.tail _ (.head _))) (hm _ (.tail _ (.tail _ (.head _))))
  · rw [h2]; exact (avg _ _ _ _ _ _ _ _ _ m (by norm_num) (by norm_num) (by norm_num) (R _ _ _) (R _ _ _) (R _ _ _)).1
      (hm _ (.head _)) (hm _ (.tail _ (.head _))) (hm _ (.tail _ (.tail _ (.head _))))
  · rw [h2]; exact (avg _ _ _ _ _ _ _ _ _ m (by norm_num) (by norm_num) (by norm_num) (R _ _ _) (R _ _ _) (R _ _ _)).2
      (hm _ (.head _)) (hm _ (.tail _ (.head _))) (hm _ (.tail _ (.tail _ (.head _))))

/-- C98: where the five values lie on a parabola the face values are its values half a cell to the left and to the right, whatever the weights. -/
theorem C98_exact_on_parabolas (e : I) (x : I → K) (i : I) (A B C : K)
    (h : ∀ k : ℤ, k ∈ [-2, -1, 0, 1, 2] → x (i + k • e) = quartic A B C 0 0 k) :
    (reconstructWENO5 e x).1 i = quartic A B C 0 0 (-1 / 2) ∧ (reconstructWENO5 e x).2 i = quartic A B C 0 0 (1 / 2) := by
  obtain ⟨b1, b2, b3, b4⟩ := C98_between e x i
  have v : x (i + (-2 : ℤ) • e) = _ ∧ x (i + (-1 : ℤ) • e) = _ ∧ x (i + (0 : ℤ) • e) = _ ∧ x (i + (1 : ℤ) • e) = _ ∧ x (i + (2 : ℤ) • e) = _ :=
    ⟨h (-2) (by simp), h (-1) (by simp), h 0 (by simp), h 1 (by simp), h 2 (by simp)⟩
  simp only [v.1, v.2.1, v.2.2.1, v.2.2.2.1, v.2.2.2.2, List.mem_cons, List.not_mem_nil, or_false, forall_eq_or_imp, forall_eq] at b1 b2 b3 b4
  have p1 : ∀ ξ : K, parabolaThrough (quartic A B C 0 0 ((-2 : ℤ) : K)) (quartic A B C 0 0 ((-1 : ℤ) : K)) (quartic A B C 0 0 ((0 : ℤ) : K)) ξ = quartic A B C 0 0 (ξ - 1) := fun ξ => by
    simp only [parabolaThrough, quartic]; push_cast; ring
  have p2 : ∀ ξ : K, parabolaThrough (quartic A B C 0 0 ((-1 : ℤ) : K)) (quartic A B C 0 0 ((0 : ℤ) : K)) (quartic A B C 0 0 ((1 : ℤ) : K)) ξ = quartic A B C 0 0 ξ := fun ξ => by
    simp only [parabolaThrough, quartic]; push_cast; ring
  have p3 : ∀ ξ : K, parabolaThrough (quartic A B C 0 0 ((0 : ℤ) : K)) (quartic A B C 0 0 ((1 : ℤ) : K)) (quartic A B C 0 0 ((2 : ℤ) : K)) ξ = quartic A B C 0 0 (ξ + 1) := fun ξ => by
    simp only [parabolaThrough, quartic]; push_cast; ring
  simp only [p1, p2, p3] at b1 b2 b3 b4
  norm_num at b1 b2 b3 b4 ⊢
  constructor
  · exact le_antisymm (b2 _ (le_refl _)) (b1 _ (le_refl _))
  · exact le_antisymm (b4 _ (le_refl _)) (b3 _ (le_refl _))

/-- C98: where the three triples are equally rough, the face values are exact even on polynomials of degree four. -/
theorem C98_exact_on_quartics (e : I) (x : I → K) (i : I) (A B C D E : K)
    (h : ∀ k : ℤ, k ∈ [-2, -1, 0, 1, 2] → x (i + k • e) = quartic A B C D E k)
    (h12 : roughness (1 / 10 ^ 17) (x (i + (-2 : ℤ) • e)) (x (i + (-1 : ℤ) • e)) (x (i + (0 : ℤ) • e)) 1
      = roughness (1 / 10 ^ 17) (x (i + (-1 : ℤ) • e)) (x (i + (0 : ℤ) • e)) (x (i + (1 : ℤ) • e)) 1)
    (h23 : roughness (1 / 10 ^ 17) (x (i + (-1 : ℤ) • e)) (x (i + (0 : ℤ) • e)) (x (i + (1 : ℤ) • e)) 1
      = roughness (1 / 10 ^ 17) (x (i + (0 : ℤ) • e)) (x (i + (1 : ℤ) • e)) (x (i + (2 : ℤ) • e)) 1) :
    (reconstructWENO5 e x).1 i = quartic A B C D E (-1 / 2) ∧ (reconstructWENO5 e x).2 i = quartic A B C D E (1 / 2) := by
  obtain ⟨h1, h2⟩ := C98_weighted_parabolas e x i
  have R := roughness_pos (a := x (i + (0 : ℤ) • e)) (b := x (i + (1 : ℤ) • e)) (c := x (i + (2 : ℤ) • e))
    (by positivity : (0 : K) < 1 / 10 ^ 17) 1
  have v : x (i + (-2 : ℤ) • e) = _ ∧ x (i + (-1 : ℤ) • e) = _ ∧ x (i + (0 : ℤ) • e) = _ ∧ x (i + (1 : ℤ) • e) = _ ∧ x (i + (2 : ℤ) • e) = _ :=
    ⟨h (-2) (by simp), h (-1) (by simp), h 0 (by simp), h 1 (by simp), h 2 (by simp)⟩
  rw [h1, h2]
  simp only [h12, h23]
  generalize roughness (1 / 10 ^ 17) (x (i + (0 : ℤ) • e)) (x (i + (1 : ℤ) • e)) (x (i + (2 : ℤ) • e)) 1 = r at R
  simp only [v.1, v.2.1, v.2.2.1, v.2.2.2.1, v.2.2.2.2, roughnessAverage, parabolaThrough, quartic]
  push_cast
  have : r ≠ 0 := R.ne'
  constructor <;> (field_simp; ring)

/-- Non-vacuity: data on a parabola with both a slope and a curvature, in the middle of an array of five cells. -/
example : ∀ k : ℤ, k ∈ [-2, -1, 0, 1, 2] →
    (fun j : ℤ => (1 + 2 * j + 3 * j ^ 2 : ℚ)) (0 + k • (1 : ℤ)) = quartic (1 : ℚ) 2 3 0 0 k := by
  intro k _
  simp [quartic]

/-- Non-vacuity: values that alternate in sign are equally rough everywhere, and five of them lie on a quartic. -/
example : (∀ k : ℤ, k ∈ [-2, -1, 0, 1, 2] → (fun j : ℤ => ((-1) ^ j.natAbs : ℚ)) (0 + k • (1 : ℤ)) = quartic (1 : ℚ) 0 (-8 / 3) 0 (2 / 3) k) ∧
    roughness (1 / 10 ^ 17) ((fun j : ℤ => ((-1) ^ j.natAbs : ℚ)) (0 + (-2 : ℤ) • (1 : ℤ))) ((fun j : ℤ => ((-1) ^ j.natAbs : ℚ)) (0 + (-1 : ℤ) • (1 : ℤ)))
      ((fun j : ℤ => ((-1) ^ j.natAbs : ℚ)) (0 + (0 : ℤ) • (1 : ℤ))) 1
    = roughness (1 / 10 ^ 17) ((fun j : ℤ => ((-1) ^ j.natAbs : ℚ)) (0 + (-1 : ℤ) • (1 : ℤ))) ((fun j : ℤ => ((-1) ^ j.natAbs : ℚ)) (0 + (0 : ℤ) • (1 : ℤ)))
      ((fun j : ℤ => ((-1) ^ j.natAbs : ℚ)) (0 + (1 : ℤ) • (1 : ℤ))) 1 := by
  constructor
  · intro k hk
    simp only [List.mem_cons, List.not_mem_nil, or_false] at hk
    rcases hk with rfl | rfl | rfl | rfl | rfl <;> simp [quartic] <;> norm_num
  · simp [roughness, parabolaSlope]; norm_num

end Bolt
