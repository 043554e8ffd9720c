import Verif.Proofs.ASL
import Verif.Props.System
import Verif.Props.DecompExample
import Mathlib.Data.Rat.Floor
import Mathlib.Tactic.NormNum
import Mathlib.Tactic.FinCases
import Mathlib.Tactic.Module

/-!
# C51, C52, C60: the semi-Lagrangian method
-/

set_option linter.unusedSectionVars false

namespace Bolt

variable {K : Type} [Field K] [LinearOrder K] [IsStrictOrderedRing K] [FloorRing K] {S P : Type} {N1 N2 : ℕ} [NeZero N1] [NeZero N2]

section Position
variable {R : Type} (D : Decomp N1 N2 R) (g1 g2 : ℕ) (q1Start q2Start dq1 dq2 : K) (A1 A2 : ∀ r, S → P → D.Loc g1 g2 r → K)
  (a1 a2 : S → P → ZMod N1 × ZMod N2 → K) (dt : K)

/-- C51: whatever the decomposition, if no particle moves further than the ghost width less one cell, position advection gives every owned
cell the value at the foot of its characteristic of the Catmull-Rom interpolant of the periodic data. -/
theorem C51_interpolates_at_foot (hd1 : dq1 ≠ 0) (hd2 : dq2 ≠ 0) (hA1 : D.VelocityAgrees g1 g2 A1 a1) (hA2 : D.VelocityAgrees g1 g2 A2 a2)
    (h1 : ∀ s p i, |a1 s p i * dt / dq1| ≤ g1 - 1) (h2 : ∀ s p i, |a2 s p i * dt / dq2| ≤ g2 - 1) (st F : ∀ r, Dist S P (D.Loc g1 g2 r) K)
    (f : Dist S P (ZMod N1 × ZMod N2) K) (hF : D.Holds g1 g2 F f) :
    D.Holds g1 g2 (D.opAdvectQ g1 g2 q1Start q2Start dq1 dq2 A1 A2 dt st F)
      (advected (fun s p i => a1 s p i * dt / dq1) (fun s p i => a2 s p i * dt / dq2) f) := by
  intro r s p l hl
  have e1 := hA1 r s p l hl
  have e2 := hA2 r s p l hl
  have b1 := abs_le.mp (h1 s p (D.toGlob g1 g2 r l))
  have b2 := abs_le.mp (h2 s p (D.toGlob g1 g2 r l))
  rw [D.opAdvectQ_eq g1 g2 q1Start q2Start dq1 dq2 hd1 hd2 A1 A2 dt st F f hF r s p l, e1, e2, advected]
  obtain ⟨⟨l1, l2⟩, l3, l4⟩ := hl
  have v1 : (((D.toGlob g1 g2 r l).1.val : ℕ) : K) = (l.1.val : K) + ((D.start1 r - g1 : ℤ) : K) := by
    have := val_cast_globCoord (N := N1) (D.fits1 r) l.1 l1 l2
    rw [Decomp.toGlob, this, Nat.cast_sub (by omega)]
    push_cast; ring
  have v2 : (((D.toGlob g1 g2 r l).2.val : ℕ) : K) = (l.2.val : K) + ((D.start2 r - g2 : ℤ) : K) := by
    have := val_cast_globCoord (N := N2) (D.fits2 r) l.2 l3 l4
    rw [Decomp.toGlob, this, Nat.cast_sub (by omega)]
    push_cast; ring
  have k1 : (g1 : K) ≤ l.1.val := by exact_mod_cast l1
  have k2 : (l.1.val : K) + 1 ≤ g1 + D.n1 r := by exact_mod_cast l2
  have k3 : (g2 : K) ≤ l.2.val := by exact_mod_cast l3
  have k4 : (l.2.val : K) + 1 ≤ g2 + D.n2 r := by exact_mod_cast l4
  rw [approx2_inner]
  · rw [show (((D.toGlob g1 g2 r l).1.val : ℕ) : K) - a1 s p (D.toGlob g1 g2 r l) * dt / dq1 =
        (l.1.val : K) - a1 s p (D.toGlob g1 g2 r l) * dt / dq1 + ((D.start1 r - g1 : ℤ) : K) by rw [v1]; ring,
      show (((D.toGlob g1 g2 r l).2.val : ℕ) : K) - a2 s p (D.toGlob g1 g2 r l) * dt / dq2 =
        (l.2.val : K) - a2 s p (D.toGlob g1 g2 r l) * dt / dq2 + ((D.start2 r - g2 : ℤ) : K) by rw [v2]; ring,
      ← catmullRom2_shift]
    congr 1
    funext a b
    congr 2
    · push_cast; ring
    · push_cast; ring
  · linarith
  · push_cast; linarith
  · linarith
  · push_cast; linarith

/-- C51 (whole cells): data are carried along exactly when all displacements are whole numbers of cells no larger than the ghost width. -/
theorem C51_whole_cells (hd1 : dq1 ≠ 0) (hd2 : dq2 ≠ 0) (hA1 : D.VelocityAgrees g1 g2 A1 a1) (hA2 : D.VelocityAgrees g1 g2 A2 a2)
    (k1 k2 : S → P → ZMod N1 × ZMod N2 → ℤ) (e1 : ∀ s p i, a1 s p i * dt = k1 s p i * dq1) (e2 : ∀ s p i, a2 s p i * dt = k2 s p i * dq2)
    (h1 : ∀ s p i, |k1 s p i| ≤ g1) (h2 : ∀ s p i, |k2 s p i| ≤ g2) (st F : ∀ r, Dist S P (D.Loc g1 g2 r) K)
    (f : Dist S P (ZMod N1 × ZMod N2) K) (hF : D.Holds g1 g2 F f) :
    D.Holds g1 g2 (D.opAdvectQ g1 g2 q1Start q2Start dq1 dq2 A1 A2 dt st F)
      (fun s p i => f s p (i.1 - (k1 s p i : ZMod N1), i.2 - (k2 s p i : ZMod N2))) := by
  intro r s p l hl
  rw [D.opAdvectQ_eq g1 g2 q1Start q2Start dq1 dq2 hd1 hd2 A1 A2 dt st F f hF r s p l, hA1 r s p l hl, hA2 r s p l hl, e1, e2,
    mul_div_cancel_right₀ _ hd1, mul_div_cancel_right₀ _ hd2]
  have b1 := abs_le.mp (h1 s p (D.toGlob g1 g2 r l))
  have b2 := abs_le.mp (h2 s p (D.toGlob g1 g2 r l))
  obtain ⟨⟨l1, l2⟩, l3, l4⟩ := hl
  generalize hj : k1 s p (D.toGlob g1 g2 r l) = j at b1
  generalize hk : k2 s p (D.toGlob g1 g2 r l) = k at b2
  rw [show (l.1.val : K) - (j : K) = (((l.1.val : ℤ) - j : ℤ) : K) by push_cast; ring,
    show (l.2.val : K) - (k : K) = (((l.2.val : ℤ) - k : ℤ) : K) by push_cast; ring,
    approx2_int _ _ _ _ _ (by omega) (by push_cast; omega) (by omega) (by push_cast; omega)]
  simp only [hj, hk]
  simp only [Decomp.toGlob, globCoord]
  congr 2
  · push_cast; ring
  · push_cast; ring

/-- C51 (no time): a step of length zero changes nothing, whatever the velocities and ghost widths. -/
theorem C51_no_time (hd1 : dq1 ≠ 0) (hd2 : dq2 ≠ 0) (st F : ∀ r, Dist S P (D.Loc g1 g2 r) K)
    (f : Dist S P (ZMod N1 × ZMod N2) K) (hF : D.Holds g1 g2 F f) :
    D.Holds g1 g2 (D.opAdvectQ g1 g2 q1Start q2Start dq1 dq2 A1 A2 0 st F) f := by
  intro r s p l hl
  rw [D.opAdvectQ_eq g1 g2 q1Start q2Start dq1 dq2 hd1 hd2 A1 A2 0 st F f hF r s p l]
  obtain ⟨⟨l1, l2⟩, l3, l4⟩ := hl
  rw [mul_zero, mul_zero, zero_div, zero_div, sub_zero, sub_zero, show (l.1.val : K) = ((l.1.val : ℤ) : K) by push_cast; ring,
    show (l.2.val : K) = ((l.2.val : ℤ) : K) by push_cast; ring,
    approx2_int _ _ _ _ _ (by omega) (by push_cast; omega) (by omega) (by push_cast; omega)]
  rfl

/-- C51 (uniform states): a distribution that does not depend on position stays as it is if no particle moves further than the ghost width. -/
theorem C51_uniform (hd1 : dq1 ≠ 0) (hd2 : dq2 ≠ 0) (hA1 : D.VelocityAgrees g1 g2 A1 a1) (hA2 : D.VelocityAgrees g1 g2 A2 a2)
    (h1 : ∀ s p i, |a1 s p i * dt / dq1| ≤ g1) (h2 : ∀ s p i, |a2 s p i * dt / dq2| ≤ g2) (st F : ∀ r, Dist S P (D.Loc g1 g2 r) K)
    (c : S → P → K) (hF : D.Holds g1 g2 F (fun s p _ => c s p)) :
    D.Holds g1 g2 (D.opAdvectQ g1 g2 q1Start q2Start dq1 dq2 A1 A2 dt st F) (fun s p _ => c s p) := by
  intro r s p l hl
  have b1 := abs_le.mp (h1 s p (D.toGlob g1 g2 r l))
  have b2 := abs_le.mp (h2 s p (D.toGlob g1 g2 r l))
  rw [D.opAdvectQ_eq g1 g2 q1Start q2Start dq1 dq2 hd1 hd2 A1 A2 dt st F _ hF r s p l, hA1 r s p l hl, hA2 r s p l hl]
  obtain ⟨⟨l1, l2⟩, l3, l4⟩ := hl
  have k1 : (g1 : K) ≤ l.1.val := by exact_mod_cast l1
  have k2 : (l.1.val : K) + 1 ≤ g1 + D.n1 r := by exact_mod_cast l2
  have k3 : (g2 : K) ≤ l.2.val := by exact_mod_cast l3
  have k4 : (l.2.val : K) + 1 ≤ g2 + D.n2 r := by exact_mod_cast l4
  refine approx2_const _ _ _ _ _ ?_ ?_ ?_ ?_
  · linarith
  · push_cast; linarith
  · linarith
  · push_cast; linarith

/-- C51 (negative part): if the foot of the characteristic lies outside the local array — ghost cells included — the cell becomes zero,
whatever the state. -/
theorem C51_foot_outside_gives_zero (hd1 : dq1 ≠ 0) (hd2 : dq2 ≠ 0) (st F : ∀ r, Dist S P (D.Loc g1 g2 r) K) (r : R) (s : S) (p : P)
    (l : D.Loc g1 g2 r) (h : (l.1.val : K) < A1 r s p l * dt / dq1 ∨ A1 r s p l * dt / dq1 < l.1.val - (D.n1 r + 2 * g1 - 1)) :
    D.opAdvectQ g1 g2 q1Start q2Start dq1 dq2 A1 A2 dt st F r s p l = 0 := by
  rw [D.opAdvectQ_eq g1 g2 q1Start q2Start dq1 dq2 hd1 hd2 A1 A2 dt st F _ ((D.holds_iff g1 g2 F _).mpr rfl) r s p l]
  apply approx2_outside
  rcases h with h | h
  · exact .inl (by linarith)
  · exact .inr (.inl (by push_cast; linarith))

end Position

/-- Position advection repeated: `steps` lists the step lengths and the velocities seen by the processes. -/
def Decomp.runAdvectQ {R : Type} (D : Decomp N1 N2 R) (g1 g2 : ℕ) (q1Start q2Start dq1 dq2 : K) :
    List (K × (∀ r, S → P → D.Loc g1 g2 r → K) × (∀ r, S → P → D.Loc g1 g2 r → K) × (∀ r, Dist S P (D.Loc g1 g2 r) K)) →
    (∀ r, Dist S P (D.Loc g1 g2 r) K) → (∀ r, Dist S P (D.Loc g1 g2 r) K)
  | [], F => F
  | (dt, A1, A2, st) :: rest, F => D.runAdvectQ g1 g2 q1Start q2Start dq1 dq2 rest (D.opAdvectQ g1 g2 q1Start q2Start dq1 dq2 A1 A2 dt st F)

/-- C51 (decomposition): after any number of steps satisfying the bound of `C51_interpolates_at_foot`, two runs with different
decompositions, ghost widths and stale ghost cells hold the same global state. -/
theorem C51_decomposition_independence {R R' : Type} (D : Decomp N1 N2 R) (D' : Decomp N1 N2 R') (g1 g2 g1' g2' : ℕ) (q1Start q2Start dq1 dq2 : K)
    (hd1 : dq1 ≠ 0) (hd2 : dq2 ≠ 0)
    (steps : List ((K × (S → P → ZMod N1 × ZMod N2 → K) × (S → P → ZMod N1 × ZMod N2 → K)) ×
      ((∀ r, S → P → D.Loc g1 g2 r → K) × (∀ r, S → P → D.Loc g1 g2 r → K) × (∀ r, Dist S P (D.Loc g1 g2 r) K)) ×
      ((∀ r, S → P → D'.Loc g1' g2' r → K) × (∀ r, S → P → D'.Loc g1' g2' r → K) × (∀ r, Dist S P (D'.Loc g1' g2' r) K))))
    (hA : ∀ t ∈ steps, D.VelocityAgrees g1 g2 t.2.1.1 t.1.2.1 ∧ D.VelocityAgrees g1 g2 t.2.1.2.1 t.1.2.2 ∧
      D'.VelocityAgrees g1' g2' t.2.2.1 t.1.2.1 ∧ D'.VelocityAgrees g1' g2' t.2.2.2.1 t.1.2.2)
    (hb : ∀ t ∈ steps, ∀ s p i, |t.1.2.1 s p i * t.1.1 / dq1| ≤ g1 - 1 ∧ |t.1.2.2 s p i * t.1.1 / dq2| ≤ g2 - 1 ∧
      |t.1.2.1 s p i * t.1.1 / dq1| ≤ g1' - 1 ∧ |t.1.2.2 s p i * t.1.1 / dq2| ≤ g2' - 1)
    (F : ∀ r, Dist S P (D.Loc g1 g2 r) K) (F' : ∀ r, Dist S P (D'.Loc g1' g2' r) K) (f : Dist S P (ZMod N1 × ZMod N2) K)
    (hF : D.Holds g1 g2 F f) (hF' : D'.Holds g1' g2' F' f) :
    ∃ f', D.Holds g1 g2 (D.runAdvectQ g1 g2 q1Start q2Start dq1 dq2 (steps.map fun t => (t.1.1, t.2.1)) F) f' ∧
      D'.Holds g1' g2' (D'.runAdvectQ g1' g2' q1Start q2Start dq1 dq2 (steps.map fun t => (t.1.1, t.2.2)) F') f' := by
  induction steps generalizing F F' f with
  | nil => exact ⟨f, hF, hF'⟩
  | cons t rest ih =>
      obtain ⟨a, b, c, d⟩ := hA t (by simp)
      have hb' := hb t (by simp)
      exact ih (fun u hu => hA u (by simp [hu])) (fun u hu => hb u (by simp [hu])) _ _ _
        (C51_interpolates_at_foot D g1 g2 q1Start q2Start dq1 dq2 _ _ _ _ t.1.1 hd1 hd2 a b (fun s p i => (hb' s p i).1)
          (fun s p i => (hb' s p i).2.1) _ _ f hF)
        (C51_interpolates_at_foot D' g1' g2' q1Start q2Start dq1 dq2 _ _ _ _ t.1.1 hd1 hd2 c d (fun s p i => (hb' s p i).2.2.1)
          (fun s p i => (hb' s p i).2.2.2) _ _ f hF')

/-- C51 (accuracy): the scheme is exact where the data around the foot are a quadratic polynomial in each coordinate. -/
theorem C51_exact_on_quadratics (d1 d2 : S → P → ZMod N1 × ZMod N2 → K) (f : Dist S P (ZMod N1 × ZMod N2) K) (s : S) (p : P)
    (i : ZMod N1 × ZMod N2) (c : Fin 3 → Fin 3 → K)
    (hf : ∀ j k : ℤ, ⌊(i.1.val : K) - d1 s p i⌋ - 1 ≤ j → j ≤ ⌊(i.1.val : K) - d1 s p i⌋ + 2 → ⌊(i.2.val : K) - d2 s p i⌋ - 1 ≤ k →
      k ≤ ⌊(i.2.val : K) - d2 s p i⌋ + 2 → f s p (j, k) = ∑ m, ∑ n, c m n * (j : K) ^ (m : ℕ) * (k : K) ^ (n : ℕ)) :
    advected d1 d2 f s p i = ∑ m, ∑ n, c m n * ((i.1.val : K) - d1 s p i) ^ (m : ℕ) * ((i.2.val : K) - d2 s p i) ^ (n : ℕ) := by
  rw [advected, catmullRom2]
  generalize hx : (i.1.val : K) - d1 s p i = x at hf
  generalize hy : (i.2.val : K) - d2 s p i = y at hf
  have inner : ∀ k : ℤ, ⌊y⌋ - 1 ≤ k → k ≤ ⌊y⌋ + 2 →
      catmullRom (fun a => f s p ((a : ZMod N1), (k : ZMod N2))) x = ∑ m, ∑ n, c m n * x ^ (m : ℕ) * (k : K) ^ (n : ℕ) := by
    intro k hk hk'
    rw [catmullRom_congr _ (fun a : ℤ => (c 0 0 + c 0 1 * k + c 0 2 * (k : K) ^ 2) + (c 1 0 + c 1 1 * k + c 1 2 * (k : K) ^ 2) * a
        + (c 2 0 + c 2 1 * k + c 2 2 * (k : K) ^ 2) * (a : K) ^ 2) x, catmullRom_quadratic]
    · simp only [Fin.sum_univ_three, Fin.val_zero, Fin.val_one, Fin.val_two]
      ring
    · intro a ha ha'
      rw [hf a k ha ha' hk hk']
      simp only [Fin.sum_univ_three, Fin.val_zero, Fin.val_one, Fin.val_two]
      ring
  rw [catmullRom_congr _ (fun k : ℤ => (c 0 0 + c 1 0 * x + c 2 0 * x ^ 2) + (c 0 1 + c 1 1 * x + c 2 1 * x ^ 2) * k
        + (c 0 2 + c 1 2 * x + c 2 2 * x ^ 2) * (k : K) ^ 2) y, catmullRom_quadratic]
  · simp only [Fin.sum_univ_three, Fin.val_zero, Fin.val_one, Fin.val_two]
    ring
  · intro k hk hk'
    rw [inner k hk hk']
    simp only [Fin.sum_univ_three, Fin.val_zero, Fin.val_one, Fin.val_two]
    ring

/-- Interpolating at the same offset from every cell commutes with summing over a period. -/
theorem sum_catmullRom {N : ℕ} [NeZero N] (w : ZMod N → K) (d : K) :
    ∑ i : ZMod N, catmullRom (fun a => w (a : ZMod N)) ((i.val : K) - d) = ∑ i, w i := by
  have key : ∀ i : ZMod N, catmullRom (fun a => w (a : ZMod N)) ((i.val : K) - d) =
      cubicSpline (w (i + ((⌊-d⌋ - 1 : ℤ) : ZMod N))) (w (i + (⌊-d⌋ : ℤ))) (w (i + ((⌊-d⌋ + 1 : ℤ) : ZMod N))) (w (i + ((⌊-d⌋ + 2 : ℤ) : ZMod N))) (-d - ⌊-d⌋) := by
    intro i
    have e : (i.val : K) - d = -d + ((i.val : ℤ) : K) := by push_cast; ring
    rw [e, ← catmullRom_shift (fun a => w (a : ZMod N)) i.val (-d), catmullRom_eq]
    have c : ∀ k : ℤ, w (((k + i.val : ℤ) : ZMod N)) = w (i + (k : ZMod N)) := by
      intro k
      congr 1
      push_cast
      simp [add_comm]
    rw [c, c, c, c]
  have sh : ∀ k : ZMod N, ∑ i, w (i + k) = ∑ i, w i := fun k => Fintype.sum_equiv (Equiv.addRight k) _ _ fun _ => rfl
  simp only [key, cubicSpline_eq, Finset.sum_add_distrib, ← Finset.mul_sum, ← Finset.sum_div, Finset.sum_sub_distrib, sh]
  ring

/-- C51 (conservation): if the velocity is the same everywhere, advection keeps the total amount, at each momentum separately. -/
theorem C51_conserves (d1 d2 : S → P → K) (f : Dist S P (ZMod N1 × ZMod N2) K) (s : S) (p : P) :
    ∑ i, advected (fun s p _ => d1 s p) (fun s p _ => d2 s p) f s p i = ∑ i, f s p i := by
  rw [Fintype.sum_prod_type, Finset.sum_comm, Fintype.sum_prod_type]
  conv_rhs => rw [Finset.sum_comm]
  have lin : ∀ (x : ZMod N1 → K) (y : K), ∑ i, catmullRom (fun b => catmullRom (fun a => f s p ((a : ZMod N1), (b : ZMod N2))) (x i)) y =
      catmullRom (fun b => ∑ i, catmullRom (fun a => f s p ((a : ZMod N1), (b : ZMod N2))) (x i)) y := by
    intro x y
    simp only [catmullRom_eq _ y, cubicSpline_eq, Finset.sum_add_distrib, ← Finset.mul_sum, ← Finset.sum_div, Finset.sum_sub_distrib]
  have h1 : ∀ b : ZMod N2, ∑ i : ZMod N1, advected (fun s p _ => d1 s p) (fun s p _ => d2 s p) f s p (i, b) =
      catmullRom (fun b' : ℤ => ∑ i : ZMod N1, f s p (i, (b' : ZMod N2))) ((b.val : K) - d2 s p) := by
    intro b
    simp only [advected, catmullRom2]
    rw [lin]
    congr 1
    funext b'
    exact sum_catmullRom (fun a => f s p (a, (b' : ZMod N2))) (d1 s p)
  simp only [h1]
  exact sum_catmullRom (fun b => ∑ i, f s p (i, b)) (d2 s p)

/-- C51 (negative part): the interpolant overshoots: moving a nonnegative density by half a cell makes a cell negative. -/
theorem C51_overshoots : ∃ f : Dist Unit Unit (ZMod 6 × ZMod 1) ℚ, (∀ s p i, 0 ≤ f s p i) ∧
    advected (fun _ _ _ => (1 / 2 : ℚ)) (fun _ _ _ => 0) f () () (0, 0) < 0 := by
  refine ⟨fun _ _ i => if i.1 = 1 then 1 else 0, fun _ _ i => by dsimp only; split_ifs <;> norm_num, ?_⟩
  have hf : ⌊(-1 / 2 : ℚ)⌋ = -1 := by rw [Int.floor_eq_iff]; norm_num
  rw [advected, catmullRom2]
  have e : ((((0 : ZMod 1).val : ℕ) : ℚ) - 0) = ((0 : ℤ) : ℚ) := by simp
  simp only [e, catmullRom_int]
  rw [catmullRom_eq]
  have e2 : ((((0 : ZMod 6).val : ℕ) : ℚ) - 1 / 2) = -1 / 2 := by norm_num
  simp only [e2, hf, cubicSpline_eq]
  have c1 : ((-1 - 1 : ℤ) : ZMod 6) ≠ 1 := by decide
  have c2 : ((-1 : ℤ) : ZMod 6) ≠ 1 := by decide
  have c3 : ((-1 + 1 : ℤ) : ZMod 6) ≠ 1 := by decide
  have c4 : ((-1 + 2 : ℤ) : ZMod 6) = 1 := by decide
  rw [if_neg c1, if_neg c2, if_neg c3, if_pos c4]
  norm_num

/-- Two processes, three cells each, moving by half a cell: the hypotheses of `C51_interpolates_at_foot` hold with two ghost cells. -/
example : (exD.Holds 2 1 (fun r s p l => (fun (_ : Unit) (_ : Unit) (i : ZMod 6 × ZMod 1) => ((i.1.val : ℚ))) s p (exD.toGlob 2 1 r l))
      (fun _ _ i => (i.1.val : ℚ))) ∧ exD.VelocityAgrees 2 1 (fun _ (_ : Unit) (_ : Unit) _ => (1 : ℚ)) (fun _ _ _ => 1) ∧
    |(1 : ℚ) * (1 / 2) / 1| ≤ ((2 : ℕ) : ℚ) - 1 ∧ |(0 : ℚ) * (1 / 2) / 1| ≤ ((1 : ℕ) : ℚ) - 1 := by
  refine ⟨fun r s p l _ => rfl, fun r s p l _ => rfl, ?_, ?_⟩
  · rw [abs_of_nonneg] <;> norm_num
  · norm_num

section Momentum
variable {Q : Type} {Np1 Np2 Np3 : ℕ} [NeZero Np2] [NeZero Np3] (p2Start p3Start dp2 dp3 : S → K) (A1 A2 A3 : Dist S (AslPIdx Np1 Np2 Np3) Q K) (dt : K)

theorem fInterpP3d_eq (s : S) (h2 : dp2 s ≠ 0) (h3 : dp3 s ≠ 0) (f : Dist S (AslPIdx Np1 Np2 Np3) Q K) (p : AslPIdx Np1 Np2 Np3) (q : Q) :
    fInterpP3d p2Start p3Start dp2 dp3 A1 A2 A3 dt f s p q =
      approx2 Np2 Np3 (fun a b => f s (p.1, (a : ZMod Np2), (b : ZMod Np3)) q) ((p.2.1.val : K) - A2 s p q * dt / dp2 s) ((p.2.2.val : K) - A3 s p q * dt / dp3 s) := by
  simp only [fInterpP3d]
  congr 1
  · field_simp; ring
  · field_simp; ring

/-- C51 (momentum): where the displacements along the second and third momentum axes are whole numbers of cells the value is the one found
there if that is inside the momentum grid, and zero otherwise. -/
theorem C51_momentum_whole_cells (s : S) (h2 : dp2 s ≠ 0) (h3 : dp3 s ≠ 0) (f : Dist S (AslPIdx Np1 Np2 Np3) Q K) (p : AslPIdx Np1 Np2 Np3) (q : Q)
    (j k : ℤ) (e2 : A2 s p q * dt = j * dp2 s) (e3 : A3 s p q * dt = k * dp3 s) :
    fInterpP3d p2Start p3Start dp2 dp3 A1 A2 A3 dt f s p q =
      if (0 ≤ (p.2.1.val : ℤ) - j ∧ (p.2.1.val : ℤ) - j < Np2) ∧ (0 ≤ (p.2.2.val : ℤ) - k ∧ (p.2.2.val : ℤ) - k < Np3)
      then f s (p.1, p.2.1 - (j : ZMod Np2), p.2.2 - (k : ZMod Np3)) q else 0 := by
  rw [fInterpP3d_eq p2Start p3Start dp2 dp3 A1 A2 A3 dt s h2 h3, e2, e3, mul_div_cancel_right₀ _ h2, mul_div_cancel_right₀ _ h3,
    show (p.2.1.val : K) - (j : K) = (((p.2.1.val : ℤ) - j : ℤ) : K) by push_cast; ring,
    show (p.2.2.val : K) - (k : K) = (((p.2.2.val : ℤ) - k : ℤ) : K) by push_cast; ring]
  split_ifs with h
  · obtain ⟨⟨a, b⟩, c, d⟩ := h
    rw [approx2_int _ _ _ _ _ a b c d]
    congr 3
    · push_cast; simp
    · push_cast; simp
  · apply approx2_outside
    by_contra hc
    push Not at hc
    apply h
    obtain ⟨c1, c2, c3, c4⟩ := hc
    have t1 : (0 : ℤ) ≤ p.2.1.val - j := by exact_mod_cast c1
    have t2 : (p.2.1.val - j : ℤ) ≤ (Np2 : ℤ) - 1 := by
      have : (((p.2.1.val : ℤ) - j : ℤ) : K) ≤ (((Np2 : ℤ) - 1 : ℤ) : K) := by push_cast at c2 ⊢; linarith
      exact_mod_cast this
    have t3 : (0 : ℤ) ≤ p.2.2.val - k := by exact_mod_cast c3
    have t4 : (p.2.2.val - k : ℤ) ≤ (Np3 : ℤ) - 1 := by
      have : (((p.2.2.val : ℤ) - k : ℤ) : K) ≤ (((Np3 : ℤ) - 1 : ℤ) : K) := by push_cast at c4 ⊢; linarith
      exact_mod_cast this
    omega

/-- C51 (momentum, no time): a step of length zero changes nothing. -/
theorem C51_momentum_no_time (s : S) (h2 : dp2 s ≠ 0) (h3 : dp3 s ≠ 0) (f : Dist S (AslPIdx Np1 Np2 Np3) Q K) (p : AslPIdx Np1 Np2 Np3) (q : Q) :
    fInterpP3d p2Start p3Start dp2 dp3 A1 A2 A3 0 f s p q = f s p q := by
  have b2 := ZMod.val_lt p.2.1
  have b3 := ZMod.val_lt p.2.2
  rw [C51_momentum_whole_cells p2Start p3Start dp2 dp3 A1 A2 A3 0 s h2 h3 f p q 0 0 (by simp) (by simp), if_pos ⟨⟨by omega, by omega⟩, by omega, by omega⟩]
  simp

/-- C51 (momentum, inside): where the foot is at least a cell inside the momentum grid the value is the Catmull-Rom interpolant there. -/
theorem C51_momentum_interpolates (s : S) (h2 : dp2 s ≠ 0) (h3 : dp3 s ≠ 0) (f : Dist S (AslPIdx Np1 Np2 Np3) Q K) (p : AslPIdx Np1 Np2 Np3) (q : Q)
    (b2 : 1 ≤ (p.2.1.val : K) - A2 s p q * dt / dp2 s) (b2' : (p.2.1.val : K) - A2 s p q * dt / dp2 s ≤ Np2 - 2)
    (b3 : 1 ≤ (p.2.2.val : K) - A3 s p q * dt / dp3 s) (b3' : (p.2.2.val : K) - A3 s p q * dt / dp3 s ≤ Np3 - 2) :
    fInterpP3d p2Start p3Start dp2 dp3 A1 A2 A3 dt f s p q =
      catmullRom2 (fun a b => f s (p.1, (a : ZMod Np2), (b : ZMod Np3)) q) ((p.2.1.val : K) - A2 s p q * dt / dp2 s) ((p.2.2.val : K) - A3 s p q * dt / dp3 s) := by
  rw [fInterpP3d_eq p2Start p3Start dp2 dp3 A1 A2 A3 dt s h2 h3, approx2_inner _ _ _ _ _ b2 b2' b3 b3']

/-- C51 (negative part): the force along the first momentum axis is ignored: when it is the only force, a step of any length changes nothing
(so the distribution is not advected along that axis at all). -/
theorem C51_first_momentum_axis_never_advected (s : S) (h2 : dp2 s ≠ 0) (h3 : dp3 s ≠ 0) (f : Dist S (AslPIdx Np1 Np2 Np3) Q K) (p : AslPIdx Np1 Np2 Np3) (q : Q)
    (z2 : A2 s p q = 0) (z3 : A3 s p q = 0) : fInterpP3d p2Start p3Start dp2 dp3 A1 A2 A3 dt f s p q = f s p q := by
  have b2 := ZMod.val_lt p.2.1
  have b3 := ZMod.val_lt p.2.2
  rw [C51_momentum_whole_cells p2Start p3Start dp2 dp3 A1 A2 A3 dt s h2 h3 f p q 0 0 (by simp [z2]) (by simp [z3]), if_pos ⟨⟨by omega, by omega⟩, by omega, by omega⟩]
  simp

end Momentum

section Source
variable {K V : Type} [Field K] [AddCommGroup V] [Module K V]

/-- C52: instantaneous collisions replace the distribution by what the source callback returns when told so, whether or not the source is
enabled; otherwise an enabled source is integrated by one midpoint step and a disabled one does nothing. -/
theorem C52_cases (source : K → V → Bool → V) (t dt : K) (f : V) :
    (∀ en, opSolveSrc true en source t dt f = source t f true) ∧
    opSolveSrc false true source t dt f = f + dt • source t (f + (dt / 2) • source t f false) false ∧
    opSolveSrc false false source t dt f = f :=
  ⟨fun en => by simp [opSolveSrc], by simp [opSolveSrc, integratorRK2], by simp [opSolveSrc]⟩

/-- C52: a linear functional (density, momentum, energy, ...) that vanishes on every value of the source does not change; with
instantaneous collisions it does not change if the callback keeps it. -/
theorem C52_conserves {W : Type} [AddCommGroup W] [Module K W] (φ : V →ₗ[K] W) (source : K → V → Bool → V) (t dt : K) (f : V)
    (h : ∀ g, φ (source t g false) = 0) (h' : φ (source t f true) = φ f) (inst en : Bool) : φ (opSolveSrc inst en source t dt f) = φ f := by
  cases inst <;> cases en <;> simp [opSolveSrc, integratorRK2, h, h']

/-- C52: with a relaxation source `-(f - f₀)/τ` (fixed target) the distance from equilibrium is multiplied by `1 - z + z²/2`, `z = dt/τ`. -/
theorem C52_relaxation (f0 : V) (τ : K) (src : V → V) (t dt : K) (f : V) :
    opSolveSrc false true (fun _ g b => if b then src g else -((1 / τ) • (g - f0))) t dt f - f0 = (1 - dt / τ + (dt / τ) ^ 2 / 2) • (f - f0) := by
  have e : opSolveSrc false true (fun _ g b => if b then src g else -((1 / τ) • (g - f0))) t dt f =
      f + dt • -((1 / τ) • (f + (dt / 2) • -((1 / τ) • (f - f0)) - f0)) := by
    simp [opSolveSrc, integratorRK2]
  rw [e]
  have : f + (dt / 2) • -((1 / τ) • (f - f0)) - f0 = (1 - dt / τ / 2) • (f - f0) := by
    rw [sub_smul, one_smul, smul_neg, smul_smul, show dt / 2 * (1 / τ) = dt / τ / 2 by ring]
    abel
  rw [this, smul_smul, smul_neg, smul_smul, show dt * (1 / τ * (1 - dt / τ / 2)) = dt / τ - (dt / τ) ^ 2 / 2 by ring,
    show (1 - dt / τ + (dt / τ) ^ 2 / 2 : K) = 1 - (dt / τ - (dt / τ) ^ 2 / 2) by ring, sub_smul (1 : K), one_smul]
  abel

/-- C52: an equilibrium (zero of the source) stays put. -/
theorem C52_equilibrium (source : K → V → Bool → V) (t dt : K) (f : V) (h : source t f false = 0) (h' : source t f true = f) (inst en : Bool) :
    opSolveSrc inst en source t dt f = f := by
  cases inst <;> cases en <;> simp [opSolveSrc, integratorRK2, h, h']

/-- The distance to equilibrium after a step of half a relaxation time is 5/8 of what it was. -/
example : opSolveSrc false true (fun _ (g : ℚ) b => if b then 0 else -((1 / (2 : ℚ)) • (g - 1))) (0 : ℚ) 1 5 = 1 + 5 / 8 * 4 := by
  rw [← sub_eq_iff_eq_add', C52_relaxation (K := ℚ) (V := ℚ) 1 2 (fun _ => 0) 0 1 5]
  norm_num

end Source

section Fields

/-- C60: for every accepted electrostatic system the semi-Lagrangian field step does nothing but advect in momentum: Poisson's equation is
never solved again, so particles keep moving in the initial field. -/
theorem C60_electrostatic_fields_never_updated {σ : Type} (x : SystemIn K) (hx : Acceptable x) (he : x.fieldsType = "electrostatic")
    (hybrid : Bool) (poisson hybridFdtd interpP : σ → Except PyErr σ) (s : σ) :
    aslOpFields x.fieldsSolver hybrid poisson hybridFdtd interpP s = interpP s := by
  have h := hx.electrostatic he
  have h1 : x.fieldsSolver ≠ "electrostatic" := by
    intro hc
    rw [hc] at h
    revert h
    decide
  have h2 : x.fieldsSolver ≠ "fdtd" := by
    intro hc
    rw [hc] at h
    revert h
    decide
  simp [aslOpFields, h1, h2]

/-- C60: for every accepted electrodynamic system the field step advances the fields only in a hybrid run whose solver is spelt `fdtd` in
lower case; it raises `NameError` in other runs spelt so and leaves the fields alone in runs spelt otherwise. -/
theorem C60_electrodynamic {σ : Type} (x : SystemIn K) (hx : Acceptable x) (he : x.fieldsType = "electrodynamic")
    (hybrid : Bool) (poisson hybridFdtd interpP : σ → Except PyErr σ) (s : σ) :
    aslOpFields x.fieldsSolver hybrid poisson hybridFdtd interpP s =
      if x.fieldsSolver = "fdtd" then (if hybrid = true then hybridFdtd s >>= interpP else .error .nameError) else interpP s := by
  have h := hx.electrodynamic he
  have h1 : x.fieldsSolver ≠ "electrostatic" := by
    intro hc
    rw [hc] at h
    revert h
    decide
  rw [aslOpFields, if_neg h1]
  split_ifs with h2 h3
  · rfl
  · rfl
  · rfl

example : Acceptable (exSystem (-2) 2 "electrostatic" "fft") ∧ Acceptable (exSystem (-2) 2 "electrodynamic" "FDTD") :=
  ⟨exSystem_acceptable _ _ _ _ (fun h => absurd h (by decide)) (fun _ => .inr (by decide)),
    exSystem_acceptable _ _ _ _ (fun _ => by decide) (fun h => absurd h (by decide))⟩

end Fields

end Bolt
