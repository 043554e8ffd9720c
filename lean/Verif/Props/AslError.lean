import Verif.Proofs.AslConverge
import Verif.Props.Convergence

/-!
# C92: semi-Lagrangian advection never amplifies, and converges
-/

set_option linter.unusedSectionVars false

namespace Bolt

section
variable {K : Type} [Field K] [LinearOrder K] [IsStrictOrderedRing K] [FloorRing K] {S P : Type} {N1 N2 : ℕ} [NeZero N1] [NeZero N2]

/-- Interpolation along the first axis. -/
def alongQ1 (d : K) (v : ZMod N1 × ZMod N2 → K) : ZMod N1 × ZMod N2 → K := fun i => catmullRom (fun a => v ((a : ZMod N1), i.2)) ((i.1.val : K) - d)

/-- Interpolation along the second axis. -/
def alongQ2 (d : K) (v : ZMod N1 × ZMod N2 → K) : ZMod N1 × ZMod N2 → K := fun i => catmullRom (fun b => v (i.1, (b : ZMod N2))) ((i.2.val : K) - d)

theorem advected_eq (d1 d2 : S → P → K) (f : Dist S P (ZMod N1 × ZMod N2) K) (s : S) (p : P) :
    advected (fun s p _ => d1 s p) (fun s p _ => d2 s p) f s p = alongQ2 (d2 s p) (alongQ1 (d1 s p) (f s p)) := rfl

theorem sum_sq_alongQ1 (d : K) (v : ZMod N1 × ZMod N2 → K) : ∑ i, alongQ1 d v i ^ 2 ≤ ∑ i, v i ^ 2 := by
  rw [Fintype.sum_prod_type_right, Fintype.sum_prod_type_right]
  exact Finset.sum_le_sum fun b _ => sum_sq_catmullRom_le (fun a => v (a, b)) d

theorem sum_sq_alongQ2 (d : K) (v : ZMod N1 × ZMod N2 → K) : ∑ i, alongQ2 d v i ^ 2 ≤ ∑ i, v i ^ 2 := by
  rw [Fintype.sum_prod_type, Fintype.sum_prod_type]
  exact Finset.sum_le_sum fun a _ => sum_sq_catmullRom_le (fun b => v (a, b)) d

theorem sum_sq_alongQ1_iff (d : K) (v : ZMod N1 × ZMod N2 → K) : ∑ i, alongQ1 d v i ^ 2 = ∑ i, v i ^ 2 ↔ (∃ k : ℤ, d = k) ∨ ∀ i j b, v (i, b) = v (j, b) := by
  simp only [alongQ1]
  rw [Fintype.sum_prod_type_right, Fintype.sum_prod_type_right,
    Finset.sum_eq_sum_iff_of_le fun b _ => sum_sq_catmullRom_le (fun a => v (a, b)) d]
  constructor
  · intro h
    by_cases hd : ∃ k : ℤ, d = k
    · exact .inl hd
    · exact .inr fun i j b => ((sum_sq_catmullRom_eq_iff (fun a => v (a, b)) d).1 (h b (Finset.mem_univ b))).resolve_left hd i j
  · rintro (h | h) b -
    · exact (sum_sq_catmullRom_eq_iff (fun a => v (a, b)) d).2 (.inl h)
    · exact (sum_sq_catmullRom_eq_iff (fun a => v (a, b)) d).2 (.inr fun i j => h i j b)

theorem sum_sq_alongQ2_iff (d : K) (v : ZMod N1 × ZMod N2 → K) : ∑ i, alongQ2 d v i ^ 2 = ∑ i, v i ^ 2 ↔ (∃ k : ℤ, d = k) ∨ ∀ a i j, v (a, i) = v (a, j) := by
  simp only [alongQ2]
  rw [Fintype.sum_prod_type, Fintype.sum_prod_type,
    Finset.sum_eq_sum_iff_of_le fun a _ => sum_sq_catmullRom_le (fun b => v (a, b)) d]
  constructor
  · intro h
    by_cases hd : ∃ k : ℤ, d = k
    · exact .inl hd
    · exact .inr fun a => ((sum_sq_catmullRom_eq_iff (fun b => v (a, b)) d).1 (h a (Finset.mem_univ a))).resolve_left hd
  · rintro (h | h) a -
    · exact (sum_sq_catmullRom_eq_iff (fun b => v (a, b)) d).2 (.inl h)
    · exact (sum_sq_catmullRom_eq_iff (fun b => v (a, b)) d).2 (.inr (h a))

theorem alongQ1_int (k : ℤ) (v : ZMod N1 × ZMod N2 → K) : alongQ1 (k : K) v = fun i => v (i.1 - (k : ZMod N1), i.2) := by
  funext i
  rw [alongQ1, show ((i.1.val : ℕ) : K) - (k : K) = (((i.1.val : ℤ) - k : ℤ) : K) by push_cast; ring, catmullRom_int]
  push_cast
  rw [ZMod.natCast_val, ZMod.cast_id', id]

/-- **C92 (no amplification).** If the velocity is the same everywhere, advection by the semi-Lagrangian method over any distance never
increases the sum of the squares of the values, at any momentum. -/
theorem C92_never_amplifies (d1 d2 : S → P → K) (f : Dist S P (ZMod N1 × ZMod N2) K) (s : S) (p : P) :
    ∑ i, advected (fun s p _ => d1 s p) (fun s p _ => d2 s p) f s p i ^ 2 ≤ ∑ i, f s p i ^ 2 := by
  rw [advected_eq]
  exact (sum_sq_alongQ2 _ _).trans (sum_sq_alongQ1 _ _)

/-- **C92 (when it is kept).** The sum of squares is kept exactly if, along each axis, the particles move by a whole number of cells or the
data do not vary. -/
theorem C92_kept_iff (d1 d2 : S → P → K) (f : Dist S P (ZMod N1 × ZMod N2) K) (s : S) (p : P) :
    ∑ i, advected (fun s p _ => d1 s p) (fun s p _ => d2 s p) f s p i ^ 2 = ∑ i, f s p i ^ 2 ↔
      ((∃ k : ℤ, d1 s p = k) ∨ ∀ i j b, f s p (i, b) = f s p (j, b)) ∧ ((∃ k : ℤ, d2 s p = k) ∨ ∀ a i j, f s p (a, i) = f s p (a, j)) := by
  rw [advected_eq]
  have h1 := sum_sq_alongQ1 (d1 s p) (f s p)
  have h2 := sum_sq_alongQ2 (d2 s p) (alongQ1 (d1 s p) (f s p))
  have split : ∑ i, alongQ2 (d2 s p) (alongQ1 (d1 s p) (f s p)) i ^ 2 = ∑ i, f s p i ^ 2 ↔
      ∑ i, alongQ1 (d1 s p) (f s p) i ^ 2 = ∑ i, f s p i ^ 2 ∧
      ∑ i, alongQ2 (d2 s p) (alongQ1 (d1 s p) (f s p)) i ^ 2 = ∑ i, alongQ1 (d1 s p) (f s p) i ^ 2 :=
    ⟨fun h => ⟨le_antisymm h1 (by rw [← h]; exact h2), le_antisymm h2 (by rw [h]; exact h1)⟩, fun ⟨a, b⟩ => b.trans a⟩
  rw [split, sum_sq_alongQ1_iff, sum_sq_alongQ2_iff]
  refine and_congr_right fun h => or_congr_right ?_
  rcases h with ⟨k, hk⟩ | h
  · rw [hk, alongQ1_int]
    constructor
    · intro h a i j
      have := h (a + (k : ZMod N1)) i j
      simpa using this
    · exact fun h a i j => h _ i j
  · have : alongQ1 (d1 s p) (f s p) = f s p := by
      funext i
      rw [alongQ1, catmullRom_periodic (fun a => f s p (a, i.2))]
      simp only [h _ i.1 i.2]
      exact cubicSpline_const _ _
    rw [this]

theorem alongQ1_sub (d : K) (u v : ZMod N1 × ZMod N2 → K) : alongQ1 d (u - v) = alongQ1 d u - alongQ1 d v := by
  funext i
  simp only [alongQ1, Pi.sub_apply, catmullRom_eq, cubicSpline]
  ring

theorem alongQ2_sub (d : K) (u v : ZMod N1 × ZMod N2 → K) : alongQ2 d (u - v) = alongQ2 d u - alongQ2 d v := by
  funext i
  simp only [alongQ2, Pi.sub_apply, catmullRom_eq, cubicSpline]
  ring

/-- **C92 (errors never grow).** Two runs of position advection with the same constant velocities, on any decomposition and with any steps
that the ghost cells cover, never come further apart than they began, in the sum of the squares of the differences. -/
theorem C92_runs_never_drift_apart {R : Type} (D : Decomp N1 N2 R) (g1 g2 : ℕ) (q1Start q2Start dq1 dq2 : K) (hd1 : dq1 ≠ 0) (hd2 : dq2 ≠ 0)
    (v1 v2 : S → P → K)
    (steps : List (K × (∀ r, S → P → D.Loc g1 g2 r → K) × (∀ r, S → P → D.Loc g1 g2 r → K) × (∀ r, Dist S P (D.Loc g1 g2 r) K)))
    (hA : ∀ t ∈ steps, D.VelocityAgrees g1 g2 t.2.1 (fun s p _ => v1 s p) ∧ D.VelocityAgrees g1 g2 t.2.2.1 fun s p _ => v2 s p)
    (hb : ∀ t ∈ steps, ∀ s p, |v1 s p * t.1 / dq1| ≤ g1 - 1 ∧ |v2 s p * t.1 / dq2| ≤ g2 - 1)
    (F G : ∀ r, Dist S P (D.Loc g1 g2 r) K) (f g : Dist S P (ZMod N1 × ZMod N2) K) (hF : D.Holds g1 g2 F f) (hG : D.Holds g1 g2 G g) :
    ∃ f' g', D.Holds g1 g2 (D.runAdvectQ g1 g2 q1Start q2Start dq1 dq2 steps F) f' ∧
      D.Holds g1 g2 (D.runAdvectQ g1 g2 q1Start q2Start dq1 dq2 steps G) g' ∧
      ∀ s p, ∑ i, (f' s p i - g' s p i) ^ 2 ≤ ∑ i, (f s p i - g s p i) ^ 2 := by
  induction steps generalizing F G f g with
  | nil => exact ⟨f, g, hF, hG, fun s p => le_refl _⟩
  | cons t rest ih =>
    obtain ⟨a, b⟩ := hA t (by simp)
    have hb' := hb t (by simp)
    have one : ∀ (F : ∀ r, Dist S P (D.Loc g1 g2 r) K) f, D.Holds g1 g2 F f → _ := fun F f hF =>
      C51_interpolates_at_foot D g1 g2 q1Start q2Start dq1 dq2 _ _ _ _ t.1 hd1 hd2 a b (fun s p i => (hb' s p).1) (fun s p i => (hb' s p).2) t.2.2.2 F f hF
    obtain ⟨f', g', hf', hg', h⟩ := ih (fun u hu => hA u (by simp [hu])) (fun u hu => hb u (by simp [hu])) _ _ _ _ (one F f hF) (one G g hG)
    refine ⟨f', g', hf', hg', fun s p => (h s p).trans ?_⟩
    simp only [advected_eq (fun s p => v1 s p * t.1 / dq1) (fun s p => v2 s p * t.1 / dq2)]
    have e := congrArg (alongQ2 (v2 s p * t.1 / dq2)) (alongQ1_sub (v1 s p * t.1 / dq1) (f s p) (g s p))
    rw [alongQ2_sub] at e
    have := (sum_sq_alongQ2 (v2 s p * t.1 / dq2) (alongQ1 (v1 s p * t.1 / dq1) (f s p - g s p))).trans (sum_sq_alongQ1 _ _)
    rw [e] at this
    exact this

end

section converge
variable {S P : Type} {N1 N2 : ℕ} [NeZero N1] [NeZero N2]

theorem ThriceSmooth.carried {L1 L2 M1 M2 : ℝ} {g : ℝ × ℝ → ℝ} (h : ThriceSmooth L1 L2 M1 M2 g) (v1 v2 t : ℝ) :
    ThriceSmooth L1 L2 M1 M2 (carried g v1 v2 t) where
  smooth1 y := (h.smooth1 (y - v2 * t)).comp (contDiff_id.sub contDiff_const)
  smooth2 x := (h.smooth2 (x - v1 * t)).comp (contDiff_id.sub contDiff_const)
  bound1 x y := by
    have := iteratedDeriv_comp_sub_const 3 (fun x => g (x, y - v2 * t)) (v1 * t)
    simp only [Bolt.carried]
    rw [this]
    exact h.bound1 _ _
  bound2 x y := by
    have := iteratedDeriv_comp_sub_const 3 (fun y => g (x - v1 * t, y)) (v2 * t)
    simp only [Bolt.carried]
    rw [this]
    exact h.bound2 _ _
  periodic1 x y := by
    simp only [Bolt.carried]
    rw [show x + L1 - v1 * t = x - v1 * t + L1 by ring, h.periodic1]
  periodic2 x y := by
    simp only [Bolt.carried]
    rw [show y + L2 - v2 * t = y - v2 * t + L2 by ring, h.periodic2]

/-- One step of the scheme from data near the samples of a smooth profile. -/
theorem step_error {L1 L2 M1 M2 : ℝ} {g : ℝ × ℝ → ℝ} (h : ThriceSmooth L1 L2 M1 M2 g) (p1 : 0 < L1) (p2 : 0 < L2) (start1 start2 v1 v2 dt : ℝ) (hdt : 0 ≤ dt)
    (u : ZMod N1 × ZMod N2 → ℝ) :
    rms (alongQ2 (v2 * dt / (L2 / N2)) (alongQ1 (v1 * dt / (L1 / N1)) u) - fun i => carried g v1 v2 dt (gridCentre start1 start2 L1 L2 i)) ≤
      rms (u - fun i => g (gridCentre start1 start2 L1 L2 i)) + dt * ((M1 * |v1| * (L1 / N1) ^ 2 + M2 * |v2| * (L2 / N2) ^ 2) / 2) := by
  have h1 : 0 < L1 / N1 := div_pos p1 (Nat.cast_pos.2 (NeZero.pos N1))
  have h2 : 0 < L2 / N2 := div_pos p2 (Nat.cast_pos.2 (NeZero.pos N2))
  set d1 := v1 * dt / (L1 / N1) with hd1
  set d2 := v2 * dt / (L2 / N2) with hd2
  have c1 : d1 * (L1 / N1) = v1 * dt := div_mul_cancel₀ _ h1.ne'
  have c2 : d2 * (L2 / N2) = v2 * dt := div_mul_cancel₀ _ h2.ne'
  set s : ZMod N1 × ZMod N2 → ℝ := fun i => g (gridCentre start1 start2 L1 L2 i) with hs
  set s1 : ZMod N1 × ZMod N2 → ℝ := fun i => g (cellCentre start1 L1 N1 i.1 - v1 * dt, cellCentre start2 L2 N2 i.2) with hs1
  have e1 : rms (alongQ1 d1 s - s1) ≤ M1 / 2 * (L1 / N1) ^ 3 * |d1| := rms_le_of_abs fun i => by
    have := periodic_error (h.smooth1 (cellCentre start2 L2 N2 i.2)) (fun x => h.bound1 x _) (fun x => h.periodic1 x _) start1 N1 i.1 d1
    rw [c1, abs_of_pos h1] at this
    exact this
  have e2 : rms (alongQ2 d2 s1 - fun i => carried g v1 v2 dt (gridCentre start1 start2 L1 L2 i)) ≤ M2 / 2 * (L2 / N2) ^ 3 * |d2| :=
    rms_le_of_abs fun i => by
      have := periodic_error (h.smooth2 (cellCentre start1 L1 N1 i.1 - v1 * dt)) (fun x => h.bound2 _ x) (fun x => h.periodic2 _ x) start2 N2 i.2 d2
      rw [c2, abs_of_pos h2] at this
      exact this
  have e : alongQ2 d2 (alongQ1 d1 u) - (fun i => carried g v1 v2 dt (gridCentre start1 start2 L1 L2 i)) =
      alongQ2 d2 (alongQ1 d1 (u - s)) + (alongQ2 d2 (alongQ1 d1 s - s1) + (alongQ2 d2 s1 - fun i => carried g v1 v2 dt (gridCentre start1 start2 L1 L2 i))) := by
    rw [alongQ1_sub, alongQ2_sub, alongQ2_sub]
    abel
  rw [e]
  have t1 := rms_add_le (alongQ2 d2 (alongQ1 d1 (u - s)))
    (alongQ2 d2 (alongQ1 d1 s - s1) + (alongQ2 d2 s1 - fun i => carried g v1 v2 dt (gridCentre start1 start2 L1 L2 i)))
  have t2 := rms_add_le (alongQ2 d2 (alongQ1 d1 s - s1)) (alongQ2 d2 s1 - fun i => carried g v1 v2 dt (gridCentre start1 start2 L1 L2 i))
  have t3 := rms_mono ((sum_sq_alongQ2 d2 (alongQ1 d1 (u - s))).trans (sum_sq_alongQ1 _ _))
  have t4 := rms_mono (sum_sq_alongQ2 d2 (alongQ1 d1 s - s1))
  have a1 : (L1 / N1) * |d1| = |v1| * dt := by
    calc L1 / N1 * |d1| = |d1 * (L1 / N1)| := by rw [abs_mul, abs_of_pos h1, mul_comm]
      _ = _ := by rw [c1, abs_mul, abs_of_nonneg hdt]
  have a2 : (L2 / N2) * |d2| = |v2| * dt := by
    calc L2 / N2 * |d2| = |d2 * (L2 / N2)| := by rw [abs_mul, abs_of_pos h2, mul_comm]
      _ = _ := by rw [c2, abs_mul, abs_of_nonneg hdt]
  have f1 : M1 / 2 * (L1 / N1) ^ 3 * |d1| = dt * (M1 * |v1| * (L1 / N1) ^ 2 / 2) := by
    calc _ = M1 / 2 * (L1 / N1) ^ 2 * ((L1 / N1) * |d1|) := by ring
      _ = _ := by rw [a1]; ring
  have f2 : M2 / 2 * (L2 / N2) ^ 3 * |d2| = dt * (M2 * |v2| * (L2 / N2) ^ 2 / 2) := by
    calc _ = M2 / 2 * (L2 / N2) ^ 2 * ((L2 / N2) * |d2|) := by ring
      _ = _ := by rw [a2]; ring
  rw [f1] at e1
  rw [f2] at e2
  linarith

/-- **C92 (error bound).** On a periodic grid let every species and momentum carry a constant velocity `(v1, v2)`, and let the processes
begin with the values of a thrice smooth periodic profile at the cell centres.  After any number of steps, of any sizes that the ghost cells
cover, the processes hold a distribution that differs from free streaming, in root mean square, by at most half the elapsed time times
`M1 |v1| h1² + M2 |v2| h2²`.  The bound does not depend on the number or the sizes of the steps. -/
theorem C92_error_bound {R : Type} (D : Decomp N1 N2 R) (g1 g2 : ℕ) (start1 start2 L1 L2 : ℝ) (p1 : 0 < L1) (p2 : 0 < L2) (v1 v2 M1 M2 : S → P → ℝ)
    (steps : List (ℝ × (∀ r, S → P → D.Loc g1 g2 r → ℝ) × (∀ r, S → P → D.Loc g1 g2 r → ℝ) × (∀ r, Dist S P (D.Loc g1 g2 r) ℝ)))
    (hdt : ∀ t ∈ steps, 0 ≤ t.1)
    (hA : ∀ t ∈ steps, D.VelocityAgrees g1 g2 t.2.1 (fun s p _ => v1 s p) ∧ D.VelocityAgrees g1 g2 t.2.2.1 fun s p _ => v2 s p)
    (hb : ∀ t ∈ steps, ∀ s p, |v1 s p * t.1 / (L1 / N1)| ≤ g1 - 1 ∧ |v2 s p * t.1 / (L2 / N2)| ≤ g2 - 1)
    (F : ∀ r, Dist S P (D.Loc g1 g2 r) ℝ) (g : S → P → ℝ × ℝ → ℝ) (hg : ∀ s p, ThriceSmooth L1 L2 (M1 s p) (M2 s p) (g s p))
    (hF : D.Holds g1 g2 F fun s p i => g s p (gridCentre start1 start2 L1 L2 i)) :
    ∃ f', D.Holds g1 g2 (D.runAdvectQ g1 g2 start1 start2 (L1 / N1) (L2 / N2) steps F) f' ∧
      ∀ s p, rms (fun i => f' s p i - carried (g s p) (v1 s p) (v2 s p) (elapsed steps) (gridCentre start1 start2 L1 L2 i)) ≤
        elapsed steps * ((M1 s p * |v1 s p| * (L1 / N1) ^ 2 + M2 s p * |v2 s p| * (L2 / N2) ^ 2) / 2) := by
  have h1 : L1 / N1 ≠ 0 := (div_pos p1 (Nat.cast_pos.2 (NeZero.pos N1))).ne'
  have h2 : L2 / N2 ≠ 0 := (div_pos p2 (Nat.cast_pos.2 (NeZero.pos N2))).ne'
  have main : ∀ (F : ∀ r, Dist S P (D.Loc g1 g2 r) ℝ) (f : Dist S P (ZMod N1 × ZMod N2) ℝ) (g : S → P → ℝ × ℝ → ℝ),
      (∀ s p, ThriceSmooth L1 L2 (M1 s p) (M2 s p) (g s p)) → D.Holds g1 g2 F f →
      ∃ f', D.Holds g1 g2 (D.runAdvectQ g1 g2 start1 start2 (L1 / N1) (L2 / N2) steps F) f' ∧
        ∀ s p, rms (f' s p - fun i => carried (g s p) (v1 s p) (v2 s p) (elapsed steps) (gridCentre start1 start2 L1 L2 i)) ≤
          rms (f s p - fun i => g s p (gridCentre start1 start2 L1 L2 i)) +
            elapsed steps * ((M1 s p * |v1 s p| * (L1 / N1) ^ 2 + M2 s p * |v2 s p| * (L2 / N2) ^ 2) / 2) := by
    clear hF hg F g
    induction steps with
    | nil =>
      intro F f g _ hF
      refine ⟨f, hF, fun s p => ?_⟩
      simp [elapsed, carried]
    | cons t rest ih =>
      intro F f g hg hF
      obtain ⟨a, b⟩ := hA t (by simp)
      have hb' := hb t (by simp)
      have one := C51_interpolates_at_foot D g1 g2 start1 start2 (L1 / N1) (L2 / N2) _ _ _ _ t.1 h1 h2 a b (fun s p i => (hb' s p).1)
        (fun s p i => (hb' s p).2) t.2.2.2 F f hF
      obtain ⟨f', hf', h⟩ := ih (fun u hu => hdt u (by simp [hu])) (fun u hu => hA u (by simp [hu])) (fun u hu => hb u (by simp [hu])) _ _
        (fun s p => carried (g s p) (v1 s p) (v2 s p) t.1) (fun s p => (hg s p).carried _ _ _) one
      refine ⟨f', hf', fun s p => ?_⟩
      have k := h s p
      have st := step_error (hg s p) p1 p2 start1 start2 (v1 s p) (v2 s p) t.1 (hdt t (by simp)) (f s p)
      rw [advected_eq (fun s p => v1 s p * t.1 / (L1 / N1)) (fun s p => v2 s p * t.1 / (L2 / N2))] at k
      have el : elapsed (t :: rest) = t.1 + elapsed rest := by simp [elapsed]
      have ca : carried (carried (g s p) (v1 s p) (v2 s p) t.1) (v1 s p) (v2 s p) (elapsed rest) =
          carried (g s p) (v1 s p) (v2 s p) (elapsed (t :: rest)) := by
        funext x
        simp only [carried, el]
        congr 2 <;> ring
      rw [ca] at k
      rw [el] at k ⊢
      linarith
  obtain ⟨f', hf', h⟩ := main F _ g hg hF
  refine ⟨f', hf', fun s p => ?_⟩
  have := h s p
  rw [sub_self] at this
  have z : rms (0 : ZMod N1 × ZMod N2 → ℝ) = 0 := by simp [rms]
  rw [z, zero_add] at this
  exact this

/-- **C92 (convergence).** With the profile, the velocities and a final time given, the root mean square error is as small as one likes on every
grid that is fine enough, for every decomposition and every sequence of steps that the ghost cells cover, however short or long. -/
theorem C92_convergence (start1 start2 L1 L2 : ℝ) (p1 : 0 < L1) (p2 : 0 < L2) (v1 v2 M1 M2 : S → P → ℝ) (g : S → P → ℝ × ℝ → ℝ)
    (hg : ∀ s p, ThriceSmooth L1 L2 (M1 s p) (M2 s p) (g s p)) (T : ℝ) (s : S) (p : P) (ε : ℝ) (hε : 0 < ε) :
    ∃ δ > 0, ∀ (N1 N2 : ℕ) [NeZero N1] [NeZero N2] (R : Type) (D : Decomp N1 N2 R) (g1 g2 : ℕ), L1 / N1 < δ → L2 / N2 < δ →
      ∀ steps : List (ℝ × (∀ r, S → P → D.Loc g1 g2 r → ℝ) × (∀ r, S → P → D.Loc g1 g2 r → ℝ) × (∀ r, Dist S P (D.Loc g1 g2 r) ℝ)),
      (∀ t ∈ steps, 0 ≤ t.1) → elapsed steps ≤ T →
      (∀ t ∈ steps, D.VelocityAgrees g1 g2 t.2.1 (fun s p _ => v1 s p) ∧ D.VelocityAgrees g1 g2 t.2.2.1 fun s p _ => v2 s p) →
      (∀ t ∈ steps, ∀ s p, |v1 s p * t.1 / (L1 / N1)| ≤ g1 - 1 ∧ |v2 s p * t.1 / (L2 / N2)| ≤ g2 - 1) →
      ∀ F, D.Holds g1 g2 F (fun s p i => g s p (gridCentre start1 start2 L1 L2 i)) →
      ∃ f', D.Holds g1 g2 (D.runAdvectQ g1 g2 start1 start2 (L1 / N1) (L2 / N2) steps F) f' ∧
        rms (fun i => f' s p i - carried (g s p) (v1 s p) (v2 s p) (elapsed steps) (gridCentre start1 start2 L1 L2 i)) < ε := by
  have m1 : 0 ≤ M1 s p := (abs_nonneg _).trans ((hg s p).bound1 0 0)
  have m2 : 0 ≤ M2 s p := (abs_nonneg _).trans ((hg s p).bound2 0 0)
  set C := max T 0 * ((M1 s p * |v1 s p| + M2 s p * |v2 s p|) / 2) with hC
  have C0 : 0 ≤ C := by positivity
  refine ⟨min 1 (ε / (C + 1)), by positivity, ?_⟩
  intro N1 N2 _ _ R D g1 g2 b1 b2 steps hdt hT hA hb F hF
  obtain ⟨f', hf', h⟩ := C92_error_bound D g1 g2 start1 start2 L1 L2 p1 p2 v1 v2 M1 M2 steps hdt hA hb F g hg hF
  refine ⟨f', hf', (h s p).trans_lt ?_⟩
  have e0 : 0 ≤ elapsed steps := List.sum_nonneg fun x hx => by
    obtain ⟨st, hs, rfl⟩ := List.mem_map.mp hx
    exact hdt st hs
  have sq : ∀ x : ℝ, 0 ≤ x → x < min 1 (ε / (C + 1)) → x ^ 2 ≤ ε / (C + 1) := fun x x0 hx => by
    have := lt_min_iff.1 hx
    nlinarith
  have s1 := sq (L1 / N1) (div_nonneg p1.le (Nat.cast_nonneg _)) b1
  have s2 := sq (L2 / N2) (div_nonneg p2.le (Nat.cast_nonneg _)) b2
  calc _ ≤ max T 0 * ((M1 s p * |v1 s p| * (ε / (C + 1)) + M2 s p * |v2 s p| * (ε / (C + 1))) / 2) := by
        have := hT.trans (le_max_left T 0)
        gcongr
    _ = C * (ε / (C + 1)) := by rw [hC]; ring
    _ < (C + 1) * (ε / (C + 1)) := by
        have : 0 < ε / (C + 1) := by positivity
        linarith
    _ = ε := by field_simp

theorem sine_thriceSmooth : ThriceSmooth (2 * Real.pi) 1 1 0 (fun x => Real.sin x.1) where
  smooth1 _ := Real.contDiff_sin
  smooth2 x := (contDiff_const : ContDiff ℝ 3 fun _ : ℝ => Real.sin x)
  bound1 x y := by
    have e : iteratedDeriv 3 Real.sin x = -Real.cos x := by
      simp [iteratedDeriv_succ, iteratedDeriv_zero]
    rw [show (fun x => Real.sin (x, y).1) = Real.sin from rfl, e, abs_neg]
    exact Real.abs_cos_le_one x
  bound2 x y := by
    simp [iteratedDeriv_succ, iteratedDeriv_zero]
  periodic1 x y := Real.sin_add_two_pi x
  periodic2 _ _ := rfl

/-- The initial data of the example: a sine wave on two processes with three cells each. -/
noncomputable def c92F : ∀ r, Dist Unit Unit (exD.Loc 2 1 r) ℝ := fun r _ _ l => Real.sin (cellCentre 0 (2 * Real.pi) 6 (exD.toGlob 2 1 r l).1)

/-- Steps of half a cell. -/
noncomputable def c92Steps : List (ℝ × (∀ r, Unit → Unit → exD.Loc 2 1 r → ℝ) × (∀ r, Unit → Unit → exD.Loc 2 1 r → ℝ) × (∀ r, Dist Unit Unit (exD.Loc 2 1 r) ℝ)) :=
  List.replicate 12 (Real.pi / 6, (fun _ _ _ _ => 1), (fun _ _ _ _ => 0), fun _ _ _ _ => 0)

/-- Non-vacuity: a sine wave moves around the box once in twelve steps of half a cell each. -/
example : ∃ f', exD.Holds 2 1 (exD.runAdvectQ 2 1 0 0 (2 * Real.pi / (6 : ℕ)) (1 / (1 : ℕ)) c92Steps c92F) f' ∧
    ∀ s p, rms (fun i => f' s p i - carried (fun x => Real.sin x.1) 1 0 (elapsed c92Steps) (gridCentre 0 0 (2 * Real.pi) 1 i)) ≤
      elapsed c92Steps * ((1 * |1| * (2 * Real.pi / (6 : ℕ)) ^ 2 + 0 * |0| * (1 / (1 : ℕ)) ^ 2) / 2) :=
  C92_error_bound exD 2 1 0 0 (2 * Real.pi) 1 (by positivity) one_pos (fun _ _ => 1) (fun _ _ => 0) (fun _ _ => 1) (fun _ _ => 0) c92Steps
    (fun t ht => by rw [List.eq_of_mem_replicate ht]; exact (by positivity : (0 : ℝ) ≤ Real.pi / 6))
    (fun t ht => by rw [List.eq_of_mem_replicate ht]; exact ⟨fun _ _ _ _ _ => rfl, fun _ _ _ _ _ => rfl⟩)
    (fun t ht s p => by
      rw [List.eq_of_mem_replicate ht]
      have : Real.pi ≠ 0 := Real.pi_ne_zero
      constructor
      · rw [show 1 * (Real.pi / 6) / (2 * Real.pi / ((6 : ℕ) : ℝ)) = 1 / 2 by push_cast; field_simp, abs_of_pos] <;> norm_num
      · norm_num)
    c92F (fun _ _ x => Real.sin x.1) (fun _ _ => sine_thriceSmooth) (fun _ _ _ _ _ => rfl)

/-- Data that vary along the first axis only, moved by half a cell, lose part of their sum of squares. -/
example : ∑ i, advected (fun _ _ _ => 1 / 2) (fun _ _ _ => 1 / 3) (fun (_ : Unit) (_ : Unit) (i : ZMod 6 × ZMod 4) => ((i.1.val : ℕ) : ℚ)) () () i ^ 2 <
    ∑ i : ZMod 6 × ZMod 4, ((i.1.val : ℕ) : ℚ) ^ 2 := by
  refine lt_of_le_of_ne (C92_never_amplifies (fun _ _ => 1 / 2) (fun _ _ => 1 / 3) _ () ()) fun h => ?_
  obtain ⟨⟨k, hk⟩ | hk, -⟩ := (C92_kept_iff (fun _ _ => 1 / 2) (fun _ _ => 1 / 3) (fun (_ : Unit) (_ : Unit) (i : ZMod 6 × ZMod 4) => ((i.1.val : ℕ) : ℚ)) () ()).1 h
  · have : (1 : ℚ) = 2 * k := by rw [← hk]; norm_num
    have : (1 : ℤ) = 2 * k := by exact_mod_cast this
    omega
  · have := hk 0 1 0
    have e0 : (0 : ZMod 6).val = 0 := rfl
    have e1 : (1 : ZMod 6).val = 1 := rfl
    rw [e0, e1] at this
    norm_num at this

end converge

end Bolt
