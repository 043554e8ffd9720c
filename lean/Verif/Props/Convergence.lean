import Verif.Proofs.Convergence
import Verif.Props.Decomp
import Mathlib.Analysis.SpecialFunctions.Trigonometric.Bounds
import Mathlib.Analysis.Real.Pi.Bounds

/-!
# C72: the first-order scheme converges to free streaming
-/

set_option linter.unusedSectionVars false

namespace Bolt

variable {S P : Type} [AddCommGroup P] {N1 N2 : ℕ} [NeZero N1] [NeZero N2]

/-- A step to the left on a periodic axis moves the cell centre by one cell, up to a period. -/
theorem cellCentre_sub_one (start L : ℝ) (N : ℕ) [NeZero N] (i : ZMod N) :
    cellCentre start L N (i - 1) = cellCentre start L N i - L / N ∨ cellCentre start L N (i - 1) = cellCentre start L N i - L / N + L := by
  have hN : (N : ℝ) ≠ 0 := Nat.cast_ne_zero.mpr (NeZero.ne N)
  by_cases h : i.val = 0
  · right
    have hi : i = 0 := (ZMod.val_eq_zero i).mp h
    have hv : (i - 1).val = N - 1 := by
      rw [hi, zero_sub]
      rcases N with _ | n
      · exact absurd rfl (NeZero.ne 0)
      · exact ZMod.val_neg_one n
    have h1 : 1 ≤ N := Nat.one_le_iff_ne_zero.mpr (NeZero.ne N)
    rw [cellCentre, cellCentre, hv, h, Nat.cast_sub h1]
    field_simp
    push_cast
    ring
  · left
    have hv : (i - 1).val = i.val - 1 := by
      have e : i - 1 = ((i.val - 1 : ℕ) : ZMod N) := by rw [Nat.cast_sub (by omega)]; simp
      rw [e, ZMod.val_cast_of_lt (by have := ZMod.val_lt i; omega)]
    rw [cellCentre, cellCentre, hv, Nat.cast_sub (by omega)]
    push_cast
    ring

/-- The centres of the cells of the periodic grid. -/
noncomputable def gridCentre (start1 start2 L1 L2 : ℝ) (q : ZMod N1 × ZMod N2) : ℝ × ℝ :=
  (cellCentre start1 L1 N1 q.1, cellCentre start2 L2 N2 q.2)

section sample
variable {start1 start2 L1 L2 : ℝ} {G : ℝ × ℝ → ℝ}

theorem periodic_back (p1 : ∀ x y, G (x + L1, y) = G (x, y)) (x y : ℝ) : G (x - L1, y) = G (x, y) := by
  rw [← p1 (x - L1) y, sub_add_cancel]

theorem sample1 (p1 : ∀ x y, G (x + L1, y) = G (x, y)) (v : ℝ) (q : ZMod N1 × ZMod N2) :
    G (gridCentre start1 start2 L1 L2 (q - (if 0 < v then (1, 0) else -(1, 0)))) =
      G (gridCentre start1 start2 L1 L2 q - (upwindShift v (L1 / N1), 0)) := by
  unfold upwindShift
  split_ifs
  · simp only [gridCentre, Prod.fst_sub, Prod.snd_sub, sub_zero, Prod.mk_sub_mk]
    rcases cellCentre_sub_one start1 L1 N1 q.1 with h | h <;> rw [h]
    rw [p1]
  · simp only [gridCentre, sub_neg_eq_add, Prod.fst_add, Prod.snd_add, add_zero, Prod.mk_sub_mk, sub_zero]
    have h := cellCentre_sub_one start1 L1 N1 (q.1 + 1)
    rw [add_sub_cancel_right] at h
    rcases h with h | h
    · rw [h]; congr 2; ring
    · rw [show cellCentre start1 L1 N1 (q.1 + 1) = cellCentre start1 L1 N1 q.1 + L1 / N1 - L1 by rw [h]; ring, periodic_back p1]

theorem sample2 (p2 : ∀ x y, G (x, y + L2) = G (x, y)) (v : ℝ) (q : ZMod N1 × ZMod N2) :
    G (gridCentre start1 start2 L1 L2 (q - (if 0 < v then (0, 1) else -(0, 1)))) =
      G (gridCentre start1 start2 L1 L2 q - (0, upwindShift v (L2 / N2))) := by
  have back : ∀ x y, G (x, y - L2) = G (x, y) := fun x y => by rw [← p2 x (y - L2), sub_add_cancel]
  unfold upwindShift
  split_ifs
  · simp only [gridCentre, Prod.fst_sub, Prod.snd_sub, sub_zero, Prod.mk_sub_mk]
    rcases cellCentre_sub_one start2 L2 N2 q.2 with h | h <;> rw [h]
    rw [p2]
  · simp only [gridCentre, sub_neg_eq_add, Prod.fst_add, Prod.snd_add, add_zero, Prod.mk_sub_mk, sub_zero]
    have h := cellCentre_sub_one start2 L2 N2 (q.2 + 1)
    rw [add_sub_cancel_right] at h
    rcases h with h | h
    · rw [h]; congr 2; ring
    · rw [show cellCentre start2 L2 N2 (q.2 + 1) = cellCentre start2 L2 N2 q.2 + L2 / N2 - L2 by rw [h]; ring, back]

/-- The upwind operator on samples of a periodic function is the sample of the operator in the plane. -/
theorem upwind_sample (p1 : ∀ x y, G (x + L1, y) = G (x, y)) (p2 : ∀ x y, G (x, y + L2) = G (x, y)) (v1 v2 : ℝ) :
    upwind ((1, 0) : ZMod N1 × ZMod N2) (0, 1) (L1 / N1) (L2 / N2) v1 v2 (fun q => G (gridCentre start1 start2 L1 L2 q)) =
      fun q => upwindPlane (L1 / N1) (L2 / N2) v1 v2 G (gridCentre start1 start2 L1 L2 q) := by
  funext q
  simp only [upwind, upwindPlane, sample1 p1, sample2 p2]

theorem upwindPlane_periodic (p1 : ∀ x y, G (x + L1, y) = G (x, y)) (p2 : ∀ x y, G (x, y + L2) = G (x, y)) (h1 h2 v1 v2 : ℝ) :
    (∀ x y, upwindPlane h1 h2 v1 v2 G (x + L1, y) = upwindPlane h1 h2 v1 v2 G (x, y)) ∧
    (∀ x y, upwindPlane h1 h2 v1 v2 G (x, y + L2) = upwindPlane h1 h2 v1 v2 G (x, y)) := by
  constructor <;> intro x y <;> simp only [upwindPlane, Prod.mk_sub_mk, sub_zero]
  · rw [p1, p1, show x + L1 - upwindShift v1 h1 = x - upwindShift v1 h1 + L1 by ring, p1]
  · rw [p2, p2, show y + L2 - upwindShift v2 h2 = y - upwindShift v2 h2 + L2 by ring, p2]

end sample

/-- What is assumed of the run of a free-streaming problem: first-order finite volumes in position space on a periodic grid of
`N1 × N2` cells over a region of size `L1 × L2`, no fields, no source. -/
structure FreeStreaming (ax : Axes P (ZMod N1 × ZMod N2)) (cfg : FVMConfig S ℝ) (L1 L2 : ℝ) : Prop where
  q1 : ax.q1 = (1, 0)
  q2 : ax.q2 = (0, 1)
  method : cfg.solverMethodInQ = "FVM"
  recon : cfg.reconstructionInQ = "piecewise-constant"
  noSource : cfg.sourceEnabled = false
  noFields : cfg.fieldsEnabled = false
  pos1 : 0 < L1
  pos2 : 0 < L2
  dq1 : cfg.dq1 = L1 / N1
  dq2 : cfg.dq2 = L2 / N2

theorem freeStreaming_step {ax : Axes P (ZMod N1 × ZMod N2)} {cfg : FVMConfig S ℝ} {L1 L2 : ℝ} (hfs : FreeStreaming ax cfg L1 L2)
    (v1 v2 : S → P → ℝ) (dt : ℝ) (cb : Fin 2 → Callbacks S P (ZMod N1 × ZMod N2) ℝ)
    (hv : ∀ k, (cb k).Cq1 = (fun s p _ => v1 s p) ∧ (cb k).Cq2 = fun s p _ => v2 s p)
    (rest : List (ℝ × (Fin 2 → Callbacks S P (ZMod N1 × ZMod N2) ℝ))) (f : Dist S P (ZMod N1 × ZMod N2) ℝ) :
    runFVM ax cfg ((dt, cb) :: rest) f =
      runFVM ax cfg rest (fun s p => upwindStep (1, 0) (0, 1) (L1 / N1) (L2 / N2) (v1 s p) (v2 s p) dt (f s p)) := by
  have slope : ∀ k f, dfdtFVM ax cfg (cb k) f = .ok fun s p => upwind (1, 0) (0, 1) (L1 / N1) (L2 / N2) (v1 s p) (v2 s p) (f s p) := by
    intro k f
    simp only [dfdtFVM, hfs.method, hfs.recon, hfs.noSource, hfs.noFields, reconMethod, if_true, bind, Except.bind, pure, Except.pure]
    simp only [Bool.false_eq_true, and_false, if_false, Except.ok.injEq]
    funext s p q
    have d1 : ∀ (e : ZMod N1 × ZMod N2) (C x : ZMod N1 × ZMod N2 → ℝ) (d : ℝ) q,
        fluxDiv .piecewiseConstant e d C x q = pcDiv e C x q / d := by
      intro e C x d q; simp only [fluxDiv, afShift_neg_one, pcDiv]
    simp only [dfdtQ, d1, (hv k).1, (hv k).2, hfs.q1, hfs.q2, hfs.dq1, hfs.dq2, pcDiv_constant_velocity, upwind]
    ring
  simp only [runFVM, timestepFVM, slope, bind, Except.bind, pure, Except.pure]
  rfl

/-- C72: **error bound of the first-order scheme.**  On a periodic grid, let every species and momentum carry a constant velocity
`(v1, v2)`, let the initial distribution be the values of a smooth periodic profile at the cell centres, and let the steps satisfy the
CFL condition.  Then the run succeeds, and after any number of steps the distribution differs from the profile carried along by free
streaming by at most the elapsed time times a constant times the cell sizes and the largest step. -/
theorem C72_error_bound {ax : Axes P (ZMod N1 × ZMod N2)} {cfg : FVMConfig S ℝ} {L1 L2 : ℝ} (hfs : FreeStreaming ax cfg L1 L2)
    (start1 start2 : ℝ) (v1 v2 : S → P → ℝ) (M : S → P → ℝ) (g : S → P → ℝ × ℝ → ℝ) (hg : ∀ s p, SmoothPeriodic L1 L2 (M s p) (g s p))
    (τ : ℝ) (steps : List (ℝ × (Fin 2 → Callbacks S P (ZMod N1 × ZMod N2) ℝ)))
    (hdt : ∀ st ∈ steps, 0 ≤ st.1 ∧ st.1 ≤ τ)
    (hcfl : ∀ st ∈ steps, ∀ s p, st.1 * (|v1 s p| / (L1 / N1) + |v2 s p| / (L2 / N2)) ≤ 1)
    (hv : ∀ st ∈ steps, ∀ k s p q, (st.2 k).Cq1 s p q = v1 s p ∧ (st.2 k).Cq2 s p q = v2 s p) :
    ∃ f', runFVM ax cfg steps (fun s p q => g s p (cellCentre start1 L1 N1 q.1, cellCentre start2 L2 N2 q.2)) = .ok f' ∧
      ∀ s p q, |f' s p q - carried (g s p) (v1 s p) (v2 s p) (elapsed steps) (cellCentre start1 L1 N1 q.1, cellCentre start2 L2 N2 q.2)| ≤
        elapsed steps * (M s p * (|v1 s p| * (L1 / N1) + |v2 s p| * (L2 / N2) + 3 / 2 * (|v1 s p| + |v2 s p|) ^ 2 * τ)) := by
  have n1 : (0 : ℝ) < N1 := Nat.cast_pos.mpr (NeZero.pos N1)
  have n2 : (0 : ℝ) < N2 := Nat.cast_pos.mpr (NeZero.pos N2)
  have hh1 : 0 < L1 / N1 := div_pos hfs.pos1 n1
  have hh2 : 0 < L2 / N2 := div_pos hfs.pos2 n2
  -- the statement for a run that starts at time `t` with an error of at most `err`
  suffices H : ∀ (t : ℝ) (err : S → P → ℝ) (f : Dist S P (ZMod N1 × ZMod N2) ℝ),
      (∀ s p q, |f s p q - carried (g s p) (v1 s p) (v2 s p) t (gridCentre start1 start2 L1 L2 q)| ≤ err s p) →
      ∃ f', runFVM ax cfg steps f = .ok f' ∧
      ∀ s p q, |f' s p q - carried (g s p) (v1 s p) (v2 s p) (t + elapsed steps) (gridCentre start1 start2 L1 L2 q)| ≤
        err s p + elapsed steps * (M s p * (|v1 s p| * (L1 / N1) + |v2 s p| * (L2 / N2) + 3 / 2 * (|v1 s p| + |v2 s p|) ^ 2 * τ)) by
    obtain ⟨f', h, hb⟩ := H 0 (fun _ _ => 0) _ (fun s p q => (by simp [carried, gridCentre] : |g s p (gridCentre start1 start2 L1 L2 q)
      - carried (g s p) (v1 s p) (v2 s p) 0 (gridCentre start1 start2 L1 L2 q)| ≤ 0))
    refine ⟨f', h, fun s p q => ?_⟩
    have := hb s p q
    rwa [zero_add, zero_add] at this
  induction steps with
  | nil =>
    intro t err f hf
    exact ⟨f, rfl, fun s p q => by simpa [elapsed] using hf s p q⟩
  | cons st rest ih =>
    intro t err f hf
    obtain ⟨dt, cb⟩ := st
    obtain ⟨d0, dτ⟩ := hdt (dt, cb) (by simp)
    have hc := hcfl (dt, cb) (by simp)
    have hvv := hv (dt, cb) (by simp)
    simp only at d0 dτ hc hvv
    rw [freeStreaming_step hfs v1 v2 dt cb (fun k => ⟨by funext s p q; exact (hvv k s p q).1, by funext s p q; exact (hvv k s p q).2⟩)]
    obtain ⟨f', h, hb⟩ := ih (fun st hs => hdt st (by simp [hs])) (fun st hs => hcfl st (by simp [hs])) (fun st hs => hv st (by simp [hs]))
      (t + dt) (fun s p => err s p + dt * (M s p * (|v1 s p| * (L1 / N1) + |v2 s p| * (L2 / N2) + 3 / 2 * (|v1 s p| + |v2 s p|) ^ 2 * τ)))
      (fun s p => upwindStep (1, 0) (0, 1) (L1 / N1) (L2 / N2) (v1 s p) (v2 s p) dt (f s p))
      (by
        intro s p q
        obtain ⟨⟨g', hg', hl⟩, p1, p2⟩ := hg s p
        have hM : 0 ≤ M s p := by
          have := (norm_nonneg _).trans (hl (1, 1) 0)
          have n : ‖((1, 1) : ℝ × ℝ) - 0‖ = 1 := by simp [Prod.norm_def]
          rwa [n, mul_one] at this
        set U : ℝ × ℝ → ℝ := carried (g s p) (v1 s p) (v2 s p) t with hU
        have eU : U = fun y => g s p (y - (v1 s p * t, v2 s p * t)) := by funext y; rw [hU, carried]; rfl
        have hU' : ∀ x, HasFDerivAt U (g' (x - (v1 s p * t, v2 s p * t))) x := by
          intro x
          rw [eU]
          have := (hg' (x - (v1 s p * t, v2 s p * t))).comp x ((hasFDerivAt_id x).sub_const (v1 s p * t, v2 s p * t))
          simpa [Function.comp_def] using this
        have hUl : ∀ x y, ‖g' (x - (v1 s p * t, v2 s p * t)) - g' (y - (v1 s p * t, v2 s p * t))‖ ≤ M s p * ‖x - y‖ := by
          intro x y
          have := hl (x - (v1 s p * t, v2 s p * t)) (y - (v1 s p * t, v2 s p * t))
          rwa [sub_sub_sub_cancel_right] at this
        have P1 : ∀ x y, U (x + L1, y) = U (x, y) := fun x y => by
          rw [hU]; simp only [carried]; rw [show x + L1 - v1 s p * t = x - v1 s p * t + L1 by ring, p1]
        have P2 : ∀ x y, U (x, y + L2) = U (x, y) := fun x y => by
          rw [hU]; simp only [carried]; rw [show y + L2 - v2 s p * t = y - v2 s p * t + L2 by ring, p2]
        have tr := truncation hM hU' hUl hh1 hh2 (v1 s p) (v2 s p) dt d0 (gridCentre start1 start2 L1 L2 q)
        have ex : upwindStep (1, 0) (0, 1) (L1 / N1) (L2 / N2) (v1 s p) (v2 s p) dt (fun q => U (gridCentre start1 start2 L1 L2 q)) q =
            U (gridCentre start1 start2 L1 L2 q) + upwindPlane (L1 / N1) (L2 / N2) (v1 s p) (v2 s p) U (gridCentre start1 start2 L1 L2 q) * dt
            + upwindPlane (L1 / N1) (L2 / N2) (v1 s p) (v2 s p) (upwindPlane (L1 / N1) (L2 / N2) (v1 s p) (v2 s p) U)
              (gridCentre start1 start2 L1 L2 q) * (dt ^ 2 / 2) := by
          obtain ⟨Q1, Q2⟩ := upwindPlane_periodic P1 P2 (L1 / N1) (L2 / N2) (v1 s p) (v2 s p)
          rw [upwindStep, upwind_lin, upwind_sample P1 P2, upwind_sample Q1 Q2]
          ring
        have st := upwindStep_le (v1 := v1 s p) (v2 := v2 s p) ((1, 0) : ZMod N1 × ZMod N2) (0, 1) hh1 hh2 dt d0 (hc s p)
          (fun q => f s p q - U (gridCentre start1 start2 L1 L2 q)) (err s p) (fun q => hf s p q) q
        rw [← upwindStep_sub, ex] at st
        have adv : carried (g s p) (v1 s p) (v2 s p) (t + dt) (gridCentre start1 start2 L1 L2 q) =
            U (gridCentre start1 start2 L1 L2 q - dt • (v1 s p, v2 s p)) := by
          rw [hU, carried, carried]
          congr 1
          simp only [Prod.smul_mk, smul_eq_mul, Prod.fst_sub, Prod.snd_sub]
          rw [Prod.mk.injEq]; constructor <;> ring
        rw [adv]
        have mono : M s p * dt * (|v1 s p| * (L1 / N1) + |v2 s p| * (L2 / N2) + 3 / 2 * (|v1 s p| + |v2 s p|) ^ 2 * dt) ≤
            dt * (M s p * (|v1 s p| * (L1 / N1) + |v2 s p| * (L2 / N2) + 3 / 2 * (|v1 s p| + |v2 s p|) ^ 2 * τ)) := by
          rw [mul_comm (M s p) dt, mul_assoc]
          gcongr
        rw [abs_le] at st tr ⊢
        constructor <;> linarith [st.1, st.2, tr.1, tr.2])
    refine ⟨f', h, fun s p q => ?_⟩
    have := hb s p q
    have el : elapsed ((dt, cb) :: rest) = dt + elapsed rest := by simp [elapsed]
    rw [el, ← add_assoc]
    refine this.trans (le_of_eq ?_)
    ring

/-- C72: **convergence.**  With the profile, the velocities and a final time given, the first-order solution comes as close as one
likes to free streaming, at every cell and every time up to the final one, on every grid that is fine enough with steps that are short
enough and satisfy the CFL condition. -/
theorem C72_convergence {L1 L2 : ℝ} (start1 start2 : ℝ) (v1 v2 : S → P → ℝ) (M : S → P → ℝ) (g : S → P → ℝ × ℝ → ℝ)
    (hg : ∀ s p, SmoothPeriodic L1 L2 (M s p) (g s p)) (T : ℝ) (s : S) (p : P) (ε : ℝ) (hε : 0 < ε) :
    ∃ δ > 0, ∀ (N1 N2 : ℕ) [NeZero N1] [NeZero N2] (ax : Axes P (ZMod N1 × ZMod N2)) (cfg : FVMConfig S ℝ), FreeStreaming ax cfg L1 L2 →
      L1 / N1 < δ → L2 / N2 < δ → ∀ steps : List (ℝ × (Fin 2 → Callbacks S P (ZMod N1 × ZMod N2) ℝ)),
      (∀ st ∈ steps, 0 ≤ st.1 ∧ st.1 < δ) → elapsed steps ≤ T →
      (∀ st ∈ steps, ∀ s p, st.1 * (|v1 s p| / (L1 / N1) + |v2 s p| / (L2 / N2)) ≤ 1) →
      (∀ st ∈ steps, ∀ k s p q, (st.2 k).Cq1 s p q = v1 s p ∧ (st.2 k).Cq2 s p q = v2 s p) →
      ∃ f', runFVM ax cfg steps (fun s p q => g s p (cellCentre start1 L1 N1 q.1, cellCentre start2 L2 N2 q.2)) = .ok f' ∧
        ∀ q, |f' s p q - carried (g s p) (v1 s p) (v2 s p) (elapsed steps) (cellCentre start1 L1 N1 q.1, cellCentre start2 L2 N2 q.2)| < ε := by
  have hM : 0 ≤ M s p := by
    obtain ⟨g', -, hl⟩ := (hg s p).gradient
    have := (norm_nonneg _).trans (hl (1, 1) 0)
    have n : ‖((1, 1) : ℝ × ℝ) - 0‖ = 1 := by simp [Prod.norm_def]
    rwa [n, mul_one] at this
  set C := max T 0 * (M s p * (|v1 s p| + |v2 s p| + 3 / 2 * (|v1 s p| + |v2 s p|) ^ 2)) with hC
  have C0 : 0 ≤ C := by positivity
  refine ⟨ε / (C + 1), by positivity, ?_⟩
  intro N1 N2 _ _ ax cfg hfs h1 h2 steps hdt hT hcfl hv
  set δ := ε / (C + 1) with hδ
  obtain ⟨f', h, hb⟩ := C72_error_bound hfs start1 start2 v1 v2 M g hg δ steps (fun st hs => ⟨(hdt st hs).1, (hdt st hs).2.le⟩) hcfl hv
  refine ⟨f', h, fun q => (hb s p q).trans_lt ?_⟩
  have e0 : 0 ≤ elapsed steps := List.sum_nonneg fun x hx => by
    obtain ⟨st, hs, rfl⟩ := List.mem_map.mp hx
    exact (hdt st hs).1
  have hh1 : 0 ≤ L1 / N1 := div_nonneg hfs.pos1.le (Nat.cast_nonneg _)
  have hh2 : 0 ≤ L2 / N2 := div_nonneg hfs.pos2.le (Nat.cast_nonneg _)
  calc _ ≤ max T 0 * (M s p * (|v1 s p| * δ + |v2 s p| * δ + 3 / 2 * (|v1 s p| + |v2 s p|) ^ 2 * δ)) := by
        have := hT.trans (le_max_left T 0)
        gcongr
    _ = C * δ := by rw [hC]; ring
    _ < (C + 1) * δ := by
        have : 0 < δ := by positivity
        nlinarith
    _ = ε := by rw [hδ]; field_simp

/-- C72: the error bound holds for runs on many processes: every process holds, in each of its own cells, free streaming up to the
same error, for every partition of the grid and ghost widths that cover the stencil. -/
theorem C72_many_processes {R : Type} (D : Decomp N1 N2 R) (g1 g2 : ℕ) (ax : P × P × P) {cfg : FVMConfig S ℝ} {L1 L2 : ℝ}
    (hfs : FreeStreaming ⟨ax.1, ax.2.1, ax.2.2, (1, 0), ((0, 1) : ZMod N1 × ZMod N2)⟩ cfg L1 L2)
    (hgh : GhostsSuffice .piecewiseConstant g1 N1 ∧ GhostsSuffice .piecewiseConstant g2 N2)
    (start1 start2 : ℝ) (v1 v2 : S → P → ℝ) (M : S → P → ℝ) (g : S → P → ℝ × ℝ → ℝ) (hg : ∀ s p, SmoothPeriodic L1 L2 (M s p) (g s p))
    (τ : ℝ) (steps : List (ℝ × (Fin 2 → ∀ r, Callbacks S P (D.Loc g1 g2 r) ℝ) × (Fin 2 → Callbacks S P (ZMod N1 × ZMod N2) ℝ)))
    (hcb : ∀ st ∈ steps, ∀ k r, D.CallbacksAgree g1 g2 r (st.2.1 k r) (st.2.2 k))
    (hdt : ∀ st ∈ steps, 0 ≤ st.1 ∧ st.1 ≤ τ)
    (hcfl : ∀ st ∈ steps, ∀ s p, st.1 * (|v1 s p| / (L1 / N1) + |v2 s p| / (L2 / N2)) ≤ 1)
    (hv : ∀ st ∈ steps, ∀ k s p q, (st.2.2 k).Cq1 s p q = v1 s p ∧ (st.2.2 k).Cq2 s p q = v2 s p)
    (F F' : ∀ r, Dist S P (D.Loc g1 g2 r) ℝ)
    (hF : ∀ r s p l, D.Interior g1 g2 r l → F r s p l = g s p (gridCentre start1 start2 L1 L2 (D.toGlob g1 g2 r l)))
    (h : D.PeriodicRun g1 g2 ax cfg (steps.map fun st => (st.1, st.2.1)) F F') :
    ∀ r s p l, D.Interior g1 g2 r l →
      |F' r s p l - carried (g s p) (v1 s p) (v2 s p) (elapsed steps) (gridCentre start1 start2 L1 L2 (D.toGlob g1 g2 r l))| ≤
        elapsed steps * (M s p * (|v1 s p| * (L1 / N1) + |v2 s p| * (L2 / N2) + 3 / 2 * (|v1 s p| + |v2 s p|) ^ 2 * τ)) := by
  obtain ⟨f', h', hb⟩ := C72_error_bound hfs start1 start2 v1 v2 M g hg τ (steps.map fun st => (st.1, st.2.2))
    (by intro st hs; obtain ⟨x, hx, rfl⟩ := List.mem_map.mp hs; exact hdt x hx)
    (by intro st hs; obtain ⟨x, hx, rfl⟩ := List.mem_map.mp hs; exact hcfl x hx)
    (by intro st hs; obtain ⟨x, hx, rfl⟩ := List.mem_map.mp hs; exact hv x hx)
  have hh := D.C11_decomposition_independence g1 g2 ax cfg
    (fun m hm => by
      rw [hfs.recon] at hm
      simp only [reconMethod, if_true, Except.ok.injEq] at hm
      rw [← hm]; exact hgh) steps hcb F F'
      (fun s p q => g s p (cellCentre start1 L1 N1 q.1, cellCentre start2 L2 N2 q.2)) f' hF h h'
  have el : elapsed (steps.map fun st => (st.1, st.2.2)) = elapsed steps := by
    simp only [elapsed, List.map_map]; rfl
  intro r s p l hl
  have := hb s p (D.toGlob g1 g2 r l)
  rw [el] at this
  rw [hh r s p l hl]
  exact this

/-- A sine wave is a smooth periodic profile. -/
theorem sine_smooth : SmoothPeriodic (2 * Real.pi) 1 1 (fun x => Real.sin x.1) where
  gradient := by
    refine ⟨fun x => Real.cos x.1 • ContinuousLinearMap.fst ℝ ℝ ℝ, fun x => (Real.hasDerivAt_sin x.1).comp_hasFDerivAt x hasFDerivAt_fst, ?_⟩
    intro x y
    have e : Real.cos x.1 • ContinuousLinearMap.fst ℝ ℝ ℝ - Real.cos y.1 • ContinuousLinearMap.fst ℝ ℝ ℝ
        = (Real.cos x.1 - Real.cos y.1) • ContinuousLinearMap.fst ℝ ℝ ℝ := (sub_smul _ _ _).symm
    beta_reduce
    rw [e, norm_smul, one_mul]
    have h1 : ‖Real.cos x.1 - Real.cos y.1‖ ≤ ‖x - y‖ := by
      refine le_trans ?_ (norm_fst_le (x - y))
      rw [Real.norm_eq_abs, Real.norm_eq_abs]
      exact Real.abs_cos_sub_cos_le x.1 y.1
    calc _ ≤ ‖x - y‖ * 1 := mul_le_mul h1 (ContinuousLinearMap.opNorm_le_bound _ zero_le_one fun z => by rw [one_mul]; exact norm_fst_le z) (norm_nonneg _) (norm_nonneg _)
      _ = _ := mul_one _
  periodic1 x y := Real.sin_add_two_pi x
  periodic2 _ _ := rfl

/-- A concrete free-streaming problem on a grid of 8 by 2 cells. -/
noncomputable def c72Cfg : FVMConfig Unit ℝ :=
  { solverMethodInQ := "FVM", solverMethodInP := "FVM", reconstructionInQ := "piecewise-constant", reconstructionInP := "piecewise-constant",
    riemannInQ := "upwind-flux", riemannInP := "upwind-flux", sourceEnabled := false, fieldsEnabled := false,
    dq1 := 2 * Real.pi / (8 : ℕ), dq2 := 1 / (2 : ℕ), dp1 := fun _ => 1, dp2 := fun _ => 1, dp3 := fun _ => 1 }

/-- Its axes. -/
def c72Ax : Axes (ZMod 1) (ZMod 8 × ZMod 2) := { p1 := 0, p2 := 0, p3 := 0, q1 := (1, 0), q2 := (0, 1) }

/-- Velocity 1 along the first axis. -/
def c72Cb : Fin 2 → Callbacks Unit (ZMod 1) (ZMod 8 × ZMod 2) ℝ := fun _ =>
  { Cq1 := fun _ _ _ => 1
    Cq2 := fun _ _ _ => 0
    Cp1 := fun _ _ _ => 0
    Cp2 := fun _ _ _ => 0
    Cp3 := fun _ _ _ => 0
    source := id }

/-- Non-vacuity of C72: a sine wave moving with velocity 1 along the first axis, ten steps of size 1/2. -/
example : ∃ f', runFVM c72Ax c72Cfg (List.replicate 10 (1 / 2, c72Cb))
      (fun _ _ q => Real.sin (cellCentre 0 (2 * Real.pi) 8 q.1)) = .ok f' ∧
    ∀ s p q, |f' s p q - Real.sin (cellCentre 0 (2 * Real.pi) 8 q.1 - 1 * 5)| ≤ 5 * (1 * (1 * (2 * Real.pi / (8 : ℕ)) + 0 * (1 / (2 : ℕ)) + 3 / 2 * (1 + 0) ^ 2 * (1 / 2))) := by
  have hfs : FreeStreaming c72Ax c72Cfg (2 * Real.pi) 1 :=
    { q1 := rfl, q2 := rfl, method := rfl, recon := rfl, noSource := rfl, noFields := rfl, pos1 := by positivity, pos2 := one_pos,
      dq1 := rfl, dq2 := rfl }
  have el : elapsed (List.replicate 10 ((1 / 2 : ℝ), c72Cb)) = 5 := by
    simp [elapsed]; norm_num
  obtain ⟨f', h, hb⟩ := C72_error_bound hfs 0 0 (fun _ _ => 1) (fun _ _ => 0) (fun _ _ => 1) (fun _ _ x => Real.sin x.1) (fun _ _ => sine_smooth)
    (1 / 2) (List.replicate 10 ((1 / 2 : ℝ), c72Cb))
    (by intro st hs; rw [List.eq_of_mem_replicate hs]; norm_num)
    (by
      intro st hs _ _
      rw [List.eq_of_mem_replicate hs]
      simp only [abs_one, abs_zero, zero_div, add_zero, one_div_div]
      rw [← mul_div_assoc, div_le_one (by positivity)]
      have := Real.pi_gt_three
      push_cast
      linarith)
    (by intro st hs k _ _ _; rw [List.eq_of_mem_replicate hs]; exact ⟨rfl, rfl⟩)
  refine ⟨f', h, fun s p q => ?_⟩
  have := hb s p q
  rw [el] at this
  simpa [carried] using this

end Bolt
