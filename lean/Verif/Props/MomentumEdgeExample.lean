import Verif.Props.MomentumEdge
import Verif.Model.Layout

/-!
# C108: momentum grids on a line, and what happens at the edge
-/

set_option linter.unusedSectionVars false

namespace Bolt

open Finset

/-! ## the grids of the program -/

theorem lineDepth_step (N : ℕ) (x : ℤ) : |lineDepth N (x + 1) - lineDepth N x| ≤ 1 := by
  simp only [lineDepth, min_def, abs_le]
  constructor <;> split_ifs <;> omega

theorem lineDepth_emod (N : ℕ) [NeZero N] (x : ℤ) :
    ((x % N : ℤ) : ZMod N) = x ∧ 0 ≤ lineDepth N (x % N) ∧ (lineDepth N x < 0 → lineDepth N (x % N) < -lineDepth N x) := by
  have hN : 0 < (N : ℤ) := by have := NeZero.pos N; omega
  have h1 := Int.emod_nonneg x hN.ne'
  have h2 := Int.emod_lt_of_pos x hN
  refine ⟨by simp, ?_, ?_⟩
  · simp only [lineDepth, min_def]; split_ifs <;> omega
  · have h3 := Int.emod_add_mul_ediv x N
    rcases lt_trichotomy (x / N) (-1) with h | h | h
    · have : (N : ℤ) * (x / N) ≤ N * (-2) := by nlinarith
      simp only [lineDepth, min_def]; split_ifs <;> omega
    · rw [h] at h3
      simp only [lineDepth, min_def]; split_ifs <;> omega
    · rcases eq_or_ne (x / N) 0 with h' | h'
      · rw [h'] at h3
        simp only [lineDepth, min_def]; split_ifs <;> omega
      · have : (N : ℤ) * 1 ≤ N * (x / N) := by
          have : 1 ≤ x / N := by omega
          nlinarith
        simp only [lineDepth, min_def]; split_ifs <;> omega

section grids

variable (N1 N2 N3 : ℕ) [NeZero N1] [NeZero N2] [NeZero N3] {Q : Type} (q1 q2 : Q) (c1 c2 c3 : ℤ)

/-- The unlimited grid of momentum cells continues the `N1 × N2 × N3` grid, whose first cell is cell `(-c1, -c2, -c3)` of the former. -/
theorem C108_three_axes : Continues (⟨(1, 0, 0), (0, 1, 0), (0, 0, 1), q1, q2⟩ : Axes (ZMod N1 × ZMod N2 × ZMod N3) Q)
    (⟨(1, 0, 0), (0, 1, 0), (0, 0, 1), q1, q2⟩ : Axes (ℤ × ℤ × ℤ) Q)
    (fun p => (((p.1 + c1 : ℤ) : ZMod N1), ((p.2.1 + c2 : ℤ) : ZMod N2), ((p.2.2 + c3 : ℤ) : ZMod N3)))
    (fun p => min (lineDepth N1 (p.1 + c1)) (min (lineDepth N2 (p.2.1 + c2)) (lineDepth N3 (p.2.2 + c3)))) where
  q1 := rfl
  q2 := rfl
  step1 := fun p => by simp [add_right_comm]
  step2 := fun p => by simp [add_right_comm]
  step3 := fun p => by simp [add_right_comm]
  depth1 := fun p => by
    have := lineDepth_step N1 (p.1 + c1)
    rw [add_right_comm, abs_le] at this
    simp only [Prod.fst_add, Prod.snd_add, add_zero, min_def, abs_le]
    constructor <;> split_ifs <;> omega
  depth2 := fun p => by
    have := lineDepth_step N2 (p.2.1 + c2)
    rw [add_right_comm, abs_le] at this
    simp only [Prod.fst_add, Prod.snd_add, add_zero, min_def, abs_le]
    constructor <;> split_ifs <;> omega
  depth3 := fun p => by
    have := lineDepth_step N3 (p.2.2 + c3)
    rw [add_right_comm, abs_le] at this
    simp only [Prod.fst_add, Prod.snd_add, add_zero, min_def, abs_le]
    constructor <;> split_ifs <;> omega
  wraps := fun p hp => by
    obtain ⟨a1, b1, d1⟩ := lineDepth_emod N1 (p.1 + c1)
    obtain ⟨a2, b2, d2⟩ := lineDepth_emod N2 (p.2.1 + c2)
    obtain ⟨a3, b3, d3⟩ := lineDepth_emod N3 (p.2.2 + c3)
    refine ⟨((p.1 + c1) % N1 - c1, (p.2.1 + c2) % N2 - c2, (p.2.2 + c3) % N3 - c3), ?_, ?_, ?_⟩
    · simp only [sub_add_cancel, a1, a2, a3]
    · simp only [sub_add_cancel, le_min_iff]; exact ⟨b1, b2, b3⟩
    · simp only [sub_add_cancel, min_def] at hp ⊢
      split_ifs at hp ⊢ <;> omega

/-- The same for problems in two momentum directions: the third has a single cell and stays as it is. -/
theorem C108_two_axes : Continues (⟨(1, 0, 0), (0, 1, 0), (0, 0, 1), q1, q2⟩ : Axes (ZMod N1 × ZMod N2 × ZMod N3) Q)
    (⟨(1, 0, 0), (0, 1, 0), (0, 0, 1), q1, q2⟩ : Axes (ℤ × ℤ × ZMod N3) Q)
    (fun p => (((p.1 + c1 : ℤ) : ZMod N1), ((p.2.1 + c2 : ℤ) : ZMod N2), p.2.2))
    (fun p => min (lineDepth N1 (p.1 + c1)) (lineDepth N2 (p.2.1 + c2))) where
  q1 := rfl
  q2 := rfl
  step1 := fun p => by simp [add_right_comm]
  step2 := fun p => by simp [add_right_comm]
  step3 := fun p => by simp
  depth1 := fun p => by
    have := lineDepth_step N1 (p.1 + c1)
    rw [add_right_comm, abs_le] at this
    simp only [Prod.fst_add, Prod.snd_add, add_zero, min_def, abs_le]
    constructor <;> split_ifs <;> omega
  depth2 := fun p => by
    have := lineDepth_step N2 (p.2.1 + c2)
    rw [add_right_comm, abs_le] at this
    simp only [Prod.fst_add, Prod.snd_add, add_zero, min_def, abs_le]
    constructor <;> split_ifs <;> omega
  depth3 := fun p => by simp
  wraps := fun p hp => by
    obtain ⟨a1, b1, d1⟩ := lineDepth_emod N1 (p.1 + c1)
    obtain ⟨a2, b2, d2⟩ := lineDepth_emod N2 (p.2.1 + c2)
    refine ⟨((p.1 + c1) % N1 - c1, (p.2.1 + c2) % N2 - c2, p.2.2), ?_, ?_, ?_⟩
    · simp only [sub_add_cancel, a1, a2]
    · simp only [sub_add_cancel, le_min_iff]; exact ⟨b1, b2⟩
    · simp only [sub_add_cancel, min_def] at hp ⊢
      split_ifs at hp ⊢ <;> omega

/-- The same for problems in one momentum direction. -/
theorem C108_one_axis : Continues (⟨(1, 0, 0), (0, 1, 0), (0, 0, 1), q1, q2⟩ : Axes (ZMod N1 × ZMod N2 × ZMod N3) Q)
    (⟨(1, 0, 0), (0, 1, 0), (0, 0, 1), q1, q2⟩ : Axes (ℤ × ZMod N2 × ZMod N3) Q)
    (fun p => (((p.1 + c1 : ℤ) : ZMod N1), p.2)) (fun p => lineDepth N1 (p.1 + c1)) where
  q1 := rfl
  q2 := rfl
  step1 := fun p => by simp [add_right_comm]
  step2 := fun p => by simp
  step3 := fun p => by simp
  depth1 := fun p => by
    have := lineDepth_step N1 (p.1 + c1)
    rw [add_right_comm] at this
    simpa using this
  depth2 := fun p => by simp
  depth3 := fun p => by simp
  wraps := fun p hp => by
    obtain ⟨a1, b1, d1⟩ := lineDepth_emod N1 (p.1 + c1)
    refine ⟨((p.1 + c1) % N1 - c1, p.2), ?_, ?_, ?_⟩
    · simp only [sub_add_cancel, a1]
    · simpa using b1
    · simpa using d1 hp

end grids

/-! ## at the edge -/

section edge

variable {K : Type} [Field K] [LinearOrder K] [IsStrictOrderedRing K]

/-- One species, one position, `N` cells in the first momentum direction, reconstruction `m` in momentum space. -/
def edgeCfg (m : String) : FVMConfig Unit K :=
  ⟨"FVM", "FVM", "piecewise-constant", m, "upwind-flux", "upwind-flux", false, true, 1, 1, fun _ => 1, fun _ => 1, fun _ => 1⟩
/-- A uniform force `a` in the first direction. -/
def edgeCb (P : Type) (a : K) : Callbacks Unit P (ZMod 1) K :=
  ⟨fun _ _ _ => 0, fun _ _ _ => 0, fun _ _ _ => a, fun _ _ _ => 0, fun _ _ _ => 0, fun f => f⟩

theorem edge_slope {P : Type} [AddCommGroup P] (ax : Axes P (ZMod 1)) (a : K) (ha : 0 < a) (f : Dist Unit P (ZMod 1) K) :
    dfdtFVM ax (edgeCfg "piecewise-constant") (edgeCb P a) f = .ok fun s p q => -(a * (f s p q - f s (p - ax.p1) q)) := by
  simp only [dfdtFVM, edgeCfg, if_true, reconMethod, bind, Except.bind, pure, Except.pure, and_self]
  simp only [Except.ok.injEq, Bool.false_eq_true, if_false]
  funext s p q
  simp [dfdtQ, dfdtP, dFluxP_eq_fluxDiv, fluxDiv_eq, leftState_eq, reconFaces, edgeCb, ha]
  ring

theorem edge_step {P : Type} [AddCommGroup P] (ax : Axes P (ZMod 1)) (a dt : K) (ha : 0 < a) (f : Dist Unit P (ZMod 1) K) :
    runFVM ax (edgeCfg "piecewise-constant") [(dt, fun _ => edgeCb P a)] f = .ok fun s p q =>
      f s p q - a * dt * (f s p q - f s (p - ax.p1) q)
        + (a * dt) ^ 2 / 2 * (f s p q - 2 * f s (p - ax.p1) q + f s (p - ax.p1 - ax.p1) q) := by
  simp only [runFVM, timestepFVM, edge_slope ax a ha, bind, Except.bind, pure, Except.pure, Except.ok.injEq]
  funext s p q
  ring

/-- C108 (negative): nothing leaves the momentum grid.  Particles accelerated beyond the largest momentum come back at the smallest: a
uniform force `a > 0` in the first direction, acting for a time `dt` on particles in the last of `N ≥ 3` cells, puts the fraction
`a dt (1 - a dt)` into the first cell and `(a dt)^2 / 2` into the second; on the unlimited grid these are in the two cells after the last, and
the cells of small momentum stay empty. -/
theorem C108_wraps_around (N : ℕ) [NeZero N] (hN : 3 ≤ N) (a dt : K) (ha : 0 < a) :
    (∃ g, runFVM ⟨(1, 0, 0), (0, 1, 0), (0, 0, 1), 0, 0⟩ (edgeCfg "piecewise-constant") [(dt, fun _ => edgeCb (ZMod N × ZMod 1 × ZMod 1) a)]
        (fun _ p _ => if p.1 = -1 then 1 else 0) = .ok g ∧ g () (0, 0, 0) 0 = a * dt * (1 - a * dt) ∧ g () (1, 0, 0) 0 = (a * dt) ^ 2 / 2) ∧
    ∃ g, runFVM ⟨(1, 0, 0), (0, 1, 0), (0, 0, 1), 0, 0⟩ (edgeCfg "piecewise-constant") [(dt, fun _ => edgeCb (ℤ × ZMod 1 × ZMod 1) a)]
        (fun _ p _ => if p.1 = N - 1 then 1 else 0) = .ok g ∧ g () (N, 0, 0) 0 = a * dt * (1 - a * dt) ∧
        g () (N + 1, 0, 0) 0 = (a * dt) ^ 2 / 2 ∧ ∀ j : ℤ, j < N - 1 → g () (j, 0, 0) 0 = 0 := by
  have h : ∀ k : ℕ, 0 < k → k < N → ((k : ℕ) : ZMod N) ≠ 0 := fun k h0 hk h => by
    rw [ZMod.natCast_eq_zero_iff] at h; exact absurd (Nat.le_of_dvd h0 h) (by omega)
  have h1 : (1 : ZMod N) ≠ 0 := by simpa using h 1 (by omega) (by omega)
  have h2 : (2 : ZMod N) ≠ 0 := by simpa using h 2 (by omega) (by omega)
  refine ⟨⟨_, edge_step _ a dt ha _, ?_, ?_⟩, ⟨_, edge_step _ a dt ha _, ?_, ?_, ?_⟩⟩
  · have a1 : (0 : ZMod N) ≠ -1 := fun e => h1 (by linear_combination e)
    have a2 : (0 : ZMod N) - 1 - 1 ≠ -1 := fun e => h1 (by linear_combination -e)
    simp only [Prod.fst_sub, a1, a2, if_false, zero_sub, if_true]; simp [h1]; ring
  · have a1 : (1 : ZMod N) ≠ -1 := fun e => h2 (by linear_combination e)
    simp [a1, h1]
  · have b1 : (N : ℤ) ≠ N - 1 := by omega
    have b2 : (N : ℤ) - 1 - 1 ≠ N - 1 := by omega
    simp [b1, b2]; ring
  · have b1 : (N : ℤ) + 1 ≠ N - 1 := by omega
    have b2 : (N : ℤ) ≠ N - 1 := by omega
    simp [b1, b2]
  · intro j hj
    have b1 : j ≠ N - 1 := by omega
    have b2 : j - 1 ≠ N - 1 := by omega
    have b3 : j - 1 - 1 ≠ N - 1 := by omega
    have b4 : j ≠ N := by omega
    simp [b1, b2, b3, b4]

/-- A beam in the middle of 64 cells, in a force that depends on the momentum. -/
def beamCb : Callbacks Unit (ZMod 64 × ZMod 1 × ZMod 1) (ZMod 1) ℚ :=
  ⟨fun _ _ _ => 0, fun _ _ _ => 0, fun _ p _ => if p.1 = 33 then 2 else 1, fun _ _ _ => 0, fun _ _ _ => 0, fun f => f⟩
@[inherit_doc beamCb] def beamCb' : Callbacks Unit (ℤ × ZMod 1 × ZMod 1) (ZMod 1) ℚ :=
  ⟨fun _ _ _ => 0, fun _ _ _ => 0, fun _ p _ => if p.1 = 33 then 2 else 1, fun _ _ _ => 0, fun _ _ _ => 0, fun f => f⟩
@[inherit_doc beamCb] def beam : Dist Unit (ZMod 64 × ZMod 1 × ZMod 1) (ZMod 1) ℚ := fun _ p _ => if p.1 = 32 then 1 else 0
@[inherit_doc beamCb] def beam' : Dist Unit (ℤ × ZMod 1 × ZMod 1) (ZMod 1) ℚ := fun _ p _ => if p.1 = 32 then 1 else 0

theorem line_cast (x c : ℤ) (hx : 0 ≤ lineDepth 64 x) (hc : 0 ≤ c ∧ c < 64) : ((x : ℤ) : ZMod 64) = (c : ℤ) ↔ x = c := by
  rw [ZMod.intCast_eq_intCast_iff_dvd_sub]
  simp only [lineDepth, le_min_iff] at hx
  constructor
  · intro h; push_cast at *; omega
  · rintro rfl; simp

/-- The hypotheses of `C108_edge_not_felt` are met: five minmod steps of any length. -/
example (dt : ℚ) : ∃ g g', runFVM ⟨(1, 0, 0), (0, 1, 0), (0, 0, 1), 0, 0⟩ (edgeCfg "minmod") (List.replicate 5 (dt, fun _ => beamCb)) beam = .ok g ∧
    runFVM ⟨(1, 0, 0), (0, 1, 0), (0, 0, 1), 0, 0⟩ (edgeCfg "minmod") (List.replicate 5 (dt, fun _ => beamCb')) beam' = .ok g' ∧
    ∀ x : ℤ, 0 ≤ x → x < 64 → g' () (x, 0, 0) 0 = g () ((x : ZMod 64), 0, 0) 0 := by
  obtain ⟨g, hg⟩ := C09_run_succeeds ⟨(1, 0, 0), (0, 1, 0), (0, 0, 1), 0, 0⟩ (edgeCfg "minmod") (Or.inl rfl) (Or.inr (Or.inl rfl))
    (List.replicate 5 (dt, fun _ => beamCb)) beam
  have hU := C108_one_axis 64 1 1 (0 : ZMod 1) 0 0
  obtain ⟨g', a, b⟩ := C108_edge_not_felt hU (edgeCfg "minmod") rfl (r := 2) (by norm_num) (fun m hm => by
    have : m = .minmod := by simpa [edgeCfg, reconMethod] using hm.symm
    subst this; exact le_rfl) (List.replicate 5 (dt, fun _ => beamCb)) (List.replicate 5 (dt, fun _ => beamCb'))
    (by
      have key : ContinuedCallbacks (fun p : ℤ × ZMod 1 × ZMod 1 => (((p.1 + 0 : ℤ) : ZMod 64), p.2)) (fun p => lineDepth 64 (p.1 + 0)) beamCb beamCb' := by
        intro s p q h0
        refine ⟨rfl, rfl, ?_, rfl, rfl⟩
        have := line_cast (p.1 + 0) 33 h0 (by norm_num)
        push_cast at this
        simp only [add_zero] at this
        simp [beamCb, beamCb', this]
      simp only [List.replicate, List.forall₂_cons, List.Forall₂.nil, and_true]
      exact ⟨⟨trivial, fun _ => key⟩, ⟨trivial, fun _ => key⟩, ⟨trivial, fun _ => key⟩, ⟨trivial, fun _ => key⟩, trivial, fun _ => key⟩) beam g beam'
    (by
      refine ⟨fun s p q h0 => ?_, fun s p q h0 => ?_⟩
      · have := line_cast (p.1 + 0) 32 h0 (by norm_num)
        push_cast at this
        simp only [add_zero] at this
        simp [beam, beam', this]
      · simp only [beam', lineDepth, List.length_replicate, min_lt_iff] at h0 ⊢
        rw [if_neg]
        push_cast at h0; omega) hg
  refine ⟨g, g', hg, a, fun x h0 h1 => ?_⟩
  have := b.1 () (x, 0, 0) 0 (by simp only [lineDepth, le_min_iff]; push_cast; omega)
  simpa using this

/-- The hypotheses of `C108_wider_grid` are met: the beam on 64 cells and on 128 cells, whose first 32 lie below the 64. -/
example (dt : ℚ) : ∃ g g2, runFVM ⟨(1, 0, 0), (0, 1, 0), (0, 0, 1), 0, 0⟩ (edgeCfg "minmod") (List.replicate 5 (dt, fun _ => edgeCb _ 1)) beam = .ok g ∧
    runFVM ⟨(1, 0, 0), (0, 1, 0), (0, 0, 1), 0, 0⟩ (edgeCfg "minmod") (List.replicate 5 (dt, fun _ => edgeCb (ZMod 128 × ZMod 1 × ZMod 1) 1))
      (fun _ p _ => if p.1 = 64 then 1 else 0) = .ok g2 ∧
    ∀ x : ℤ, 0 ≤ x → x < 64 → g () ((x : ZMod 64), 0, 0) 0 = g2 () (((x + 32 : ℤ) : ZMod 128), 0, 0) 0 := by
  obtain ⟨g, hg⟩ := C09_run_succeeds ⟨(1, 0, 0), (0, 1, 0), (0, 0, 1), 0, 0⟩ (edgeCfg "minmod") (Or.inl rfl) (Or.inr (Or.inl rfl))
    (List.replicate 5 (dt, fun _ => edgeCb (ZMod 64 × ZMod 1 × ZMod 1) (1 : ℚ))) beam
  obtain ⟨g2, hg2⟩ := C09_run_succeeds ⟨(1, 0, 0), (0, 1, 0), (0, 0, 1), 0, 0⟩ (edgeCfg "minmod") (Or.inl rfl) (Or.inr (Or.inl rfl))
    (List.replicate 5 (dt, fun _ => edgeCb (ZMod 128 × ZMod 1 × ZMod 1) (1 : ℚ))) (fun _ p _ => if p.1 = 64 then 1 else 0)
  refine ⟨g, g2, hg, hg2, fun x h0 h1 => ?_⟩
  have := C108_wider_grid (C108_one_axis 64 1 1 (0 : ZMod 1) 0 0) (C108_one_axis 128 1 1 (0 : ZMod 1) 0 32) (edgeCfg "minmod") rfl (r := 2)
    (by norm_num) (fun m hm => by
      have : m = .minmod := by simpa [edgeCfg, reconMethod] using hm.symm
      subst this; exact le_rfl)
    (List.replicate 5 (dt, fun _ => edgeCb _ (1 : ℚ), fun _ => edgeCb _ 1, fun _ => edgeCb _ 1))
    (fun st hst k => by rw [List.eq_of_mem_replicate hst]; exact fun s p q _ => ⟨rfl, rfl, rfl, rfl, rfl⟩)
    (fun st hst k => by rw [List.eq_of_mem_replicate hst]; exact fun s p q _ => ⟨rfl, rfl, rfl, rfl, rfl⟩)
    beam g (fun _ p _ => if p.1 = 64 then 1 else 0) g2 beam'
    (by
      refine ⟨fun s p q h0 => ?_, fun s p q h0 => ?_⟩
      · have := line_cast (p.1 + 0) 32 h0 (by norm_num)
        push_cast at this
        simp only [add_zero] at this
        simp [beam, beam', this]
      · simp only [beam', lineDepth, List.length_replicate, min_lt_iff] at h0 ⊢
        rw [if_neg]
        push_cast at h0; omega)
    (by
      refine ⟨fun s p q h0 => ?_, fun s p q h0 => ?_⟩
      · have e : ((p.1 + 32 : ℤ) : ZMod 128) = 64 ↔ p.1 = 32 := by
          rw [show (64 : ZMod 128) = ((64 : ℤ) : ZMod 128) by norm_num, ZMod.intCast_eq_intCast_iff_dvd_sub]
          simp only [lineDepth, le_min_iff] at h0
          push_cast at *
          omega
        simp only [beam', e]
      · simp only [beam', lineDepth, List.length_replicate, min_lt_iff] at h0 ⊢
        rw [if_neg]
        push_cast at h0; omega)
    (by simpa using hg) (by simpa using hg2) () (x, 0, 0) 0 (by simp only [lineDepth, le_min_iff]; push_cast; omega)
    (by simp only [lineDepth, le_min_iff]; push_cast; omega)
  simpa using this

/-- The hypotheses of `C108_tails` are met: a beam with a tail that reaches the edge. -/
example (f : Dist Unit (ZMod 64 × ZMod 1 × ZMod 1) (ZMod 1) ℚ) : ∃ g g',
    runFVM ⟨(1, 0, 0), (0, 1, 0), (0, 0, 1), 0, 0⟩ (edgeCfg "piecewise-constant") (List.replicate 5 (1 / 2, fun _ => edgeCb _ 1)) f = .ok g ∧
    runFVM ⟨(1, 0, 0), (0, 1, 0), (0, 0, 1), 0, 0⟩ (edgeCfg "piecewise-constant") (List.replicate 5 (1 / 2, fun _ => edgeCb _ 1)) beam' = .ok g' ∧
    ∑ p, ∑ q, |g () p q - g' () (p.1.val, p.2) q| ≤ ∑ p, ∑ q, |f () p q - beam () p q| := by
  obtain ⟨g, hg⟩ := C09_run_succeeds ⟨(1, 0, 0), (0, 1, 0), (0, 0, 1), 0, 0⟩ (edgeCfg "piecewise-constant") (Or.inl rfl) (Or.inl rfl)
    (List.replicate 5 (1 / 2, fun _ => edgeCb (ZMod 64 × ZMod 1 × ZMod 1) (1 : ℚ))) f
  have hU := C108_one_axis 64 1 1 (0 : ZMod 1) 0 0
  obtain ⟨g', a, b⟩ := C108_tails hU (edgeCfg "piecewise-constant") rfl rfl rfl ⟨by norm_num [edgeCfg], by norm_num [edgeCfg],
    fun _ => by norm_num [edgeCfg], fun _ => by norm_num [edgeCfg], fun _ => by norm_num [edgeCfg]⟩ (List.replicate 5 (1 / 2, fun _ => edgeCb (ZMod 64 × ZMod 1 × ZMod 1) (1 : ℚ)))
    (List.replicate 5 (1 / 2, fun _ => edgeCb (ℤ × ZMod 1 × ZMod 1) (1 : ℚ)))
    (by
      simp only [List.replicate, List.forall₂_cons, List.Forall₂.nil, and_true]
      have key : ContinuedCallbacks (fun p : ℤ × ZMod 1 × ZMod 1 => (((p.1 + 0 : ℤ) : ZMod 64), p.2)) (fun p => lineDepth 64 (p.1 + 0))
          (edgeCb _ (1 : ℚ)) (edgeCb _ 1) := fun s p q h0 => ⟨rfl, rfl, rfl, rfl, rfl⟩
      exact ⟨⟨trivial, fun _ => key⟩, ⟨trivial, fun _ => key⟩, ⟨trivial, fun _ => key⟩, ⟨trivial, fun _ => key⟩, trivial, fun _ => key⟩)
    (by
      intro st hst
      rw [List.eq_of_mem_replicate hst]
      refine ⟨by norm_num, ?_, ?_⟩
      · exact ⟨rfl, rfl, rfl, rfl, rfl⟩
      · intro s p q
        norm_num [outflowRate, faceOutflow, edgeCb, edgeCfg]
        split_ifs <;> norm_num)
    f beam g beam'
    (by
      refine ⟨fun s p q h0 => ?_, fun s p q h0 => ?_⟩
      · have := line_cast (p.1 + 0) 32 h0 (by norm_num)
        push_cast at this
        simp only [add_zero] at this
        simp [beam, beam', this]
      · simp only [beam', lineDepth, List.length_replicate, min_lt_iff] at h0 ⊢
        rw [if_neg]
        push_cast at h0; omega) hg
  refine ⟨g, g', hg, a, b (fun p => (p.1.val, p.2)) (fun p => ⟨?_, ?_⟩) ()⟩
  · simp
  · have := ZMod.val_lt p.1
    simp only [lineDepth, le_min_iff]; push_cast; omega

end edge

end Bolt
