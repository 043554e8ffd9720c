import Verif.Proofs.Fields
import Verif.Spec.Fields
import Verif.Props.FDTD
import Mathlib.Data.ZMod.Basic
import Mathlib.Tactic.NormNum

/-!
# C18, C23: grid conversion and initial fields
-/

set_option linter.unusedSectionVars false

namespace Bolt

open Finset

variable {Q K : Type} [AddCommGroup Q] [Field K]

/-! ## C18 -/

/-- C18: converting to cell centres takes, for every component, the mean of the samples that surround the centre. -/
theorem C18_to_centre (q1 q2 : Q) (Y C : EM Q K) (i : Q) :
    (toCentre q1 q2 .both Y C).E1 i = meanOfNearest q1 q2 .E1 .centre Y.E1 i ∧
    (toCentre q1 q2 .both Y C).E2 i = meanOfNearest q1 q2 .E2 .centre Y.E2 i ∧
    (toCentre q1 q2 .both Y C).E3 i = meanOfNearest q1 q2 .E3 .centre Y.E3 i ∧
    (toCentre q1 q2 .both Y C).B1 i = meanOfNearest q1 q2 .B1 .centre Y.B1 i ∧
    (toCentre q1 q2 .both Y C).B2 i = meanOfNearest q1 q2 .B2 .centre Y.B2 i ∧
    (toCentre q1 q2 .both Y C).B3 i = meanOfNearest q1 q2 .B3 .centre Y.B3 i := by
  refine ⟨?_, ?_, ?_, ?_, ?_, ?_⟩ <;>
    simp [toCentre, meanOfNearest, nearest, Stagger.E1, Stagger.E2, Stagger.E3, Stagger.B1, Stagger.B2, Stagger.B3,
      Stagger.centre, afShift_back, add_right_comm] <;> ring

/-- C18: converting to the staggered grid takes, for every component, the mean of the cell-centred samples that surround its
position. -/
theorem C18_to_yee (q1 q2 : Q) (C Y : EM Q K) (i : Q) :
    (toYee q1 q2 .both C Y).E1 i = meanOfNearest q1 q2 .centre .E1 C.E1 i ∧
    (toYee q1 q2 .both C Y).E2 i = meanOfNearest q1 q2 .centre .E2 C.E2 i ∧
    (toYee q1 q2 .both C Y).E3 i = meanOfNearest q1 q2 .centre .E3 C.E3 i ∧
    (toYee q1 q2 .both C Y).B1 i = meanOfNearest q1 q2 .centre .B1 C.B1 i ∧
    (toYee q1 q2 .both C Y).B2 i = meanOfNearest q1 q2 .centre .B2 C.B2 i ∧
    (toYee q1 q2 .both C Y).B3 i = meanOfNearest q1 q2 .centre .B3 C.B3 i := by
  have e : i + -q1 - q2 = i + -q1 + -q2 := by abel
  have e1 : i - q1 = i + -q1 := by abel
  have e2 : i - q2 = i + -q2 := by abel
  refine ⟨?_, ?_, ?_, ?_, ?_, ?_⟩ <;>
    simp [toYee, meanOfNearest, nearest, Stagger.E1, Stagger.E2, Stagger.E3, Stagger.B1, Stagger.B2, Stagger.B3,
      Stagger.centre, afShift_fwd, e, e1, e2] <;> ring

/-- C18: asking for one group of components converts that group as the full conversion does and leaves the other group as it was. -/
theorem C18_only_requested (q1 q2 : Q) (Y C : EM Q K) :
    toCentre q1 q2 .E Y C = { toCentre q1 q2 .both Y C with B1 := C.B1, B2 := C.B2, B3 := C.B3 } ∧
    toCentre q1 q2 .B Y C = { toCentre q1 q2 .both Y C with E1 := C.E1, E2 := C.E2, E3 := C.E3 } ∧
    toYee q1 q2 .E C Y = { toYee q1 q2 .both C Y with B1 := Y.B1, B2 := Y.B2, B3 := Y.B3 } ∧
    toYee q1 q2 .B C Y = { toYee q1 q2 .both C Y with E1 := Y.E1, E2 := Y.E2, E3 := Y.E3 } := by
  simp [toCentre, toYee]

/-- C18: uniform fields are reproduced exactly, in both directions. -/
theorem C18_const [CharZero K] (q1 q2 : Q) (a1 a2 a3 b1 b2 b3 : K) (F : EM Q K) :
    toCentre q1 q2 .both (EM.const a1 a2 a3 b1 b2 b3) F = EM.const a1 a2 a3 b1 b2 b3 ∧
    toYee q1 q2 .both (EM.const a1 a2 a3 b1 b2 b3) F = EM.const a1 a2 a3 b1 b2 b3 := by
  constructor <;> ext i <;> simp [toCentre, toYee, EM.const, afShift] <;> ring

theorem sum_half_shift [CharZero K] [Fintype Q] (e : Q) (k : ℤ) (x : Q → K) : ∑ i, 1 / 2 * (x i + afShift e k x i) = ∑ i, x i := by
  have : ∑ i, afShift e k x i = ∑ i, x i := Equiv.sum_comp (Equiv.subRight (k • e)) x
  rw [← mul_sum, sum_add_distrib, this]; ring

theorem sum_shift [Fintype Q] (e : Q) (k : ℤ) (x : Q → K) : ∑ i, afShift e k x i = ∑ i, x i :=
  Equiv.sum_comp (Equiv.subRight (k • e)) x

/-- C18: the sum of every component over a periodic grid is preserved, in both directions. -/
theorem C18_sum_preserved [CharZero K] [Fintype Q] (q1 q2 : Q) (Y C : EM Q K) :
    (∑ i, (toCentre q1 q2 .both Y C).E1 i = ∑ i, Y.E1 i ∧ ∑ i, (toCentre q1 q2 .both Y C).E2 i = ∑ i, Y.E2 i ∧
      ∑ i, (toCentre q1 q2 .both Y C).E3 i = ∑ i, Y.E3 i ∧ ∑ i, (toCentre q1 q2 .both Y C).B1 i = ∑ i, Y.B1 i ∧
      ∑ i, (toCentre q1 q2 .both Y C).B2 i = ∑ i, Y.B2 i ∧ ∑ i, (toCentre q1 q2 .both Y C).B3 i = ∑ i, Y.B3 i) ∧
    (∑ i, (toYee q1 q2 .both C Y).E1 i = ∑ i, C.E1 i ∧ ∑ i, (toYee q1 q2 .both C Y).E2 i = ∑ i, C.E2 i ∧
      ∑ i, (toYee q1 q2 .both C Y).E3 i = ∑ i, C.E3 i ∧ ∑ i, (toYee q1 q2 .both C Y).B1 i = ∑ i, C.B1 i ∧
      ∑ i, (toYee q1 q2 .both C Y).B2 i = ∑ i, C.B2 i ∧ ∑ i, (toYee q1 q2 .both C Y).B3 i = ∑ i, C.B3 i) := by
  refine ⟨⟨sum_half_shift _ _ _, sum_half_shift _ _ _, rfl, sum_half_shift _ _ _, sum_half_shift _ _ _, ?_⟩,
    sum_half_shift _ _ _, sum_half_shift _ _ _, rfl, sum_half_shift _ _ _, sum_half_shift _ _ _, ?_⟩
  · have : ∀ i, (toCentre q1 q2 .both Y C).B3 i = 1 / 4 * (Y.B3 i + afShift q2 (-1) Y.B3 i + afShift q1 (-1) Y.B3 i
      + afShift q1 (-1) (afShift q2 (-1) Y.B3) i) := fun _ => rfl
    simp only [this]
    rw [← mul_sum, sum_add_distrib, sum_add_distrib, sum_add_distrib, sum_shift, sum_shift, sum_shift, sum_shift]; ring
  · have : ∀ i, (toYee q1 q2 .both C Y).B3 i = 1 / 4 * (C.B3 i + afShift q1 1 C.B3 i + afShift q2 1 C.B3 i
      + afShift q1 1 (afShift q2 1 C.B3) i) := fun _ => rfl
    simp only [this]
    rw [← mul_sum, sum_add_distrib, sum_add_distrib, sum_add_distrib, sum_shift, sum_shift, sum_shift, sum_shift]; ring

/-- C18, concretely: the two directions differ, and the conversion of a non-uniform field is not the identity. -/
example : (toCentre (1, 0) (0, 1) .both exEM exEM).E1 (2, 0) = 1 / 2 ∧ (toYee (1, 0) (0, 1) .both exEM exEM).E1 (1, 0) = 1 / 2 ∧
    exEM.E1 (2, 0) = 0 ∧ exEM.E1 (1, 0) = 0 := by
  have h1 : ((2, 0) : ZMod 3 × ZMod 2) + (1, 0) = (0, 0) := by decide
  have h2 : ((1, 0) : ZMod 3 × ZMod 2) - (1, 0) = (0, 0) := by decide
  have h3 : ((2, 0) : ZMod 3 × ZMod 2) ≠ (0, 0) := by decide
  have h4 : ((1, 0) : ZMod 3 × ZMod 2) ≠ (0, 0) := by decide
  refine ⟨?_, ?_, by simp only [exEM]; exact if_neg h3, by simp only [exEM]; exact if_neg h4⟩
  · change 1 / 2 * (exEM.E1 (2, 0) + afShift (1, 0) (-1) exEM.E1 (2, 0)) = 1 / 2
    rw [afShift_back, h1]
    simp only [exEM]
    rw [if_neg h3]; norm_num
  · change 1 / 2 * (exEM.E1 (1, 0) + afShift (1, 0) 1 exEM.E1 (1, 0)) = 1 / 2
    rw [afShift_fwd, h2]
    simp only [exEM]
    rw [if_neg h4]; norm_num

/-! ## C23 -/

/-- C23: a magnetic field initialised from `A3` and `B3` has zero divergence in every cell. -/
theorem C23_A3_B3_divergence_free (pr : FieldParams Q K) (ini : InitFns Q K) (A3 B3 : Q → K) (hB : ini.B = none)
    (hA : ini.A = none) (h : ini.A3_B3 = some (A3, B3)) (F : EM Q K) :
    ∃ F', initMagnetic pr ini F = .ok F' ∧ F'.B3 = B3 ∧ ∀ i, divB pr F' i = 0 := by
  refine ⟨_, by simp only [initMagnetic, hB, hA, h]; rfl, rfl, fun i => ?_⟩
  simp only [divB, afShift_fwd]
  rw [show i - pr.q1 - pr.q2 = i - pr.q2 - pr.q1 by abel]
  ring

/-- C23 and C13 together: started that way, the field is free of monopoles after any number of FDTD steps. -/
theorem C23_divergence_free_for_ever [LinearOrder K] [Fintype Q] (pr : FieldParams Q K) (ini : InitFns Q K) (A3 B3 : Q → K)
    (hB : ini.B = none) (hA : ini.A = none) (h : ini.A3_B3 = some (A3, B3)) (F F0 F' : EM Q K)
    (h0 : initMagnetic pr ini F = .ok F0) (steps : List (FDTDStep Q K)) (hr : runFDTD pr steps F0 = .ok F') :
    ∀ i, divB pr F' i = 0 := by
  obtain ⟨G, hG, _, hd⟩ := C23_A3_B3_divergence_free pr ini A3 B3 hB hA h F
  rw [h0, Except.ok.injEq] at hG
  exact C13_divB_zero_preserved pr steps F0 F' hr (hG ▸ hd)

/-- C23 (negative): the full vector potential option takes the differences on the other side, and the resulting field can have
monopoles. -/
theorem C23_vector_potential_not_divergence_free :
    ∃ (pr : FieldParams (ZMod 3 × ZMod 3) ℚ) (ini : InitFns (ZMod 3 × ZMod 3) ℚ) (F F' : EM (ZMod 3 × ZMod 3) ℚ),
      ini.B = none ∧ ini.A.isSome ∧ initMagnetic pr ini F = .ok F' ∧ divB pr F' (0, 0) ≠ 0 := by
  let A3 : ZMod 3 × ZMod 3 → ℚ := fun i => if i = (0, 1) then 1 else 0
  refine ⟨⟨(1, 0), (0, 1), 1, 1, 1, 1, false⟩, ⟨none, none, none, some (fun _ => 0, fun _ => 0, A3), none⟩,
    EM.const 0 0 0 0 0 0, _, rfl, rfl, rfl, ?_⟩
  have h1 : ((0, 0) : ZMod 3 × ZMod 3) + (0, 1) = (0, 1) := by decide
  have h2 : ((0, 0) : ZMod 3 × ZMod 3) ≠ (0, 1) := by decide
  have h3 : ((0, 0) : ZMod 3 × ZMod 3) - (1, 0) + (0, 1) ≠ (0, 1) := by decide
  have h4 : ((0, 0) : ZMod 3 × ZMod 3) - (1, 0) ≠ (0, 1) := by decide
  have h5 : ((0, 0) : ZMod 3 × ZMod 3) + (1, 0) ≠ (0, 1) := by decide
  have h6 : ((0, 0) : ZMod 3 × ZMod 3) - (0, 1) + (1, 0) ≠ (0, 1) := by decide
  have h7 : ((0, 0) : ZMod 3 × ZMod 3) - (0, 1) ≠ (0, 1) := by decide
  simp only [divB, fwdDiff, afShift_fwd, afShift_back, A3]
  rw [if_pos h1, if_neg h2, if_neg h3, if_neg h4, if_neg h5, if_neg h6, if_neg h7]
  norm_num

/-- C23: with the full vector potential it is the divergence taken with the opposite differences that vanishes. -/
theorem C23_vector_potential_other_divergence (pr : FieldParams Q K) (ini : InitFns Q K) (F F' : EM Q K) (hB : ini.B = none)
    (hA : ini.A.isSome) (h : initMagnetic pr ini F = .ok F') (i : Q) :
    (F'.B1 (i + pr.q1) - F'.B1 i) / pr.dq1 + (F'.B2 (i + pr.q2) - F'.B2 i) / pr.dq2 = 0 := by
  obtain ⟨⟨A1, A2, A3⟩, hA⟩ := Option.isSome_iff_exists.mp hA
  simp only [initMagnetic, hB, hA, Except.ok.injEq] at h
  subst h
  simp only [fwdDiff, afShift_back]
  rw [show i + pr.q1 + pr.q2 = i + pr.q2 + pr.q1 by abel]
  ring

/-- C23: an electric field initialised from potentials has divergence minus the five-point Laplacian of `phi`, whatever `A`. -/
theorem C23_electric_from_potentials (pr : FieldParams Q K) (ini : InitFns Q K) (A1 A2 A3 phi : Q → K) (hE : ini.E = none)
    (h : ini.A_phi = some (A1, A2, A3, phi)) (F F' : EM Q K) (hF : initElectric pr ini F = .ok F') (i : Q) :
    divE pr F' i = -((phi (i + pr.q1) - 2 * phi i + phi (i - pr.q1)) / pr.dq1 ^ 2
      + (phi (i + pr.q2) - 2 * phi i + phi (i - pr.q2)) / pr.dq2 ^ 2) := by
  simp only [initElectric, hE, h, Except.ok.injEq] at hF
  subst hF
  simp only [divE, fwdDiff, afShift_back, afShift_fwd, add_sub_cancel_right]
  rw [show i + pr.q1 + pr.q2 = i + pr.q2 + pr.q1 by abel]
  ring

/-- C23: the fields each initialiser gives, component by component.  Electric field from potentials: the curl of `A` minus the gradient of
`phi`; magnetic field from a vector potential: its curl (forward differences), or, from `A3` and `B3`, the curl of `(0, 0, A3)` (backward
differences) and `B3` itself.  The other field is left alone. -/
theorem C23_values (pr : FieldParams Q K) (ini : InitFns Q K) (F F' : EM Q K) :
    (∀ A1 A2 A3 phi, ini.E = none → ini.A_phi = some (A1, A2, A3, phi) → initElectric pr ini F = .ok F' → ∀ i,
      F'.E1 i = (A3 (i + pr.q2) - A3 i) / pr.dq2 - (phi i - phi (i - pr.q1)) / pr.dq1 ∧
      F'.E2 i = -((A3 (i + pr.q1) - A3 i) / pr.dq1) - (phi i - phi (i - pr.q2)) / pr.dq2 ∧
      F'.E3 i = (A2 (i + pr.q1) - A2 i) / pr.dq1 - (A1 (i + pr.q2) - A1 i) / pr.dq2 ∧
      F'.B1 i = F.B1 i ∧ F'.B2 i = F.B2 i ∧ F'.B3 i = F.B3 i) ∧
    (∀ E1 E2 E3, ini.E = some (E1, E2, E3) → initElectric pr ini F = .ok F' → F' = ⟨E1, E2, E3, F.B1, F.B2, F.B3⟩) ∧
    (∀ B1 B2 B3, ini.B = some (B1, B2, B3) → initMagnetic pr ini F = .ok F' → F' = ⟨F.E1, F.E2, F.E3, B1, B2, B3⟩) ∧
    (∀ A1 A2 A3, ini.B = none → ini.A = some (A1, A2, A3) → initMagnetic pr ini F = .ok F' → ∀ i,
      F'.B1 i = (A3 (i + pr.q2) - A3 i) / pr.dq2 ∧ F'.B2 i = -((A3 (i + pr.q1) - A3 i) / pr.dq1) ∧
      F'.B3 i = (A2 (i + pr.q1) - A2 i) / pr.dq1 - (A1 (i + pr.q2) - A1 i) / pr.dq2 ∧
      F'.E1 i = F.E1 i ∧ F'.E2 i = F.E2 i ∧ F'.E3 i = F.E3 i) ∧
    (∀ A3 B3, ini.B = none → ini.A = none → ini.A3_B3 = some (A3, B3) → initMagnetic pr ini F = .ok F' → ∀ i,
      F'.B1 i = (A3 i - A3 (i - pr.q2)) / pr.dq2 ∧ F'.B2 i = -((A3 i - A3 (i - pr.q1)) / pr.dq1) ∧ F'.B3 i = B3 i ∧
      F'.E1 i = F.E1 i ∧ F'.E2 i = F.E2 i ∧ F'.E3 i = F.E3 i) := by
  refine ⟨fun A1 A2 A3 phi h1 h2 h => ?_, fun E1 E2 E3 h1 h => ?_, fun B1 B2 B3 h1 h => ?_, fun A1 A2 A3 h1 h2 h => ?_,
    fun A3 B3 h1 h2 h3 h => ?_⟩
  · simp only [initElectric, h1, h2, Except.ok.injEq] at h
    subst h
    intro i
    simp only [fwdDiff, afShift_back, afShift_fwd, and_self, and_true]
    exact ⟨by ring, by ring⟩
  · simp only [initElectric, h1, Except.ok.injEq] at h
    exact h.symm
  · cases h2 : ini.A3_B3 with
    | none => simp only [initMagnetic, h1, h2, Except.ok.injEq] at h; exact h.symm
    | some x => simp only [initMagnetic, h1, h2] at h; cases h
  · simp only [initMagnetic, h1, h2, Except.ok.injEq] at h
    subst h
    intro i
    simp only [fwdDiff, afShift_back, and_self]
  · simp only [initMagnetic, h1, h2, h3, Except.ok.injEq] at h
    subst h
    intro i
    simp only [afShift_fwd, and_self, and_true, true_and]
    ring

/-- C23, error branches: both `initialize_B` and `initialize_A3_B3`, or no initialiser at all, raise. -/
theorem C23_init_errors (pr : FieldParams Q K) (ini : InitFns Q K) (F : EM Q K) :
    ((∃ F', initMagnetic pr ini F = .ok F') ↔
      (ini.B.isSome ∧ ini.A3_B3 = none) ∨ (ini.B = none ∧ (ini.A.isSome ∨ ini.A3_B3.isSome))) ∧
    ((∃ F', initElectric pr ini F = .ok F') ↔ ini.E.isSome ∨ ini.A_phi.isSome) := by
  obtain ⟨E, Ap, B, A, AB⟩ := ini
  constructor
  · cases B <;> cases A <;> cases AB <;> simp [initMagnetic]
  · cases E <;> cases Ap <;> simp [initElectric]

/-- C23, concretely. -/
example : ∃ F', initMagnetic exPr ⟨none, none, none, none, some (fun i => if i = (0, 1) then 1 else 0, fun _ => 3)⟩ exEM = .ok F' ∧
    F'.B1 (0, 1) ≠ 0 := by
  refine ⟨_, rfl, ?_⟩
  have h : ((0, 1) : ZMod 3 × ZMod 2) - (0, 1) ≠ (0, 1) := by decide
  simp only [afShift_fwd, exPr]
  rw [if_neg h]; norm_num

end Bolt
