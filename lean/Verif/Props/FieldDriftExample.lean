import Verif.Props.FieldDrift
import Mathlib.Tactic.IntervalCases

/-!
# C111: concrete runs in double precision, and the law that rounding breaks
-/

set_option linter.unusedSectionVars false

namespace Bolt

open Machine

/-- A grid of 2 x 2 cells of size 1. -/
def c111Pr : FieldParams (ZMod 2 × ZMod 2) ℚ := ⟨(1, 0), (0, 1), 1, 1, 1, 1, false⟩

/-- A strong uniform magnetic field and an electric field in one cell. -/
def c111F : EM (ZMod 2 × ZMod 2) ℚ :=
  ⟨fun _ => 0, fun _ => 0, fun i => if i = (0, 0) then 1 else 0, fun _ => 2 ^ 53, fun _ => 0, fun _ => 0⟩

/-- **C111 (rounding does create magnetic charge).** In double precision `div B` is not kept exactly: one step of size 1 from fields without magnetic
charge leaves a magnetic charge in a cell. -/
theorem C111_divB_not_exact : letI := doubleMachine
    (∀ i, divB c111Pr c111F i = 0) ∧ divB c111Pr (Mach.runFDTD c111Pr [(1, Currents.zero)] c111F) (0, 1) ≠ 0 := by
  decide +kernel

/-- The hypotheses of `C111_divB_drift` are met by this run; the bound it gives is about 20 for a change of 1. -/
example : letI := doubleMachine
    |divB c111Pr (Mach.runFDTD c111Pr [(1, Currents.zero)] c111F) (0, 1) - divB c111Pr c111F (0, 1)| ≤
      10 * (1 / 2 ^ 53) * (1 * 2 ^ 53 * (1 / 1 + 1 / 1) + 4 * 1 * 1 / (1 * 1)) := by
  letI := doubleMachine
  have := C111_divB_drift (M := doubleMachine) rfl C107_double_accurate (by norm_num) c111Pr (by decide +kernel) (by decide +kernel) (2 ^ 53) 1
    [(1, Currents.zero)] c111F (by decide +kernel) (by decide +kernel) (0, 1)
  refine this.trans_eq ?_
  simp [c111Pr]

/-- A current through one face. -/
def c111J : Currents (ZMod 2 × ZMod 2) ℚ := ⟨fun i => if i = (0, 0) then 1 / 10 else 0, fun _ => 0, fun _ => 0⟩

/-- The hypotheses of `C111_gauss_drift` are met by two steps with a current of `1/10` and a step of `1/10`, neither of which is a double. -/
example : letI := doubleMachine
    |divE c111Pr (Mach.runFDTD c111Pr [(1 / 10, c111J), (1 / 10, c111J)] (EM.const 0 0 0 0 0 (1 / 3))) (0, 0) - (0 + 1 / 50)| ≤ 1 / 2 ^ 45 := by
  letI := doubleMachine
  have := C111_gauss_drift (M := doubleMachine) rfl C107_double_accurate (by norm_num) c111Pr (by decide +kernel) (by decide +kernel) (by decide +kernel)
    1 1 1 [(1 / 10, c111J), (1 / 10, c111J)] (EM.const 0 0 0 0 0 (1 / 3)) (by decide +kernel) (by decide +kernel) (0, 0)
  have e : divE c111Pr (EM.const 0 0 0 0 0 (1 / 3)) (0, 0) -
      (([(1 / 10, c111J), (1 / 10, c111J)] : List (ℚ × Currents (ZMod 2 × ZMod 2) ℚ)).map fun st => st.1 / c111Pr.eps * divJ c111Pr st.2 (0, 0)).sum = 0 + 1 / 50 := by
    decide +kernel
  rw [e] at this
  refine this.trans ?_
  decide +kernel

/-- Uniform fields of 3/2 and 1/4 are kept. -/
example (n : ℕ) (dt : ℚ) : letI := doubleMachine
    Mach.runFDTD c111Pr (List.replicate n (dt, Currents.zero)) (EM.const (3 / 2) 0 0 0 (1 / 4) 0) = EM.const (3 / 2) 0 0 0 (1 / 4) 0 := by
  letI := doubleMachine
  have h := C111_uniform_fields_kept (M := doubleMachine) rfl C107_double_accurate c111Pr (List.replicate n dt) (3 / 2) 0 0 0 (1 / 4) 0
    (by unfold Representable; decide +kernel) (by unfold Representable; decide +kernel) (by unfold Representable; decide +kernel)
    (by unfold Representable; decide +kernel) (by unfold Representable; decide +kernel) (by unfold Representable; decide +kernel)
  simpa using h

/-- All boundaries periodic along `q1`, one cell along `q2`. -/
def c111Opt : BCOptions := { nGhost := 1, name := fun w => match w with | .left | .right => "periodic" | .bottom | .top => "none", pGrid := "cartesian", solverMethodInQ := "FVM" }

/-- The hypotheses of `C111_bitwise_decomposition_independence` are met in double precision on the two processes of `exD` with one ghost cell, for any fields. -/
example (n : ℕ) (dt : ℚ) (G : EM (ZMod 6 × ZMod 1) ℚ) (user : ∀ r, exD.LocFieldBCs 1 0 r ℚ) : letI := doubleMachine
    ∃ Y', Mach.FdtdRun exD 1 0 c111Opt user (fun _ => ⟨(1, 0), (0, 1), 1, 1, 1, 1, false⟩) (List.replicate n (dt, fun _ => Currents.zero))
      (fun r => ⟨fun l => G.E1 (exD.toGlob 1 0 r l), fun l => G.E2 (exD.toGlob 1 0 r l), fun l => G.E3 (exD.toGlob 1 0 r l),
        fun l => G.B1 (exD.toGlob 1 0 r l), fun l => G.B2 (exD.toGlob 1 0 r l), fun l => G.B3 (exD.toGlob 1 0 r l)⟩) Y' ∧
      ∀ r, exD.EMHolds 1 0 r (Y' r) (Mach.runFDTD ⟨(1, 0), (0, 1), 1, 1, 1, 1, false⟩ (List.replicate n (dt, Currents.zero)) G) := by
  letI := doubleMachine
  have p1 : PeriodicEnds (c111Opt.name .left) (c111Opt.name .right) 6 := Or.inl ⟨rfl, rfl⟩
  have p2 : PeriodicEnds (c111Opt.name .bottom) (c111Opt.name .top) 1 := Or.inr ⟨rfl, rfl, rfl⟩
  obtain ⟨Y', h⟩ := C111_run_exists exD 1 0 p1 p2 ⟨rfl, rfl⟩ user (fun _ => ⟨(1, 0), (0, 1), 1, 1, 1, 1, false⟩)
    (List.replicate n (dt, fun _ => Currents.zero)) (fun r => ⟨fun l => G.E1 (exD.toGlob 1 0 r l), fun l => G.E2 (exD.toGlob 1 0 r l), fun l => G.E3 (exD.toGlob 1 0 r l),
        fun l => G.B1 (exD.toGlob 1 0 r l), fun l => G.B2 (exD.toGlob 1 0 r l), fun l => G.B3 (exD.toGlob 1 0 r l)⟩)
  refine ⟨Y', h, ?_⟩
  have := C111_bitwise_decomposition_independence exD 1 0 p1 p2 (Or.inl le_rfl) (Or.inr ⟨rfl, rfl⟩) user 1 1 1 1 false
    (List.replicate n (dt, (fun _ => Currents.zero), Currents.zero)) (by
      intro st hst r l _
      rw [List.eq_of_mem_replicate hst]; exact ⟨rfl, rfl, rfl⟩)
    (fun r => ⟨fun l => G.E1 (exD.toGlob 1 0 r l), fun l => G.E2 (exD.toGlob 1 0 r l), fun l => G.E3 (exD.toGlob 1 0 r l),
      fun l => G.B1 (exD.toGlob 1 0 r l), fun l => G.B2 (exD.toGlob 1 0 r l), fun l => G.B3 (exD.toGlob 1 0 r l)⟩)
    Y' G (fun r c l _ => by fin_cases c <;> rfl) (by simpa using h)
  simpa using this

/-- `C111_damage_spreads_slowly` on a ring of 8 cells: after two steps, cell 0 does not feel what is in cell 4. -/
example (x y : EM (ZMod 8) ℚ) (h : ∀ i, i ≠ 4 → ∀ c, x.comp c i = y.comp c i) (st st' : ℚ × Currents (ZMod 8) ℚ) (c : Fin 6) : letI := doubleMachine
    (Mach.runFDTD ⟨1, 0, 1, 1, 1, 1, false⟩ [st, st'] x).comp c 0 = (Mach.runFDTD ⟨1, 0, 1, 1, 1, 1, false⟩ [st, st'] y).comp c 0 := by
  letI := doubleMachine
  refine C111_damage_spreads_slowly ⟨1, 0, 1, 1, 1, 1, false⟩ [st, st'] x y 0 ?_ c
  intro a b ha hb c
  refine h _ ?_ c
  have ha' := abs_le.mp ha
  simp only [List.length_cons, List.length_nil] at ha'
  obtain ⟨l, r⟩ := ha'
  norm_num at l r
  interval_cases a <;> simp <;> decide

end Bolt
