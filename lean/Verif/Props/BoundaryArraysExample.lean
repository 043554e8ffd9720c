import Verif.Props.BoundaryArrays
import Verif.Props.ArrayProgramExample

/-!
# C117: the hypotheses are met — double precision, two processes, a mirror and an inflow wall
-/

set_option linter.unusedSectionVars false

namespace Bolt

open Machine PyExpr

instance : Zero Dbl := ⟨⟨0, by decide +kernel⟩⟩

/-- Comparisons of doubles are exact. -/
theorem dbl_comparisons : ExactComparisons Dbl where
  lt_eq _ _ := rfl
  zero := Subtype.ext (show rndDouble 0 = 0 by decide +kernel)

section
variable {K : Type} [Machine K] [Zero K] [LinearOrder K] {N1 N2 : ℕ} [NeZero N1] [NeZero N2] {R : Type} (D : Decomp N1 N2 R) (g1 g2 Np1 Np2 Np3 Ns : ℕ)
  [NeZero Np1] [NeZero Np2] [NeZero Np3] [NeZero Ns]

/-- Arrays that hold given callback values exist, for every choice of the conditions. -/
theorem C117_inputs_exist (o : BCOptions) (dat : Fin 2 → ∀ r, D.LocBCData g1 g2 r (Fin Ns) Np1 Np2 Np3 K) :
    ∃ b : Fin 2 → R → ArrBCData K, ∀ k r, (D.arrEnv g1 g2 Np1 Np2 Np3 Ns o r (b k r)).Hold (D.bcEnv g1 g2 o r (dat k r)) ∧
      (D.arrEnv g1 g2 Np1 Np2 Np3 Ns o r (b k r)).VelocitiesFit := by
  have inst1 : ∀ r, NeZero (D.sizes Np1 Np2 Np3 Ns g1 g2 r).M1 := fun r => ⟨by have := D.pos1 r; simp only [GridSizes.M1, Decomp.sizes]; omega⟩
  have inst2 : ∀ r, NeZero (D.sizes Np1 Np2 Np3 Ns g1 g2 r).M2 := fun r => ⟨by have := D.pos2 r; simp only [GridSizes.M2, Decomp.sizes]; omega⟩
  have i1 : ∀ r, NeZero (D.sizes Np1 Np2 Np3 Ns g1 g2 r).Np1 := fun _ => ‹NeZero Np1›
  have i2 : ∀ r, NeZero (D.sizes Np1 Np2 Np3 Ns g1 g2 r).Np2 := fun _ => ‹NeZero Np2›
  have i3 : ∀ r, NeZero (D.sizes Np1 Np2 Np3 Ns g1 g2 r).Np3 := fun _ => ‹NeZero Np3›
  have i4 : ∀ r, NeZero (D.sizes Np1 Np2 Np3 Ns g1 g2 r).Ns := fun _ => ‹NeZero Ns›
  have : ∀ k r, ∃ b : ArrBCData K, (D.arrEnv g1 g2 Np1 Np2 Np3 Ns o r b).Hold (D.bcEnv g1 g2 o r (dat k r)) ∧
      (D.arrEnv g1 g2 Np1 Np2 Np3 Ns o r b).VelocitiesFit := by
    intro k r
    have ex := fun F => exists_holdsDist (K := K) (z := D.sizes Np1 Np2 Np3 Ns g1 g2 r) F
    choose arr harr using ex
    refine ⟨⟨.ok (.arr (arr (dat k r).Cq1)), .ok (.arr (arr (dat k r).Cq2)), .ok (.arr (arr (dat k r).Aq1)), .ok (.arr (arr (dat k r).Aq2)),
      fun w a => .ok (.arr (arr ((dat k r).user w ((D.sizes Np1 Np2 Np3 Ns g1 g2 r).cells a)))),
      fun w a => .ok (arr ((dat k r).sheared w ((D.sizes Np1 Np2 Np3 Ns g1 g2 r).cells a)))⟩, ⟨rfl, rfl, rfl, rfl, rfl, rfl, rfl, rfl, rfl,
        fun _ => .inl ?_, fun _ => .inl ?_, fun w a _ _ => .inl (harr _), fun w a _ _ => ⟨_, rfl, (harr _).eq_cells.1, (harr _).eq_cells.2.symm⟩⟩, ?_⟩
    · by_cases h : o.solverMethodInQ = "FVM"
      · simp only [ArrBCEnv.vel1, Decomp.arrEnv, BCEnv.velocity, Decomp.bcEnv, h, if_true]; exact harr _
      · simp only [ArrBCEnv.vel1, Decomp.arrEnv, BCEnv.velocity, Decomp.bcEnv, h, if_false]; exact harr _
    · by_cases h : o.solverMethodInQ = "FVM"
      · simp only [ArrBCEnv.vel2, Decomp.arrEnv, BCEnv.velocity, Decomp.bcEnv, h, if_true]; exact harr _
      · simp only [ArrBCEnv.vel2, Decomp.arrEnv, BCEnv.velocity, Decomp.bcEnv, h, if_false]; exact harr _
    · intro w _ _ _
      by_cases h : o.solverMethodInQ = "FVM"
      · simp only [ArrBCEnv.vel1, ArrBCEnv.vel2, Decomp.arrEnv, h, if_true]
        exact ⟨⟨_, rfl, (harr _).eq_cells.1⟩, ⟨_, rfl, (harr _).eq_cells.1⟩⟩
      · simp only [ArrBCEnv.vel1, ArrBCEnv.vel2, Decomp.arrEnv, h, if_false]
        exact ⟨⟨_, rfl, (harr _).eq_cells.1⟩, ⟨_, rfl, (harr _).eq_cells.1⟩⟩
  choose b hb using this
  exact ⟨b, hb⟩

end

/-- A mirror on the left, a mirror with inflow on the right, one cell along `q2`. -/
def c117Opt : BCOptions := ⟨2, fun | .left => "mirror" | .right => "mirror+dirichlet" | _ => "none", "cartesian", "FVM"⟩

/-- Inflow values that depend on the momentum. -/
def c117Dat (r : Fin 2) : exD.LocBCData 2 0 r (Fin 2) 2 3 1 Dbl :=
  ⟨fun s p l => c113Cb.Cq1 s p (exD.toGlob 2 0 r l), fun _ _ _ => 0, fun _ _ _ => 0, fun _ _ _ => 0, fun _ _ _ p _ => lit (1 / 3 + p.1.val), fun _ f => f⟩

theorem c117_setup : setupBCs c117Opt.nGhost c117Opt.name = .ok ((.ghosted, 2), (.none, 0)) := by
  simp [setupBCs, petscAxis, c117Opt]

theorem c117_ok (r : Fin 2) (f : Dist (Fin 2) (AslPIdx 2 3 1) (exD.Loc 2 0 r) Dbl) : ∃ f', applyBcsF (exD.bcEnv 2 0 c117Opt r (c117Dat r)) f = .ok f' := by
  have h : ∀ w f, ∃ f', atWall (exD.bcEnv 2 0 c117Opt r (c117Dat r)) w f = .ok f' := by
    intro w f
    unfold atWall
    split_ifs
    · cases w
      · exact ⟨_, rfl⟩
      · exact ⟨_, rfl⟩
      · exact ⟨_, rfl⟩
      · exact ⟨_, rfl⟩
    · exact ⟨_, rfl⟩
  obtain ⟨f1, h1⟩ := h .left f
  obtain ⟨f2, h2⟩ := h .right f1
  obtain ⟨f3, h3⟩ := h .bottom f2
  obtain ⟨f4, h4⟩ := h .top f3
  exact ⟨f4, by unfold applyBcsF; rw [h1]; exact (congrArg (fun m => m >>= _) h2).trans ((congrArg (fun m => m >>= _) h3).trans h4)⟩

theorem c117_width (r : Fin 2) : (exD.sizes 2 3 1 2 2 0 r).M1 = 7 := by revert r; decide

/-- In double precision, on two processes with walls: arrays, inputs and a step exist, and the step is one of the cell model. -/
example (f : Dist (Fin 2) (AslPIdx 2 3 1) (ZMod 6 × ZMod 1) Dbl) (dt : Dbl) :
    ∃ (F F' : Fin 2 → AfArray Dbl) (b : Fin 2 → Fin 2 → ArrBCData Dbl) (x : Fin 2 → Fin 2 → AfArray Dbl → ArrIn Dbl),
      exD.Holds 2 0 (exD.cellsOf 2 0 2 3 1 2 F) f ∧ exD.ArrBcRun 2 0 2 3 1 2 c117Opt c113Cfg [(dt, b, x)] F F' ∧
      Mach.BcRun exD 2 0 c117Opt ((1, 0, 0), (0, 1, 0), (0, 0, 1)) c113Cfg [(dt, fun _ => c117Dat, fun _ => c113CbLoc)] (exD.cellsOf 2 0 2 3 1 2 F)
        (exD.cellsOf 2 0 2 3 1 2 F') := by
  obtain ⟨F, hs, hF⟩ := C113_blocks_exist exD 2 0 2 3 1 2 f
  obtain ⟨x, hx⟩ := C113_inputs_exist_run exD 2 0 2 3 1 2 c113Cfg fun _ => c113CbLoc
  obtain ⟨b, hb⟩ := C117_inputs_exist exD 2 0 2 3 1 2 c117Opt fun _ => c117Dat
  have hin : exD.BcInputsHold 2 0 2 3 1 2 c117Opt c113Cfg b x (fun _ => c117Dat) fun _ => c113CbLoc := by
    refine ⟨hx, fun k r => (hb k r).1, fun k r w _ _ hn => ?_, fun k r => (hb k r).2⟩
    cases w
    · exact ⟨by change 0 < 2; decide, by change 2 * 2 ≤ (exD.sizes 2 3 1 2 2 0 r).M1; rw [c117_width]; decide⟩
    · exact ⟨by change 0 < 2; decide, by change 2 * 2 ≤ (exD.sizes 2 3 1 2 2 0 r).M1; rw [c117_width]; decide⟩
    · exact absurd rfl hn
    · exact absurd rfl hn
  obtain ⟨F', hF'⟩ := C117_step_succeeds dbl_comparisons dbl_one_mul c113_sizes c117Opt c117_setup c113Cfg dt (.inl rfl) ⟨_, rfl⟩ ⟨_, rfl⟩ b x _ _ hin
    (fun _ => c117_ok) F hs
  have hrun : exD.ArrBcRun 2 0 2 3 1 2 c117Opt c113Cfg [(dt, b, x)] F F' := ⟨F', hF', rfl⟩
  exact ⟨F, F', b, x, hF, hrun, (C117_run dbl_comparisons dbl_one_mul c113_sizes c117Opt c113Cfg (.inl rfl)
    [(dt, (b, x), fun _ => c117Dat, fun _ => c113CbLoc)] (by simpa using hin) F F' hs hrun).2⟩

/-- The line of cells of the previous example with the velocities the bundled systems return, on the momentum cells only: the wall raises. -/
example (v1 v2 : Fin 2 → AslPIdx 2 3 1 → Dbl) (r : Fin 2) :
    ∃ (x : ArrBCEnv Dbl) (f : AfArray Dbl), x.z = exD.sizes 2 3 1 2 2 0 r ∧ x.z.Fits f ∧ arrDirichlet x .right f = .error .indexError := by
  have j1 : NeZero (exD.sizes 2 3 1 2 2 0 r).M1 := ⟨by fin_cases r <;> decide⟩
  have j2 : NeZero (exD.sizes 2 3 1 2 2 0 r).M2 := ⟨by fin_cases r <;> decide⟩
  have i1 : NeZero (exD.sizes 2 3 1 2 2 0 r).Np1 := ⟨by change 2 ≠ 0; decide⟩
  have i2 : NeZero (exD.sizes 2 3 1 2 2 0 r).Np2 := ⟨by change 3 ≠ 0; decide⟩
  have i3 : NeZero (exD.sizes 2 3 1 2 2 0 r).Np3 := ⟨by change 1 ≠ 0; decide⟩
  have i4 : NeZero (exD.sizes 2 3 1 2 2 0 r).Ns := ⟨by change 2 ≠ 0; decide⟩
  obtain ⟨a1, h1⟩ := exists_momentumOnly (z := exD.sizes 2 3 1 2 2 0 r) v1
  obtain ⟨a2, h2⟩ := exists_momentumOnly (z := exD.sizes 2 3 1 2 2 0 r) v2
  obtain ⟨f, hf⟩ := exists_holdsDist (z := exD.sizes 2 3 1 2 2 0 r) fun _ _ _ => (lit 0 : Dbl)
  let x : ArrBCEnv Dbl := exD.arrEnv 2 0 2 3 1 2 c117Opt r ⟨.ok (.arr a1), .ok (.arr a2), .ok (.arr a1), .ok (.arr a2), fun _ _ => .ok (.num (lit 0)), fun _ a => .ok a⟩
  have k1 : NeZero x.z.M1 := j1
  have k2 : NeZero x.z.M2 := j2
  have l1 : NeZero x.z.Np1 := i1
  have l2 : NeZero x.z.Np2 := i2
  have l3 : NeZero x.z.Np3 := i3
  have l4 : NeZero x.z.Ns := i4
  refine ⟨x, f, rfl, hf.eq_cells.1, ?_⟩
  have e : x.vel1 = .ok (.arr a1) := if_pos rfl
  refine C117_line_of_cells (x := x) .right f hf.eq_cells.1 (by fin_cases r <;> rfl) (by change (exD.sizes 2 3 1 2 2 0 r).M1 ≠ 1; rw [c117_width]; decide) (fun s p _ => v1 s p)
    (fun y => v2 y.1 y.2.1) (.inr ?_) (.inl ⟨fun y => v1 y.1 y.2.1, ?_⟩)
  · exact h1
  · exact h1

/-- The right wall of the example with inflow values on the momentum cells only (`f_right` returning one number per momentum cell): the wall raises. -/
example (u : Fin 2 → AslPIdx 2 3 1 → Dbl) : ∃ (x : ArrBCEnv Dbl) (f a : AfArray Dbl), x.z = exD.sizes 2 3 1 2 2 0 1 ∧ x.Inflow .right ∧ x.z.Fits f ∧
    (momentumOnly (exD.sizes 2 3 1 2 2 0 1)).Holds (.ok (.arr a)) (fun y => u y.1 y.2.1) ∧
    arrDirichlet { x with user := fun _ _ => .ok (.arr a) } .right f = .error .exception := by
  have j1 : NeZero (exD.sizes 2 3 1 2 2 0 1).M1 := ⟨by decide⟩
  have j2 : NeZero (exD.sizes 2 3 1 2 2 0 1).M2 := ⟨by decide⟩
  have i1 : NeZero (exD.sizes 2 3 1 2 2 0 1).Np1 := ⟨by decide⟩
  have i2 : NeZero (exD.sizes 2 3 1 2 2 0 1).Np2 := ⟨by decide⟩
  have i3 : NeZero (exD.sizes 2 3 1 2 2 0 1).Np3 := ⟨by decide⟩
  have i4 : NeZero (exD.sizes 2 3 1 2 2 0 1).Ns := ⟨by decide⟩
  obtain ⟨b, hb⟩ := C117_inputs_exist exD 2 0 2 3 1 2 c117Opt fun _ => c117Dat
  obtain ⟨a, ha⟩ := exists_momentumOnly (z := exD.sizes 2 3 1 2 2 0 1) u
  obtain ⟨f, hf⟩ := exists_holdsDist (z := exD.sizes 2 3 1 2 2 0 1) fun _ _ _ => (lit 0 : Dbl)
  let x : ArrBCEnv Dbl := exD.arrEnv 2 0 2 3 1 2 c117Opt 1 (b 0 1)
  have k1 : NeZero x.z.M1 := j1
  have k2 : NeZero x.z.M2 := j2
  have l1 : NeZero x.z.Np1 := i1
  have l2 : NeZero x.z.Np2 := i2
  have l3 : NeZero x.z.Np3 := i3
  have l4 : NeZero x.z.Ns := i4
  have hi : x.Inflow .right := .inr rfl
  refine ⟨x, f, a, rfl, hi, hf.eq_cells.1, ha, ?_⟩
  refine C117_wall_values_need_full_shape (x := x) (hb 0 1).1 .right hi (by change 0 < 2; decide)
    (by change 2 * 2 ≤ (exD.sizes 2 3 1 2 2 0 1).M1; rw [c117_width]; decide) ((hb 0 1).2 .right rfl hi) f a hf.eq_cells.1 ?_
  intro k
  obtain ⟨a', e, -, -, h2, -⟩ := ha
  injection e with e
  injection e with e
  subst e
  have := k.2.2.1
  rw [h2] at this
  revert this
  change ¬ (1 = (exD.sizes 2 3 1 2 2 0 1).M1)
  rw [c117_width]; decide

end Bolt
