import Verif.Props.Box
import Verif.Props.DecompExample

/-!
# Witness for C24, C26, C27, C55, C56: six cells between two mirrors, shared by two processes, momenta ±1
-/

set_option linter.unusedSectionVars false

namespace Bolt

/-- Mirrors left and right, one row of cells without ghost zones in the other direction. -/
def boxOpts : BCOptions := ⟨2, fun w => if w = .left ∨ w = .right then "mirror" else "none", "cartesian", "FVM"⟩

/-- Velocity -1 for the first momentum, 1 for the second. -/
def boxV (p : PIdx 2 1 1) : ℚ := if p.1 = 0 then -1 else 1

/-- Constant velocities, no force, no source. -/
def boxCb (Q : Type) : Callbacks Unit (PIdx 2 1 1) Q ℚ :=
  ⟨fun _ p _ => boxV p, fun _ _ _ => 0, fun _ _ _ => 0, fun _ _ _ => 0, fun _ _ _ => 0, fun f => f⟩

/-- Boundary callbacks (not used at mirrors). -/
def boxDat (r : Fin 2) : exD.LocBCData 2 0 r Unit 2 1 1 ℚ :=
  ⟨fun _ p _ => boxV p, fun _ _ _ => 0, fun _ _ _ => 0, fun _ _ _ => 0, fun _ f => f, fun _ f => f⟩

theorem boxV_flip (p : PIdx 2 1 1) : boxV (flipCartesian .left p) = - boxV p := by
  obtain ⟨a, b, c⟩ := p
  have ha : a = 0 ∨ a = 1 := by revert a; decide
  have h0 : ((-1 - 0 : ZMod 2)) ≠ 0 := by decide
  have h1 : ((-1 - 1 : ZMod 2)) = 0 := by decide
  have h2 : (1 : ZMod 2) ≠ 0 := by decide
  rcases ha with rfl | rfl
  · have e1 : boxV (flipCartesian .left (0, b, c)) = 1 := if_neg h0
    have e2 : boxV (0, b, c) = -1 := if_pos rfl
    rw [e1, e2]; norm_num
  · have e1 : boxV (flipCartesian .left (1, b, c)) = -1 := if_pos h1
    have e2 : boxV (1, b, c) = 1 := if_neg h2
    rw [e1, e2]

theorem boxOpts_setup : setupBCs boxOpts.nGhost boxOpts.name = .ok ((.ghosted, 2), (.none, 0)) := by rfl

/-- Any number of minmod steps: the run exists, and conserves the number of particles. -/
example (n : ℕ) (dt : ℚ) (F : ∀ r, Dist Unit (PIdx 2 1 1) (exD.Loc 2 0 r) ℚ) :
    ∃ F', exD.BcRun 2 0 boxOpts ((1, 0, 0), (0, 1, 0), (0, 0, 1)) c12Cfg
        (List.replicate n (dt, fun _ r => boxDat r, fun _ _ => boxCb _)) F F' ∧
      ∑ p, ∑ i, exD.assemble 2 0 F' () p i = ∑ p, ∑ i, exD.assemble 2 0 F () p i := by
  obtain ⟨F', hF'⟩ := exD.C56_run_exists 2 0 boxOpts .ghosted .none boxOpts_setup (fl := flipCartesian) (Or.inl ⟨rfl, rfl⟩)
    (by intro w; cases w <;> decide) ((1, 0, 0), (0, 1, 0), (0, 0, 1)) c12Cfg (Or.inr (Or.inl rfl)) (Or.inr (Or.inl rfl))
    (List.replicate n (dt, fun _ r => boxDat r, fun _ _ => boxCb _)) F
  refine ⟨F', hF', ?_⟩
  refine Decomp.C55_box_conserves_particles exD 2 0 boxOpts .mirror .wrap (Or.inr (Or.inr ⟨rfl, rfl, rfl⟩))
    (Or.inr (Or.inl ⟨rfl, rfl, rfl, rfl⟩)) (fl := flipCartesian) (Or.inl ⟨rfl, rfl⟩) (fun r => ⟨by simp [exD], by simp [exD]⟩)
    ((1, 0, 0), (0, 1, 0), (0, 0, 1)) c12Cfg (Or.inr (Or.inl rfl)) (Or.inr (Or.inl rfl)) ?_
    (List.replicate n (dt, fun _ r => boxDat r, fun _ _ => boxCb _, fun _ => boxCb _)) ?_ () ?_ F F' ?_
  · intro m hm
    have : reconMethod c12Cfg.reconstructionInQ = .ok .minmod := by rfl
    rw [this, Except.ok.injEq] at hm
    subst hm
    exact ⟨Or.inl (le_refl 2), Or.inr ⟨rfl, rfl, rfl⟩⟩
  · intro st hst j r
    rw [List.eq_of_mem_replicate hst]
    exact ⟨fun _ _ _ _ => ⟨rfl, rfl⟩, fun _ _ _ _ => ⟨rfl, rfl⟩, fun _ _ _ _ => rfl, fun _ _ _ _ => rfl, fun _ _ _ _ => rfl,
      fun f g l _ h s p => h s p⟩
  · intro st hst j
    rw [List.eq_of_mem_replicate hst]
    refine ⟨fun _ p => ⟨boxV_flip p, boxV_flip p⟩, fun _ p => rfl, ?_⟩
    intro h; simp [c12Cfg] at h
  · rw [List.map_replicate]; exact hF'

/-- Both walls have an owner, so C27 speaks about this configuration. -/
example : ownsWall exD 0 .left ∧ ownsWall exD 1 .right ∧ acrossWall exD 0 .left = 3 ∧ alongWall exD 2 0 0 .left 0 := by
  refine ⟨rfl, rfl, rfl, ?_, ?_⟩ <;> simp [exD]

/-- Non-vacuity of C28: left wall with inflow and outflow momenta. -/
example : (exD.bcEnv 2 0 { boxOpts with name := fun _ => "dirichlet" } 0 (boxDat 0)).touches .left = true ∧
    Inward .left (normalVelocity (exD.bcEnv 2 0 boxOpts 0 (boxDat 0)) .left () (1, 0, 0) (0, 0)) ∧
    ¬ Inward .left (normalVelocity (exD.bcEnv 2 0 boxOpts 0 (boxDat 0)) .left () (0, 0, 0) (0, 0)) := by
  have h2 : (1 : ZMod 2) ≠ 0 := by decide
  have e : (exD.bcEnv 2 0 boxOpts 0 (boxDat 0)).solverMethodInQ = "FVM" := rfl
  refine ⟨rfl, ?_, ?_⟩
  · simp only [Inward, normalVelocity]
    rw [if_pos e]
    show (0 : ℚ) < boxV (1, 0, 0)
    have e2 : boxV (1, 0, 0) = 1 := if_neg h2
    rw [e2]; norm_num
  · simp only [Inward, normalVelocity]
    rw [if_pos e]
    show ¬ (0 : ℚ) < boxV (0, 0, 0)
    have e2 : boxV (0, 0, 0) = -1 := if_pos rfl
    rw [e2]; norm_num

end Bolt
