import Verif.Props.CoupledDamage
import Verif.Props.RoundingExample

/-!
# C112: concrete cases in double precision
-/

set_option linter.unusedSectionVars false

namespace Bolt

open Machine

/-- The hypotheses are met: the particle-in-field problem of C67 on two processes in double precision, whatever `af.sum` makes of a column,
any number of steps. -/
example (Sm : Mach.Sums Unit (PIdx 2 1 1) ℚ) (n : ℕ) (dt : ℚ) (user : ∀ r, exD.LocFieldBCs 3 0 r ℚ) : letI := doubleMachine
    ∃ σ τ F' σ' st', initFields (c67Cfg false).fieldParams c67Ini = .ok τ ∧
      (∀ r, initFields (exD.locCfg 3 0 (c67Cfg false) r).fieldParams (c67Ini.at (exD.toGlob 3 0 r)) = .ok (σ r)) ∧
      Mach.RunCoupled Sm exD 3 0 c67Opt user (c67Cfg false) (List.replicate n (dt, fun _ _ => c67Cb))
        (fun r s p l => c67F s p (exD.toGlob 3 0 r l)) σ F' σ' ∧
      Mach.runCoupled Sm (c67Cfg false) (List.replicate n (dt, fun _ => c67Cb)) (c67F, τ) = .ok st' ∧
      exD.Holds 3 0 F' st'.1 ∧ exD.FieldsHold 3 0 σ' st'.2 := by
  letI := doubleMachine
  have hi : Implemented (c67Cfg false) := ⟨⟨.ppm, rfl⟩, ⟨.minmod, rfl⟩, fun _ => rfl⟩
  obtain ⟨τ, hτ⟩ : ∃ τ, initFields (c67Cfg false).fieldParams c67Ini = .ok τ := ⟨_, rfl⟩
  obtain ⟨σ, hσ, hh⟩ := (exD.C67_initial_fields_agree 3 0 (c67Cfg false) rfl rfl c67Ini (Or.inl (by omega)) (Or.inr (Or.inr ⟨rfl, rfl⟩))).2 τ hτ
  obtain ⟨F', σ', hr⟩ := C112_decomposed_run_exists Sm exD 3 0 (c67_grid false) hi ⟨rfl, rfl⟩ user
    (List.replicate n (dt, fun _ _ => c67Cb)) (fun r s p l => c67F s p (exD.toGlob 3 0 r l)) σ τ.flag hh.flag
  obtain ⟨st', hs⟩ := C112_whole_grid_run_exists Sm hi (List.replicate n (dt, fun _ => c67Cb)) (c67F, τ)
  refine ⟨σ, τ, F', σ', st', hτ, hσ, hr, hs, ?_⟩
  refine C112_bitwise_decomposition_independence Sm exD 3 0 (c67_grid false) user
    (List.replicate n (dt, fun _ _ => c67Cb, fun _ => c67Cb)) ?_ _ _ _ _ (c67F, τ) st' (fun r s p l _ => rfl) hh ?_ ?_
  · intro st hst k r
    rw [List.eq_of_mem_replicate hst]
    exact c67_agree r
  · simpa using hr
  · simpa using hs

/-- The same problem on a ring of 40 cells. -/
def c112Cfg : CoupledConfig Unit (PIdx 2 1 1) (ZMod 40 × ZMod 1) ℚ where
  solverMethodInQ := "FVM"
  solverMethodInP := "FVM"
  reconstructionInQ := "ppm"
  reconstructionInP := "minmod"
  riemannInQ := "upwind-flux"
  riemannInP := "upwind-flux"
  fieldsEnabled := true
  sourceEnabled := false
  dq1 := 1
  dq2 := 1
  dp1 := fun _ => 1
  dp2 := fun _ => 1
  dp3 := fun _ => 1
  ax := ⟨(1, 0, 0), (0, 1, 0), (0, 0, 1), (1, 0), (0, 1)⟩
  fieldsType := "electrodynamic"
  fieldsSolver := "fdtd"
  charge := fun _ => -1
  coords := ⟨fun _ p => if p.1 = 0 then -1 else 1, fun _ _ => 1, fun _ _ => 0⟩
  eps := 3
  mu := 5
  hybrid := false
  Te := 2

theorem c112_local {Q : Type} : CellLocal (c67Cb (Q := Q)) where
  p1 := fun F G i h s p => by
    have a := h 0; have b := h 5
    simp only [EM.comp] at a b
    simp only [c67Cb, a, b]
  p2 := fun F G i h s p => by
    have a := h 1; have b := h 5
    simp only [EM.comp] at a b
    simp only [c67Cb, a, b]
  p3 := fun F G i h s p => by
    have a := h 2
    simp only [EM.comp] at a
    simp only [c67Cb, a]
  src := fun f g i h s p => h s p

/-- The hypotheses are met: with ppm (radius 3) damage done in cell 20 — to the distribution and to the electric field — does not reach
cell 0 in two steps (14 cells). -/
example (Sm : Mach.Sums Unit (PIdx 2 1 1) ℚ) (f : Dist Unit (PIdx 2 1 1) (ZMod 40 × ZMod 1) ℚ) (σ : FieldState (ZMod 40 × ZMod 1) ℚ) (dt δ ε : ℚ) :
    letI := doubleMachine
    ∃ x y, Mach.runCoupled Sm c112Cfg (List.replicate 2 (dt, fun _ => c67Cb)) (f, σ) = .ok x ∧
      Mach.runCoupled Sm c112Cfg (List.replicate 2 (dt, fun _ => c67Cb))
        (fun s p i => if i.1 = 20 then δ else f s p i,
          { σ with yee := { σ.yee with E1 := fun i => if i.1 = 20 then ε else σ.yee.E1 i } }) = .ok y ∧
      ∀ s p, x.1 s p 0 = y.1 s p 0 := by
  letI := doubleMachine
  have hi : Implemented c112Cfg := ⟨⟨.ppm, rfl⟩, ⟨.minmod, rfl⟩, fun _ => rfl⟩
  obtain ⟨x, hx⟩ := C112_whole_grid_run_exists Sm hi (List.replicate 2 (dt, fun _ => c67Cb)) (f, σ)
  obtain ⟨y, hy⟩ := C112_whole_grid_run_exists Sm hi (List.replicate 2 (dt, fun _ => c67Cb))
    (fun s p i => if i.1 = 20 then δ else f s p i, { σ with yee := { σ.yee with E1 := fun i => if i.1 = 20 then ε else σ.yee.E1 i } })
  have far : ∀ a b : ℤ, |a| ≤ 14 → ((0 : ZMod 40 × ZMod 1) + a • c112Cfg.ax.q1 + b • c112Cfg.ax.q2).1 ≠ 20 := by
    intro a b ha h
    have h' : ((a : ℤ) : ZMod 40) = ((20 : ℤ) : ZMod 40) := by simpa [c112Cfg] using h
    rw [ZMod.intCast_eq_intCast_iff] at h'
    have := (Int.modEq_iff_dvd.mp h')
    rw [abs_le] at ha
    omega
  refine ⟨x, y, hx, hy, (C112_damage_spreads_slowly (m := .ppm) rfl _ ?_ _ _ x y 0 ?_ hx hy).1⟩
  · intro st hst k
    rw [List.eq_of_mem_replicate hst]
    exact c112_local
  · refine ⟨?_, ?_, fun k a b _ _ c => rfl, rfl, rfl, rfl, rfl⟩
    · intro a b ha _ s p
      exact (if_neg (far a b (by simpa [Recon.radius] using ha))).symm
    · intro a b ha _ c
      have := far a b (by simpa [Recon.radius] using ha)
      fin_cases c
      · exact (if_neg this).symm
      all_goals rfl

end Bolt
