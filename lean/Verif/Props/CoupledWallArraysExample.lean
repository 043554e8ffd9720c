import Verif.Props.CoupledWallArrays
import Verif.Props.FieldBoundaryArraysExample

/-!
# C120: the hypotheses are met — double precision, two species, two processes, electrodynamic fields, the Lorentz force, a mirror and a wall with inflow and prescribed fields
-/

set_option linter.unusedSectionVars false

namespace Bolt

open Machine PyExpr

/-- What the user's functions return, cell by cell. -/
def c120Inp : exD.CoupledInput 2 0 (Fin 2) 2 3 1 Dbl := ⟨fun _ r => c115Cb (exD.Loc 2 0 r), fun _ => c117Dat, fun _ _ => c119UserCells _⟩

/-- From any distribution and any state of the fields: arrays, inputs and a coupled step with walls exist, and the step is one of the cell model. -/
example (red : List Dbl → Dbl) (f : Dist (Fin 2) (AslPIdx 2 3 1) (ZMod 6 × ZMod 1) Dbl) (τ : ∀ r, FieldState (exD.Loc 2 0 r) Dbl) (b : Bool)
    (hb : ∀ r, (τ r).flag = b) (dt : Dbl) :
    ∃ (F F' : Fin 2 → AfArray Dbl) (σ σ' : Fin 2 → ArrFieldState Dbl) (w : Fin 2 → ArrWallInput (Fin 2) Dbl),
      exD.Holds 2 0 (exD.cellsOf 2 0 2 3 1 2 F) f ∧ exD.stateOf 2 0 2 3 1 2 σ = τ ∧
      ArrRunWalls red exD 2 0 2 3 1 2 c117Opt c115Cfg [(dt, w)] F σ F' σ' ∧
      Mach.RunWalls exD 2 0 (arrSums 2 3 1 2 red) c117Opt c115Cfg [(dt, c120Inp)] (exD.cellsOf 2 0 2 3 1 2 F) τ (exD.cellsOf 2 0 2 3 1 2 F')
        (exD.stateOf 2 0 2 3 1 2 σ') := by
  have i1 : ∀ r, NeZero (exD.sizes 2 3 1 2 2 0 r).M1 := fun _ => ⟨by simp [GridSizes.M1, Decomp.sizes, exD]⟩
  have i2 : ∀ r, NeZero (exD.sizes 2 3 1 2 2 0 r).M2 := fun _ => ⟨by simp [GridSizes.M2, Decomp.sizes, exD]⟩
  have i3 : ∀ r, NeZero (exD.sizes 2 3 1 2 2 0 r).Np1 := fun _ => ⟨by simp [Decomp.sizes]⟩
  have i4 : ∀ r, NeZero (exD.sizes 2 3 1 2 2 0 r).Np2 := fun _ => ⟨by simp [Decomp.sizes]⟩
  have i5 : ∀ r, NeZero (exD.sizes 2 3 1 2 2 0 r).Np3 := fun _ => ⟨by simp [Decomp.sizes]⟩
  have i6 : ∀ r, NeZero (exD.sizes 2 3 1 2 2 0 r).Ns := fun _ => ⟨by simp [Decomp.sizes]⟩
  obtain ⟨F, hs, hF⟩ := C113_blocks_exist exD 2 0 2 3 1 2 f
  choose σ hσ eσ using fun r => exists_state (z := exD.sizes 2 3 1 2 2 0 r) (τ r)
  have eσ' : exD.stateOf 2 0 2 3 1 2 σ = τ := funext eσ
  have hfl : ∀ r, (σ r).flag = b := fun r => (congrArg FieldState.flag (eσ r)).trans (hb r)
  choose x0 hx0 using fun r => C115_lorentz_inputs (z := exD.sizes 2 3 1 2 2 0 r) c115Cfg c115Mass c115Cfg.coords.p1 c115Cfg.coords.p2 c115Cfg.coords.p3
  obtain ⟨bd, hbd⟩ := C117_inputs_exist exD 2 0 2 3 1 2 c117Opt fun _ => c117Dat
  let w : Fin 2 → ArrWallInput (Fin 2) Dbl := fun k => ⟨x0, bd k, fun _ => c119User 7 1⟩
  have hin : exD.WallInputsHold 2 0 2 3 1 2 c117Opt c115Cfg w c120Inp := by
    refine ⟨fun _ r => hx0 r, fun k r => (hbd k r).1, fun k r v _ _ hn => ?_, fun k r => (hbd k r).2, fun _ r => c119_walls r, fun _ r => c119_room r⟩
    cases v
    · exact ⟨by change 0 < 2; decide, by change 2 * 2 ≤ (exD.sizes 2 3 1 2 2 0 r).M1; rw [c117_width]; decide⟩
    · exact ⟨by change 0 < 2; decide, by change 2 * 2 ≤ (exD.sizes 2 3 1 2 2 0 r).M1; rw [c117_width]; decide⟩
    · exact absurd rfl hn
    · exact absurd rfl hn
  obtain ⟨F', σ', b', hstep, -⟩ := C120_step_succeeds red dbl_comparisons dbl_one_mul c113_sizes c117_setup (fb1 := .periodic) (fb2 := .none) ⟨rfl, rfl⟩ (c := c115Cfg) rfl
    c115_implemented (.inl rfl) dt w c120Inp hin (fun _ => c117_ok) (fun _ => c119_no_exception) F hs σ hσ b hfl
  have hrun : ArrRunWalls red exD 2 0 2 3 1 2 c117Opt c115Cfg [(dt, w)] F σ F' σ' := ⟨F', σ', hstep, rfl, rfl⟩
  have key := C120_run red dbl_comparisons dbl_one_mul c113_sizes (o := c117Opt) (c := c115Cfg) rfl c115_implemented (.inl rfl) [(dt, w, c120Inp)] (by simpa using hin) F F' hs
    σ σ' hσ hrun
  rw [eσ'] at key
  exact ⟨F, F', σ, σ', w, hF, eσ', hrun, key.2.2⟩

end Bolt
