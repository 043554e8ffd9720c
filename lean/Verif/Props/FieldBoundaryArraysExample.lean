import Verif.Props.FieldBoundaryArrays
import Verif.Props.FieldArraysExample
import Verif.Props.BoundaryArraysExample

/-!
# C119: the hypotheses are met — double precision, two processes, a mirror on the left and a wall with prescribed fields on the right
-/

set_option linter.unusedSectionVars false

namespace Bolt

open Machine PyExpr

/-- The user's boundary functions: components 0 to 2 are set to a tenth, the others are returned as handed over. -/
def c119User (M1 M2 : ℕ) : Wall → Fin 6 → AfArray Dbl → PyExpr Dbl := fun _ c a =>
  .ok (.arr (if c.val < 3 then AfArray.ofFn 1 1 M1 M2 fun _ _ _ _ => lit (1 / 10) else a))

/-- The same cell by cell. -/
def c119UserCells (Q : Type) : Wall → Fin 6 → (Q → Dbl) → Q → Dbl := fun _ c u => if c.val < 3 then fun _ => lit (1 / 10) else u

theorem c119_walls (r : Fin 2) : (exD.arrFieldEnv c117Opt r (c119User 7 1)).Hold (exD.sizes 2 3 1 2 2 0 r) (exD.fieldEnv 2 0 c117Opt r (c119UserCells _)) where
  g := rfl
  name := rfl
  start1 := rfl
  start2 := rfl
  nLocal1 := rfl
  nLocal2 := rfl
  N1 := rfl
  N2 := rfl
  user := by
    intro w c a u _ h
    show (fieldLay _).Holds (c119User 7 1 w c a) (c119UserCells _ w c u)
    unfold c119User c119UserCells
    by_cases hc : c.val < 3
    · rw [if_pos hc, if_pos hc]
      refine ⟨_, rfl, rfl, rfl, rfl, rfl, fun x => AfArray.get_ofFn 1 1 7 1 _ _ _ _ _ Nat.one_pos Nat.one_pos ?_⟩
      exact ZMod.val_lt (n := 7) x.1
    · rw [if_neg hc, if_neg hc]
      exact h

theorem c119_room (r : Fin 2) : (exD.arrFieldEnv c117Opt r (c119User 7 1)).WallsFit (exD.sizes 2 3 1 2 2 0 r) := by
  intro w _ _ h
  cases w
  · exact ⟨Nat.two_pos, by show 2 * 2 ≤ 7; decide⟩
  · exact ⟨Nat.two_pos, by show 2 * 2 ≤ 7; decide⟩
  · exact absurd rfl h
  · exact absurd rfl h

theorem c119_no_exception (r : Fin 2) (F : EM (exD.Loc 2 0 r) Dbl) : ∃ F', applyBcsFields (exD.fieldEnv 2 0 c117Opt r (c119UserCells _)) true F = .ok F' := by
  have step : ∀ w F, ∃ F', atWallFields (exD.fieldEnv 2 0 c117Opt r (c119UserCells _)) true w F = .ok F' := by
    intro w F
    unfold atWallFields
    split
    · cases w <;> exact ⟨_, rfl⟩
    · exact ⟨_, rfl⟩
  obtain ⟨F1, h1⟩ := step .left F
  obtain ⟨F2, h2⟩ := step .right F1
  obtain ⟨F3, h3⟩ := step .bottom F2
  obtain ⟨F4, h4⟩ := step .top F3
  exact ⟨F4, by unfold applyBcsFields; simp only [h1, h2, h3, h4, bind, Except.bind]⟩

/-- `C119_walls`: from any fields of process 1 (which has the right wall) the routine runs, and the ghost cells on the right hold what the user prescribes, the others what was
there. -/
example (F : EM (exD.Loc 2 0 1) Dbl) : ∃ Y Y' : AfArray Dbl, (exD.sizes 2 3 1 2 2 0 1).FitsEM Y ∧ (exD.sizes 2 3 1 2 2 0 1).emCells Y = F ∧
    arrApplyBcsFields (exD.arrFieldEnv c117Opt 1 (c119User 7 1)) true Y = .ok Y' ∧ Y'.get 0 0 6 0 = lit (1 / 10) ∧ Y'.get 0 0 2 0 = F.E1 (2, 0) := by
  have i1 : NeZero (exD.sizes 2 3 1 2 2 0 1).M1 := ⟨by decide⟩
  have i2 : NeZero (exD.sizes 2 3 1 2 2 0 1).M2 := ⟨by decide⟩
  have i3 : NeZero (exD.sizes 2 3 1 2 2 0 1).Np1 := ⟨by decide⟩
  have i4 : NeZero (exD.sizes 2 3 1 2 2 0 1).Np2 := ⟨by decide⟩
  have i5 : NeZero (exD.sizes 2 3 1 2 2 0 1).Np3 := ⟨by decide⟩
  have i6 : NeZero (exD.sizes 2 3 1 2 2 0 1).Ns := ⟨by decide⟩
  obtain ⟨Y, hY, eY⟩ := exists_fitsEM (z := exD.sizes 2 3 1 2 2 0 1) F
  have h := C119_walls (z := exD.sizes 2 3 1 2 2 0 1) _ _ (c119_walls 1) (c119_room 1) true Y hY
  obtain ⟨F', hF'⟩ := c119_no_exception 1 ((exD.sizes 2 3 1 2 2 0 1).emCells Y)
  obtain ⟨c, hc, fc, ec⟩ := h.1 F' hF'
  refine ⟨Y, c, hY, eY, hc, ?_, ?_⟩
  · have e : F'.E1 (6, 0) = lit (1 / 10) := by injection hF' with hF'; rw [← hF']; rfl
    rw [← e, ← ec]; rfl
  · have e : F'.E1 (2, 0) = F.E1 (2, 0) := by injection hF' with hF'; rw [← hF', eY]; rfl
    rw [← e, ← ec]; rfl

/-- `C119_numbers_rejected`: a user who returns the number zero. -/
example (Y : AfArray Dbl) (hY : (⟨2, 3, 1, 2, 3, 1, 2, 0⟩ : GridSizes).FitsEM Y) :
    arrApplyWallFields ⟨2, fun _ => "dirichlet", fun _ _ _ => .ok (.num (lit 0)), 0, 0, 3, 1, 3, 1⟩ true .left Y = .error .typeError := by
  have : NeZero (⟨2, 3, 1, 2, 3, 1, 2, 0⟩ : GridSizes).M1 := ⟨by decide⟩
  have : NeZero (⟨2, 3, 1, 2, 3, 1, 2, 0⟩ : GridSizes).M2 := ⟨by decide⟩
  exact C119_numbers_rejected (z := ⟨2, 3, 1, 2, 3, 1, 2, 0⟩) _ _ rfl (lit 0) (fun _ => rfl) true Y hY

/-- `C119_run`, `C119_step_succeeds`: from any fields, on two processes, arrays, currents and a step with walls exist, and the step is one of the cell model. -/
example (F : ∀ r, EM (exD.Loc 2 0 r) Dbl) (J : ∀ r, Currents (exD.Loc 2 0 r) Dbl) (dt : Dbl) :
    ∃ (Y Y' : Fin 2 → AfArray Dbl) (x1 x2 x3 : Fin 2 → PyExpr Dbl), exD.emOf 2 0 2 3 1 2 Y = F ∧
      ArrFdtdWallRun exD 2 0 2 3 1 2 c117Opt (lit 1) (lit 1) (lit (1 / 10)) (lit 1) [(dt, fun _ => c119User 7 1, x1, x2, x3)] Y Y' ∧
      Mach.FdtdWallRun exD 2 0 c117Opt (fun _ => ⟨(1, 0), (0, 1), lit (1 / 10), lit 1, lit 1, lit 1, false⟩) [(dt, fun _ => c119UserCells _, J)] F
        (exD.emOf 2 0 2 3 1 2 Y') := by
  have i1 : ∀ r, NeZero (exD.sizes 2 3 1 2 2 0 r).M1 := fun _ => ⟨by simp [GridSizes.M1, Decomp.sizes, exD]⟩
  have i2 : ∀ r, NeZero (exD.sizes 2 3 1 2 2 0 r).M2 := fun _ => ⟨by simp [GridSizes.M2, Decomp.sizes, exD]⟩
  have i3 : ∀ r, NeZero (exD.sizes 2 3 1 2 2 0 r).Np1 := fun _ => ⟨by simp [Decomp.sizes]⟩
  have i4 : ∀ r, NeZero (exD.sizes 2 3 1 2 2 0 r).Np2 := fun _ => ⟨by simp [Decomp.sizes]⟩
  have i5 : ∀ r, NeZero (exD.sizes 2 3 1 2 2 0 r).Np3 := fun _ => ⟨by simp [Decomp.sizes]⟩
  have i6 : ∀ r, NeZero (exD.sizes 2 3 1 2 2 0 r).Ns := fun _ => ⟨by simp [Decomp.sizes]⟩
  choose Y hY eY using fun r => exists_fitsEM (z := exD.sizes 2 3 1 2 2 0 r) (F r)
  have cur : ∀ r (u : exD.Loc 2 0 r → Dbl), ∃ b : PyExpr Dbl, (fieldLay (exD.sizes 2 3 1 2 2 0 r)).Holds b u := by
    intro r u
    obtain ⟨b, hb⟩ := (fieldLay_ok (z := exD.sizes 2 3 1 2 2 0 r)).exists_array u fun x y _ _ h2 h3 => by
      have e2 : x = y := Prod.ext (ZMod.val_injective _ h2) (ZMod.val_injective _ h3)
      rw [e2]
    exact ⟨_, hb⟩
  choose x1 h1 using fun r => cur r (J r).J1
  choose x2 h2 using fun r => cur r (J r).J2
  choose x3 h3 using fun r => cur r (J r).J3
  have hin : exD.FieldWallsHold 2 0 2 3 1 2 c117Opt (fun _ => c119User 7 1) (fun _ => c119UserCells _) x1 x2 x3 J := ⟨h1, h2, h3, c119_walls, c119_room⟩
  have eY' : exD.emOf 2 0 2 3 1 2 Y = F := funext eY
  obtain ⟨Y', hs⟩ := C119_step_succeeds c113_sizes c117Opt (bc1 := .periodic) (bc2 := .none) ⟨rfl, rfl⟩ _ _ (lit 1) (lit 1) (lit (1 / 10)) (lit 1) dt x1 x2 x3 J hin
    c119_no_exception Y hY
  have hrun : ArrFdtdWallRun exD 2 0 2 3 1 2 c117Opt (lit 1) (lit 1) (lit (1 / 10)) (lit 1) [(dt, fun _ => c119User 7 1, x1, x2, x3)] Y Y' := ⟨Y', hs, rfl⟩
  have key := C119_run c113_sizes c117Opt (lit 1) (lit 1) (lit (1 / 10)) (lit 1) false [((dt, fun _ => c119User 7 1, x1, x2, x3), fun _ => c119UserCells _, J)]
    (by simpa using hin) Y Y' hY hrun
  rw [eY'] at key
  exact ⟨Y, Y', x1, x2, x3, eY', hrun, key.2⟩

end Bolt
