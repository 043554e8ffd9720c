import Verif.Spec.FieldWalls
import Verif.Proofs.CoupledDecomp
import Verif.Props.Boundaries

/-! Helper lemmas for the walls of the electromagnetic fields. -/

set_option linter.unusedSectionVars false

namespace Bolt

variable {M1 M2 : ℕ} [NeZero M1] [NeZero M2] {K : Type}

theorem mirrorSpace_eq {α : Type} (g : ℕ) (w : Wall) (hw : fitsAcross M1 M2 g w) (x : ZMod M1 × ZMod M2 → α) (i : ZMod M1 × ZMod M2) :
    mirrorSpace g w x i = if inSlab g w i then x (reflectCell g w i) else x i := by
  cases w
  · rw [mirrorSpace_left]; rfl
  · rw [mirrorSpace_right g hw]; rfl
  · rw [mirrorSpace_bottom]; rfl
  · rw [mirrorSpace_top g hw]; rfl

theorem mirrorFields_comp (g : ℕ) (w : Wall) (hw : fitsAcross M1 M2 g w) (b : Bool) (F : EM (ZMod M1 × ZMod M2) K) (c : Fin 6)
    (i : ZMod M1 × ZMod M2) : (mirrorFields g w b F).comp c i =
      if inSlab g w i ∧ reflected b w c = true then F.comp c (reflectCell g w i) else F.comp c i := by
  cases b
  · simp only [mirrorFields, Bool.false_eq_true, if_false, reflected, Bool.not_false, Bool.true_or, and_true]
    fin_cases c <;> exact mirrorSpace_eq g w hw _ i
  · simp only [mirrorFields, if_true, reflected, Bool.not_true, Bool.false_or]
    cases w <;> fin_cases c <;> simp [EM.comp, tangentialE, mirrorSpace_eq _ _ hw]

theorem dirichletFields_comp (env : FieldBCEnv M1 M2 K) (w : Wall) (F : EM (ZMod M1 × ZMod M2) K) (c : Fin 6) (i : ZMod M1 × ZMod M2) :
    (dirichletFields env w F).comp c i = if inSlab env.g w i then env.user w c (F.comp c) i else F.comp c i := by
  fin_cases c <;> rfl

/-- The reflection of a cell of the slab lies outside it, and the other walls' slabs contain both or neither. -/
theorem reflect_not_inSlab (g : ℕ) (w : Wall) (hw : fitsAcross M1 M2 g w) (i : ZMod M1 × ZMod M2) (hi : inSlab g w i) :
    ¬ inSlab g w (reflectCell g w i) := by
  have h1 := ZMod.val_lt i.1
  have h2 := ZMod.val_lt i.2
  cases w <;> simp only [fitsAcross] at hw <;> simp only [inSlab] at hi ⊢ <;> simp only [reflectCell] <;> rw [ZMod.val_cast_of_lt (by omega)] <;>
    omega

theorem idle_wall (env : FieldBCEnv M1 M2 K) (b : Bool) (w : Wall) (h : idleWall env w) (F : EM (ZMod M1 × ZMod M2) K) :
    atWallFields env b w F = .ok F := by
  unfold atWallFields
  rcases h with h | h
  · simp [h]
  · split_ifs
    · rcases h with h | h <;> simp [applyWallFields, h]
    · rfl

theorem applyBcsFields_frame (env : FieldBCEnv M1 M2 K) (b : Bool) (F F' : EM (ZMod M1 × ZMod M2) K)
    (h : applyBcsFields env b F = .ok F') (c : Fin 6) (i : ZMod M1 × ZMod M2) (hi : ∀ w, idleWall env w ∨ ¬ inSlab env.g w i) :
    F'.comp c i = F.comp c i := by
  obtain ⟨F1, F2, F3, w1, w2, w3, w4⟩ := applyBcsFields_ok h
  have keep : ∀ w G G', atWallFields env b w G = .ok G' → G'.comp c i = G.comp c i := by
    intro w G G' hG
    rcases hi w with hid | a
    · rw [idle_wall env b w hid, Except.ok.injEq] at hG
      rw [hG]
    · exact atWallFields_frame env b w G G' hG c i (fun h => a h.2)
  rw [keep _ _ _ w4, keep _ _ _ w3, keep _ _ _ w2, keep _ _ _ w1]

end Bolt
