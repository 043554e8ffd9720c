import Verif.Spec.Boundaries
import Verif.Props.Decomp
import Mathlib.Tactic.FinCases

/-! Helper lemmas about boundary conditions. -/

set_option linter.unusedSectionVars false

namespace Bolt

section arrays
variable {M1 M2 : ℕ} {α : Type}

theorem mirrorSpace_left (g : ℕ) (x : ZMod M1 × ZMod M2 → α) (i : ZMod M1 × ZMod M2) :
    mirrorSpace g .left x i = if i.1.val < g then x (((2 * g - 1 - i.1.val : ℕ) : ZMod M1), i.2) else x i := by
  simp only [mirrorSpace, sliceSet, sliceFlip, sliceGet, zero_le, true_and, zero_add, Nat.sub_zero]
  split_ifs with h
  · have : g + (g - 1 - i.1.val) = 2 * g - 1 - i.1.val := by omega
    rw [this]
  · rfl

theorem mirrorSpace_right [NeZero M1] (g : ℕ) (hg : 2 * g ≤ M1) (x : ZMod M1 × ZMod M2 → α) (i : ZMod M1 × ZMod M2) :
    mirrorSpace g .right x i =
      if M1 - g ≤ i.1.val then x (((2 * (M1 - g) - 1 - i.1.val : ℕ) : ZMod M1), i.2) else x i := by
  have hi := ZMod.val_lt i.1
  simp only [mirrorSpace, sliceSet, sliceFlip, sliceGet]
  split_ifs with h h' h'
  · have : M1 - 2 * g + (g - 1 - (i.1.val - (M1 - g))) = 2 * (M1 - g) - 1 - i.1.val := by omega
    rw [this]
  · omega
  · omega
  · rfl

theorem mirrorSpace_bottom (g : ℕ) (x : ZMod M1 × ZMod M2 → α) (i : ZMod M1 × ZMod M2) :
    mirrorSpace g .bottom x i = if i.2.val < g then x (i.1, ((2 * g - 1 - i.2.val : ℕ) : ZMod M2)) else x i := by
  simp only [mirrorSpace, sliceSet, sliceFlip, sliceGet, zero_le, true_and, zero_add, Nat.sub_zero]
  split_ifs with h
  · have : g + (g - 1 - i.2.val) = 2 * g - 1 - i.2.val := by omega
    rw [this]
  · rfl

theorem mirrorSpace_top [NeZero M2] (g : ℕ) (hg : 2 * g ≤ M2) (x : ZMod M1 × ZMod M2 → α) (i : ZMod M1 × ZMod M2) :
    mirrorSpace g .top x i =
      if M2 - g ≤ i.2.val then x (i.1, ((2 * (M2 - g) - 1 - i.2.val : ℕ) : ZMod M2)) else x i := by
  have hi := ZMod.val_lt i.2
  simp only [mirrorSpace, sliceSet, sliceFlip, sliceGet]
  split_ifs with h h' h'
  · have : M2 - 2 * g + (g - 1 - (i.2.val - (M2 - g))) = 2 * (M2 - g) - 1 - i.2.val := by omega
    rw [this]
  · omega
  · omega
  · rfl

/-- Outside the slab nothing changes (for any ghost width). -/
theorem mirrorSpace_frame (g : ℕ) (w : Wall) (x : ZMod M1 × ZMod M2 → α) (i : ZMod M1 × ZMod M2) (h : ¬ inSlab g w i) :
    mirrorSpace g w x i = x i := by
  cases w <;> simp only [inSlab, not_lt, not_le] at h <;> simp only [mirrorSpace, sliceSet] <;> rw [if_neg (by omega)]

theorem setSlab_frame (g : ℕ) (w : Wall) (x y : ZMod M1 × ZMod M2 → α) (i : ZMod M1 × ZMod M2) (h : ¬ inSlab g w i) :
    setSlab g w x y i = x i := by simp [setSlab, h]

end arrays

section
variable {S K : Type} {Np1 Np2 Np3 M1 M2 : ℕ}

theorem mirrorF_eq [Zero K] [LinearOrder K] (env : BCEnv S Np1 Np2 Np3 M1 M2 K) (w : Wall) (f : LDist S Np1 Np2 Np3 M1 M2 K)
    {fl : Wall → PIdx Np1 Np2 Np3 → PIdx Np1 Np2 Np3} (h : MomentumMirror env.pGrid fl) :
    mirrorF env w f = .ok fun s p i => mirrorSpace env.g w (f s (if inSlab env.g w i then fl w p else p)) i := by
  have key : ∀ fl' : PIdx Np1 Np2 Np3 → PIdx Np1 Np2 Np3,
      (fun s p => setSlab env.g w (mirrorSpace env.g w (f s p)) (mirrorSpace env.g w (f s (fl' p))))
        = fun s p i => mirrorSpace env.g w (f s (if inSlab env.g w i then fl' p else p)) i := by
    intro fl'
    funext s p i
    by_cases hi : inSlab env.g w i <;> simp [setSlab, hi]
  unfold mirrorF
  rcases h with ⟨h, rfl⟩ | ⟨h, h2, rfl⟩
  · rw [if_pos h]
    exact congrArg Except.ok (key _)
  · rw [if_neg (by rw [h]; decide), if_pos h]
    have : ¬ ((w = .left ∨ w = .right) ∧ Np2 % 2 = 1) := by omega
    simp only [mirrorPolar]
    rw [if_neg this]
    exact congrArg Except.ok (key _)

theorem mirrorF_frame [Zero K] [LinearOrder K] (env : BCEnv S Np1 Np2 Np3 M1 M2 K) (w : Wall) (f f' : LDist S Np1 Np2 Np3 M1 M2 K)
    (h : mirrorF env w f = .ok f') (s : S) (p : PIdx Np1 Np2 Np3) (i : ZMod M1 × ZMod M2) (hi : ¬ inSlab env.g w i) :
    f' s p i = f s p i := by
  unfold mirrorF at h
  split_ifs at h with h1 h2
  · simp only [Except.ok.injEq] at h
    subst h
    simp only [mirrorCartesian]
    rw [setSlab_frame _ _ _ _ _ hi, mirrorSpace_frame _ _ _ _ hi]
  · unfold mirrorPolar at h
    dsimp only at h
    split_ifs at h with h3
    simp only [Except.ok.injEq] at h
    subst h
    beta_reduce
    rw [setSlab_frame _ _ _ _ _ hi, mirrorSpace_frame _ _ _ _ hi]

theorem dirichletF_frame [Zero K] [LinearOrder K] (env : BCEnv S Np1 Np2 Np3 M1 M2 K) (w : Wall) (f : LDist S Np1 Np2 Np3 M1 M2 K)
    (s : S) (p : PIdx Np1 Np2 Np3) (i : ZMod M1 × ZMod M2) (hi : ¬ inSlab env.g w i) : dirichletF env w f s p i = f s p i := by
  simp only [dirichletF]
  rw [setSlab_frame _ _ _ _ _ hi]

theorem applyWall_frame [Zero K] [LinearOrder K] (env : BCEnv S Np1 Np2 Np3 M1 M2 K) (w : Wall) (f f' : LDist S Np1 Np2 Np3 M1 M2 K)
    (h : applyWall env w f = .ok f') (s : S) (p : PIdx Np1 Np2 Np3) (i : ZMod M1 × ZMod M2) (hi : ¬ inSlab env.g w i) :
    f' s p i = f s p i := by
  unfold applyWall at h
  split_ifs at h with h1 h2 h3 h4 h5
  · simp only [Except.ok.injEq] at h
    subst h; exact dirichletF_frame env w f s p i hi
  · exact mirrorF_frame env w f f' h s p i hi
  · simp only [bind, Except.bind, pure, Except.pure] at h
    cases hm : mirrorF env w f with
    | error e => simp [hm] at h
    | ok f1 =>
      simp only [hm, Except.ok.injEq] at h
      subst h
      rw [dirichletF_frame env w f1 s p i hi, mirrorF_frame env w f f1 hm s p i hi]
  · simp only [Except.ok.injEq] at h
    subst h; rfl
  · simp only [Except.ok.injEq] at h
    subst h
    simp only [shearingF]
    rw [setSlab_frame _ _ _ _ _ hi]

theorem atWall_frame [Zero K] [LinearOrder K] (env : BCEnv S Np1 Np2 Np3 M1 M2 K) (w : Wall) (f f' : LDist S Np1 Np2 Np3 M1 M2 K)
    (h : atWall env w f = .ok f') (s : S) (p : PIdx Np1 Np2 Np3) (i : ZMod M1 × ZMod M2)
    (hi : ¬ (env.touches w = true ∧ inSlab env.g w i)) : f' s p i = f s p i := by
  unfold atWall at h
  split_ifs at h with h1
  · exact applyWall_frame env w f f' h s p i (fun h2 => hi ⟨h1, h2⟩)
  · simp only [Except.ok.injEq] at h
    subst h; rfl

/-- The four stages of `apply_bcs_f`. -/
theorem applyBcsF_ok [Zero K] [LinearOrder K] {env : BCEnv S Np1 Np2 Np3 M1 M2 K} {f f' : LDist S Np1 Np2 Np3 M1 M2 K}
    (h : applyBcsF env f = .ok f') : ∃ f1 f2 f3, atWall env .left f = .ok f1 ∧ atWall env .right f1 = .ok f2 ∧
      atWall env .bottom f2 = .ok f3 ∧ atWall env .top f3 = .ok f' := by
  unfold applyBcsF at h
  simp only [bind, Except.bind] at h
  cases h1 : atWall env .left f with
  | error e => simp [h1] at h
  | ok f1 =>
    simp only [h1] at h
    cases h2 : atWall env .right f1 with
    | error e => simp [h2] at h
    | ok f2 =>
      simp only [h2] at h
      cases h3 : atWall env .bottom f2 with
      | error e => simp [h3] at h
      | ok f3 =>
        simp only [h3] at h
        exact ⟨f1, f2, f3, rfl, h2, h3, h⟩

end

section fields
variable {M1 M2 : ℕ} {K : Type}

theorem mirrorFields_frame (g : ℕ) (w : Wall) (b : Bool) (F : EM (ZMod M1 × ZMod M2) K) (c : Fin 6) (i : ZMod M1 × ZMod M2)
    (hi : ¬ inSlab g w i) : (mirrorFields g w b F).comp c i = F.comp c i := by
  unfold mirrorFields
  split_ifs
  · cases w <;> fin_cases c <;> simp only [EM.comp] <;> rw [mirrorSpace_frame _ _ _ _ hi]
  · fin_cases c <;> simp only [EM.comp] <;> rw [mirrorSpace_frame _ _ _ _ hi]

theorem dirichletFields_frame (env : FieldBCEnv M1 M2 K) (w : Wall) (F : EM (ZMod M1 × ZMod M2) K) (c : Fin 6)
    (i : ZMod M1 × ZMod M2) (hi : ¬ inSlab env.g w i) : (dirichletFields env w F).comp c i = F.comp c i := by
  fin_cases c <;> simp only [EM.comp, dirichletFields] <;> rw [setSlab_frame _ _ _ _ _ hi]

theorem atWallFields_frame (env : FieldBCEnv M1 M2 K) (b : Bool) (w : Wall) (F F' : EM (ZMod M1 × ZMod M2) K)
    (h : atWallFields env b w F = .ok F') (c : Fin 6) (i : ZMod M1 × ZMod M2)
    (hi : ¬ (env.touches w = true ∧ inSlab env.g w i)) : F'.comp c i = F.comp c i := by
  unfold atWallFields at h
  split_ifs at h with ht
  · have hi' : ¬ inSlab env.g w i := fun h => hi ⟨ht, h⟩
    unfold applyWallFields at h
    split_ifs at h with h1 h2 h3 h4 h5 <;> simp only [Except.ok.injEq] at h <;> subst h
    · exact dirichletFields_frame env w F c i hi'
    · exact mirrorFields_frame _ w b F c i hi'
    · rw [dirichletFields_frame env w _ c i hi', mirrorFields_frame _ w b F c i hi']
    · rfl
  · simp only [Except.ok.injEq] at h
    subst h; rfl

theorem applyBcsFields_ok {env : FieldBCEnv M1 M2 K} {b : Bool} {F F' : EM (ZMod M1 × ZMod M2) K}
    (h : applyBcsFields env b F = .ok F') : ∃ F1 F2 F3, atWallFields env b .left F = .ok F1 ∧ atWallFields env b .right F1 = .ok F2 ∧
      atWallFields env b .bottom F2 = .ok F3 ∧ atWallFields env b .top F3 = .ok F' := by
  unfold applyBcsFields at h
  simp only [bind, Except.bind] at h
  cases h1 : atWallFields env b .left F with
  | error e => simp [h1] at h
  | ok f1 =>
    simp only [h1] at h
    cases h2 : atWallFields env b .right f1 with
    | error e => simp [h2] at h
    | ok f2 =>
      simp only [h2] at h
      cases h3 : atWallFields env b .bottom f2 with
      | error e => simp [h3] at h
      | ok f3 =>
        simp only [h3] at h
        exact ⟨f1, f2, f3, rfl, h2, h3, h⟩

end fields

end Bolt
