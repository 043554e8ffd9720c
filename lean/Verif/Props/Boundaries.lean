import Verif.Proofs.Box
import Verif.Model.Shear
import Mathlib.Analysis.SpecialFunctions.Trigonometric.Basic
import Mathlib.Algebra.Order.Archimedean.Basic

/-!
# C24 (boundary part), C26–C31: boundary conditions
-/

set_option linter.unusedSectionVars false

namespace Bolt

/-! ## C24: boundary conditions touch ghost cells only -/

section C24
variable {N1 N2 : ℕ} {R : Type} [NeZero N1] [NeZero N2] (D : Decomp N1 N2 R) (g1 g2 : ℕ) {S K : Type} {Np1 Np2 Np3 : ℕ}
  [Zero K] [LinearOrder K]

/-- C24: communicating and then applying boundary conditions — any names, any callbacks, any process — leaves every owned cell of the
distribution function unchanged. -/
theorem C24_boundaries_keep_interior (o : BCOptions) (dat : ∀ r, D.LocBCData g1 g2 r S Np1 Np2 Np3 K)
    (F F0 : ∀ r, Dist S (PIdx Np1 Np2 Np3) (D.Loc g1 g2 r) K) (h : D.Synced g1 g2 o dat F F0) (r : R) (s : S)
    (p : PIdx Np1 Np2 Np3) (l : D.Loc g1 g2 r) (hl : D.Interior g1 g2 r l) : F0 r s p l = F r s p l := by
  obtain ⟨bc1, bc2, st, hset, happ⟩ := h
  obtain ⟨f1, f2, f3, w1, w2, w3, w4⟩ := applyBcsF_ok (happ r)
  have hax : (petscAxis o.nGhost (o.name .left) = (bc1, g1) ∧ petscAxis o.nGhost (o.name .bottom) = (bc2, g2)) ∧
      (o.name .left = "none" → o.name .right = "none") ∧ (o.name .bottom = "none" → o.name .top = "none") := by
    unfold setupBCs at hset
    split_ifs at hset with c1 c2 c3 c4 c5 c6
    simp only [Except.ok.injEq, Prod.mk.injEq] at hset
    refine ⟨⟨by rw [hset.1], by rw [hset.2]⟩, fun hh => ?_, fun hh => ?_⟩
    · by_contra hc; exact c5 ⟨hh, hc⟩
    · by_contra hc; exact c6 ⟨hh, hc⟩
  obtain ⟨⟨ax1, ax2⟩, n1, n2⟩ := hax
  have gv : ∀ name, name ≠ "none" → (petscAxis o.nGhost name).2 = o.nGhost := by
    intro name hname
    simp only [petscAxis]
    rw [if_neg hname]
    split_ifs <;> rfl
  have hE : (D.bcEnv g1 g2 o r (dat r)).g = o.nGhost := rfl
  obtain ⟨⟨a, b⟩, c, d⟩ := hl
  have frame1 : ∀ (w : Wall) (x y : Dist S (PIdx Np1 Np2 Np3) (D.Loc g1 g2 r) K), (w = .left ∨ w = .right) →
      atWall (D.bcEnv g1 g2 o r (dat r)) w x = .ok y → y s p l = x s p l := by
    intro w x y hw h
    by_cases hn : o.name .left = "none"
    · have : (D.bcEnv g1 g2 o r (dat r)).name w = "none" := by
        rcases hw with rfl | rfl
        · exact hn
        · exact n1 hn
      rw [Decomp.atWall_skip _ w x y (Or.inr this) h]
    · have hg : o.nGhost = g1 := by rw [← gv _ hn, ax1]
      refine atWall_frame _ w x y h s p l ?_
      rw [hE, hg]
      rintro ⟨_, hh⟩
      rcases hw with rfl | rfl <;> simp only [inSlab] at hh <;> omega
  have frame2 : ∀ (w : Wall) (x y : Dist S (PIdx Np1 Np2 Np3) (D.Loc g1 g2 r) K), (w = .bottom ∨ w = .top) →
      atWall (D.bcEnv g1 g2 o r (dat r)) w x = .ok y → y s p l = x s p l := by
    intro w x y hw h
    by_cases hn : o.name .bottom = "none"
    · have : (D.bcEnv g1 g2 o r (dat r)).name w = "none" := by
        rcases hw with rfl | rfl
        · exact hn
        · exact n2 hn
      rw [Decomp.atWall_skip _ w x y (Or.inr this) h]
    · have hg : o.nGhost = g2 := by rw [← gv _ hn, ax2]
      refine atWall_frame _ w x y h s p l ?_
      rw [hE, hg]
      rintro ⟨_, hh⟩
      rcases hw with rfl | rfl <;> simp only [inSlab] at hh <;> omega
  rw [frame2 .top f3 _ (Or.inr rfl) w4, frame2 .bottom f2 f3 (Or.inl rfl) w3, frame1 .right f1 f2 (Or.inr rfl) w2,
    frame1 .left _ f1 (Or.inl rfl) w1]
  exact D.C24_exchange_keeps_interior g1 g2 bc1 bc2 st F r s p l ⟨⟨a, b⟩, c, d⟩

/-- C24: applying boundary conditions to the fields (on either grid) changes no component in any cell outside the ghost zones. -/
theorem C24_field_boundaries_keep_interior {n1 n2 g : ℕ} {K : Type} (env : FieldBCEnv (n1 + 2 * g) (n2 + 2 * g) K) (hg : env.g = g)
    (onFdtdGrid : Bool) (F F' : EM (ZMod (n1 + 2 * g) × ZMod (n2 + 2 * g)) K) (h : applyBcsFields env onFdtdGrid F = .ok F')
    (c : Fin 6) (i : ZMod (n1 + 2 * g) × ZMod (n2 + 2 * g)) (h1 : g ≤ i.1.val ∧ i.1.val < g + n1)
    (h2 : g ≤ i.2.val ∧ i.2.val < g + n2) : F'.comp c i = F.comp c i := by
  obtain ⟨F1, F2, F3, w1, w2, w3, w4⟩ := applyBcsFields_ok h
  have out : ∀ w, ¬ (env.touches w = true ∧ inSlab env.g w i) := by
    rintro w ⟨_, hh⟩
    rw [hg] at hh
    cases w <;> simp only [inSlab] at hh <;> omega
  rw [atWallFields_frame env _ _ _ _ w4 c i (out _), atWallFields_frame env _ _ _ _ w3 c i (out _),
    atWallFields_frame env _ _ _ _ w2 c i (out _), atWallFields_frame env _ _ _ _ w1 c i (out _)]

end C24

/-! ## C26: mirror walls -/

section C26
variable {S K : Type} {Np1 Np2 Np3 : ℕ} [Zero K] [LinearOrder K]

theorem val_natCast_lt {M k : ℕ} (h : k < M) : ((k : ZMod M)).val = k := by
  rw [ZMod.val_natCast, Nat.mod_eq_of_lt h]

/-- C26: mirror condition at the four walls, on a process that owns `n1 × n2` cells and touches the wall.  `d < g` counts cells from
the wall: the ghost cell at distance `d` outside holds the value at distance `d` inside, at the momentum cell with the index along the
normal axis reversed; every other cell keeps its value. -/
theorem C26_mirror_cartesian {n1 n2 g : ℕ} (env : BCEnv S Np1 Np2 Np3 (n1 + 2 * g) (n2 + 2 * g) K) (hg : env.g = g)
    (hp : env.pGrid = "cartesian") (hn1 : 0 < n1) (hn2 : 0 < n2) (w : Wall) (hw : env.touches w = true) (hname : env.name w = "mirror")
    (f f' : LDist S Np1 Np2 Np3 (n1 + 2 * g) (n2 + 2 * g) K) (h : atWall env w f = .ok f') (s : S)
    (p1 : ZMod Np1) (p2 : ZMod Np2) (p3 : ZMod Np3) (d : ℕ) (hd : d < g) :
    match w with
    | .left => ∀ b, f' s (p1, p2, p3) ((g - 1 - d : ℕ), b) = f s (-1 - p1, p2, p3) ((g + d : ℕ), b)
    | .right => ∀ b, f' s (p1, p2, p3) ((g + n1 + d : ℕ), b) = f s (-1 - p1, p2, p3) ((g + n1 - 1 - d : ℕ), b)
    | .bottom => ∀ a, f' s (p1, p2, p3) (a, (g - 1 - d : ℕ)) = f s (p1, -1 - p2, p3) (a, (g + d : ℕ))
    | .top => ∀ a, f' s (p1, p2, p3) (a, (g + n2 + d : ℕ)) = f s (p1, -1 - p2, p3) (a, (g + n2 - 1 - d : ℕ)) := by
  have hm := Decomp.atWall_mirror env w f f' (fl := flipCartesian) (Or.inl ⟨hp, rfl⟩) hname h
  have z1 : NeZero (n1 + 2 * g) := ⟨by omega⟩
  have z2 : NeZero (n2 + 2 * g) := ⟨by omega⟩
  rw [hg] at hm
  cases w with
  | left =>
    intro b
    have v : ((g - 1 - d : ℕ) : ZMod (n1 + 2 * g)).val = g - 1 - d := val_natCast_lt (by omega)
    rw [hm, if_pos ⟨hw, by simp only [inSlab, v]; omega⟩, mirrorSpace_left, if_pos (by rw [v]; omega), v]
    have : 2 * g - 1 - (g - 1 - d) = g + d := by omega
    rw [this]; rfl
  | right =>
    intro b
    have v : ((g + n1 + d : ℕ) : ZMod (n1 + 2 * g)).val = g + n1 + d := val_natCast_lt (by omega)
    rw [hm, if_pos ⟨hw, by simp only [inSlab, v]; omega⟩, mirrorSpace_right _ (by omega), if_pos (by rw [v]; omega), v]
    have : 2 * (n1 + 2 * g - g) - 1 - (g + n1 + d) = g + n1 - 1 - d := by omega
    rw [this]; rfl
  | bottom =>
    intro a
    have v : ((g - 1 - d : ℕ) : ZMod (n2 + 2 * g)).val = g - 1 - d := val_natCast_lt (by omega)
    rw [hm, if_pos ⟨hw, by simp only [inSlab, v]; omega⟩, mirrorSpace_bottom, if_pos (by rw [v]; omega), v]
    have : 2 * g - 1 - (g - 1 - d) = g + d := by omega
    rw [this]; rfl
  | top =>
    intro a
    have v : ((g + n2 + d : ℕ) : ZMod (n2 + 2 * g)).val = g + n2 + d := val_natCast_lt (by omega)
    rw [hm, if_pos ⟨hw, by simp only [inSlab, v]; omega⟩, mirrorSpace_top _ (by omega), if_pos (by rw [v]; omega), v]
    have : 2 * (n2 + 2 * g - g) - 1 - (g + n2 + d) = g + n2 - 1 - d := by omega
    rw [this]; rfl

end C26

theorem flipIdx_val {N : ℕ} [NeZero N] (i : ZMod N) : (flipIdx i).val = N - 1 - i.val := by
  have h := ZMod.val_lt i
  have e : flipIdx i = ((N - 1 - i.val : ℕ) : ZMod N) := by
    have h2 : ((N - 1 - i.val : ℕ) : ℤ) = (N : ℤ) - 1 - i.val := by omega
    have h3 : ((N - 1 - i.val : ℕ) : ZMod N) = (((N - 1 - i.val : ℕ) : ℤ) : ZMod N) := by push_cast; rfl
    rw [h3, h2]; simp [flipIdx]
  rw [e]; exact val_natCast_lt (by omega)

/-- C26: on a momentum grid symmetric about zero (`p_start = -p_end`, cell centres as in `calculate_p.py:48`), the reversed index `-1 - i`
is the cell with the opposite momentum. -/
theorem C26_reverses_momentum {K : Type} [Field K] [CharZero K] {N : ℕ} [NeZero N] (pStart dp : K) (hsym : pStart + N * dp = -pStart)
    (i : ZMod N) : pStart + (1 / 2 + ((-1 - i : ZMod N).val : K)) * dp = -(pStart + (1 / 2 + (i.val : K)) * dp) := by
  have h := ZMod.val_lt i
  have hv : ((-1 - i : ZMod N).val) = N - 1 - i.val := flipIdx_val i
  have hc : ((N - 1 - i.val : ℕ) : K) = (N : K) - 1 - i.val := by
    rw [Nat.sub_sub, Nat.cast_sub (by omega)]; push_cast; ring
  rw [hv, hc]
  linear_combination hsym

section polar
variable {Nθ : ℕ} [NeZero Nθ]

theorem flipHalves_val (hE : Nθ % 2 = 0) (i : ZMod Nθ) :
    (flipHalves i).val = if i.val < Nθ / 2 then Nθ / 2 - 1 - i.val else Nθ + Nθ / 2 - 1 - i.val := by
  have h := ZMod.val_lt i
  simp only [flipHalves]
  split_ifs with h1
  · exact val_natCast_lt (by omega)
  · rw [val_natCast_lt (by omega)]; omega

/-- Angle of a cell centre on a full circle starting at `θ0` — `calculate_p.py:49`. -/
noncomputable def cellAngle (θ0 : ℝ) (i : ZMod Nθ) : ℝ := θ0 + (1 / 2 + (i.val : ℝ)) * (2 * Real.pi / Nθ)

/-- C26: on a polar momentum grid (an even number of angles on a full circle starting at a multiple of `π`), the left and right mirror
walls read the angle with the same `p_y` and opposite `p_x`; the bottom and top walls the same `p_x` and opposite `p_y`. -/
theorem C26_polar_reflects_angle (hE : Nθ % 2 = 0) (k : ℤ) (i : ZMod Nθ) :
    (Real.cos (cellAngle (k * Real.pi) (flipHalves i)) = - Real.cos (cellAngle (k * Real.pi) i) ∧
      Real.sin (cellAngle (k * Real.pi) (flipHalves i)) = Real.sin (cellAngle (k * Real.pi) i)) ∧
    (Real.cos (cellAngle (k * Real.pi) (flipIdx i)) = Real.cos (cellAngle (k * Real.pi) i) ∧
      Real.sin (cellAngle (k * Real.pi) (flipIdx i)) = - Real.sin (cellAngle (k * Real.pi) i)) := by
  have hi := ZMod.val_lt i
  have hN : (Nθ : ℝ) ≠ 0 := Nat.cast_ne_zero.mpr (NeZero.ne Nθ)
  obtain ⟨m, hm⟩ : ∃ m, Nθ = 2 * m := ⟨Nθ / 2, by omega⟩
  have hmr : (Nθ : ℝ) = 2 * m := by rw [hm]; push_cast; ring
  have hm0 : (m : ℝ) ≠ 0 := by intro h; rw [h] at hmr; simp at hmr; exact NeZero.ne Nθ hmr
  have hhalf : Nθ / 2 = m := by omega
  constructor
  · have key : cellAngle (k * Real.pi) (flipHalves i) = Real.pi - cellAngle (k * Real.pi) i + k * (2 * Real.pi) ∨
        cellAngle (k * Real.pi) (flipHalves i) = Real.pi - cellAngle (k * Real.pi) i + (k + 1 : ℤ) * (2 * Real.pi) := by
      simp only [cellAngle]
      rw [flipHalves_val hE, hhalf]
      by_cases h1 : i.val < m
      · left
        rw [if_pos h1]
        have hc : ((m - 1 - i.val : ℕ) : ℝ) = (m : ℝ) - 1 - i.val := by
          rw [Nat.sub_sub, Nat.cast_sub (by omega)]; push_cast; ring
        rw [hc, hmr]; field_simp; ring
      · right
        rw [if_neg h1]
        have hc : ((Nθ + m - 1 - i.val : ℕ) : ℝ) = (3 * m : ℝ) - 1 - i.val := by
          rw [Nat.sub_sub, Nat.cast_sub (by omega)]; push_cast; rw [hmr]; ring
        rw [hc, hmr]; push_cast; field_simp; ring
    rcases key with e | e <;> rw [e, Real.cos_add_int_mul_two_pi, Real.sin_add_int_mul_two_pi, Real.cos_pi_sub, Real.sin_pi_sub] <;>
      exact ⟨rfl, rfl⟩
  · have e : cellAngle (k * Real.pi) (flipIdx i) = - cellAngle (k * Real.pi) i + (k + 1 : ℤ) * (2 * Real.pi) := by
      simp only [cellAngle]
      rw [flipIdx_val]
      have hc : ((Nθ - 1 - i.val : ℕ) : ℝ) = (Nθ : ℝ) - 1 - i.val := by
        rw [Nat.sub_sub, Nat.cast_sub (by omega)]; push_cast; ring
      rw [hc]; push_cast; field_simp; ring
    rw [e, Real.cos_add_int_mul_two_pi, Real.sin_add_int_mul_two_pi, Real.cos_neg, Real.sin_neg]
    exact ⟨rfl, rfl⟩

end polar

section box
variable {N1 N2 : ℕ} {R : Type} [NeZero N1] [NeZero N2] (D : Decomp N1 N2 R) (g1 g2 : ℕ) {S K : Type} {Np1 Np2 Np3 : ℕ}

/-- C26: in a box whose directions are periodic, mirrored, or one cell without ghost zones, after communication and boundary conditions
every local cell of every process — corners and ghost cells that face a mirror from another process included — holds the value of the
distribution continued by images. -/
theorem C26_ghosts_show_images [Zero K] [LinearOrder K] (o : BCOptions) (k1 k2 : AxisEnd) (h1 : AxisSetup k1 (o.name .left) (o.name .right) N1)
    (h2 : AxisSetup k2 (o.name .bottom) (o.name .top) N2) {fl : Wall → PIdx Np1 Np2 Np3 → PIdx Np1 Np2 Np3}
    (hfl : MomentumMirror o.pGrid fl) (hn : ∀ r, g1 ≤ D.n1 r ∧ g2 ≤ D.n2 r)
    (dat : ∀ r, D.LocBCData g1 g2 r S Np1 Np2 Np3 K) (F F0 : ∀ r, Dist S (PIdx Np1 Np2 Np3) (D.Loc g1 g2 r) K)
    (h : D.Synced g1 g2 o dat F F0) (f : Dist S (PIdx Np1 Np2 Np3) (ZMod N1 × ZMod N2) K) (hF : D.Holds g1 g2 F f)
    (r : R) (s : S) (p : PIdx Np1 Np2 Np3) (l : D.Loc g1 g2 r) :
    F0 r s p l = boxExt k1 k2 (fl .left) (fl .bottom) f s p (D.signed g1 g2 r l) := by
  rw [Decomp.holds_iff] at hF
  subst hF
  exact D.sync_box g1 g2 o k1 k2 h1 h2 hfl hn dat F F0 h r s p l

end box

end Bolt
