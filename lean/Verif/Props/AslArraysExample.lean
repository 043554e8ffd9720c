import Verif.Props.AslArrays
import Verif.Props.ArrayProgramExample
import Verif.Props.ShearArraysExample

/-!
# C122: the hypotheses are met, and the wrong cell sizes are visible
-/

set_option linter.unusedSectionVars false

namespace Bolt

open Machine PyExpr

section inputs
variable {K : Type} [Machine K] {z : GridSizes} [NeZero z.Np1] [NeZero z.Np2] [NeZero z.Np3] [NeZero z.Ns] [NeZero z.M1] [NeZero z.M2]

/-- The arrays `f_interp_p_3d` reads exist, for any values. -/
theorem C122_inputs_exist (a2 a3 : Dist (Fin z.Ns) z.P z.Q K) (pc2 pc3 : Fin z.Ns → z.P → K) (p2s p3s dp2 dp3 : Fin z.Ns → K) :
    ∃ x : AslPIn K, x.Hold a2 a3 pc2 pc3 p2s p3s dp2 dp3 := by
  obtain ⟨b2, h2⟩ := exists_holdsDist (z := z) a2
  obtain ⟨b3, h3⟩ := exists_holdsDist (z := z) a3
  obtain ⟨c2, h4⟩ := exists_momentumOnly (z := z) pc2
  obtain ⟨c3, h5⟩ := exists_momentumOnly (z := z) pc3
  obtain ⟨e1, k1⟩ := exists_speciesOnly (z := z) p2s
  obtain ⟨e2, k2⟩ := exists_speciesOnly (z := z) p3s
  obtain ⟨e3, k3⟩ := exists_speciesOnly (z := z) dp2
  obtain ⟨e4, k4⟩ := exists_speciesOnly (z := z) dp3
  exact ⟨⟨.ok (.arr b2), _, _, _, _, _, _, _, _⟩, ⟨b2, rfl⟩, h2, h3, h4, h5, k1, k2, k3, k4⟩

theorem C122_coord_exists (z : GridSizes) (q : ℕ → ℕ → K) : ∃ a : AfArray K, z.HoldsCoord a q :=
  ⟨AfArray.ofFn 1 1 z.M1 z.M2 fun _ _ i j => q i j, ⟨rfl, rfl, rfl, rfl⟩, fun i j hi _ => AfArray.get_ofFn _ _ _ _ _ _ _ _ _ (by omega) (by omega) hi⟩

end inputs

/-- One position cell, two species, two cells along the second momentum axis. -/
abbrev c122Sizes : GridSizes := ⟨1, 2, 1, 2, 1, 1, 0, 0⟩

/-- Momentum cells of the second species are twice as long. -/
def c122Dp2 : Fin 2 → ℚ := ![1, 2]

theorem c122_key : approx2 2 1 (fun a _ => (((a : ZMod 2).val : ℕ) : ℚ)) (((1 / 2 + ((ZMod.val (1 : ZMod 2) : ℕ) : ℚ)) * c122Dp2 0 + 0 + -(0 + ((1 / 2 : ℚ) : ℚ) * c122Dp2 1)) *
      (((1 : ℚ) : ℚ) / c122Dp2 1)) ((1 / 2 + ((ZMod.val (0 : ZMod 1) : ℕ) : ℚ) + 0 + -(0 + ((1 / 2 : ℚ) : ℚ) * 1)) * (((1 : ℚ) : ℚ) / 1)) ≠ ((ZMod.val (1 : ZMod 2) : ℕ) : ℚ) := by
  decide +kernel

/-- C122 (negative): with two species, two cells along the second momentum axis and cell sizes that differ between the species, the routine changes a distribution on which no
force acts, for every step size. -/
theorem C122_mixed_moves_without_force (dt : ℚ) :
    ∃ (x : AslPIn ℚ) (f b : AfArray ℚ), c122Sizes.Fits f ∧
      x.Hold (z := c122Sizes) 0 0 (fun s p => (1 / 2 + (p.2.1.val : ℚ)) * c122Dp2 s) (fun _ p => 1 / 2 + (p.2.2.val : ℚ)) 0 0 c122Dp2 1 ∧
      @arrInterpP3d ℚ (exactMachine ℚ) approx2 c122Sizes x dt f = .ok b ∧ c122Sizes.cells b ≠ c122Sizes.cells f := by
  let M : Machine ℚ := exactMachine ℚ
  have i1 : NeZero c122Sizes.M1 := ⟨by decide⟩
  have i2 : NeZero c122Sizes.M2 := ⟨by decide⟩
  have i3 : NeZero c122Sizes.Np1 := ⟨by decide⟩
  have i4 : NeZero c122Sizes.Np2 := ⟨by decide⟩
  have i5 : NeZero c122Sizes.Np3 := ⟨by decide⟩
  have i6 : NeZero c122Sizes.Ns := ⟨by decide⟩
  obtain ⟨x, hx⟩ := C122_inputs_exist (K := ℚ) (z := c122Sizes) 0 0 (fun s p => (1 / 2 + (p.2.1.val : ℚ)) * c122Dp2 s) (fun _ p => 1 / 2 + (p.2.2.val : ℚ)) 0 0 c122Dp2 1
  obtain ⟨f, hf⟩ := exists_holdsDist (K := ℚ) (z := c122Sizes) fun _ p _ => (p.2.1.val : ℚ)
  obtain ⟨hfit, hc⟩ := hf.eq_cells
  have hzero : ∀ u : ℚ, lit 0 ⊞ u = u := fun u => zero_add u
  have hone : ∀ u : ℚ, lit 1 ⊠ u = u := fun u => one_mul u
  obtain ⟨b, hb, -, he⟩ := C122_interp_p_mixed (z := c122Sizes) hzero hone approx2_readsInside rfl hx dt hfit
  refine ⟨x, f, b, hfit, hx, hb, fun e => ?_⟩
  rw [he, ← hc] at e
  have e' := congrFun (congrFun (congrFun e 0) (0, 1, 0)) (0, 0)
  simp only [Mach.fInterpP3d] at e'
  have h0 : ∀ s p l, (0 : Dist (Fin c122Sizes.Ns) c122Sizes.P c122Sizes.Q ℚ) s p l = 0 := fun _ _ _ => rfl
  rw [h0] at e'
  have hd : (neg dt : ℚ) ⊠ 0 = 0 := mul_zero _
  rw [hd] at e'
  exact c122_key e'

/-- `hzero` holds for double precision. -/
theorem dbl_zero_add (u : Dbl) : lit 0 ⊞ u = u := by
  apply Subtype.ext
  change rndDouble (rndDouble ((0 : ℚ)) + u.1) = u.1
  rw [show rndDouble 0 = 0 by decide +kernel, zero_add, u.2]

/-- One species on a grid with ten momentum cells, in double precision and with any kernel that reads the array only: the routine returns. -/
example (kern : Kernel Dbl) (hk : kern.ReadsInside) (a2 a3 : Dist (Fin 1) (AslPIdx 2 5 1) (ZMod 7 × ZMod 1) Dbl)
    (pc2 pc3 : Fin 1 → AslPIdx 2 5 1 → Dbl) (p2s p3s dp2 dp3 : Fin 1 → Dbl) (dt : Dbl) (g : Dist (Fin 1) (AslPIdx 2 5 1) (ZMod 7 × ZMod 1) Dbl) :
    ∃ (x : AslPIn Dbl) (f b : AfArray Dbl), arrInterpP3d kern ⟨2, 5, 1, 1, 3, 1, 2, 0⟩ x dt f = .ok b ∧ GridSizes.cells ⟨2, 5, 1, 1, 3, 1, 2, 0⟩ f = g ∧
      GridSizes.cells ⟨2, 5, 1, 1, 3, 1, 2, 0⟩ b = Mach.fInterpP3d kern pc2 pc3 (fun s _ => p2s s) (fun s _ => p3s s) (fun s _ => dp2 s) (fun s _ => dp3 s) a2 a3 dt g := by
  let z : GridSizes := ⟨2, 5, 1, 1, 3, 1, 2, 0⟩
  have i1 : NeZero z.M1 := ⟨by decide⟩
  have i2 : NeZero z.M2 := ⟨by decide⟩
  have i3 : NeZero z.Np1 := ⟨by decide⟩
  have i4 : NeZero z.Np2 := ⟨by decide⟩
  have i5 : NeZero z.Np3 := ⟨by decide⟩
  have i6 : NeZero z.Ns := ⟨by decide⟩
  obtain ⟨x, hx⟩ := C122_inputs_exist (z := z) a2 a3 pc2 pc3 p2s p3s dp2 dp3
  obtain ⟨f, hf⟩ := exists_holdsDist (K := Dbl) (z := z) g
  obtain ⟨hfit, hc⟩ := hf.eq_cells
  obtain ⟨b, hb, -, he⟩ := C122_interp_p_one_species (z := z) dbl_zero_add dbl_one_mul hk rfl hx dt hfit
  exact ⟨x, f, b, hb, hc.symm, by rw [he, ← hc]; rfl⟩

/-- Two species and five cells along the second momentum axis: the routine raises. -/
example (kern : Kernel Dbl) (a2 a3 : Dist (Fin 2) (AslPIdx 2 5 1) (ZMod 7 × ZMod 1) Dbl)
    (pc2 pc3 : Fin 2 → AslPIdx 2 5 1 → Dbl) (p2s p3s dp2 dp3 : Fin 2 → Dbl) (dt : Dbl) (g : Dist (Fin 2) (AslPIdx 2 5 1) (ZMod 7 × ZMod 1) Dbl) :
    ∃ (x : AslPIn Dbl) (f : AfArray Dbl), GridSizes.cells ⟨2, 5, 1, 2, 3, 1, 2, 0⟩ f = g ∧ arrInterpP3d kern ⟨2, 5, 1, 2, 3, 1, 2, 0⟩ x dt f = .error .exception := by
  let z : GridSizes := ⟨2, 5, 1, 2, 3, 1, 2, 0⟩
  have i1 : NeZero z.M1 := ⟨by decide⟩
  have i2 : NeZero z.M2 := ⟨by decide⟩
  have i3 : NeZero z.Np1 := ⟨by decide⟩
  have i4 : NeZero z.Np2 := ⟨by decide⟩
  have i5 : NeZero z.Np3 := ⟨by decide⟩
  have i6 : NeZero z.Ns := ⟨by decide⟩
  obtain ⟨x, hx⟩ := C122_inputs_exist (z := z) a2 a3 pc2 pc3 p2s p3s dp2 dp3
  obtain ⟨f, hf⟩ := exists_holdsDist (K := Dbl) (z := z) g
  obtain ⟨hfit, hc⟩ := hf.eq_cells
  exact ⟨x, f, hc.symm, C122_interp_p_raises (z := z) dbl_zero_add (by decide) (by decide) hx dt hfit⟩

/-- Two processes, two species, six momentum cells, two ghost cells; velocities that depend on species and momentum and displace by at most one cell: the array program returns,
and the owned cells hold the interpolant at the feet of the characteristics. -/
example (u1 u2 : Fin 2 → AslPIdx 2 3 1 → ℚ) (dt : ℚ) (b1 : ∀ s p, |u1 s p * dt| ≤ 1) (b2 : ∀ s p, |u2 s p * dt| ≤ 1)
    (f : Dist (Fin 2) (AslPIdx 2 3 1) (ZMod 4 × ZMod 3) ℚ) :
    ∃ (q1 q2 : Fin 2 → AfArray ℚ) (A1 A2 : Fin 2 → PyExpr ℚ) (F F' : Fin 2 → AfArray ℚ), exS.Holds 2 2 (exS.cellsOf 2 2 2 3 1 2 F) f ∧
      @Decomp.ArrAdvectQ ℚ (exactMachine ℚ) _ _ _ exS 2 2 2 3 1 2 approx2 q1 q2 A1 A2 dt F F' ∧
      exS.Holds 2 2 (exS.cellsOf 2 2 2 3 1 2 F') (advected (fun s p _ => u1 s p * dt / 1) (fun s p _ => u2 s p * dt / 1) f) := by
  let M : Machine ℚ := exactMachine ℚ
  have hz : exS.SizesOk (exS.sizes 2 3 1 2 2 2) 2 2 :=
    ⟨fun _ => rfl, fun _ => rfl, fun _ => rfl, fun _ => rfl, fun h => by omega, fun h => by omega⟩
  have i1 : ∀ r, NeZero (exS.sizes 2 3 1 2 2 2 r).M1 := fun r => ⟨by simp [GridSizes.M1, Decomp.sizes, exS]⟩
  have i2 : ∀ r, NeZero (exS.sizes 2 3 1 2 2 2 r).M2 := fun r => ⟨by simp [GridSizes.M2, Decomp.sizes, exS]⟩
  have i3 : ∀ r, NeZero (exS.sizes 2 3 1 2 2 2 r).Np1 := fun _ => (inferInstance : NeZero 2)
  have i4 : ∀ r, NeZero (exS.sizes 2 3 1 2 2 2 r).Np2 := fun _ => (inferInstance : NeZero 3)
  have i5 : ∀ r, NeZero (exS.sizes 2 3 1 2 2 2 r).Np3 := fun _ => (inferInstance : NeZero 1)
  have i6 : ∀ r, NeZero (exS.sizes 2 3 1 2 2 2 r).Ns := fun _ => (inferInstance : NeZero 2)
  obtain ⟨F, sF, hF⟩ := C113_blocks_exist exS 2 2 2 3 1 2 f
  choose q1 hq1 using fun r => C122_coord_exists (exS.sizes 2 3 1 2 2 2 r) (exS.coords 2 2 (0 : ℚ) 0 1 1 r).2.2.2.1
  choose q2 hq2 using fun r => C122_coord_exists (exS.sizes 2 3 1 2 2 2 r) (exS.coords 2 2 (0 : ℚ) 0 1 1 r).2.2.2.2
  choose c1 hc1 using fun r => exists_momentumOnly (z := exS.sizes 2 3 1 2 2 2 r) u1
  choose c2 hc2 using fun r => exists_momentumOnly (z := exS.sizes 2 3 1 2 2 2 r) u2
  have k : ∀ r, 2 ≤ exS.n1 r + 2 * 2 ∧ 2 ≤ exS.n2 r + 2 * 2 := fun r => by omega
  have hA1 : ∀ r, HoldsVel (z := exS.sizes 2 3 1 2 2 2 r) (.ok (.arr (c1 r))) fun s p _ => u1 s p := fun r => .inr (hc1 r)
  have hA2 : ∀ r, HoldsVel (z := exS.sizes 2 3 1 2 2 2 r) (.ok (.arr (c2 r))) fun s p _ => u2 s p := fun r => .inr (hc2 r)
  obtain ⟨F', hF'⟩ := (exS.C122_op_advect_q 2 2 2 3 1 2 hz k 0 0 1 1 (fun r => ⟨hq1 r, hq2 r⟩) (a1 := fun _ s p _ => u1 s p) (a2 := fun _ s p _ => u2 s p) hA1 hA2 dt sF).1
  exact ⟨q1, q2, _, _, F, F', hF, hF', exS.C122_foot 2 2 2 3 1 2 hz k 0 0 1 1 one_ne_zero one_ne_zero (fun r => ⟨hq1 r, hq2 r⟩) (a1 := fun _ s p _ => u1 s p)
    (a2 := fun _ s p _ => u2 s p) (c1 := fun s p _ => u1 s p) (c2 := fun s p _ => u2 s p) hA1 hA2 (fun _ _ _ _ _ => rfl) (fun _ _ _ _ _ => rfl) dt
    (fun s p _ => by rw [div_one]; exact (b1 s p).trans (by norm_num)) (fun s p _ => by rw [div_one]; exact (b2 s p).trans (by norm_num)) sF f hF hF'⟩

end Bolt
