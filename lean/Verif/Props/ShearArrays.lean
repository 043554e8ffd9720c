import Verif.Proofs.ShearArrays
import Verif.Props.BoundaryArrays
import Verif.Props.ShearTotal

/-!
# C121: the shearing-box routine on arrays
-/

set_option linter.unusedSectionVars false

namespace Bolt

open Machine

section routine
variable {K : Type} [Field K] [LinearOrder K] [IsStrictOrderedRing K] [FloorRing K] {z : GridSizes} [NeZero z.Np1] [NeZero z.Np2] [NeZero z.Np3] [NeZero z.Ns]
  [NeZero z.M1] [NeZero z.M2]

/-- C121 (one wall): with at least two ghost cells, at least two cells along the wall and a domain of positive extent along it, the routine returns for every distribution;
the ghost cells of the wall then hold the bicubic interpolation of the ghost slab at the sheared coordinates (the same for all species, momenta and distributions), and
nothing else changes. -/
theorem C121_wall (sp : ShearParams K) (g : ℕ) (w : Wall) (hL : alongLo sp w < alongHi sp w) (h2 : 2 ≤ g) (hg : g ≤ z.width w) (hlen : 2 ≤ z.length w) (q : Coords K)
    (q1 q2 : AfArray K) (hq1 : z.HoldsCoord q1 q.1) (hq2 : z.HoldsCoord q2 q.2) :
    ∃ x : {l : z.Q // inSlab g w l} → K, ShearedCoords sp w (fun l => q.1 l.1.1.val l.1.2.val) (fun l => q.2 l.1.1.val l.1.2.val) x ∧
      ∀ f, z.Fits f → (∃ f', ArrShearingF sp g w q1 q2 f f') ∧ ∀ f', ArrShearingF sp g w q1 q2 f f' → z.Fits f' ∧
        ∀ s p l, z.cells f' s p l = if h : inSlab g w l then shearedSlab g w q (x ⟨l, h⟩) (z.cells f) s p l else z.cells f s p l := by
  obtain ⟨c1, hc1, i1, e1⟩ := shear_cut_slab w hq1.1 hg
  obtain ⟨c2, hc2, i2, e2⟩ := shear_cut_slab w hq2.1 hg
  have f1 := slabFn_coord w hg hq1 e1
  have f2 := slabFn_coord w hg hq2 e2
  obtain ⟨x, hx, ux, -⟩ := C29_shear_wraps sp w hL (z.slabFn g w c1) (z.slabFn g w c2)
  refine ⟨x, by rw [f1, f2] at hx; exact hx, fun f hf => ⟨?_, ?_⟩⟩
  · obtain ⟨a, ha, ia, -⟩ := arrShearedCoords_exists sp w hg i1 i2 hx
    obtain ⟨s, hs, is, es⟩ := shear_cut_slab w hf hg
    obtain ⟨v, hv, iv, -⟩ := interp_slab w h2 hg hlen hq1 hq2 i1 i2 ia is e1 e2 es
    obtain ⟨f', hf', -⟩ := shear_put_slab w hf iv hg
    exact ⟨f', c1, c2, a, s, v, hc1, hc2, ha, hs, hv, hf'⟩
  · rintro f' ⟨d1, d2, a, s, v, hd1, hd2, ha, hs, hv, hf'⟩
    rw [hc1] at hd1
    rw [hc2] at hd2
    cases hd1
    cases hd2
    obtain ⟨ia, sa⟩ := arrShearedCoords_fn sp w hg i1 i2 ha
    obtain ⟨s', hs', is, es⟩ := shear_cut_slab w hf hg
    rw [hs'] at hs
    cases hs
    obtain ⟨v', hv', iv, ev⟩ := interp_slab w h2 hg hlen hq1 hq2 i1 i2 ia is e1 e2 es
    rw [hv'] at hv
    cases hv
    obtain ⟨c, hc, fc, ec⟩ := shear_put_slab w hf iv hg
    rw [hc] at hf'
    cases hf'
    refine ⟨fc, fun s p l => ?_⟩
    rw [ec]
    by_cases h : inSlab g w l
    · rw [if_pos h, dif_pos h, ev s p l h, ux _ sa]
    · rw [if_neg h, dif_neg h]

/-- C121 (negative): with a single ghost cell, or a single cell along the wall, the routine does not return: the interpolation needs the distance of two cell centres along
both axes of the slab. -/
theorem C121_one_ghost_cell (sp : ShearParams K) (g : ℕ) (w : Wall) (hg : g ≤ z.width w) (h : g ≤ 1 ∨ z.length w ≤ 1) (q : Coords K) (q1 q2 : AfArray K)
    (hq1 : z.HoldsCoord q1 q.1) (hq2 : z.HoldsCoord q2 q.2) (f f' : AfArray K) : ¬ ArrShearingF sp g w q1 q2 f f' := by
  rintro ⟨d1, d2, a, s, v, hd1, hd2, -, -, hv, -⟩
  obtain ⟨c1, hc1, i1, -⟩ := shear_cut_slab w hq1.1 hg
  obtain ⟨c2, hc2, i2, -⟩ := shear_cut_slab w hq2.1 hg
  rw [hc1] at hd1
  rw [hc2] at hd2
  cases hd1
  cases hd2
  unfold AfArray.interp2 at hv
  split_ifs at hv with hc
  have k1 : 2 ≤ d1.d2 := hc.1
  have k2 : 2 ≤ d2.d3 := hc.2.1
  rw [i1.2.2.1] at k1
  rw [i2.2.2.2] at k2
  cases w <;> simp only [GridSizes.ext1, GridSizes.ext2, GridSizes.length] at * <;> omega

end routine

namespace Decomp
variable {N1 N2 : ℕ} {R : Type} [NeZero N1] [NeZero N2] (D : Decomp N1 N2 R) (g1 g2 Np1 Np2 Np3 Ns : ℕ) [NeZero Np1] [NeZero Np2] [NeZero Np3] [NeZero Ns] {K : Type}
  [Field K] [LinearOrder K] [IsStrictOrderedRing K] [FloorRing K]

theorem shear_data (M : Machine K) (o : BCOptions) (hw : ∀ w, o.name w = "shearing-box" ∨ o.name w = "periodic") (h2 : 2 ≤ o.nGhost) (e1 : g1 = o.nGhost)
    (e2 : g2 = o.nGhost) (sp : ShearParams K) (dq1 dq2 : K) (hL : ∀ w, o.name w = "shearing-box" → alongLo sp w < alongHi sp w) (q1 q2 : R → AfArray K)
    (hq : D.CentresHeld g1 g2 Np1 Np2 Np3 Ns sp dq1 dq2 q1 q2) (r : R) (b : ArrBCData K)
    (hb : ShearsByCode (D.sizes Np1 Np2 Np3 Ns g1 g2 r) sp o.nGhost o.name (q1 r) (q2 r) b.sheared) :
    ∃ dat : D.LocBCData g1 g2 r (Fin Ns) Np1 Np2 Np3 K,
      ShearsLike sp o.nGhost o.name (D.coords g1 g2 sp.q1Start sp.q2Start dq1 dq2 r).2.2.2 dat ∧
      (D.arrEnv g1 g2 Np1 Np2 Np3 Ns o r b).Hold (D.bcEnv g1 g2 o r dat) ∧ (D.arrEnv g1 g2 Np1 Np2 Np3 Ns o r b).WallsFit ∧
      (D.arrEnv g1 g2 Np1 Np2 Np3 Ns o r b).VelocitiesFit := by
  classical
  have p1 := D.pos1 r
  have p2 := D.pos2 r
  have i1 : NeZero (D.sizes Np1 Np2 Np3 Ns g1 g2 r).M1 := ⟨by simp only [GridSizes.M1, Decomp.sizes]; omega⟩
  have i2 : NeZero (D.sizes Np1 Np2 Np3 Ns g1 g2 r).M2 := ⟨by simp only [GridSizes.M2, Decomp.sizes]; omega⟩
  have i3 : NeZero (D.sizes Np1 Np2 Np3 Ns g1 g2 r).Np1 := ‹NeZero Np1›
  have i4 : NeZero (D.sizes Np1 Np2 Np3 Ns g1 g2 r).Np2 := ‹NeZero Np2›
  have i5 : NeZero (D.sizes Np1 Np2 Np3 Ns g1 g2 r).Np3 := ‹NeZero Np3›
  have i6 : NeZero (D.sizes Np1 Np2 Np3 Ns g1 g2 r).Ns := ‹NeZero Ns›
  have wd : ∀ w, 2 * o.nGhost ≤ (D.sizes Np1 Np2 Np3 Ns g1 g2 r).width w := fun w => by
    cases w <;> simp only [GridSizes.width, GridSizes.M1, GridSizes.M2, Decomp.sizes] <;> omega
  have ln : ∀ w, 2 ≤ (D.sizes Np1 Np2 Np3 Ns g1 g2 r).length w := fun w => by
    cases w <;> simp only [GridSizes.length, GridSizes.M1, GridSizes.M2, Decomp.sizes] <;> omega
  have noInflow : ∀ w, ¬ (D.arrEnv g1 g2 Np1 Np2 Np3 Ns o r b).Inflow w := by
    rintro w (h | h) <;> rcases hw w with k | k <;> have h' := h <;> simp only [Decomp.arrEnv] at h' <;> rw [k] at h' <;> exact absurd h' (by decide)
  have key := fun w (hs : o.name w = "shearing-box") => C121_wall (z := D.sizes Np1 Np2 Np3 Ns g1 g2 r) sp o.nGhost w (hL w hs) h2 (by have := wd w; omega) (ln w)
    (D.coords g1 g2 sp.q1Start sp.q2Start dq1 dq2 r).2.2.2 (q1 r) (q2 r) (hq r).1 (hq r).2
  choose x hx hf using key
  refine ⟨⟨fun _ _ _ => 0, fun _ _ _ => 0, fun _ _ _ => 0, fun _ _ _ => 0, fun _ f => f, fun w f s p l =>
    if hs : o.name w = "shearing-box" then if h : inSlab o.nGhost w l then
      shearedSlab o.nGhost w (D.coords g1 g2 sp.q1Start sp.q2Start dq1 dq2 r).2.2.2 (x w hs ⟨l, h⟩) f s p l else f s p l else f s p l⟩, ?_, ?_, ?_, ?_⟩
  · intro w hs
    refine ⟨x w hs, hx w hs, fun f s p l => ?_⟩
    dsimp only
    rw [dif_pos hs, dif_pos l.2]
    rfl
  · refine ⟨rfl, rfl, rfl, rfl, rfl, rfl, rfl, rfl, rfl, fun ⟨w, h⟩ => absurd h (noInflow w), fun ⟨w, h⟩ => absurd h (noInflow w), fun w a h => absurd h (noInflow w), ?_⟩
    intro w a hs ha
    obtain ⟨c, hc, hcode⟩ := hb w hs a ha
    obtain ⟨fc, ec⟩ := (hf w hs a ha).2 c hcode
    refine ⟨c, hc, fc, funext fun s => funext fun p => funext fun l => ?_⟩
    exact (ec s p l).trans (Eq.symm (dif_pos (c := o.name w = "shearing-box") hs))
  · exact fun w _ _ _ => ⟨by change 0 < o.nGhost; omega, wd w⟩
  · exact fun w _ h => absurd h (noInflow w)

theorem exact_comparisons (K : Type) [Field K] [LinearOrder K] [IsStrictOrderedRing K] : @ExactComparisons K _ _ (exactMachine K) := by
  let M : Machine K := exactMachine K
  refine ⟨fun a b => rfl, ?_⟩
  change ((0 : ℚ) : K) = 0
  exact Rat.cast_zero

/-- The ghost widths of a box whose walls are all shearing or periodic. -/
theorem shear_widths (o : BCOptions) (hw : ∀ w, o.name w = "shearing-box" ∨ o.name w = "periodic") {bc1 bc2 : PetscBC}
    (hs : setupBCs o.nGhost o.name = .ok ((bc1, g1), (bc2, g2))) : g1 = o.nGhost ∧ g2 = o.nGhost := by
  have hax : petscAxis o.nGhost (o.name .left) = (bc1, g1) ∧ petscAxis o.nGhost (o.name .bottom) = (bc2, g2) := by
    unfold setupBCs at hs
    split_ifs at hs
    simp only [Except.ok.injEq, Prod.mk.injEq] at hs
    exact ⟨by rw [hs.1], by rw [hs.2]⟩
  obtain ⟨h1, h2⟩ := hax
  rcases hw .left with k | k <;> rcases hw .bottom with k' | k' <;> rw [k] at h1 <;> rw [k'] at h2 <;>
    simp only [petscAxis, Prod.mk.injEq, if_true, or_true, true_or, String.reduceEq, if_false] at h1 h2 <;> exact ⟨h1.2.symm, h2.2.symm⟩

theorem along2_walls {o : BCOptions} (ho : ShearsAlong2 o.name) : ∀ w, o.name w = "shearing-box" ∨ o.name w = "periodic" := fun w => by
  cases w
  · exact .inl ho.left
  · exact .inl ho.right
  · exact .inr ho.bottom
  · exact .inr ho.top

theorem along1_walls {o : BCOptions} (ho : ShearsAlong1 o.name) : ∀ w, o.name w = "shearing-box" ∨ o.name w = "periodic" := fun w => by
  cases w
  · exact .inr ho.left
  · exact .inr ho.right
  · exact .inl ho.bottom
  · exact .inl ho.top

theorem along2_extent {o : BCOptions} (ho : ShearsAlong2 o.name) {sp : ShearParams K} {dq2 : K} (hd2 : 0 < dq2) (hext : sp.q2End = sp.q2Start + N2 * dq2) (t : K) :
    ∀ w, o.name w = "shearing-box" → alongLo { sp with time := t } w < alongHi { sp with time := t } w := by
  have h : sp.q2Start < sp.q2End := by
    have : (0 : K) < N2 := Nat.cast_pos.2 (NeZero.pos N2)
    rw [hext]; have := mul_pos this hd2; linarith
  intro w hs
  cases w
  · exact h
  · exact h
  · rw [ho.bottom] at hs; exact absurd hs (by decide)
  · rw [ho.top] at hs; exact absurd hs (by decide)

theorem along1_extent {o : BCOptions} (ho : ShearsAlong1 o.name) {sp : ShearParams K} {dq1 : K} (hd1 : 0 < dq1) (hext : sp.q1End = sp.q1Start + N1 * dq1) (t : K) :
    ∀ w, o.name w = "shearing-box" → alongLo { sp with time := t } w < alongHi { sp with time := t } w := by
  have h : sp.q1Start < sp.q1End := by
    have : (0 : K) < N1 := Nat.cast_pos.2 (NeZero.pos N1)
    rw [hext]; have := mul_pos this hd1; linarith
  intro w hs
  cases w
  · rw [ho.left] at hs; exact absurd hs (by decide)
  · rw [ho.right] at hs; exact absurd hs (by decide)
  · exact h
  · exact h

/-- C121 (ghost cells): on blocks of memory, after communication and the boundary routines, a process that owns the whole extent along the walls holds the box continued by
copies of itself that have slid along the walls by `q omega L t`.  Walls at the ends of the first axis. -/
theorem C121_ghost_cells (sp : ShearParams K) (o : BCOptions) (ho : ShearsAlong2 o.name) (hg : 2 ≤ o.nGhost) (dq1 dq2 : K) (hd1 : dq1 ≠ 0) (hd2 : 0 < dq2)
    (hext : sp.q2End = sp.q2Start + N2 * dq2) (hn : ∀ r, g1 ≤ D.n1 r) (r : R) (hr : D.n2 r = N2) (hz : D.SizesOk (D.sizes Np1 Np2 Np3 Ns g1 g2) g1 g2)
    (q1 q2 : R → AfArray K) (hq : D.CentresHeld g1 g2 Np1 Np2 Np3 Ns sp dq1 dq2 q1 q2) (x : R → ArrBCData K)
    (hx : ∀ r, ShearsByCode (D.sizes Np1 Np2 Np3 Ns g1 g2 r) sp o.nGhost o.name (q1 r) (q2 r) (x r).sheared) (F F0 : R → AfArray K)
    (hF : D.Shaped g1 g2 (Np1 * Np2 * Np3) Ns F) (f : Dist (Fin Ns) (AslPIdx Np1 Np2 Np3) (ZMod N1 × ZMod N2) K) (hf : D.Holds g1 g2 (D.cellsOf g1 g2 Np1 Np2 Np3 Ns F) f)
    (h : @ArrSynced K (exactMachine K) _ _ _ D g1 g2 Np1 Np2 Np3 Ns o x F F0) (s : Fin Ns) (p : AslPIdx Np1 Np2 Np3) (l : D.Loc g1 g2 r) :
    D.cellsOf g1 g2 Np1 Np2 Np3 Ns F0 r s p l = shearExt1 (sp.q * sp.omega * (sp.q1End - sp.q1Start) * sp.time / dq2) f s p (D.signed g1 g2 r l) := by
  let M : Machine K := exactMachine K
  obtain ⟨bc1, bc2, st, G, hs, hrest⟩ := id h
  obtain ⟨w1, w2⟩ := shear_widths g1 g2 o (along2_walls ho) hs
  choose dat d1 d2 d3 d4 using fun r => D.shear_data g1 g2 Np1 Np2 Np3 Ns M o (along2_walls ho) hg w1 w2 sp dq1 dq2 (along2_extent ho hd2 hext sp.time) q1 q2 hq r (x r) (hx r)
  have hK : ExactComparisons K := exact_comparisons K
  obtain ⟨-, hsync⟩ := arrSynced_cells hK hz d2 d3 d4 hF h
  exact D.C106_ghost_cells g1 g2 sp o ho hg dq1 dq2 hd1 hd2 hext hn r hr dat (d1 r) _ _ f hf hsync s p l

/-- C121 (ghost cells, other axis). -/
theorem C121_ghost_cells_q2 (sp : ShearParams K) (o : BCOptions) (ho : ShearsAlong1 o.name) (hg : 2 ≤ o.nGhost) (dq1 dq2 : K) (hd1 : 0 < dq1) (hd2 : dq2 ≠ 0)
    (hext : sp.q1End = sp.q1Start + N1 * dq1) (hn : ∀ r, g2 ≤ D.n2 r) (r : R) (hr : D.n1 r = N1) (hz : D.SizesOk (D.sizes Np1 Np2 Np3 Ns g1 g2) g1 g2)
    (q1 q2 : R → AfArray K) (hq : D.CentresHeld g1 g2 Np1 Np2 Np3 Ns sp dq1 dq2 q1 q2) (x : R → ArrBCData K)
    (hx : ∀ r, ShearsByCode (D.sizes Np1 Np2 Np3 Ns g1 g2 r) sp o.nGhost o.name (q1 r) (q2 r) (x r).sheared) (F F0 : R → AfArray K)
    (hF : D.Shaped g1 g2 (Np1 * Np2 * Np3) Ns F) (f : Dist (Fin Ns) (AslPIdx Np1 Np2 Np3) (ZMod N1 × ZMod N2) K) (hf : D.Holds g1 g2 (D.cellsOf g1 g2 Np1 Np2 Np3 Ns F) f)
    (h : @ArrSynced K (exactMachine K) _ _ _ D g1 g2 Np1 Np2 Np3 Ns o x F F0) (s : Fin Ns) (p : AslPIdx Np1 Np2 Np3) (l : D.Loc g1 g2 r) :
    D.cellsOf g1 g2 Np1 Np2 Np3 Ns F0 r s p l = shearExt2 (sp.q * sp.omega * (sp.q2End - sp.q2Start) * sp.time / dq1) f s p (D.signed g1 g2 r l) := by
  let M : Machine K := exactMachine K
  obtain ⟨bc1, bc2, st, G, hs, hrest⟩ := id h
  obtain ⟨w1, w2⟩ := shear_widths g1 g2 o (along1_walls ho) hs
  choose dat d1 d2 d3 d4 using fun r => D.shear_data g1 g2 Np1 Np2 Np3 Ns M o (along1_walls ho) hg w1 w2 sp dq1 dq2 (along1_extent ho hd1 hext sp.time) q1 q2 hq r (x r) (hx r)
  have hK : ExactComparisons K := exact_comparisons K
  obtain ⟨-, hsync⟩ := arrSynced_cells hK hz d2 d3 d4 hF h
  exact D.C106_ghost_cells_q2 g1 g2 sp o ho hg dq1 dq2 hd1 hd2 hext hn r hr dat (d1 r) _ _ f hf hsync s p l

theorem shear_steps (M : Machine K) (sp : ShearParams K) (o : BCOptions) (hw : ∀ w, o.name w = "shearing-box" ∨ o.name w = "periodic") (h2 : 2 ≤ o.nGhost)
    (e1 : g1 = o.nGhost) (e2 : g2 = o.nGhost) (dq1 dq2 : K)
    (hL : ∀ t w, o.name w = "shearing-box" → alongLo { sp with time := t } w < alongHi { sp with time := t } w) (cfg : FVMConfig (Fin Ns) K)
    (q1 q2 : R → AfArray K) (hq : D.CentresHeld g1 g2 Np1 Np2 Np3 Ns sp dq1 dq2 q1 q2) (steps : ShearSteps K D g1 g2 Np1 Np2 Np3 Ns)
    (hin : ∀ st ∈ steps, D.InputsHold g1 g2 Np1 Np2 Np3 Ns cfg st.2.1.2 st.2.2.1) (t : K)
    (hb : D.ClockedShearArr g1 g2 Np1 Np2 Np3 Ns sp o q1 q2 t (steps.map fun st => (st.1, st.2.1.1))) :
    ∃ full : List ((K × ((Fin 2 → R → ArrBCData K) × (Fin 2 → R → AfArray K → ArrIn K)) × (Fin 2 → ∀ r, Callbacks (Fin Ns) (AslPIdx Np1 Np2 Np3) (D.Loc g1 g2 r) K) ×
        (Fin 2 → Callbacks (Fin Ns) (AslPIdx Np1 Np2 Np3) (ℤ × ℤ) K)) × (Fin 2 → ∀ r, D.LocBCData g1 g2 r (Fin Ns) Np1 Np2 Np3 K)),
      full.map Prod.fst = steps ∧ (∀ st ∈ full, D.BcInputsHold g1 g2 Np1 Np2 Np3 Ns o cfg st.1.2.1.1 st.1.2.1.2 st.2 st.1.2.2.1) ∧
      D.ClockedShear g1 g2 sp o dq1 dq2 t (full.map fun st => (st.1.1, st.2, st.1.2.2.1)) := by
  induction steps generalizing t with
  | nil => exact ⟨[], rfl, by simp, trivial⟩
  | cons st rest ih =>
    simp only [List.map_cons, ClockedShearArr] at hb
    obtain ⟨full, f1, f2, f3⟩ := ih (fun st hst => hin st (by simp [hst])) (t + st.1) hb.2
    choose dat d1 d2 d3 d4 using fun k r => D.shear_data g1 g2 Np1 Np2 Np3 Ns M o hw h2 e1 e2 { sp with time := t } dq1 dq2 (hL t) q1 q2 hq r (st.2.1.1 k r) (hb.1 k r)
    refine ⟨(st, dat) :: full, by simp [f1], ?_, d1, f3⟩
    intro x hx
    rcases List.mem_cons.mp hx with rfl | hx
    · exact ⟨hin st (by simp), d2, d3, d4⟩
    · exact f2 x hx

/-- C121 (runs): a run of the array program in a box that shears along the second axis, divided among any number of processes along the first axis only (every process with at
least as many cells as ghost cells, ghost zones that cover the stencil), computes exactly the undivided run in the sheared continuation of the box.  Exact arithmetic. -/
theorem C121_runs (sp : ShearParams K) (o : BCOptions) (ho : ShearsAlong2 o.name) (hg2 : 2 ≤ o.nGhost) {bc1 bc2 : PetscBC}
    (hs : setupBCs o.nGhost o.name = .ok ((bc1, g1), (bc2, g2))) (dq1 dq2 : K) (hd1 : dq1 ≠ 0)
    (hd2 : 0 < dq2) (hext : sp.q2End = sp.q2Start + N2 * dq2) (hn : ∀ r, g1 ≤ D.n1 r) (hr : ∀ r, D.n2 r = N2) (hz : D.SizesOk (D.sizes Np1 Np2 Np3 Ns g1 g2) g1 g2)
    (cfg : FVMConfig (Fin Ns) K) (hon : cfg.solverMethodInQ = "FVM" ∨ (cfg.solverMethodInP = "FVM" ∧ cfg.fieldsEnabled = true))
    (hg : ∀ m, reconMethod cfg.reconstructionInQ = .ok m → m.radius ≤ g1 ∧ m.radius ≤ g2) (q1 q2 : R → AfArray K)
    (hq : D.CentresHeld g1 g2 Np1 Np2 Np3 Ns sp dq1 dq2 q1 q2) (steps : ShearSteps K D g1 g2 Np1 Np2 Np3 Ns)
    (hin : ∀ st ∈ steps, D.InputsHold g1 g2 Np1 Np2 Np3 Ns cfg st.2.1.2 st.2.2.1)
    (hcb : ∀ st ∈ steps, ∀ j r, D.CallbacksAgreeBox g1 g2 r (st.2.2.1 j r) (st.2.2.2 j)) (t : K)
    (hb : D.ClockedShearArr g1 g2 Np1 Np2 Np3 Ns sp o q1 q2 t (steps.map fun st => (st.1, st.2.1.1))) (F F' : R → AfArray K)
    (hF : D.Shaped g1 g2 (Np1 * Np2 * Np3) Ns F) (f f' : Dist (Fin Ns) (AslPIdx Np1 Np2 Np3) (ZMod N1 × ZMod N2) K)
    (hf : D.Holds g1 g2 (D.cellsOf g1 g2 Np1 Np2 Np3 Ns F) f)
    (h : @ArrBcRun (Fin Ns) K (exactMachine K) _ _ _ D g1 g2 Np1 Np2 Np3 Ns o cfg (steps.map fun st => (st.1, st.2.1)) F F')
    (h' : clockedRun (fun t => shearExt1 (sp.q * sp.omega * (sp.q1End - sp.q1Start) * t / dq2)) ((1, 0, 0), (0, 1, 0), (0, 0, 1)) cfg t
      (steps.map fun st => (st.1, st.2.2.2)) f = .ok f') : D.Holds g1 g2 (D.cellsOf g1 g2 Np1 Np2 Np3 Ns F') f' := by
  let M : Machine K := exactMachine K
  obtain ⟨w1, w2⟩ := shear_widths g1 g2 o (along2_walls ho) hs
  obtain ⟨full, rfl, f2, f3⟩ := D.shear_steps g1 g2 Np1 Np2 Np3 Ns M sp o (along2_walls ho) hg2 w1 w2 dq1 dq2 (along2_extent ho hd2 hext) cfg q1 q2 hq steps hin t hb
  have hrun := (C117_run (exact_comparisons K) (fun u => by change ((1 : ℚ) : K) * u = u; simp) hz o cfg hon (full.map fun st => (st.1.1, st.1.2.1, st.2, st.1.2.2.1))
    (fun st hst => by obtain ⟨a, ha, rfl⟩ := List.mem_map.mp hst; exact f2 a ha) F F' hF (by simpa [Function.comp_def] using h)).2
  have hrun' := (C117_exact D g1 g2 o _ cfg _ _ _).2.mp hrun
  refine D.C106_runs g1 g2 sp o ho hg2 dq1 dq2 hd1 hd2 hext hn hr ((1, 0, 0), (0, 1, 0), (0, 0, 1)) cfg hg (full.map fun st => (st.1.1, st.2, st.1.2.2.1, st.1.2.2.2)) ?_ t ?_ _ _ f f' hf ?_ ?_
  · intro st hst
    obtain ⟨a, ha, rfl⟩ := List.mem_map.mp hst
    exact hcb a.1 (List.mem_map_of_mem ha)
  · simpa [Function.comp_def] using f3
  · simpa [Function.comp_def] using hrun'
  · simpa [Function.comp_def] using h'

/-- C121 (runs, other axis). -/
theorem C121_runs_q2 (sp : ShearParams K) (o : BCOptions) (ho : ShearsAlong1 o.name) (hg2 : 2 ≤ o.nGhost) {bc1 bc2 : PetscBC}
    (hs : setupBCs o.nGhost o.name = .ok ((bc1, g1), (bc2, g2))) (dq1 dq2 : K) (hd1 : 0 < dq1)
    (hd2 : dq2 ≠ 0) (hext : sp.q1End = sp.q1Start + N1 * dq1) (hn : ∀ r, g2 ≤ D.n2 r) (hr : ∀ r, D.n1 r = N1) (hz : D.SizesOk (D.sizes Np1 Np2 Np3 Ns g1 g2) g1 g2)
    (cfg : FVMConfig (Fin Ns) K) (hon : cfg.solverMethodInQ = "FVM" ∨ (cfg.solverMethodInP = "FVM" ∧ cfg.fieldsEnabled = true))
    (hg : ∀ m, reconMethod cfg.reconstructionInQ = .ok m → m.radius ≤ g1 ∧ m.radius ≤ g2) (q1 q2 : R → AfArray K)
    (hq : D.CentresHeld g1 g2 Np1 Np2 Np3 Ns sp dq1 dq2 q1 q2) (steps : ShearSteps K D g1 g2 Np1 Np2 Np3 Ns)
    (hin : ∀ st ∈ steps, D.InputsHold g1 g2 Np1 Np2 Np3 Ns cfg st.2.1.2 st.2.2.1)
    (hcb : ∀ st ∈ steps, ∀ j r, D.CallbacksAgreeBox g1 g2 r (st.2.2.1 j r) (st.2.2.2 j)) (t : K)
    (hb : D.ClockedShearArr g1 g2 Np1 Np2 Np3 Ns sp o q1 q2 t (steps.map fun st => (st.1, st.2.1.1))) (F F' : R → AfArray K)
    (hF : D.Shaped g1 g2 (Np1 * Np2 * Np3) Ns F) (f f' : Dist (Fin Ns) (AslPIdx Np1 Np2 Np3) (ZMod N1 × ZMod N2) K)
    (hf : D.Holds g1 g2 (D.cellsOf g1 g2 Np1 Np2 Np3 Ns F) f)
    (h : @ArrBcRun (Fin Ns) K (exactMachine K) _ _ _ D g1 g2 Np1 Np2 Np3 Ns o cfg (steps.map fun st => (st.1, st.2.1)) F F')
    (h' : clockedRun (fun t => shearExt2 (sp.q * sp.omega * (sp.q2End - sp.q2Start) * t / dq1)) ((1, 0, 0), (0, 1, 0), (0, 0, 1)) cfg t
      (steps.map fun st => (st.1, st.2.2.2)) f = .ok f') : D.Holds g1 g2 (D.cellsOf g1 g2 Np1 Np2 Np3 Ns F') f' := by
  let M : Machine K := exactMachine K
  obtain ⟨w1, w2⟩ := shear_widths g1 g2 o (along1_walls ho) hs
  obtain ⟨full, rfl, f2, f3⟩ := D.shear_steps g1 g2 Np1 Np2 Np3 Ns M sp o (along1_walls ho) hg2 w1 w2 dq1 dq2 (along1_extent ho hd1 hext) cfg q1 q2 hq steps hin t hb
  have hrun := (C117_run (exact_comparisons K) (fun u => by change ((1 : ℚ) : K) * u = u; simp) hz o cfg hon (full.map fun st => (st.1.1, st.1.2.1, st.2, st.1.2.2.1))
    (fun st hst => by obtain ⟨a, ha, rfl⟩ := List.mem_map.mp hst; exact f2 a ha) F F' hF (by simpa [Function.comp_def] using h)).2
  have hrun' := (C117_exact D g1 g2 o _ cfg _ _ _).2.mp hrun
  refine D.C106_runs_q2 g1 g2 sp o ho hg2 dq1 dq2 hd1 hd2 hext hn hr ((1, 0, 0), (0, 1, 0), (0, 0, 1)) cfg hg (full.map fun st => (st.1.1, st.2, st.1.2.2.1, st.1.2.2.2)) ?_ t ?_ _ _ f f' hf ?_ ?_
  · intro st hst
    obtain ⟨a, ha, rfl⟩ := List.mem_map.mp hst
    exact hcb a.1 (List.mem_map_of_mem ha)
  · simpa [Function.comp_def] using f3
  · simpa [Function.comp_def] using hrun'
  · simpa [Function.comp_def] using h'

end Decomp

end Bolt
