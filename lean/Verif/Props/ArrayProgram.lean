import Verif.Proofs.ArrayProgram
import Verif.Props.Layout
import Verif.Props.MachineArith

/-!
# C113: the array program computes the cell formulas
-/

set_option linter.unusedSectionVars false

namespace Bolt

open Machine PyExpr

section slope
variable {K : Type} {z : GridSizes} [NeZero z.Np1] [NeZero z.Np2] [NeZero z.Np3] [NeZero z.M1] [NeZero z.M2] [NeZero z.Ns] [Machine K]

/-- C113: in any arithmetic with `1 * x = x`, on every grid: if the arrays handed to `df_dt_fvm` hold what the callbacks prescribe and `f` has the solver's shape,
the array program — shifts of whole arrays, changes between the two layouts, tiling, batched products — raises exactly when the cell formulas of the other
properties do, and otherwise returns an array of the same shape whose element for every species, momentum cell and position cell is what the cell formulas
give. -/
theorem C113_slope (hone : ∀ u : K, lit 1 ⊠ u = u) (cfg : FVMConfig (Fin z.Ns) K) (x : ArrIn K) (cb : Callbacks (Fin z.Ns) z.P z.Q K)
    (m : PyExpr K) (f : Dist (Fin z.Ns) z.P z.Q K) (hf : HoldsDist m f) (hin : InputsHold cfg x cb f)
    (hon : cfg.solverMethodInQ = "FVM" ∨ (cfg.solverMethodInP = "FVM" ∧ cfg.fieldsEnabled = true)) :
    (∀ k, Mach.dfdtFVM z.axes cfg cb f = .ok k → HoldsDist (arrDfdt z cfg x m) k) ∧
    (∀ er, Mach.dfdtFVM z.axes cfg cb f = .error er → arrDfdt z cfg x m = .error er) :=
  ⟨fun k hk => arrDfdt_ok hone cfg x cb m f k hf hin hon hk, fun er hk => arrDfdt_error hone cfg x cb m f er hf hin hk⟩

/-- C113 (exact arithmetic): the array program returns the values of the exact model. -/
theorem C113_slope_exact {K : Type} [Field K] [LinearOrder K] [IsStrictOrderedRing K] (cfg : FVMConfig (Fin z.Ns) K) (x : ArrIn K)
    (cb : Callbacks (Fin z.Ns) z.P z.Q K) (m : PyExpr K) (f k : Dist (Fin z.Ns) z.P z.Q K) (hf : HoldsDist m f) (hin : InputsHold cfg x cb f)
    (hon : cfg.solverMethodInQ = "FVM" ∨ (cfg.solverMethodInP = "FVM" ∧ cfg.fieldsEnabled = true)) (hk : dfdtFVM z.axes cfg cb f = .ok k) :
    HoldsDist (@arrDfdt _ _ (exactMachine K) z cfg x m) k := by
  letI M : Machine K := exactMachine K
  refine arrDfdt_ok (fun u => ?_) cfg x cb m f k hf hin hon ?_
  · change ((1 : ℚ) : K) * u = u
    simp
  · rw [mach_exact_dfdtFVM rfl]; exact hk

/-! ### moments, charge density and currents -/

/-- C113 (moments): `compute_moments('density')` and the bulk velocities return, for every species and cell, the sum over momentum cells of the stored values
(times the coordinate of the momentum cell) times the cell size of *that* species. -/
theorem C113_moments (red : List K → K) (cfg : FVMConfig (Fin z.Ns) K) (x : ArrIn K) (m v : PyExpr K) (f : Dist (Fin z.Ns) z.P z.Q K)
    (p : Fin z.Ns → z.P → K) (hf : HoldsDist m f) (hv : (momentumOnly z).Holds v fun y => p y.1 y.2.1)
    (h1 : (speciesOnly z).Holds x.dp1 fun y => cfg.dp1 y.1) (h2 : (speciesOnly z).Holds x.dp2 fun y => cfg.dp2 y.1)
    (h3 : (speciesOnly z).Holds x.dp3 fun y => cfg.dp3 y.1) :
    (momentLay z).Holds (arrDensity red x.dp1 x.dp2 x.dp3 m)
      (fun y => (z.sums red).overP (fun v => f y.1 v y.2) ⊠ (cfg.dp3 y.1 ⊠ cfg.dp2 y.1 ⊠ cfg.dp1 y.1)) ∧
    (momentLay z).Holds (arrMomV red x.dp1 x.dp2 x.dp3 v m)
      (fun y => (z.sums red).overP (fun v => f y.1 v y.2 ⊠ p y.1 v) ⊠ (cfg.dp3 y.1 ⊠ cfg.dp2 y.1 ⊠ cfg.dp1 y.1)) :=
  ⟨arrIntegral_holds red hf (measure_holds h1 h2 h3), arrMomV_holds red hf hv h1 h2 h3⟩

/-- C113 (currents): the three current arrays handed to the field solver hold what the coupled model uses: charge of the species times its moment of the upwinded
face values, summed over species. -/
theorem C113_currents (hone : ∀ u : K, lit 1 ⊠ u = u) (red : List K → K) (c : CoupledConfig (Fin z.Ns) z.P z.Q K) (hax : c.ax = z.axes) (x : ArrIn K)
    (cb : Callbacks (Fin z.Ns) z.P z.Q K) (method : Recon) (hm : reconMethod c.reconstructionInQ = .ok method) (m charge v1 v2 v3 : PyExpr K)
    (f : Dist (Fin z.Ns) z.P z.Q K) (hf : HoldsDist m f) (hc : (speciesOnly z).Holds charge fun y => c.charge y.1)
    (hq1 : HoldsDist x.Cq1 cb.Cq1 ∨ (momentumOnly z).Holds x.Cq1 fun y => cb.Cq1 y.1 y.2.1 y.2.2)
    (hq2 : HoldsDist x.Cq2 cb.Cq2 ∨ (momentumOnly z).Holds x.Cq2 fun y => cb.Cq2 y.1 y.2.1 y.2.2)
    (hv1 : (momentumOnly z).Holds v1 fun y => c.coords.p1 y.1 y.2.1) (hv2 : (momentumOnly z).Holds v2 fun y => c.coords.p2 y.1 y.2.1)
    (hv3 : (momentumOnly z).Holds v3 fun y => c.coords.p3 y.1 y.2.1)
    (h1 : (speciesOnly z).Holds x.dp1 fun y => c.dp1 y.1) (h2 : (speciesOnly z).Holds x.dp2 fun y => c.dp2 y.1)
    (h3 : (speciesOnly z).Holds x.dp3 fun y => c.dp3 y.1) :
    let J := Mach.kineticCurrents (z.sums red) c method cb.Cq1 cb.Cq2 f
    (fieldLay z).Holds (arrOfSpecies red charge (arrMomV red x.dp1 x.dp2 x.dp3 v1 (arrLeftState c.reconstructionInQ 2 x.Cq1 m))) J.J1 ∧
    (fieldLay z).Holds (arrOfSpecies red charge (arrMomV red x.dp1 x.dp2 x.dp3 v2 (arrLeftState c.reconstructionInQ 3 x.Cq2 m))) J.J2 ∧
    (fieldLay z).Holds (arrOfSpecies red charge (arrMomV red x.dp1 x.dp2 x.dp3 v3 m)) J.J3 := by
  have hl1 : HoldsDist (arrLeftState c.reconstructionInQ 2 x.Cq1 m) fun s p => Mach.leftState method c.ax.q1 (cb.Cq1 s p) (f s p) := by
    rw [hax]
    rcases hq1 with h | h
    · exact arrLeftState_holds (moves_q1 z) (e := ((1, 0) : z.Q)) (pos := fun y => y.2.2) ⟨fun _ _ => rfl⟩ (fib := fun y => f y.1 y.2.1)
        (Cfib := fun y => cb.Cq1 y.1 y.2.1) (fun _ _ => rfl) (.refl (qExpanded_ok z)) hm hf h
    · exact arrLeftState_holds (moves_q1 z) (e := ((1, 0) : z.Q)) (pos := fun y => y.2.2) ⟨fun _ _ => rfl⟩ (fib := fun y => f y.1 y.2.1)
        (Cfib := fun y => cb.Cq1 y.1 y.2.1) (fun _ _ => rfl) (momentumOnly_vel z) hm hf h
  have hl2 : HoldsDist (arrLeftState c.reconstructionInQ 3 x.Cq2 m) fun s p => Mach.leftState method c.ax.q2 (cb.Cq2 s p) (f s p) := by
    rw [hax]
    rcases hq2 with h | h
    · exact arrLeftState_holds (moves_q2 z) (e := ((0, 1) : z.Q)) (pos := fun y => y.2.2) ⟨fun _ _ => rfl⟩ (fib := fun y => f y.1 y.2.1)
        (Cfib := fun y => cb.Cq2 y.1 y.2.1) (fun _ _ => rfl) (.refl (qExpanded_ok z)) hm hf h
    · exact arrLeftState_holds (moves_q2 z) (e := ((0, 1) : z.Q)) (pos := fun y => y.2.2) ⟨fun _ _ => rfl⟩ (fib := fun y => f y.1 y.2.1)
        (Cfib := fun y => cb.Cq2 y.1 y.2.1) (fun _ _ => rfl) (momentumOnly_vel z) hm hf h
  exact ⟨arrOfSpecies_holds hone red hc (arrMomV_holds red hl1 hv1 h1 h2 h3), arrOfSpecies_holds hone red hc (arrMomV_holds red hl2 hv2 h1 h2 h3),
    arrOfSpecies_holds hone red hc (arrMomV_holds red hf hv3 h1 h2 h3)⟩

/-- C113 (forces): charges and masses per species, velocities on momentum cells and fields on position cells combine to a force array of the full shape; each
element uses the charge and mass of its species, the velocity of its momentum cell and the fields of its position cell. So these forces may be used as momentum
velocities in `C113_slope`. -/
theorem C113_force (xe xm xE xva xBb xvb xBa : PyExpr K) (e m : Fin z.Ns → K) (va vb : Fin z.Ns → z.P → K) (E Bb Ba : z.Q → K)
    (he : (speciesOnly z).Holds xe fun y => e y.1) (hm : (speciesOnly z).Holds xm fun y => m y.1)
    (hE : (positionOnly z).Holds xE fun y => E y.2.2) (hva : (momentumOnly z).Holds xva fun y => va y.1 y.2.1)
    (hBb : (positionOnly z).Holds xBb fun y => Bb y.2.2) (hvb : (momentumOnly z).Holds xvb fun y => vb y.1 y.2.1)
    (hBa : (positionOnly z).Holds xBa fun y => Ba y.2.2) :
    HoldsDist (arrForce xe xm xE xva xBb xvb xBa) fun s p q => (e s ⊘ m s) ⊠ ((E q ⊞ va s p ⊠ Bb q) ⊟ vb s p ⊠ Ba q) :=
  arrForce_holds he hm hE hva hBb hvb hBa

/-! ### shapes that do not fit -/

/-- C113 (negative): an advection velocity in momentum given on the momentum cells only — as a formula of the momentum coordinates alone gives it — makes the
slope evaluation raise as soon as the process holds more than one position cell, whichever component it is (velocities in position may be given that way). -/
theorem C113_momentum_velocity_needs_full_shape (cfg : FVMConfig (Fin z.Ns) K) (x : ArrIn K) (cb : Callbacks (Fin z.Ns) z.P z.Q K)
    (m : PyExpr K) (f : Dist (Fin z.Ns) z.P z.Q K) (hone : ∀ u : K, lit 1 ⊠ u = u)
    (hf : HoldsDist m f) (hin : InputsHold cfg x cb f) (hp : cfg.solverMethodInP = "FVM" ∧ cfg.fieldsEnabled = true)
    (hmq : ∃ mq, reconMethod cfg.reconstructionInQ = .ok mq) (hmp : ∃ mp, reconMethod cfg.reconstructionInP = .ok mp)
    (c : PyExpr K) (C : z.Cell → K) (hc : (momentumOnly z).Holds c C) (hcells : 1 < z.M1 * z.M2) :
    arrDfdt z cfg { x with Cp1 := c } m = .error .exception ∧ arrDfdt z cfg { x with Cp2 := c } m = .error .exception ∧
      arrDfdt z cfg { x with Cp3 := c } m = .error .exception := by
  obtain ⟨mp, hmp⟩ := hmp
  obtain ⟨c1, c2, -, d1, d2, -⟩ := hin.p hp
  obtain ⟨v, hv⟩ := arrDfdtQ_isOk hone cfg x cb m f hf hin hmq
  have hv' : ∀ y : PyExpr K, arrDfdtQ cfg { x with Cp1 := y } m = .ok v ∧ arrDfdtQ cfg { x with Cp2 := y } m = .ok v ∧
      arrDfdtQ cfg { x with Cp3 := y } m = .ok v := fun y => ⟨hv, hv, hv⟩
  have e := toP_small hc hcells
  obtain ⟨a1, ha1, -⟩ := arrP_holds hone hmp (moves_p1 z) c1 hf d1
  obtain ⟨a2, ha2, -⟩ := (arrP_holds hone hmp (moves_p1 z) c1 hf d1).bin add (arrP_holds hone hmp (moves_p2 z) c2 hf d2)
  refine ⟨?_, ?_, ?_⟩
  · unfold arrDfdt
    dsimp only
    rw [if_pos hp, (hv' c).1, e]
    rfl
  · unfold arrDfdt
    dsimp only
    rw [if_pos hp, (hv' c).2.1, e]
    change bin false add (.ok v) (PyExpr.un neg (bin false add (bin false add _ _) _)) = _
    rw [show multiply [toQ z ((arrLeftFlux cfg.reconstructionInP 0 (toP z x.Cp1) (toP z m)).shift (-1) 0 0 0) -
        toQ z (arrLeftFlux cfg.reconstructionInP 0 (toP z x.Cp1) (toP z m)), const 1 / x.dp1] = _ from ha1]
    rfl
  · unfold arrDfdt
    dsimp only
    rw [if_pos hp, (hv' c).2.2, e]
    change bin false add (.ok v) (PyExpr.un neg (bin false add _ _)) = _
    rw [show multiply [toQ z ((arrLeftFlux cfg.reconstructionInP 0 (toP z x.Cp1) (toP z m)).shift (-1) 0 0 0) -
        toQ z (arrLeftFlux cfg.reconstructionInP 0 (toP z x.Cp1) (toP z m)), const 1 / x.dp1] +
        multiply [toQ z ((arrLeftFlux cfg.reconstructionInP 1 (toP z x.Cp2) (toP z m)).shift 0 (-1) 0 0) -
        toQ z (arrLeftFlux cfg.reconstructionInP 1 (toP z x.Cp2) (toP z m)), const 1 / x.dp2] = _ from ha2]
    rfl

end slope

/-! ## steps and runs on any number of processes -/

section runs
variable {K : Type} [Machine K] {N1 N2 : ℕ} [NeZero N1] [NeZero N2] {R : Type} (D : Decomp N1 N2 R) (g1 g2 Np1 Np2 Np3 Ns : ℕ)
  [NeZero Np1] [NeZero Np2] [NeZero Np3] [NeZero Ns]

variable {D g1 g2 Np1 Np2 Np3 Ns}

theorem holdsDist_cells {z : GridSizes} {a : AfArray K} (h : z.Fits a) : HoldsDist (z := z) (.ok (.arr a)) (z.cells a) :=
  ⟨a, rfl, h.1, h.2.1, h.2.2.1, h.2.2.2, fun _ => rfl⟩

theorem HoldsDist.eq_cells {z : GridSizes} {a : AfArray K} {f : Dist (Fin z.Ns) z.P z.Q K} (h : HoldsDist (z := z) (.ok (.arr a)) f) :
    z.Fits a ∧ f = z.cells a := by
  obtain ⟨b, hb, h0, h1, h2, h3, hg⟩ := h
  have : a = b := by injection hb with hb; injection hb
  subst this
  exact ⟨⟨h0, h1, h2, h3⟩, funext fun s => funext fun p => funext fun q => (hg (s, p, q)).symm⟩

theorem communicates_cells {st : R → Vec K} {F F' : R → AfArray K} (hz : D.SizesOk (D.sizes Np1 Np2 Np3 Ns g1 g2) g1 g2)
    (hF : D.Shaped g1 g2 (Np1 * Np2 * Np3) Ns F)
    (h : D.Communicates (D.sizes Np1 Np2 Np3 Ns g1 g2) g1 g2 .periodic .periodic (Np1 * Np2 * Np3) Ns st F F') :
    D.Shaped g1 g2 (Np1 * Np2 * Np3) Ns F' ∧ ∀ st', D.cellsOf g1 g2 Np1 Np2 Np3 Ns F' =
      D.exchange g1 g2 .periodic .periodic st' (D.cellsOf g1 g2 Np1 Np2 Np3 Ns F) := by
  obtain ⟨hs, hg⟩ := D.C25_blocks_refine_exchange _ g1 g2 .periodic .periodic _ _ st F F' hz hF h
  refine ⟨hs, fun st' => funext fun r => funext fun s => funext fun p => funext fun l => ?_⟩
  have hrow : (D.sizes Np1 Np2 Np3 Ns g1 g2 r).row p < Np1 * Np2 * Np3 := by
    have : NeZero (D.sizes Np1 Np2 Np3 Ns g1 g2 r).Np1 := ‹NeZero Np1›
    have : NeZero (D.sizes Np1 Np2 Np3 Ns g1 g2 r).Np2 := ‹NeZero Np2›
    have : NeZero (D.sizes Np1 Np2 Np3 Ns g1 g2 r).Np3 := ‹NeZero Np3›
    exact row_lt (D.sizes Np1 Np2 Np3 Ns g1 g2 r) p
  refine (hg r _ s l hrow s.2).trans ?_
  simp only [Decomp.exchange, Decomp.fills, true_or, and_self, if_true]
  rfl

/-- C113 (one step): on any number of processes, a finite-volume step on the memory blocks — copies to and from PETSc vectors, ghost exchange, array programs —
is a step of the cell model. -/
theorem C113_step (hone : ∀ u : K, lit 1 ⊠ u = u) (hz : D.SizesOk (D.sizes Np1 Np2 Np3 Ns g1 g2) g1 g2) (cfg : FVMConfig (Fin Ns) K) (dt : K)
    (hon : cfg.solverMethodInQ = "FVM" ∨ (cfg.solverMethodInP = "FVM" ∧ cfg.fieldsEnabled = true))
    (x : Fin 2 → R → AfArray K → ArrIn K) (cb : Fin 2 → ∀ r, Callbacks (Fin Ns) (AslPIdx Np1 Np2 Np3) (D.Loc g1 g2 r) K)
    (hin : D.InputsHold g1 g2 Np1 Np2 Np3 Ns cfg x cb) (F F' : R → AfArray K) (hF : D.Shaped g1 g2 (Np1 * Np2 * Np3) Ns F)
    (h : ArrStep D g1 g2 Np1 Np2 Np3 Ns cfg dt x F F') :
    D.Shaped g1 g2 (Np1 * Np2 * Np3) Ns F' ∧
      Mach.PeriodicStep D g1 g2 ((1, 0, 0), (0, 1, 0), (0, 0, 1)) cfg dt cb (D.cellsOf g1 g2 Np1 Np2 Np3 Ns F)
        (D.cellsOf g1 g2 Np1 Np2 Np3 Ns F') := by
  obtain ⟨st0, st1, F0, H, Fh, c0, a0, c1, a1⟩ := h
  have inst1 : ∀ r, NeZero (D.sizes Np1 Np2 Np3 Ns g1 g2 r).M1 := fun r => ⟨by have := D.pos1 r; simp only [GridSizes.M1, Decomp.sizes]; omega⟩
  have inst2 : ∀ r, NeZero (D.sizes Np1 Np2 Np3 Ns g1 g2 r).M2 := fun r => ⟨by have := D.pos2 r; simp only [GridSizes.M2, Decomp.sizes]; omega⟩
  have i1 : ∀ r, NeZero (D.sizes Np1 Np2 Np3 Ns g1 g2 r).Np1 := fun _ => ‹NeZero Np1›
  have i2 : ∀ r, NeZero (D.sizes Np1 Np2 Np3 Ns g1 g2 r).Np2 := fun _ => ‹NeZero Np2›
  have i3 : ∀ r, NeZero (D.sizes Np1 Np2 Np3 Ns g1 g2 r).Np3 := fun _ => ‹NeZero Np3›
  have i4 : ∀ r, NeZero (D.sizes Np1 Np2 Np3 Ns g1 g2 r).Ns := fun _ => ‹NeZero Ns›
  -- one advance
  have adv : ∀ (k : Fin 2) (h : K) (A B C : R → AfArray K), D.Shaped g1 g2 (Np1 * Np2 * Np3) Ns A → D.Shaped g1 g2 (Np1 * Np2 * Np3) Ns B →
      (∀ r, arrAdvance (.ok (.arr (A r))) (arrDfdt (D.sizes Np1 Np2 Np3 Ns g1 g2 r) cfg (x k r (B r)) (.ok (.arr (B r)))) h = .ok (.arr (C r))) →
      ∃ kk : ∀ r, Dist (Fin Ns) (AslPIdx Np1 Np2 Np3) (D.Loc g1 g2 r) K,
        (∀ r, Mach.dfdtFVM (D.locAxes g1 g2 r (1, 0, 0) (0, 1, 0) (0, 0, 1)) cfg (cb k r) (D.cellsOf g1 g2 Np1 Np2 Np3 Ns B r) = .ok (kk r)) ∧
        D.Shaped g1 g2 (Np1 * Np2 * Np3) Ns C ∧
        D.cellsOf g1 g2 Np1 Np2 Np3 Ns C = fun r s p l => D.cellsOf g1 g2 Np1 Np2 Np3 Ns A r s p l ⊞ kk r s p l ⊠ h := by
    intro k h A B C hA hB hC
    have hk : ∀ r, ∃ kk, Mach.dfdtFVM (D.locAxes g1 g2 r (1, 0, 0) (0, 1, 0) (0, 0, 1)) cfg (cb k r) (D.cellsOf g1 g2 Np1 Np2 Np3 Ns B r) = .ok kk := by
      intro r
      cases e : Mach.dfdtFVM (D.locAxes g1 g2 r ((1, 0, 0) : AslPIdx Np1 Np2 Np3) (0, 1, 0) (0, 0, 1)) cfg (cb k r)
          (D.cellsOf g1 g2 Np1 Np2 Np3 Ns B r) with
      | ok kk => exact ⟨kk, rfl⟩
      | error er =>
        have := (C113_slope (z := D.sizes Np1 Np2 Np3 Ns g1 g2 r) hone cfg (x k r (B r)) (cb k r) (.ok (.arr (B r))) _ (holdsDist_cells (hB r))
          (hin k r (B r) (hB r)) hon).2 er e
        have hC' := (congrArg (fun e => arrAdvance (.ok (.arr (A r))) e h) this).symm.trans (hC r)
        cases hC'
    choose kk hkk using hk
    have hr : ∀ r, (D.sizes Np1 Np2 Np3 Ns g1 g2 r).Fits (C r) ∧ (fun s p l => D.cellsOf g1 g2 Np1 Np2 Np3 Ns A r s p l ⊞ kk r s p l ⊠ h) =
        (D.sizes Np1 Np2 Np3 Ns g1 g2 r).cells (C r) := by
      intro r
      have s := (C113_slope (z := D.sizes Np1 Np2 Np3 Ns g1 g2 r) hone cfg (x k r (B r)) (cb k r) (.ok (.arr (B r))) _ (holdsDist_cells (hB r))
          (hin k r (B r) (hB r)) hon).1 (kk r) (hkk r)
      have w := (holdsDist_cells (z := D.sizes Np1 Np2 Np3 Ns g1 g2 r) (hA r)).bin add (s.numR false mul h)
      have w' : HoldsDist (z := D.sizes Np1 Np2 Np3 Ns g1 g2 r) (.ok (.arr (C r)))
          (fun s p l => D.cellsOf g1 g2 Np1 Np2 Np3 Ns A r s p l ⊞ kk r s p l ⊠ h) := by
        rw [← hC r]; exact w
      exact w'.eq_cells
    exact ⟨kk, hkk, fun r => (hr r).1, funext fun r => (hr r).2.symm⟩
  obtain ⟨s0, e0⟩ := communicates_cells hz hF c0
  obtain ⟨k0, hk0, sH, eH⟩ := adv 0 _ F0 F0 H s0 s0 a0
  obtain ⟨s1, e1⟩ := communicates_cells hz sH c1
  obtain ⟨k1, hk1, sF, eF⟩ := adv 1 _ F0 Fh F' s0 s1 a1
  refine ⟨sF, fun r s p l => lit 0, fun r s p l => lit 0, k0, k1, ?_⟩
  dsimp only
  rw [← e0 fun r s p l => lit 0, ← eH, ← e1 fun r s p l => lit 0]
  exact ⟨hk0, hk1, eF⟩

/-- C113 (runs): the same for any number of steps. -/
theorem C113_run (hone : ∀ u : K, lit 1 ⊠ u = u) (hz : D.SizesOk (D.sizes Np1 Np2 Np3 Ns g1 g2) g1 g2) (cfg : FVMConfig (Fin Ns) K)
    (hon : cfg.solverMethodInQ = "FVM" ∨ (cfg.solverMethodInP = "FVM" ∧ cfg.fieldsEnabled = true))
    (steps : List (K × (Fin 2 → R → AfArray K → ArrIn K) × (Fin 2 → ∀ r, Callbacks (Fin Ns) (AslPIdx Np1 Np2 Np3) (D.Loc g1 g2 r) K)))
    (hin : ∀ st ∈ steps, D.InputsHold g1 g2 Np1 Np2 Np3 Ns cfg st.2.1 st.2.2) (F F' : R → AfArray K)
    (hF : D.Shaped g1 g2 (Np1 * Np2 * Np3) Ns F) (h : ArrRun D g1 g2 Np1 Np2 Np3 Ns cfg (steps.map fun st => (st.1, st.2.1)) F F') :
    D.Shaped g1 g2 (Np1 * Np2 * Np3) Ns F' ∧
      Mach.PeriodicRun D g1 g2 ((1, 0, 0), (0, 1, 0), (0, 0, 1)) cfg (steps.map fun st => (st.1, st.2.2)) (D.cellsOf g1 g2 Np1 Np2 Np3 Ns F)
        (D.cellsOf g1 g2 Np1 Np2 Np3 Ns F') := by
  induction steps generalizing F with
  | nil =>
    simp only [List.map_nil, ArrRun] at h
    subst h
    exact ⟨hF, rfl⟩
  | cons st rest ih =>
    obtain ⟨dt, x, cb⟩ := st
    obtain ⟨G, hG, hR⟩ := h
    obtain ⟨sG, eG⟩ := C113_step hone hz cfg dt hon x cb (hin (dt, x, cb) (by simp)) F G hF hG
    obtain ⟨s, e⟩ := ih (fun st hst => hin st (by simp [hst])) G sG hR
    exact ⟨s, _, eG, e⟩

/-- C113 (no step raises): with known reconstruction methods a step from blocks of the solver's shape always completes. -/
theorem C113_step_succeeds (hone : ∀ u : K, lit 1 ⊠ u = u) (hz : D.SizesOk (D.sizes Np1 Np2 Np3 Ns g1 g2) g1 g2) (cfg : FVMConfig (Fin Ns) K) (dt : K)
    (hon : cfg.solverMethodInQ = "FVM" ∨ (cfg.solverMethodInP = "FVM" ∧ cfg.fieldsEnabled = true))
    (hmq : ∃ m, reconMethod cfg.reconstructionInQ = .ok m) (hmp : ∃ m, reconMethod cfg.reconstructionInP = .ok m)
    (x : Fin 2 → R → AfArray K → ArrIn K) (cb : Fin 2 → ∀ r, Callbacks (Fin Ns) (AslPIdx Np1 Np2 Np3) (D.Loc g1 g2 r) K)
    (hin : D.InputsHold g1 g2 Np1 Np2 Np3 Ns cfg x cb) (F : R → AfArray K) (hF : D.Shaped g1 g2 (Np1 * Np2 * Np3) Ns F) :
    ∃ F', ArrStep D g1 g2 Np1 Np2 Np3 Ns cfg dt x F F' := by
  have inst1 : ∀ r, NeZero (D.sizes Np1 Np2 Np3 Ns g1 g2 r).M1 := fun r => ⟨by have := D.pos1 r; simp only [GridSizes.M1, Decomp.sizes]; omega⟩
  have inst2 : ∀ r, NeZero (D.sizes Np1 Np2 Np3 Ns g1 g2 r).M2 := fun r => ⟨by have := D.pos2 r; simp only [GridSizes.M2, Decomp.sizes]; omega⟩
  have i1 : ∀ r, NeZero (D.sizes Np1 Np2 Np3 Ns g1 g2 r).Np1 := fun _ => ‹NeZero Np1›
  have i2 : ∀ r, NeZero (D.sizes Np1 Np2 Np3 Ns g1 g2 r).Np2 := fun _ => ‹NeZero Np2›
  have i3 : ∀ r, NeZero (D.sizes Np1 Np2 Np3 Ns g1 g2 r).Np3 := fun _ => ‹NeZero Np3›
  have i4 : ∀ r, NeZero (D.sizes Np1 Np2 Np3 Ns g1 g2 r).Ns := fun _ => ‹NeZero Ns›
  have adv : ∀ (k : Fin 2) (h : K) (A B : R → AfArray K), D.Shaped g1 g2 (Np1 * Np2 * Np3) Ns A → D.Shaped g1 g2 (Np1 * Np2 * Np3) Ns B →
      ∃ C, D.Shaped g1 g2 (Np1 * Np2 * Np3) Ns C ∧
      (∀ r, arrAdvance (.ok (.arr (A r))) (arrDfdt (D.sizes Np1 Np2 Np3 Ns g1 g2 r) cfg (x k r (B r)) (.ok (.arr (B r)))) h = .ok (.arr (C r))) := by
    intro k h A B hA hB
    have : ∀ r, ∃ C : AfArray K, (D.sizes Np1 Np2 Np3 Ns g1 g2 r).Fits C ∧
        arrAdvance (.ok (.arr (A r))) (arrDfdt (D.sizes Np1 Np2 Np3 Ns g1 g2 r) cfg (x k r (B r)) (.ok (.arr (B r)))) h = .ok (.arr C) := by
      intro r
      obtain ⟨mq, hq⟩ := hmq
      obtain ⟨mp, hp⟩ := hmp
      have s := (C113_slope (z := D.sizes Np1 Np2 Np3 Ns g1 g2 r) hone cfg (x k r (B r)) (cb k r) (.ok (.arr (B r))) _ (holdsDist_cells (hB r))
          (hin k r (B r) (hB r)) hon).1 _ (Mach.dfdtFVM_eq _ cfg (mq := mq) (mp := mp) ⟨fun _ => hq, fun _ => hp⟩ _ _)
      obtain ⟨C, hC, h0, h1, h2, h3, -⟩ := (holdsDist_cells (z := D.sizes Np1 Np2 Np3 Ns g1 g2 r) (hA r)).bin add (s.numR false mul h)
      exact ⟨C, ⟨h0, h1, h2, h3⟩, hC⟩
    choose C hC using this
    exact ⟨C, fun r => (hC r).1, fun r => (hC r).2⟩
  let st : R → Vec K := fun _ => ⟨0, fun _ => lit 0⟩
  obtain ⟨F0, c0⟩ := D.C25_communicates (D.sizes Np1 Np2 Np3 Ns g1 g2) g1 g2 .periodic .periodic _ _ st F hz hF
  obtain ⟨s0, -⟩ := communicates_cells hz hF c0
  obtain ⟨H, sH, hH⟩ := adv 0 (dt ⊘ lit 2) F0 F0 s0 s0
  obtain ⟨Fh, c1⟩ := D.C25_communicates (D.sizes Np1 Np2 Np3 Ns g1 g2) g1 g2 .periodic .periodic _ _ st H hz sH
  obtain ⟨s1, -⟩ := communicates_cells hz sH c1
  obtain ⟨F', -, hF'⟩ := adv 1 dt F0 Fh s0 s1
  exact ⟨F', st, st, F0, H, Fh, c0, hH, c1, hF'⟩

/-- C113 (from file to file): start from blocks whose bulk holds the whole-grid distribution `f`, make any number of steps on any number of processes, dump.
The file lists, bit for bit, what the run of the cell formulas on the whole grid computes: momentum cells fastest (`p1`, `p2`, `p3`), then species, `q1`, `q2`. -/
theorem C113_dumped_run (hone : ∀ u : K, lit 1 ⊠ u = u) (hz : D.SizesOk (D.sizes Np1 Np2 Np3 Ns g1 g2) g1 g2) (cfg : FVMConfig (Fin Ns) K)
    (hon : cfg.solverMethodInQ = "FVM" ∨ (cfg.solverMethodInP = "FVM" ∧ cfg.fieldsEnabled = true))
    (hg : ∀ m, reconMethod cfg.reconstructionInQ = .ok m → GhostsSuffice m g1 N1 ∧ GhostsSuffice m g2 N2)
    (steps : List (K × (Fin 2 → R → AfArray K → ArrIn K) × (Fin 2 → ∀ r, Callbacks (Fin Ns) (AslPIdx Np1 Np2 Np3) (D.Loc g1 g2 r) K) ×
      (Fin 2 → Callbacks (Fin Ns) (AslPIdx Np1 Np2 Np3) (ZMod N1 × ZMod N2) K)))
    (hin : ∀ st ∈ steps, D.InputsHold g1 g2 Np1 Np2 Np3 Ns cfg st.2.1 st.2.2.1)
    (hcb : ∀ st ∈ steps, ∀ k r, D.CallbacksAgree g1 g2 r (st.2.2.1 k r) (st.2.2.2 k)) (F F' : R → AfArray K)
    (hF : D.Shaped g1 g2 (Np1 * Np2 * Np3) Ns F) (f f' : Dist (Fin Ns) (AslPIdx Np1 Np2 Np3) (ZMod N1 × ZMod N2) K)
    (hf : D.Holds g1 g2 (D.cellsOf g1 g2 Np1 Np2 Np3 Ns F) f)
    (h : ArrRun D g1 g2 Np1 Np2 Np3 Ns cfg (steps.map fun st => (st.1, st.2.1)) F F')
    (h' : Mach.runFVM ⟨(1, 0, 0), (0, 1, 0), (0, 0, 1), (1, 0), (0, 1)⟩ cfg (steps.map fun st => (st.1, st.2.2.2)) f = .ok f')
    (file : Vec K) (hd : D.DumpsTo (D.sizes Np1 Np2 Np3 Ns g1 g2) (Np1 * Np2 * Np3) Ns F' file) :
    file.len = Np1 * Np2 * Np3 * Ns * (N1 * N2) ∧ ∀ (p1 p2 p3 s q1 q2 : ℕ) (hs : s < Ns), p1 < Np1 → p2 < Np2 → p3 < Np3 → q1 < N1 → q2 < N2 →
      file.data ((p1 + Np1 * (p2 + Np2 * p3)) + Np1 * Np2 * Np3 * (s + Ns * (q1 + N1 * q2))) =
        f' ⟨s, hs⟩ ((p1 : ZMod Np1), (p2 : ZMod Np2), (p3 : ZMod Np3)) ((q1 : ZMod N1), (q2 : ZMod N2)) := by
  obtain ⟨sF', hrun⟩ := C113_run hone hz cfg hon (steps.map fun st => (st.1, st.2.1, st.2.2.1))
    (by intro st hst; simp only [List.mem_map] at hst; obtain ⟨t, ht, rfl⟩ := hst; exact hin t ht) F F' hF (by rw [List.map_map]; exact h)
  have hH := C107_bitwise_decomposition_independence D g1 g2 _ cfg hg (steps.map fun st => (st.1, st.2.2.1, st.2.2.2))
    (by intro st hst; simp only [List.mem_map] at hst; obtain ⟨t, ht, rfl⟩ := hst; exact hcb t ht) _ _ f f' hf
    (by rw [List.map_map] at hrun ⊢; exact hrun) (by rw [List.map_map]; exact h')
  let z0 : GridSizes := ⟨Np1, Np2, Np3, Ns, 0, 0, 0, 0⟩
  let u : ℕ → ℕ → ℕ → ℕ → K := fun i j x y => if hj : j < Ns then f' ⟨j, hj⟩ (z0.unrow i) ((x : ZMod N1), (y : ZMod N2)) else lit 0
  have hu : D.Bulk g1 g2 (Np1 * Np2 * Np3) Ns F' u := by
    intro r i j a b hi hj ha hb
    have e1 : ((a + g1 : ℕ) : ZMod (D.n1 r + 2 * g1)).val = a + g1 := ZMod.val_natCast_of_lt (by omega)
    have e2 : ((b + g2 : ℕ) : ZMod (D.n2 r + 2 * g2)).val = b + g2 := ZMod.val_natCast_of_lt (by omega)
    have hl := hH r ⟨j, hj⟩ (z0.unrow i) (((a + g1 : ℕ) : ZMod (D.n1 r + 2 * g1)), ((b + g2 : ℕ) : ZMod (D.n2 r + 2 * g2))) (by
      unfold Decomp.Interior; dsimp only; rw [e1, e2]; omega)
    have hlhs : D.cellsOf g1 g2 Np1 Np2 Np3 Ns F' r ⟨j, hj⟩ (z0.unrow i)
        (((a + g1 : ℕ) : ZMod (D.n1 r + 2 * g1)), ((b + g2 : ℕ) : ZMod (D.n2 r + 2 * g2))) = (F' r).get i j (a + g1) (b + g2) := by
      have hr : z0.row (z0.unrow i) = i := row_unrow (z := z0) hi
      have : D.cellsOf g1 g2 Np1 Np2 Np3 Ns F' r ⟨j, hj⟩ (z0.unrow i)
        (((a + g1 : ℕ) : ZMod (D.n1 r + 2 * g1)), ((b + g2 : ℕ) : ZMod (D.n2 r + 2 * g2))) = (F' r).get (z0.row (z0.unrow i)) j
          (((a + g1 : ℕ) : ZMod (D.n1 r + 2 * g1))).val (((b + g2 : ℕ) : ZMod (D.n2 r + 2 * g2))).val := rfl
      rw [this, e1, e2, hr]
    rw [← hlhs, hl]
    simp only [u, dif_pos hj, Decomp.toGlob, globCoord, e1, e2]
    congr 2 <;> (push_cast; ring)
  obtain ⟨hlen, hfile⟩ := D.C38_file_contents _ g1 g2 _ _ F' file hz sF' hd u hu
  refine ⟨hlen, fun p1 p2 p3 s q1 q2 hs h1 h2 h3 hq1 hq2 => ?_⟩
  have hrow : p1 + Np1 * (p2 + Np2 * p3) < Np1 * Np2 * Np3 := by
    have := AfArray.offset_lt (d3 := 1) (l := 0) h1 h2 h3 Nat.one_pos
    simpa [AfArray.offset] using this
  rw [hfile _ s q1 q2 hrow hs hq1 hq2]
  simp only [u, dif_pos hs]
  congr 1
  simp only [z0, GridSizes.unrow]
  rw [div_of_lt h1, div_of_lt h2]
  ext <;> simp

end runs

end Bolt
