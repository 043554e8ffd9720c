import Verif.Proofs.BoundaryArrays

/-!
# C117: boundary conditions of the distribution function as programs on arrays
-/

set_option linter.unusedSectionVars false

namespace Bolt

open Machine PyExpr

section routines
variable {K : Type} [Machine K] [Zero K] [LinearOrder K] {x : ArrBCEnv K} [NeZero x.z.Np1] [NeZero x.z.Np2] [NeZero x.z.Np3] [NeZero x.z.Ns]
  [NeZero x.z.M1] [NeZero x.z.M2] {env : BCEnv (Fin x.z.Ns) x.z.Np1 x.z.Np2 x.z.Np3 x.z.M1 x.z.M2 K}

/-- C117: the slices, flips, reshapes, joins, tilings and selections of `apply_bcs_f` do on the memory block, for every combination of conditions at the four walls,
what the boundary properties (C24, C26, C56, C95) say cell by cell — bit for bit, in any arithmetic that compares exactly — keep the shape of `self.f`, and raise exactly
when the cell model does. -/
theorem C117_boundaries (hK : ExactComparisons K) (h : x.Hold env) (hw : x.WallsFit) (hv : x.VelocitiesFit) (f : AfArray K) (hf : x.z.Fits f) :
    SameOutcome x.z (arrApplyBcs x f) (applyBcsF env (x.z.cells f)) :=
  arrApplyBcs_outcome hK h hw hv hf

/-- C117 (mirror walls need no arithmetic): the mirror routines give the cell model's values whatever the stored numbers are; a polar grid with an odd number of angles
raises at the left and right walls because the joined halves do not fill the array. -/
theorem C117_mirror {K : Type} [Machine K] {z : GridSizes} [NeZero z.Np1] [NeZero z.Np2] [NeZero z.Np3] [NeZero z.Ns] [NeZero z.M1] [NeZero z.M2] (g : ℕ) (w : Wall)
    (hg : 2 * g ≤ z.width w) (f : AfArray K) (hf : z.Fits f) :
    (∃ c, arrMirrorCartesian z g w f = .ok c ∧ z.Fits c ∧ z.cells c = mirrorCartesian g w (z.cells f)) ∧
    SameOutcome z (arrMirrorPolar z g w f) (mirrorPolar g w (z.cells f)) ∧
    ((w = .left ∨ w = .right) → z.Np2 % 2 = 1 → arrMirrorPolar z g w f = .error .exception) := by
  refine ⟨arrMirrorCartesian_holds w hf hg, arrMirrorPolar_holds w hf hg, fun hlr ho => (arrMirrorPolar_holds w hf hg).2 _ ?_⟩
  unfold mirrorPolar
  exact if_pos ⟨hlr, ho⟩

/-- C117 (negative): on a line of cells — one position cell along `q2`, no ghost cells there — a Dirichlet wall raises `IndexError` as soon as one of the two advection velocities
is given on the momentum cells only, which the bundled advection terms do: `self.f.shape` has no fourth entry then. -/
theorem C117_line_of_cells (w : Wall) (f : AfArray K) (hf : x.z.Fits f) (hM : x.z.M2 = 1) (hM1 : x.z.M1 ≠ 1) (F1 : Dist (Fin x.z.Ns) x.z.P x.z.Q K) (F2 : x.z.Cell → K)
    (h1 : VelocityHolds x.vel1 F1) (hv : (∃ G, (momentumOnly x.z).Holds x.vel1 G) ∨ (momentumOnly x.z).Holds x.vel2 F2) :
    arrDirichlet x w f = .error .indexError := by
  have hMM : 1 < x.z.M1 * x.z.M2 := by
    have : x.z.M1 ≠ 0 := NeZero.ne _
    rw [hM, mul_one]; omega
  have go : ∀ G, (momentumOnly x.z).Holds x.vel1 G → arrDirichlet x w f = .error .indexError := by
    intro G hG
    have e := arrTileVelocity_indexError hf hG hM
    have e' : arrTileVelocity x.z f (if x.solverMethodInQ = "FVM" then x.Cq1 else x.Aq1) = .error .indexError := e
    unfold arrDirichlet
    rw [e']; rfl
  rcases hv with ⟨G, hG⟩ | hv
  · exact go G hG
  · rcases h1 with h1 | h1
    · obtain ⟨a, ha, h0, hh1, h2, h3, -⟩ := id h1
      obtain ⟨v, hv1, -⟩ := arrTileVelocity_holds hf (.inl h1 : VelocityHolds x.vel1 F1) hMM fun _ => ⟨a, ha, h0, hh1, h2, h3⟩
      have e1 : arrTileVelocity x.z f (if x.solverMethodInQ = "FVM" then x.Cq1 else x.Aq1) = .ok v := hv1
      have e2 : arrTileVelocity x.z f (if x.solverMethodInQ = "FVM" then x.Cq2 else x.Aq2) = .error .indexError := arrTileVelocity_indexError hf hv hM
      unfold arrDirichlet
      rw [e1, e2]; rfl
    · exact go _ h1

/-- C117 (negative): the user's wall values must have the full shape of `self.f` (or be a number): an array of any other shape, for instance one that depends on the
momenta only, makes a Dirichlet wall raise. -/
theorem C117_wall_values_need_full_shape (h : x.Hold env) (w : Wall) (hi : x.Inflow w) (hg : 0 < x.g) (hw : 2 * x.g ≤ x.z.width w)
    (hfit : x.z.M2 = 1 → x.z.FullShape x.vel1 ∧ x.z.FullShape x.vel2) (f u : AfArray K) (hf : x.z.Fits f) (hu : ¬ x.z.Fits u) :
    arrDirichlet { x with user := fun _ _ => .ok (.arr u) } w f = .error .exception := by
  have hM := cells_gt_one w hg hw
  obtain ⟨v1, e1, fv1, -⟩ := arrTileVelocity_holds hf (h.vel1 ⟨w, hi⟩) hM fun k => (hfit k).1
  obtain ⟨v2, e2, fv2, -⟩ := arrTileVelocity_holds hf (h.vel2 ⟨w, hi⟩) hM fun k => (hfit k).2
  have sel : ∀ (c : AfArray Bool), AfArray.select c u f = .error .exception := by
    intro c
    refine if_neg fun k => hu ?_
    obtain ⟨-, -, -, -, k0, k1, k2, k3⟩ := k
    exact ⟨k0.trans hf.1, k1.trans hf.2.1, k2.trans hf.2.2.1, k3.trans hf.2.2.2⟩
  have e1' : arrTileVelocity x.z f (if x.solverMethodInQ = "FVM" then x.Cq1 else x.Aq1) = .ok v1 := e1
  have e2' : arrTileVelocity x.z f (if x.solverMethodInQ = "FVM" then x.Cq2 else x.Aq2) = .ok v2 := e2
  unfold arrDirichlet
  dsimp only
  rw [e1', e2']
  simp only [bind, Except.bind, arrSelect, sel]
  cases w <;> rfl

end routines

section runs
variable {K : Type} [Machine K] [Zero K] [LinearOrder K] {N1 N2 : ℕ} [NeZero N1] [NeZero N2] {R : Type} {D : Decomp N1 N2 R} {g1 g2 Np1 Np2 Np3 Ns : ℕ}
  [NeZero Np1] [NeZero Np2] [NeZero Np3] [NeZero Ns]

omit [Zero K] [LinearOrder K] in
theorem communicates_cells_any {bc1 bc2 : Decomp.PetscBC} {st : R → Vec K} {F F' : R → AfArray K} (hz : D.SizesOk (D.sizes Np1 Np2 Np3 Ns g1 g2) g1 g2)
    (hF : D.Shaped g1 g2 (Np1 * Np2 * Np3) Ns F)
    (h : D.Communicates (D.sizes Np1 Np2 Np3 Ns g1 g2) g1 g2 bc1 bc2 (Np1 * Np2 * Np3) Ns st F F') :
    D.Shaped g1 g2 (Np1 * Np2 * Np3) Ns F' ∧ ∃ st', D.cellsOf g1 g2 Np1 Np2 Np3 Ns F' =
      D.exchange g1 g2 bc1 bc2 st' (D.cellsOf g1 g2 Np1 Np2 Np3 Ns F) := by
  obtain ⟨hs, hg⟩ := D.C25_blocks_refine_exchange _ g1 g2 bc1 bc2 _ _ st F F' hz hF h
  refine ⟨hs, fun r s p l => (st r).data ((D.sizes Np1 Np2 Np3 Ns g1 g2 r).row p + Np1 * Np2 * Np3 * (s + Ns * (l.1.val + (D.n1 r + 2 * g1) * l.2.val))),
    funext fun r => funext fun s => funext fun p => funext fun l => ?_⟩
  have hrow : (D.sizes Np1 Np2 Np3 Ns g1 g2 r).row p < Np1 * Np2 * Np3 := by
    have : NeZero (D.sizes Np1 Np2 Np3 Ns g1 g2 r).Np1 := ‹NeZero Np1›
    have : NeZero (D.sizes Np1 Np2 Np3 Ns g1 g2 r).Np2 := ‹NeZero Np2›
    have : NeZero (D.sizes Np1 Np2 Np3 Ns g1 g2 r).Np3 := ‹NeZero Np3›
    exact row_lt (D.sizes Np1 Np2 Np3 Ns g1 g2 r) p
  refine (hg r _ s l hrow s.2).trans ?_
  simp only [Decomp.exchange]
  rfl

theorem arrSynced_cells (hK : ExactComparisons K) (hz : D.SizesOk (D.sizes Np1 Np2 Np3 Ns g1 g2) g1 g2) {o : BCOptions} {x : R → ArrBCData K}
    {dat : ∀ r, D.LocBCData g1 g2 r (Fin Ns) Np1 Np2 Np3 K}
    (hwall : ∀ r, (D.arrEnv g1 g2 Np1 Np2 Np3 Ns o r (x r)).Hold (D.bcEnv g1 g2 o r (dat r)))
    (hroom : ∀ r, (D.arrEnv g1 g2 Np1 Np2 Np3 Ns o r (x r)).WallsFit) (hvel : ∀ r, (D.arrEnv g1 g2 Np1 Np2 Np3 Ns o r (x r)).VelocitiesFit)
    {F F0 : R → AfArray K} (hF : D.Shaped g1 g2 (Np1 * Np2 * Np3) Ns F) (h : D.ArrSynced g1 g2 Np1 Np2 Np3 Ns o x F F0) :
    D.Shaped g1 g2 (Np1 * Np2 * Np3) Ns F0 ∧ D.Synced g1 g2 o dat (D.cellsOf g1 g2 Np1 Np2 Np3 Ns F) (D.cellsOf g1 g2 Np1 Np2 Np3 Ns F0) := by
  obtain ⟨bc1, bc2, st, G, hs, hc, ha⟩ := h
  obtain ⟨sG, st', eG⟩ := communicates_cells_any hz hF hc
  have key : ∀ r, (D.sizes Np1 Np2 Np3 Ns g1 g2 r).Fits (F0 r) ∧
      applyBcsF (D.bcEnv g1 g2 o r (dat r)) (D.cellsOf g1 g2 Np1 Np2 Np3 Ns G r) = .ok (D.cellsOf g1 g2 Np1 Np2 Np3 Ns F0 r) := by
    intro r
    have j1 : NeZero (D.arrEnv g1 g2 Np1 Np2 Np3 Ns o r (x r)).z.M1 := ⟨by
      have := D.pos1 r; change D.n1 r + 2 * g1 ≠ 0; omega⟩
    have j2 : NeZero (D.arrEnv g1 g2 Np1 Np2 Np3 Ns o r (x r)).z.M2 := ⟨by
      have := D.pos2 r; change D.n2 r + 2 * g2 ≠ 0; omega⟩
    have i1 : NeZero (D.arrEnv g1 g2 Np1 Np2 Np3 Ns o r (x r)).z.Np1 := ‹NeZero Np1›
    have i2 : NeZero (D.arrEnv g1 g2 Np1 Np2 Np3 Ns o r (x r)).z.Np2 := ‹NeZero Np2›
    have i3 : NeZero (D.arrEnv g1 g2 Np1 Np2 Np3 Ns o r (x r)).z.Np3 := ‹NeZero Np3›
    have i4 : NeZero (D.arrEnv g1 g2 Np1 Np2 Np3 Ns o r (x r)).z.Ns := ‹NeZero Ns›
    have s := C117_boundaries hK (hwall r) (hroom r) (hvel r) (G r) (sG r)
    cases e : applyBcsF (D.bcEnv g1 g2 o r (dat r)) (D.cellsOf g1 g2 Np1 Np2 Np3 Ns G r) with
    | error er => have := s.2 er e; rw [ha r] at this; cases this
    | ok f' =>
      obtain ⟨c, hc, fc, cc⟩ := s.1 f' e
      rw [ha r] at hc
      injection hc with hc
      subst hc
      exact ⟨fc, congrArg Except.ok cc.symm⟩
  exact ⟨fun r => (key r).1, bc1, bc2, st', hs, fun r => by rw [← eG]; exact (key r).2⟩

theorem arrSynced_exists (hK : ExactComparisons K) (hz : D.SizesOk (D.sizes Np1 Np2 Np3 Ns g1 g2) g1 g2) {o : BCOptions} {x : R → ArrBCData K}
    {dat : ∀ r, D.LocBCData g1 g2 r (Fin Ns) Np1 Np2 Np3 K} {bc1 bc2 : Decomp.PetscBC} (hs : setupBCs o.nGhost o.name = .ok ((bc1, g1), (bc2, g2)))
    (hok : ∀ r f, ∃ f', applyBcsF (D.bcEnv g1 g2 o r (dat r)) f = .ok f')
    (hwall : ∀ r, (D.arrEnv g1 g2 Np1 Np2 Np3 Ns o r (x r)).Hold (D.bcEnv g1 g2 o r (dat r)))
    (hroom : ∀ r, (D.arrEnv g1 g2 Np1 Np2 Np3 Ns o r (x r)).WallsFit) (hvel : ∀ r, (D.arrEnv g1 g2 Np1 Np2 Np3 Ns o r (x r)).VelocitiesFit)
    {F : R → AfArray K} (hF : D.Shaped g1 g2 (Np1 * Np2 * Np3) Ns F) : ∃ F0, D.ArrSynced g1 g2 Np1 Np2 Np3 Ns o x F F0 := by
  let st : R → Vec K := fun _ => ⟨0, fun _ => lit 0⟩
  obtain ⟨G, c0⟩ := D.C25_communicates (D.sizes Np1 Np2 Np3 Ns g1 g2) g1 g2 bc1 bc2 _ _ st F hz hF
  obtain ⟨sG, -⟩ := communicates_cells_any hz hF c0
  have key : ∀ r, ∃ c, arrApplyBcs (D.arrEnv g1 g2 Np1 Np2 Np3 Ns o r (x r)) (G r) = .ok c := by
    intro r
    have j1 : NeZero (D.arrEnv g1 g2 Np1 Np2 Np3 Ns o r (x r)).z.M1 := ⟨by
      have := D.pos1 r; change D.n1 r + 2 * g1 ≠ 0; omega⟩
    have j2 : NeZero (D.arrEnv g1 g2 Np1 Np2 Np3 Ns o r (x r)).z.M2 := ⟨by
      have := D.pos2 r; change D.n2 r + 2 * g2 ≠ 0; omega⟩
    have i1 : NeZero (D.arrEnv g1 g2 Np1 Np2 Np3 Ns o r (x r)).z.Np1 := ‹NeZero Np1›
    have i2 : NeZero (D.arrEnv g1 g2 Np1 Np2 Np3 Ns o r (x r)).z.Np2 := ‹NeZero Np2›
    have i3 : NeZero (D.arrEnv g1 g2 Np1 Np2 Np3 Ns o r (x r)).z.Np3 := ‹NeZero Np3›
    have i4 : NeZero (D.arrEnv g1 g2 Np1 Np2 Np3 Ns o r (x r)).z.Ns := ‹NeZero Ns›
    obtain ⟨f', e⟩ := hok r (D.cellsOf g1 g2 Np1 Np2 Np3 Ns G r)
    obtain ⟨c, hc, -⟩ := (C117_boundaries hK (hwall r) (hroom r) (hvel r) (G r) (sG r)).1 f' e
    exact ⟨c, hc⟩
  choose F0 hF0 using key
  exact ⟨F0, bc1, bc2, st, G, hs, c0, hF0⟩

/-- C117 (one step): on any number of processes, a finite-volume step with boundary conditions on the memory blocks is a step of the cell model with boundary
conditions. -/
theorem C117_step (hK : ExactComparisons K) (hone : ∀ u : K, lit 1 ⊠ u = u) (hz : D.SizesOk (D.sizes Np1 Np2 Np3 Ns g1 g2) g1 g2) (o : BCOptions)
    (cfg : FVMConfig (Fin Ns) K) (dt : K) (hon : cfg.solverMethodInQ = "FVM" ∨ (cfg.solverMethodInP = "FVM" ∧ cfg.fieldsEnabled = true))
    (b : Fin 2 → R → ArrBCData K) (x : Fin 2 → R → AfArray K → ArrIn K) (dat : Fin 2 → ∀ r, D.LocBCData g1 g2 r (Fin Ns) Np1 Np2 Np3 K)
    (cb : Fin 2 → ∀ r, Callbacks (Fin Ns) (AslPIdx Np1 Np2 Np3) (D.Loc g1 g2 r) K) (hin : D.BcInputsHold g1 g2 Np1 Np2 Np3 Ns o cfg b x dat cb)
    (F F' : R → AfArray K) (hF : D.Shaped g1 g2 (Np1 * Np2 * Np3) Ns F) (h : D.ArrBcStep g1 g2 Np1 Np2 Np3 Ns o cfg dt b x F F') :
    D.Shaped g1 g2 (Np1 * Np2 * Np3) Ns F' ∧
      Mach.BcStep D g1 g2 o ((1, 0, 0), (0, 1, 0), (0, 0, 1)) cfg dt dat cb (D.cellsOf g1 g2 Np1 Np2 Np3 Ns F) (D.cellsOf g1 g2 Np1 Np2 Np3 Ns F') := by
  obtain ⟨F0, H, Fh, c0, a0, c1, a1⟩ := h
  have inst1 : ∀ r, NeZero (D.sizes Np1 Np2 Np3 Ns g1 g2 r).M1 := fun r => ⟨by have := D.pos1 r; simp only [GridSizes.M1, Decomp.sizes]; omega⟩
  have inst2 : ∀ r, NeZero (D.sizes Np1 Np2 Np3 Ns g1 g2 r).M2 := fun r => ⟨by have := D.pos2 r; simp only [GridSizes.M2, Decomp.sizes]; omega⟩
  have i1 : ∀ r, NeZero (D.sizes Np1 Np2 Np3 Ns g1 g2 r).Np1 := fun _ => ‹NeZero Np1›
  have i2 : ∀ r, NeZero (D.sizes Np1 Np2 Np3 Ns g1 g2 r).Np2 := fun _ => ‹NeZero Np2›
  have i3 : ∀ r, NeZero (D.sizes Np1 Np2 Np3 Ns g1 g2 r).Np3 := fun _ => ‹NeZero Np3›
  have i4 : ∀ r, NeZero (D.sizes Np1 Np2 Np3 Ns g1 g2 r).Ns := fun _ => ‹NeZero Ns›
  have adv : ∀ (k : Fin 2) (h : K) (A B C : R → AfArray K), D.Shaped g1 g2 (Np1 * Np2 * Np3) Ns A → D.Shaped g1 g2 (Np1 * Np2 * Np3) Ns B →
      (∀ r, arrAdvance (.ok (.arr (A r))) (arrDfdt (D.sizes Np1 Np2 Np3 Ns g1 g2 r) cfg (x k r (B r)) (.ok (.arr (B r)))) h = .ok (.arr (C r))) →
      ∃ kk : ∀ r, Dist (Fin Ns) (AslPIdx Np1 Np2 Np3) (D.Loc g1 g2 r) K,
        (∀ r, Mach.dfdtFVM (D.locAxes g1 g2 r (1, 0, 0) (0, 1, 0) (0, 0, 1)) cfg (cb k r) (D.cellsOf g1 g2 Np1 Np2 Np3 Ns B r) = .ok (kk r)) ∧
        D.Shaped g1 g2 (Np1 * Np2 * Np3) Ns C ∧
        D.cellsOf g1 g2 Np1 Np2 Np3 Ns C = fun r s p l => D.cellsOf g1 g2 Np1 Np2 Np3 Ns A r s p l ⊞ kk r s p l ⊠ h := by
    intro k h A B C hA hB hC
    have hk : ∀ r, ∃ kk, Mach.dfdtFVM (D.locAxes g1 g2 r (1, 0, 0) (0, 1, 0) (0, 0, 1)) cfg (cb k r) (D.cellsOf g1 g2 Np1 Np2 Np3 Ns B r) = .ok kk := by
      intro r
      cases e : Mach.dfdtFVM (D.locAxes g1 g2 r ((1, 0, 0) : AslPIdx Np1 Np2 Np3) (0, 1, 0) (0, 0, 1)) cfg (cb k r)
          (D.cellsOf g1 g2 Np1 Np2 Np3 Ns B r) with
      | ok kk => exact ⟨kk, rfl⟩
      | error er =>
        have := (C113_slope (z := D.sizes Np1 Np2 Np3 Ns g1 g2 r) hone cfg (x k r (B r)) (cb k r) (.ok (.arr (B r))) _ (holdsDist_cells (hB r))
          (hin.slopes k r (B r) (hB r)) hon).2 er e
        have hC' := (congrArg (fun e => arrAdvance (.ok (.arr (A r))) e h) this).symm.trans (hC r)
        cases hC'
    choose kk hkk using hk
    have hr : ∀ r, (D.sizes Np1 Np2 Np3 Ns g1 g2 r).Fits (C r) ∧ (fun s p l => D.cellsOf g1 g2 Np1 Np2 Np3 Ns A r s p l ⊞ kk r s p l ⊠ h) =
        (D.sizes Np1 Np2 Np3 Ns g1 g2 r).cells (C r) := by
      intro r
      have s := (C113_slope (z := D.sizes Np1 Np2 Np3 Ns g1 g2 r) hone cfg (x k r (B r)) (cb k r) (.ok (.arr (B r))) _ (holdsDist_cells (hB r))
          (hin.slopes k r (B r) (hB r)) hon).1 (kk r) (hkk r)
      have w := (holdsDist_cells (z := D.sizes Np1 Np2 Np3 Ns g1 g2 r) (hA r)).bin add (s.numR false mul h)
      have w' : HoldsDist (z := D.sizes Np1 Np2 Np3 Ns g1 g2 r) (.ok (.arr (C r)))
          (fun s p l => D.cellsOf g1 g2 Np1 Np2 Np3 Ns A r s p l ⊞ kk r s p l ⊠ h) := by
        rw [← hC r]; exact w
      exact w'.eq_cells
    exact ⟨kk, hkk, fun r => (hr r).1, funext fun r => (hr r).2.symm⟩
  obtain ⟨s0, e0⟩ := arrSynced_cells hK hz (hin.walls 0) (hin.room 0) (hin.velocities 0) hF c0
  obtain ⟨k0, hk0, sH, eH⟩ := adv 0 _ F0 F0 H s0 s0 a0
  obtain ⟨s1, e1⟩ := arrSynced_cells hK hz (hin.walls 1) (hin.room 1) (hin.velocities 1) sH c1
  obtain ⟨k1, hk1, sF, eF⟩ := adv 1 _ F0 Fh F' s0 s1 a1
  exact ⟨sF, _, k0, _, k1, e0, hk0, eH ▸ e1, hk1, eF⟩

/-- C117 (runs): the same for any number of steps. -/
theorem C117_run (hK : ExactComparisons K) (hone : ∀ u : K, lit 1 ⊠ u = u) (hz : D.SizesOk (D.sizes Np1 Np2 Np3 Ns g1 g2) g1 g2) (o : BCOptions)
    (cfg : FVMConfig (Fin Ns) K) (hon : cfg.solverMethodInQ = "FVM" ∨ (cfg.solverMethodInP = "FVM" ∧ cfg.fieldsEnabled = true))
    (steps : List (K × ((Fin 2 → R → ArrBCData K) × (Fin 2 → R → AfArray K → ArrIn K)) × (Fin 2 → ∀ r, D.LocBCData g1 g2 r (Fin Ns) Np1 Np2 Np3 K) ×
      (Fin 2 → ∀ r, Callbacks (Fin Ns) (AslPIdx Np1 Np2 Np3) (D.Loc g1 g2 r) K)))
    (hin : ∀ st ∈ steps, D.BcInputsHold g1 g2 Np1 Np2 Np3 Ns o cfg st.2.1.1 st.2.1.2 st.2.2.1 st.2.2.2) (F F' : R → AfArray K)
    (hF : D.Shaped g1 g2 (Np1 * Np2 * Np3) Ns F) (h : D.ArrBcRun g1 g2 Np1 Np2 Np3 Ns o cfg (steps.map fun st => (st.1, st.2.1)) F F') :
    D.Shaped g1 g2 (Np1 * Np2 * Np3) Ns F' ∧
      Mach.BcRun D g1 g2 o ((1, 0, 0), (0, 1, 0), (0, 0, 1)) cfg (steps.map fun st => (st.1, st.2.2)) (D.cellsOf g1 g2 Np1 Np2 Np3 Ns F)
        (D.cellsOf g1 g2 Np1 Np2 Np3 Ns F') := by
  induction steps generalizing F with
  | nil =>
    simp only [List.map_nil, Decomp.ArrBcRun] at h
    subst h
    exact ⟨hF, rfl⟩
  | cons st rest ih =>
    obtain ⟨dt, ⟨b, x⟩, dat, cb⟩ := st
    obtain ⟨G, hG, hR⟩ := h
    obtain ⟨sG, eG⟩ := C117_step hK hone hz o cfg dt hon b x dat cb (hin (dt, (b, x), dat, cb) (by simp)) F G hF hG
    obtain ⟨s, e⟩ := ih (fun st hst => hin st (by simp [hst])) G sG hR
    exact ⟨s, _, eG, e⟩

/-- C117 (no step raises): with known reconstruction methods and boundary conditions the cell model does not reject, a step from blocks of the solver's shape always
completes. -/
theorem C117_step_succeeds (hK : ExactComparisons K) (hone : ∀ u : K, lit 1 ⊠ u = u) (hz : D.SizesOk (D.sizes Np1 Np2 Np3 Ns g1 g2) g1 g2) (o : BCOptions)
    {bc1 bc2 : Decomp.PetscBC} (hs : setupBCs o.nGhost o.name = .ok ((bc1, g1), (bc2, g2))) (cfg : FVMConfig (Fin Ns) K) (dt : K)
    (hon : cfg.solverMethodInQ = "FVM" ∨ (cfg.solverMethodInP = "FVM" ∧ cfg.fieldsEnabled = true))
    (hmq : ∃ m, reconMethod cfg.reconstructionInQ = .ok m) (hmp : ∃ m, reconMethod cfg.reconstructionInP = .ok m)
    (b : Fin 2 → R → ArrBCData K) (x : Fin 2 → R → AfArray K → ArrIn K) (dat : Fin 2 → ∀ r, D.LocBCData g1 g2 r (Fin Ns) Np1 Np2 Np3 K)
    (cb : Fin 2 → ∀ r, Callbacks (Fin Ns) (AslPIdx Np1 Np2 Np3) (D.Loc g1 g2 r) K) (hin : D.BcInputsHold g1 g2 Np1 Np2 Np3 Ns o cfg b x dat cb)
    (hok : ∀ k r f, ∃ f', applyBcsF (D.bcEnv g1 g2 o r (dat k r)) f = .ok f') (F : R → AfArray K) (hF : D.Shaped g1 g2 (Np1 * Np2 * Np3) Ns F) :
    ∃ F', D.ArrBcStep g1 g2 Np1 Np2 Np3 Ns o cfg dt b x F F' := by
  have inst1 : ∀ r, NeZero (D.sizes Np1 Np2 Np3 Ns g1 g2 r).M1 := fun r => ⟨by have := D.pos1 r; simp only [GridSizes.M1, Decomp.sizes]; omega⟩
  have inst2 : ∀ r, NeZero (D.sizes Np1 Np2 Np3 Ns g1 g2 r).M2 := fun r => ⟨by have := D.pos2 r; simp only [GridSizes.M2, Decomp.sizes]; omega⟩
  have i1 : ∀ r, NeZero (D.sizes Np1 Np2 Np3 Ns g1 g2 r).Np1 := fun _ => ‹NeZero Np1›
  have i2 : ∀ r, NeZero (D.sizes Np1 Np2 Np3 Ns g1 g2 r).Np2 := fun _ => ‹NeZero Np2›
  have i3 : ∀ r, NeZero (D.sizes Np1 Np2 Np3 Ns g1 g2 r).Np3 := fun _ => ‹NeZero Np3›
  have i4 : ∀ r, NeZero (D.sizes Np1 Np2 Np3 Ns g1 g2 r).Ns := fun _ => ‹NeZero Ns›
  have adv : ∀ (k : Fin 2) (h : K) (A B : R → AfArray K), D.Shaped g1 g2 (Np1 * Np2 * Np3) Ns A → D.Shaped g1 g2 (Np1 * Np2 * Np3) Ns B →
      ∃ C, D.Shaped g1 g2 (Np1 * Np2 * Np3) Ns C ∧
      (∀ r, arrAdvance (.ok (.arr (A r))) (arrDfdt (D.sizes Np1 Np2 Np3 Ns g1 g2 r) cfg (x k r (B r)) (.ok (.arr (B r)))) h = .ok (.arr (C r))) := by
    intro k h A B hA hB
    have : ∀ r, ∃ C : AfArray K, (D.sizes Np1 Np2 Np3 Ns g1 g2 r).Fits C ∧
        arrAdvance (.ok (.arr (A r))) (arrDfdt (D.sizes Np1 Np2 Np3 Ns g1 g2 r) cfg (x k r (B r)) (.ok (.arr (B r)))) h = .ok (.arr C) := by
      intro r
      obtain ⟨mq, hq⟩ := hmq
      obtain ⟨mp, hp⟩ := hmp
      have s := (C113_slope (z := D.sizes Np1 Np2 Np3 Ns g1 g2 r) hone cfg (x k r (B r)) (cb k r) (.ok (.arr (B r))) _ (holdsDist_cells (hB r))
          (hin.slopes k r (B r) (hB r)) hon).1 _ (Mach.dfdtFVM_eq _ cfg (mq := mq) (mp := mp) ⟨fun _ => hq, fun _ => hp⟩ _ _)
      obtain ⟨C, hC, h0, h1, h2, h3, -⟩ := (holdsDist_cells (z := D.sizes Np1 Np2 Np3 Ns g1 g2 r) (hA r)).bin add (s.numR false mul h)
      exact ⟨C, ⟨h0, h1, h2, h3⟩, hC⟩
    choose C hC using this
    exact ⟨C, fun r => (hC r).1, fun r => (hC r).2⟩
  obtain ⟨F0, c0⟩ := arrSynced_exists hK hz hs (hok 0) (hin.walls 0) (hin.room 0) (hin.velocities 0) hF
  obtain ⟨s0, -⟩ := arrSynced_cells hK hz (hin.walls 0) (hin.room 0) (hin.velocities 0) hF c0
  obtain ⟨H, sH, hH⟩ := adv 0 (dt ⊘ lit 2) F0 F0 s0 s0
  obtain ⟨Fh, c1⟩ := arrSynced_exists hK hz hs (hok 1) (hin.walls 1) (hin.room 1) (hin.velocities 1) sH
  obtain ⟨s1, -⟩ := arrSynced_cells hK hz (hin.walls 1) (hin.room 1) (hin.velocities 1) sH c1
  obtain ⟨F', -, hF'⟩ := adv 1 dt F0 Fh s0 s1
  exact ⟨F', F0, H, Fh, c0, hH, c1, hF'⟩

end runs

/-- C117 (exact arithmetic): the machine-arithmetic step with boundary conditions is, in exact arithmetic, the step about which conservation, positivity and decomposition
independence with walls (C55, C56, C95) are stated. -/
theorem C117_exact {S K : Type} [Field K] [LinearOrder K] [IsStrictOrderedRing K] {N1 N2 : ℕ} {R : Type} (D : Decomp N1 N2 R) (g1 g2 : ℕ) {Np1 Np2 Np3 : ℕ}
    (o : BCOptions) (ax : PIdx Np1 Np2 Np3 × PIdx Np1 Np2 Np3 × PIdx Np1 Np2 Np3) (cfg : FVMConfig S K)
    (steps : List (K × (Fin 2 → ∀ r, D.LocBCData g1 g2 r S Np1 Np2 Np3 K) × (Fin 2 → ∀ r, Callbacks S (PIdx Np1 Np2 Np3) (D.Loc g1 g2 r) K)))
    (F F' : ∀ r, Dist S (PIdx Np1 Np2 Np3) (D.Loc g1 g2 r) K) :
    @ExactComparisons K _ _ (exactMachine K) ∧ (@Mach.BcRun S K (exactMachine K) _ _ _ _ _ D g1 g2 _ _ _ o ax cfg steps F F' ↔ D.BcRun g1 g2 o ax cfg steps F F') := by
  letI M : Machine K := exactMachine K
  refine ⟨⟨fun a b => rfl, ?_⟩, ?_⟩
  · change ((0 : ℚ) : K) = 0
    exact Rat.cast_zero
  have hstep : ∀ dt dat cb F F', Mach.BcStep D g1 g2 o ax cfg dt dat cb F F' ↔ D.BcStep g1 g2 o ax cfg dt dat cb F F' := by
    intro dt dat cb F F'
    have e2 : dt ⊘ lit 2 = dt / 2 := by
      change dt / ((2 : ℚ) : K) = dt / 2
      norm_num
    unfold Mach.BcStep Decomp.BcStep
    simp only [mach_exact_dfdtFVM rfl, e2]
    rfl
  induction steps generalizing F with
  | nil => exact Iff.rfl
  | cons st rest ih =>
    obtain ⟨dt, dat, cb⟩ := st
    simp only [Mach.BcRun, Decomp.BcRun, hstep]
    exact exists_congr fun G => and_congr Iff.rfl (ih G)

end Bolt
