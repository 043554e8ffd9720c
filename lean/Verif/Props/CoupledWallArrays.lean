import Verif.Spec.CoupledWallArrays
import Verif.Props.BoundaryArrays
import Verif.Props.FieldBoundaryArrays

/-!
# C120: coupled runs with walls, as programs on arrays
-/

set_option linter.unusedSectionVars false

namespace Bolt

open Machine PyExpr

section coupled
variable {K : Type} [Machine K] [Zero K] [LinearOrder K] (red : List K → K) {N1 N2 : ℕ} [NeZero N1] [NeZero N2] {R : Type} {D : Decomp N1 N2 R}
  {g1 g2 Np1 Np2 Np3 Ns : ℕ} [NeZero Np1] [NeZero Np2] [NeZero Np3] [NeZero Ns]

/-- C120 (field phase): the field update with walls inside a slope evaluation, on the arrays of all processes, is that of the cell model. -/
theorem C120_field_phase (hone : ∀ u : K, lit 1 ⊠ u = u) (hz : D.SizesOk (D.sizes Np1 Np2 Np3 Ns g1 g2) g1 g2) {o : BCOptions}
    (user : ∀ r, D.LocFieldBCs g1 g2 r K)
    {c : CoupledConfig (Fin Ns) (AslPIdx Np1 Np2 Np3) (ZMod N1 × ZMod N2) K} (hax : c.ax = gridAxes Np1 Np2 Np3 N1 N2) (hi : Implemented c)
    (hp : c.solverMethodInP = "FVM" ∧ c.fieldsEnabled = true) (w : ArrWallInput R K)
    (hw : ∀ r, (D.arrFieldEnv o r (w.user r)).Hold (D.sizes Np1 Np2 Np3 Ns g1 g2 r) (D.fieldEnv g1 g2 o r (user r)))
    (hr : ∀ r, (D.arrFieldEnv o r (w.user r)).WallsFit (D.sizes Np1 Np2 Np3 Ns g1 g2 r))
    (cb : ∀ r, CoupledCallbacks (Fin Ns) (AslPIdx Np1 Np2 Np3) (D.Loc g1 g2 r) K)
    (hin : ∀ r, Bolt.CoupledInputsHold (z := D.sizes Np1 Np2 Np3 Ns g1 g2 r) c (w.x r) (cb r)) (dt : K) (F : R → AfArray K)
    (hF : D.Shaped g1 g2 (Np1 * Np2 * Np3) Ns F) (σ σ' : R → ArrFieldState K) (hσ : ∀ r, (D.sizes Np1 Np2 Np3 Ns g1 g2 r).FitsState (σ r))
    (h : ArrFieldPhaseWalls red D g1 g2 Np1 Np2 Np3 Ns o c w dt F σ σ') :
    (∀ r, (D.sizes Np1 Np2 Np3 Ns g1 g2 r).FitsState (σ' r)) ∧
      Mach.FieldPhase (arrSums Np1 Np2 Np3 Ns red) D g1 g2 o user c cb dt (D.cellsOf g1 g2 Np1 Np2 Np3 Ns F) (D.stateOf g1 g2 Np1 Np2 Np3 Ns σ)
        (D.stateOf g1 g2 Np1 Np2 Np3 Ns σ') := by
  have inst1 : ∀ r, NeZero (D.sizes Np1 Np2 Np3 Ns g1 g2 r).M1 := fun r => ⟨by have := D.pos1 r; simp only [GridSizes.M1, Decomp.sizes]; omega⟩
  have inst2 : ∀ r, NeZero (D.sizes Np1 Np2 Np3 Ns g1 g2 r).M2 := fun r => ⟨by have := D.pos2 r; simp only [GridSizes.M2, Decomp.sizes]; omega⟩
  rcases h with ⟨he, hfl, hq, Y', hs, hst⟩ | ⟨hn, rfl⟩
  · obtain ⟨m, hm⟩ := hi.recQ
    obtain ⟨sY, eY⟩ := C119_step hz o w.user user c.eps c.mu c.dq1 c.dq2 dt c.hybrid _ _ _
      (fun r => Mach.kineticCurrents (arrSums Np1 Np2 Np3 Ns red) (D.locCfg g1 g2 c r) m (cb r).Cq1 (cb r).Cq2 ((D.sizes Np1 Np2 Np3 Ns g1 g2 r).cells (F r)))
      ⟨fun r => (arrCurrents_cells red hone hax he hq hp hm (hin r) (hF r)).1, fun r => (arrCurrents_cells red hone hax he hq hp hm (hin r) (hF r)).2.1,
        fun r => (arrCurrents_cells red hone hax he hq hp hm (hin r) (hF r)).2.2, hw, hr⟩ _ _ (fun r => (hσ r).1) hs
    have hpr : ∀ r, (D.locCfg g1 g2 c r).fieldParams = ⟨(1, 0), (0, 1), c.dq1, c.dq2, c.eps, c.mu, c.hybrid⟩ := fun r => rfl
    have hσ' : ∀ r, (D.sizes Np1 Np2 Np3 Ns g1 g2 r).FitsState (σ' r) ∧ D.stateOf g1 g2 Np1 Np2 Np3 Ns σ' r =
        Mach.storeFields (D.locCfg g1 g2 c r).fieldParams dt (D.emOf g1 g2 Np1 Np2 Np3 Ns Y' r) (D.stateOf g1 g2 Np1 Np2 Np3 Ns σ r) := by
      intro r
      obtain ⟨s', a, b, e⟩ := store_cells (z := D.sizes Np1 Np2 Np3 Ns g1 g2 r) (hσ r) (sY r) dt (D.locCfg g1 g2 c r).fieldParams rfl rfl
      have : σ' r = s' := by injection (hst r).symm.trans a
      subst this
      exact ⟨b, e⟩
    refine ⟨fun r => (hσ' r).1, .inl ⟨he, hfl, hq, m, hm, D.emOf g1 g2 Np1 Np2 Np3 Ns Y', ?_, fun r => (hσ' r).2⟩⟩
    exact eY
  · exact ⟨hσ, .inr ⟨hn, rfl⟩⟩

/-- C120 (slope): a coupled slope evaluation with walls on the arrays of all processes, followed by an advance, is that of the cell model. -/
theorem C120_slope (hone : ∀ u : K, lit 1 ⊠ u = u) (hz : D.SizesOk (D.sizes Np1 Np2 Np3 Ns g1 g2) g1 g2) {o : BCOptions}
    (user : ∀ r, D.LocFieldBCs g1 g2 r K)
    {c : CoupledConfig (Fin Ns) (AslPIdx Np1 Np2 Np3) (ZMod N1 × ZMod N2) K} (hax : c.ax = gridAxes Np1 Np2 Np3 N1 N2) (hi : Implemented c)
    (hon : c.solverMethodInQ = "FVM" ∨ (c.solverMethodInP = "FVM" ∧ c.fieldsEnabled = true)) (w : ArrWallInput R K)
    (hw : ∀ r, (D.arrFieldEnv o r (w.user r)).Hold (D.sizes Np1 Np2 Np3 Ns g1 g2 r) (D.fieldEnv g1 g2 o r (user r)))
    (hr : ∀ r, (D.arrFieldEnv o r (w.user r)).WallsFit (D.sizes Np1 Np2 Np3 Ns g1 g2 r))
    (cb : ∀ r, CoupledCallbacks (Fin Ns) (AslPIdx Np1 Np2 Np3) (D.Loc g1 g2 r) K)
    (hin : ∀ r, Bolt.CoupledInputsHold (z := D.sizes Np1 Np2 Np3 Ns g1 g2 r) c (w.x r) (cb r)) (dt h : K) (A F C : R → AfArray K)
    (hA : D.Shaped g1 g2 (Np1 * Np2 * Np3) Ns A) (hF : D.Shaped g1 g2 (Np1 * Np2 * Np3) Ns F) (σ σ' : R → ArrFieldState K)
    (hσ : ∀ r, (D.sizes Np1 Np2 Np3 Ns g1 g2 r).FitsState (σ r)) (k : R → PyExpr K)
    (hk : ArrSlopeWalls red D g1 g2 Np1 Np2 Np3 Ns o c w dt F σ k σ') (hC : ∀ r, arrAdvance (.ok (.arr (A r))) (k r) h = .ok (.arr (C r))) :
    ∃ kk, Mach.SlopeCoupled (arrSums Np1 Np2 Np3 Ns red) D g1 g2 o user c cb dt (D.cellsOf g1 g2 Np1 Np2 Np3 Ns F) (D.stateOf g1 g2 Np1 Np2 Np3 Ns σ) kk
        (D.stateOf g1 g2 Np1 Np2 Np3 Ns σ') ∧ (∀ r, (D.sizes Np1 Np2 Np3 Ns g1 g2 r).FitsState (σ' r)) ∧ D.Shaped g1 g2 (Np1 * Np2 * Np3) Ns C ∧
      D.cellsOf g1 g2 Np1 Np2 Np3 Ns C = fun r s p l => D.cellsOf g1 g2 Np1 Np2 Np3 Ns A r s p l ⊞ kk r s p l ⊠ h := by
  have inst1 : ∀ r, NeZero (D.sizes Np1 Np2 Np3 Ns g1 g2 r).M1 := fun r => ⟨by have := D.pos1 r; simp only [GridSizes.M1, Decomp.sizes]; omega⟩
  have inst2 : ∀ r, NeZero (D.sizes Np1 Np2 Np3 Ns g1 g2 r).M2 := fun r => ⟨by have := D.pos2 r; simp only [GridSizes.M2, Decomp.sizes]; omega⟩
  have i1 : ∀ r, NeZero (D.sizes Np1 Np2 Np3 Ns g1 g2 r).Np1 := fun _ => ‹NeZero Np1›
  have i2 : ∀ r, NeZero (D.sizes Np1 Np2 Np3 Ns g1 g2 r).Np2 := fun _ => ‹NeZero Np2›
  have i3 : ∀ r, NeZero (D.sizes Np1 Np2 Np3 Ns g1 g2 r).Np3 := fun _ => ‹NeZero Np3›
  have i4 : ∀ r, NeZero (D.sizes Np1 Np2 Np3 Ns g1 g2 r).Ns := fun _ => ‹NeZero Ns›
  obtain ⟨mq, hmq⟩ := hi.recQ
  obtain ⟨mp, hmp⟩ := hi.recP
  have hax' : ∀ r, (D.locCfg g1 g2 c r).ax = (D.sizes Np1 Np2 Np3 Ns g1 g2 r).axes := by
    intro r; simp only [Decomp.locCfg, hax]; rfl
  -- one slope and one advance on a process
  have one : ∀ r (E1 E2 E3 : Fin 6 → PyExpr K) (F1 F2 F3 : Dist (Fin Ns) (AslPIdx Np1 Np2 Np3) (D.Loc g1 g2 r) K),
      (c.solverMethodInP = "FVM" ∧ c.fieldsEnabled = true → HoldsDist (z := D.sizes Np1 Np2 Np3 Ns g1 g2 r) ((w.x r).Cp1 E1) F1 ∧
        HoldsDist (z := D.sizes Np1 Np2 Np3 Ns g1 g2 r) ((w.x r).Cp2 E2) F2 ∧ HoldsDist (z := D.sizes Np1 Np2 Np3 Ns g1 g2 r) ((w.x r).Cp3 E3) F3) →
      k r = arrDfdt (D.sizes Np1 Np2 Np3 Ns g1 g2 r) c.toFVMConfig (arrInputs (w.x r) E1 E2 E3 (F r)) (.ok (.arr (F r))) →
      ∃ kk, Mach.dfdtFVM (D.locCfg g1 g2 c r).ax c.toFVMConfig ⟨(cb r).Cq1, (cb r).Cq2, F1, F2, F3, (cb r).source⟩
          (D.cellsOf g1 g2 Np1 Np2 Np3 Ns F r) = .ok kk ∧ (D.sizes Np1 Np2 Np3 Ns g1 g2 r).Fits (C r) ∧
        D.cellsOf g1 g2 Np1 Np2 Np3 Ns C r = fun s p l => D.cellsOf g1 g2 Np1 Np2 Np3 Ns A r s p l ⊞ kk s p l ⊠ h := by
    intro r E1 E2 E3 F1 F2 F3 hE hkr
    have hd := Mach.dfdtFVM_eq (D.locCfg g1 g2 c r).ax c.toFVMConfig (mq := mq) (mp := mp) ⟨fun _ => hmq, fun _ => hmp⟩
      ⟨(cb r).Cq1, (cb r).Cq2, F1, F2, F3, (cb r).source⟩ (D.cellsOf g1 g2 Np1 Np2 Np3 Ns F r)
    refine ⟨_, hd, ?_⟩
    have hd' := hd
    rw [hax'] at hd'
    have s := (C113_slope (z := D.sizes Np1 Np2 Np3 Ns g1 g2 r) hone c.toFVMConfig (arrInputs (w.x r) E1 E2 E3 (F r))
      ⟨(cb r).Cq1, (cb r).Cq2, F1, F2, F3, (cb r).source⟩ (.ok (.arr (F r))) _ (holdsDist_cells (hF r)) (coupled_inputs (hin r) (hF r) E1 E2 E3 F1 F2 F3 hE)
      hon).1 _ hd'
    have s := (congrArg (fun e => HoldsDist (z := D.sizes Np1 Np2 Np3 Ns g1 g2 r) e _) hkr.symm).mp s
    have v := (holdsDist_cells (z := D.sizes Np1 Np2 Np3 Ns g1 g2 r) (hA r)).bin add (s.numR false mul h)
    have w' : HoldsDist (z := D.sizes Np1 Np2 Np3 Ns g1 g2 r) (.ok (.arr (C r)))
        (fun s p l => D.cellsOf g1 g2 Np1 Np2 Np3 Ns A r s p l ⊞
          Mach.slopeValue (D.sizes Np1 Np2 Np3 Ns g1 g2 r).axes c.toFVMConfig mq mp ⟨(cb r).Cq1, (cb r).Cq2, F1, F2, F3, (cb r).source⟩
            (D.cellsOf g1 g2 Np1 Np2 Np3 Ns F r) s p l ⊠ h) := by
      rw [← hC r]; exact v
    have := w'.eq_cells
    rw [hax']
    exact ⟨this.1, this.2.symm⟩
  unfold ArrSlopeWalls at hk
  unfold Mach.SlopeCoupled
  by_cases hp : c.solverMethodInP = "FVM" ∧ c.fieldsEnabled = true
  · rw [if_pos hp] at hk
    obtain ⟨σ1, hph, hrest⟩ := hk
    obtain ⟨f1, p1⟩ := C120_field_phase red hone hz user hax hi hp w hw hr cb hin dt F hF σ σ1 hσ hph
    have hs : ∀ r, ∃ kk, Mach.dfdtFVM (D.locCfg g1 g2 c r).ax c.toFVMConfig
        ⟨(cb r).Cq1, (cb r).Cq2, (cb r).Cp1 (getFields c.fieldsSolver c.solverMethodInP (D.stateOf g1 g2 Np1 Np2 Np3 Ns σ1 r)).1,
          (cb r).Cp2 (getFields c.fieldsSolver c.solverMethodInP (getFields c.fieldsSolver c.solverMethodInP (D.stateOf g1 g2 Np1 Np2 Np3 Ns σ1 r)).2).1,
          (cb r).Cp3 (getFields c.fieldsSolver c.solverMethodInP (getFields c.fieldsSolver c.solverMethodInP
            (getFields c.fieldsSolver c.solverMethodInP (D.stateOf g1 g2 Np1 Np2 Np3 Ns σ1 r)).2).2).1, (cb r).source⟩
          (D.cellsOf g1 g2 Np1 Np2 Np3 Ns F r) = .ok kk ∧
        D.stateOf g1 g2 Np1 Np2 Np3 Ns σ' r = (getFields c.fieldsSolver c.solverMethodInP (getFields c.fieldsSolver c.solverMethodInP
            (getFields c.fieldsSolver c.solverMethodInP (D.stateOf g1 g2 Np1 Np2 Np3 Ns σ1 r)).2).2).2 ∧
        (D.sizes Np1 Np2 Np3 Ns g1 g2 r).FitsState (σ' r) ∧ (D.sizes Np1 Np2 Np3 Ns g1 g2 r).Fits (C r) ∧
        D.cellsOf g1 g2 Np1 Np2 Np3 Ns C r = fun s p l => D.cellsOf g1 g2 Np1 Np2 Np3 Ns A r s p l ⊞ kk s p l ⊠ h := by
      intro r
      obtain ⟨hkr, hσr⟩ := hrest r
      obtain ⟨a1, b1, e1⟩ := getFields_cells (f1 r) c.fieldsSolver c.solverMethodInP
      obtain ⟨a2, b2, e2⟩ := getFields_cells a1 c.fieldsSolver c.solverMethodInP
      obtain ⟨a3, b3, e3⟩ := getFields_cells a2 c.fieldsSolver c.solverMethodInP
      rw [b1] at b2 e2
      rw [b2] at b3 e3
      have hf1 := (hin r).force hp _ _ e1
      have hf2 := (hin r).force hp _ _ e2
      have hf3 := (hin r).force hp _ _ e3
      obtain ⟨kk, u, v, w'⟩ := one r _ _ _ _ _ _ (fun _ => ⟨hf1.1, hf2.2.1, hf3.2.2⟩) hkr
      refine ⟨kk, u, ?_, ?_, v, w'⟩
      · exact (congrArg _ hσr).trans b3
      · rw [hσr]; exact a3
    choose kk e1 e2 e3 e4 e5 using hs
    refine ⟨kk, ?_, e3, e4, funext e5⟩
    rw [if_pos hp]
    exact ⟨_, p1, fun r => ⟨e1 r, e2 r⟩⟩
  · rw [if_neg hp] at hk
    obtain ⟨hrest, rfl⟩ := hk
    have hs := fun r => one r (fun _ => const 0) (fun _ => const 0) (fun _ => const 0) (fun _ _ _ => lit 0) (fun _ _ _ => lit 0) (fun _ _ _ => lit 0)
      (fun h => absurd h hp) (hrest r)
    choose kk e1 e4 e5 using hs
    refine ⟨kk, ?_, hσ, e4, funext e5⟩
    rw [if_neg hp]
    exact ⟨e1, rfl⟩

/-- C120 (one coupled step with walls): on any number of processes, a coupled step on the memory blocks of the distribution and of the fields — ghost exchange and boundary
routine of the distribution, currents, fields with their own ghost exchanges and boundary routines, forces, slope, advance — is a step of the cell model with the same
boundary conditions. -/
theorem C120_step (hK : ExactComparisons K) (hone : ∀ u : K, lit 1 ⊠ u = u) (hz : D.SizesOk (D.sizes Np1 Np2 Np3 Ns g1 g2) g1 g2) {o : BCOptions}
    {c : CoupledConfig (Fin Ns) (AslPIdx Np1 Np2 Np3) (ZMod N1 × ZMod N2) K} (hax : c.ax = gridAxes Np1 Np2 Np3 N1 N2) (hi : Implemented c)
    (hon : c.solverMethodInQ = "FVM" ∨ (c.solverMethodInP = "FVM" ∧ c.fieldsEnabled = true)) (dt : K) (w : Fin 2 → ArrWallInput R K)
    (inp : D.CoupledInput g1 g2 (Fin Ns) Np1 Np2 Np3 K) (hin : D.WallInputsHold g1 g2 Np1 Np2 Np3 Ns o c w inp) (F F' : R → AfArray K)
    (hF : D.Shaped g1 g2 (Np1 * Np2 * Np3) Ns F) (σ σ' : R → ArrFieldState K) (hσ : ∀ r, (D.sizes Np1 Np2 Np3 Ns g1 g2 r).FitsState (σ r))
    (h : ArrStepWalls red D g1 g2 Np1 Np2 Np3 Ns o c dt w F σ F' σ') :
    D.Shaped g1 g2 (Np1 * Np2 * Np3) Ns F' ∧ (∀ r, (D.sizes Np1 Np2 Np3 Ns g1 g2 r).FitsState (σ' r)) ∧
      Mach.StepWalls D g1 g2 (arrSums Np1 Np2 Np3 Ns red) o c dt inp (D.cellsOf g1 g2 Np1 Np2 Np3 Ns F) (D.stateOf g1 g2 Np1 Np2 Np3 Ns σ)
        (D.cellsOf g1 g2 Np1 Np2 Np3 Ns F') (D.stateOf g1 g2 Np1 Np2 Np3 Ns σ') := by
  obtain ⟨F0, H, Fh, k0, k1, σh, c0, s0, a0, c1, s1, a1⟩ := h
  obtain ⟨t0, e0⟩ := arrSynced_cells hK hz (hin.walls 0) (hin.room 0) (hin.velocities 0) hF c0
  obtain ⟨kk0, u0, v0, w0, x0⟩ := C120_slope red hone hz (inp.user 0) hax hi hon (w 0) (hin.fields 0) (hin.fieldRoom 0) (inp.cb 0) (hin.slopes 0) dt _ F0 F0 H t0 t0 σ σh
    hσ k0 s0 a0
  obtain ⟨t1, e1⟩ := arrSynced_cells hK hz (hin.walls 1) (hin.room 1) (hin.velocities 1) w0 c1
  obtain ⟨kk1, u1, v1, w1, x1⟩ := C120_slope red hone hz (inp.user 1) hax hi hon (w 1) (hin.fields 1) (hin.fieldRoom 1) (inp.cb 1) (hin.slopes 1) dt _ F0 Fh F' t0 t1 σh σ'
    v0 k1 s1 a1
  exact ⟨w1, v1, _, kk0, _, kk1, _, e0, u0, x0 ▸ e1, u1, x1⟩

/-- C120 (coupled runs with walls): the same for any number of steps. -/
theorem C120_run (hK : ExactComparisons K) (hone : ∀ u : K, lit 1 ⊠ u = u) (hz : D.SizesOk (D.sizes Np1 Np2 Np3 Ns g1 g2) g1 g2) {o : BCOptions}
    {c : CoupledConfig (Fin Ns) (AslPIdx Np1 Np2 Np3) (ZMod N1 × ZMod N2) K} (hax : c.ax = gridAxes Np1 Np2 Np3 N1 N2) (hi : Implemented c)
    (hon : c.solverMethodInQ = "FVM" ∨ (c.solverMethodInP = "FVM" ∧ c.fieldsEnabled = true))
    (steps : List (K × (Fin 2 → ArrWallInput R K) × D.CoupledInput g1 g2 (Fin Ns) Np1 Np2 Np3 K))
    (hin : ∀ st ∈ steps, D.WallInputsHold g1 g2 Np1 Np2 Np3 Ns o c st.2.1 st.2.2) (F F' : R → AfArray K) (hF : D.Shaped g1 g2 (Np1 * Np2 * Np3) Ns F)
    (σ σ' : R → ArrFieldState K) (hσ : ∀ r, (D.sizes Np1 Np2 Np3 Ns g1 g2 r).FitsState (σ r))
    (h : ArrRunWalls red D g1 g2 Np1 Np2 Np3 Ns o c (steps.map fun st => (st.1, st.2.1)) F σ F' σ') :
    D.Shaped g1 g2 (Np1 * Np2 * Np3) Ns F' ∧ (∀ r, (D.sizes Np1 Np2 Np3 Ns g1 g2 r).FitsState (σ' r)) ∧
      Mach.RunWalls D g1 g2 (arrSums Np1 Np2 Np3 Ns red) o c (steps.map fun st => (st.1, st.2.2)) (D.cellsOf g1 g2 Np1 Np2 Np3 Ns F)
        (D.stateOf g1 g2 Np1 Np2 Np3 Ns σ) (D.cellsOf g1 g2 Np1 Np2 Np3 Ns F') (D.stateOf g1 g2 Np1 Np2 Np3 Ns σ') := by
  induction steps generalizing F σ with
  | nil =>
    simp only [List.map_nil, ArrRunWalls] at h
    obtain ⟨rfl, rfl⟩ := h
    exact ⟨hF, hσ, rfl, rfl⟩
  | cons st rest ih =>
    obtain ⟨dt, w, inp⟩ := st
    obtain ⟨G, τ, hG, hR⟩ := h
    obtain ⟨sG, sτ, eG⟩ := C120_step red hK hone hz hax hi hon dt w inp (hin _ List.mem_cons_self) F G hF σ τ hσ hG
    obtain ⟨s, t, e⟩ := ih (fun st hst => hin st (List.mem_cons_of_mem _ hst)) G sG τ sτ hR
    exact ⟨s, t, _, _, eG, e⟩

/-- C120 (such steps exist): where the boundary conditions of the cell model do not raise, from any blocks of the right shapes, when the flag is the same on all processes, the step completes without an exception and leaves the
flag the same on all processes. -/
theorem C120_step_succeeds (hK : ExactComparisons K) (hone : ∀ u : K, lit 1 ⊠ u = u) (hz : D.SizesOk (D.sizes Np1 Np2 Np3 Ns g1 g2) g1 g2) {o : BCOptions}
    {bc1 bc2 fb1 fb2 : Decomp.PetscBC} (hs : setupBCs o.nGhost o.name = .ok ((bc1, g1), (bc2, g2))) (ht : Decomp.FieldTypes g1 g2 o fb1 fb2)
    {c : CoupledConfig (Fin Ns) (AslPIdx Np1 Np2 Np3) (ZMod N1 × ZMod N2) K} (hax : c.ax = gridAxes Np1 Np2 Np3 N1 N2)
    (hi : Implemented c) (hon : c.solverMethodInQ = "FVM" ∨ (c.solverMethodInP = "FVM" ∧ c.fieldsEnabled = true)) (dt : K) (w : Fin 2 → ArrWallInput R K)
    (inp : D.CoupledInput g1 g2 (Fin Ns) Np1 Np2 Np3 K) (hin : D.WallInputsHold g1 g2 Np1 Np2 Np3 Ns o c w inp)
    (hok : ∀ k r f, ∃ f', applyBcsF (D.bcEnv g1 g2 o r (inp.dat k r)) f = .ok f')
    (hokE : ∀ k r f, ∃ f', applyBcsFields (D.fieldEnv g1 g2 o r (inp.user k r)) true f = .ok f') (F : R → AfArray K) (hF : D.Shaped g1 g2 (Np1 * Np2 * Np3) Ns F)
    (σ : R → ArrFieldState K) (hσ : ∀ r, (D.sizes Np1 Np2 Np3 Ns g1 g2 r).FitsState (σ r)) (b : Bool) (hb : ∀ r, (σ r).flag = b) :
    ∃ F' σ' b', ArrStepWalls red D g1 g2 Np1 Np2 Np3 Ns o c dt w F σ F' σ' ∧ ∀ r, (σ' r).flag = b' := by
  have inst1 : ∀ r, NeZero (D.sizes Np1 Np2 Np3 Ns g1 g2 r).M1 := fun r => ⟨by have := D.pos1 r; simp only [GridSizes.M1, Decomp.sizes]; omega⟩
  have inst2 : ∀ r, NeZero (D.sizes Np1 Np2 Np3 Ns g1 g2 r).M2 := fun r => ⟨by have := D.pos2 r; simp only [GridSizes.M2, Decomp.sizes]; omega⟩
  have i1 : ∀ r, NeZero (D.sizes Np1 Np2 Np3 Ns g1 g2 r).Np1 := fun _ => ‹NeZero Np1›
  have i2 : ∀ r, NeZero (D.sizes Np1 Np2 Np3 Ns g1 g2 r).Np2 := fun _ => ‹NeZero Np2›
  have i3 : ∀ r, NeZero (D.sizes Np1 Np2 Np3 Ns g1 g2 r).Np3 := fun _ => ‹NeZero Np3›
  have i4 : ∀ r, NeZero (D.sizes Np1 Np2 Np3 Ns g1 g2 r).Ns := fun _ => ‹NeZero Ns›
  have slope : ∀ (k : Fin 2) (h : K) (A B : R → AfArray K) (τ : R → ArrFieldState K) (b : Bool), D.Shaped g1 g2 (Np1 * Np2 * Np3) Ns A →
      D.Shaped g1 g2 (Np1 * Np2 * Np3) Ns B → (∀ r, (D.sizes Np1 Np2 Np3 Ns g1 g2 r).FitsState (τ r)) → (∀ r, (τ r).flag = b) →
      ∃ kk τ' C b', ArrSlopeWalls red D g1 g2 Np1 Np2 Np3 Ns o c (w k) dt B τ kk τ' ∧ (∀ r, arrAdvance (.ok (.arr (A r))) (kk r) h = .ok (.arr (C r))) ∧
        D.Shaped g1 g2 (Np1 * Np2 * Np3) Ns C ∧ (∀ r, (D.sizes Np1 Np2 Np3 Ns g1 g2 r).FitsState (τ' r)) ∧ ∀ r, (τ' r).flag = b' := by
    intro k h A B τ b hA hB hτ hb
    obtain ⟨mq, hmq⟩ := hi.recQ
    obtain ⟨mp, hmp⟩ := hi.recP
    have one : ∀ r (E1 E2 E3 : Fin 6 → PyExpr K) (F1 F2 F3 : Dist (Fin Ns) (AslPIdx Np1 Np2 Np3) (D.Loc g1 g2 r) K),
        (c.solverMethodInP = "FVM" ∧ c.fieldsEnabled = true → HoldsDist (z := D.sizes Np1 Np2 Np3 Ns g1 g2 r) (((w k).x r).Cp1 E1) F1 ∧
          HoldsDist (z := D.sizes Np1 Np2 Np3 Ns g1 g2 r) (((w k).x r).Cp2 E2) F2 ∧ HoldsDist (z := D.sizes Np1 Np2 Np3 Ns g1 g2 r) (((w k).x r).Cp3 E3) F3) →
        ∃ C, (D.sizes Np1 Np2 Np3 Ns g1 g2 r).Fits C ∧ arrAdvance (.ok (.arr (A r)))
          (arrDfdt (D.sizes Np1 Np2 Np3 Ns g1 g2 r) c.toFVMConfig (arrInputs ((w k).x r) E1 E2 E3 (B r)) (.ok (.arr (B r)))) h = .ok (.arr C) := by
      intro r E1 E2 E3 F1 F2 F3 hE
      have s := (C113_slope (z := D.sizes Np1 Np2 Np3 Ns g1 g2 r) hone c.toFVMConfig (arrInputs ((w k).x r) E1 E2 E3 (B r))
        ⟨(inp.cb k r).Cq1, (inp.cb k r).Cq2, F1, F2, F3, (inp.cb k r).source⟩ (.ok (.arr (B r))) _ (holdsDist_cells (hB r))
        (coupled_inputs (hin.slopes k r) (hB r) E1 E2 E3 F1 F2 F3 hE) hon).1 _ (Mach.dfdtFVM_eq _ _ (mq := mq) (mp := mp) ⟨fun _ => hmq, fun _ => hmp⟩ _ _)
      obtain ⟨C, hC, h0, h1, h2, h3, -⟩ := (holdsDist_cells (z := D.sizes Np1 Np2 Np3 Ns g1 g2 r) (hA r)).bin add (s.numR false mul h)
      exact ⟨C, ⟨h0, h1, h2, h3⟩, hC⟩
    by_cases hp : c.solverMethodInP = "FVM" ∧ c.fieldsEnabled = true
    · have phase : ∃ τ1, ArrFieldPhaseWalls red D g1 g2 Np1 Np2 Np3 Ns o c (w k) dt B τ τ1 ∧ (∀ r, (D.sizes Np1 Np2 Np3 Ns g1 g2 r).FitsState (τ1 r)) ∧
          ∀ r, (τ1 r).flag = b := by
        by_cases he : c.fieldsType = "electrodynamic" ∧ b = false
        · have hJ : D.FieldWallsHold g1 g2 Np1 Np2 Np3 Ns o (w k).user (inp.user k)
              (fun r => (arrCurrents red c.reconstructionInQ ((w k).x r) (.ok (.arr (B r)))).1)
              (fun r => (arrCurrents red c.reconstructionInQ ((w k).x r) (.ok (.arr (B r)))).2.1)
              (fun r => (arrCurrents red c.reconstructionInQ ((w k).x r) (.ok (.arr (B r)))).2.2)
              (fun r => Mach.kineticCurrents (arrSums Np1 Np2 Np3 Ns red) (D.locCfg g1 g2 c r) mq (inp.cb k r).Cq1 (inp.cb k r).Cq2
                ((D.sizes Np1 Np2 Np3 Ns g1 g2 r).cells (B r))) :=
            ⟨fun r => (arrCurrents_cells red hone hax he.1 (hi.fvm he.1) hp hmq (hin.slopes k r) (hB r)).1,
             fun r => (arrCurrents_cells red hone hax he.1 (hi.fvm he.1) hp hmq (hin.slopes k r) (hB r)).2.1,
             fun r => (arrCurrents_cells red hone hax he.1 (hi.fvm he.1) hp hmq (hin.slopes k r) (hB r)).2.2, hin.fields k, hin.fieldRoom k⟩
          obtain ⟨Y', hY'⟩ := C119_step_succeeds hz o ht _ _ c.eps c.mu c.dq1 c.dq2 dt _ _ _ _ hJ (hokE k) (fun r => (τ r).yee) fun r => (hτ r).1
          have e2' := (C119_step hz o _ _ c.eps c.mu c.dq1 c.dq2 dt c.hybrid _ _ _ _ hJ _ _ (fun r => (hτ r).1) hY').1
          have e'' := fun r => store_cells (z := D.sizes Np1 Np2 Np3 Ns g1 g2 r) (hτ r) (e2' r) dt (D.locCfg g1 g2 c r).fieldParams rfl rfl
          choose τ1 t1 t2 t3 using e''
          refine ⟨τ1, .inl ⟨he.1, fun r => by rw [hb r, he.2], hi.fvm he.1, Y', hY', t1⟩, t2,
            fun r => ?_⟩
          have hfl : ((D.sizes Np1 Np2 Np3 Ns g1 g2 r).stateCells (τ1 r)).flag = ((D.sizes Np1 Np2 Np3 Ns g1 g2 r).stateCells (τ r)).flag := by
            rw [t3 r]; exact (Mach.store_rest _ _ _ _).2.1
          exact hfl.trans (hb r)
        · refine ⟨τ, Or.inr ⟨?_, rfl⟩, hτ, hb⟩
          by_cases ht : c.fieldsType = "electrodynamic"
          · right
            intro r
            rw [hb r]
            cases b
            · exact absurd ⟨ht, rfl⟩ he
            · rfl
          · exact Or.inl ht
      obtain ⟨τ1, hph, f1, hb1⟩ := phase
      let t1 := fun r => (τ1 r).getFields c.fieldsSolver c.solverMethodInP
      let t2 := fun r => (t1 r).2.getFields c.fieldsSolver c.solverMethodInP
      let t3 := fun r => (t2 r).2.getFields c.fieldsSolver c.solverMethodInP
      have hr : ∀ r, ∃ C : AfArray K, (D.sizes Np1 Np2 Np3 Ns g1 g2 r).Fits C ∧ arrAdvance (.ok (.arr (A r)))
          (arrDfdt (D.sizes Np1 Np2 Np3 Ns g1 g2 r) c.toFVMConfig (arrInputs ((w k).x r) (t1 r).1 (t2 r).1 (t3 r).1 (B r)) (.ok (.arr (B r)))) h = .ok (.arr C) ∧
          (D.sizes Np1 Np2 Np3 Ns g1 g2 r).FitsState (t3 r).2 := by
        intro r
        obtain ⟨a1, b1, e1⟩ := getFields_cells (f1 r) c.fieldsSolver c.solverMethodInP
        obtain ⟨a2, b2, e2⟩ := getFields_cells a1 c.fieldsSolver c.solverMethodInP
        obtain ⟨a3, b3, e3⟩ := getFields_cells a2 c.fieldsSolver c.solverMethodInP
        obtain ⟨C, hC, eC⟩ := one r _ _ _ _ _ _ fun _ => ⟨((hin.slopes k r).force hp _ _ e1).1, ((hin.slopes k r).force hp _ _ e2).2.1, ((hin.slopes k r).force hp _ _ e3).2.2⟩
        exact ⟨C, hC, eC, a3⟩
      choose C hC eC a3 using hr
      refine ⟨_, fun r => (t3 r).2, C, !b, ?_, eC, hC, a3, ?_⟩
      · unfold ArrSlopeWalls
        rw [if_pos hp]
        exact ⟨τ1, hph, fun r => ⟨rfl, rfl⟩⟩
      · intro r
        simp only [t3, t2, t1, ArrFieldState.getFields, hp.1, if_true, hb1 r, Bool.not_not]
    · have hr := fun r => one r (fun _ => const 0) (fun _ => const 0) (fun _ => const 0) (fun _ _ _ => lit 0) (fun _ _ _ => lit 0) (fun _ _ _ => lit 0)
        (fun h => absurd h hp)
      choose C hC eC using hr
      refine ⟨_, τ, C, b, ?_, eC, hC, hτ, hb⟩
      unfold ArrSlopeWalls
      rw [if_neg hp]
      exact ⟨fun r => rfl, rfl⟩
  obtain ⟨F0, c0⟩ := arrSynced_exists hK hz hs (hok 0) (hin.walls 0) (hin.room 0) (hin.velocities 0) hF
  obtain ⟨s0, -⟩ := arrSynced_cells hK hz (hin.walls 0) (hin.room 0) (hin.velocities 0) hF c0
  obtain ⟨k0, σh, H, b0, hk0, hH, sH, sσh, hb0⟩ := slope 0 (dt ⊘ lit 2) F0 F0 σ b s0 s0 hσ hb
  obtain ⟨Fh, c1⟩ := arrSynced_exists hK hz hs (hok 1) (hin.walls 1) (hin.room 1) (hin.velocities 1) sH
  obtain ⟨s1, -⟩ := arrSynced_cells hK hz (hin.walls 1) (hin.room 1) (hin.velocities 1) sH c1
  obtain ⟨k1, σ', F', b1, hk1, hF', -, -, hb1⟩ := slope 1 dt F0 Fh σh b0 s0 s1 sσh hb0
  exact ⟨F', σ', b1, ⟨F0, H, Fh, k0, k1, σh, c0, hk0, hH, c1, hk1, hF'⟩, hb1⟩

end coupled

/-- C120 (exact arithmetic): with exact arithmetic and exact sums the runs of the cell model are those of the claims about coupled runs with walls (kinetic electrons). -/
theorem C120_exact {S K : Type} [Fintype S] [Field K] [LinearOrder K] [IsStrictOrderedRing K] {N1 N2 : ℕ} {R : Type} (D : Decomp N1 N2 R) (g1 g2 : ℕ) {Np1 Np2 Np3 : ℕ}
    [Fintype (PIdx Np1 Np2 Np3)] [∀ r, Fintype (D.Loc g1 g2 r)] {Q : Type} (o : BCOptions) (c : CoupledConfig S (PIdx Np1 Np2 Np3) Q K)
    (hh : c.hybrid = false) (hyb : S) (steps : List (K × D.CoupledInput g1 g2 S Np1 Np2 Np3 K))
    (F F' : ∀ r, Dist S (PIdx Np1 Np2 Np3) (D.Loc g1 g2 r) K) (σ σ' : ∀ r, FieldState (D.Loc g1 g2 r) K) :
    @Mach.RunWalls K (exactMachine K) _ _ _ _ _ D g1 g2 S Np1 Np2 Np3 ⟨fun x => ∑ p, x p, fun x => ∑ s, x s⟩ Q o c steps F σ F' σ' ↔
      D.RunCoupled g1 g2 o c hyb steps F σ F' σ' := by
  let M : Machine K := exactMachine K
  have e2 : ∀ dt : K, dt ⊘ lit 2 = dt / 2 := by
    intro dt
    change dt / ((2 : ℚ) : K) = dt / 2
    norm_num
  have e0 : (lit 0 : K) = 0 := by
    change ((0 : ℚ) : K) = 0
    exact Rat.cast_zero
  have hph : ∀ user cb dt F σ σ', Mach.FieldPhase (⟨fun x => ∑ p, x p, fun x => ∑ s, x s⟩ : Mach.Sums S (PIdx Np1 Np2 Np3) K) D g1 g2 o user c cb dt F σ σ' ↔
      D.FieldPhase g1 g2 o user c hyb cb dt F σ σ' := by
    intro user cb dt F σ σ'
    unfold Mach.FieldPhase Decomp.FieldPhase Decomp.EvolveFields
    simp only [hh, Bool.false_eq_true, if_false, mach_exact_store rfl, mach_exact_currents rfl]
    have : ∀ m, (∃ Y', Mach.FdtdStep D g1 g2 o user (fun r => (D.locCfg g1 g2 c r).fieldParams)
          (fun r => kineticCurrents (D.locCfg g1 g2 c r) m (cb r).Cq1 (cb r).Cq2 (F r)) dt (fun r => (σ r).yee) Y' ∧
        ∀ r, σ' r = storeFields (D.locCfg g1 g2 c r).fieldParams dt (Y' r) (σ r)) ↔
        (∃ Y', D.FdtdStep g1 g2 o user (fun r => (D.locCfg g1 g2 c r).fieldParams)
          (fun r => kineticCurrents (D.locCfg g1 g2 c r) m (cb r).Cq1 (cb r).Cq2 (F r)) dt (fun r => (σ r).yee) Y' ∧
        ∀ r, σ' r = storeFields (D.locCfg g1 g2 c r).fieldParams dt (Y' r) (σ r)) := fun m =>
      exists_congr fun Y' => and_congr (C119_exact D g1 g2 o user _ (fun r => hh) _ dt _ Y') Iff.rfl
    simp only [this]
  have hsl : ∀ user cb dt F σ k σ', Mach.SlopeCoupled (⟨fun x => ∑ p, x p, fun x => ∑ s, x s⟩ : Mach.Sums S (PIdx Np1 Np2 Np3) K) D g1 g2 o user c cb dt F σ k σ' ↔
      D.SlopeCoupled g1 g2 o user c hyb cb dt F σ k σ' := by
    intro user cb dt F σ k σ'
    unfold Mach.SlopeCoupled Decomp.SlopeCoupled
    simp only [hph, mach_exact_dfdtFVM rfl, e0]
  have hstep : ∀ dt inp F σ F' σ', Mach.StepWalls D g1 g2 (⟨fun x => ∑ p, x p, fun x => ∑ s, x s⟩ : Mach.Sums S (PIdx Np1 Np2 Np3) K) o c dt inp F σ F' σ' ↔
      D.StepCoupled g1 g2 o c hyb dt inp F σ F' σ' := by
    intro dt inp F σ F' σ'
    unfold Mach.StepWalls Decomp.StepCoupled
    simp only [hsl, e2]
    rfl
  induction steps generalizing F σ with
  | nil => exact Iff.rfl
  | cons st rest ih =>
    obtain ⟨dt, inp⟩ := st
    simp only [Mach.RunWalls, Decomp.RunCoupled, hstep]
    exact exists_congr fun G => exists_congr fun τ => and_congr Iff.rfl (ih G τ)

end Bolt
