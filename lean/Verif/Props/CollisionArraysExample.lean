import Verif.Props.CollisionArrays
import Verif.Props.FieldArraysExample

/-!
# C116: the hypotheses are met — double precision, two species, two processes, collisions, electrodynamic fields and the Lorentz force
-/

set_option linter.unusedSectionVars false

namespace Bolt

open Machine PyExpr

section exist
variable {K : Type} [Machine K] {z : GridSizes} [NeZero z.Np1] [NeZero z.Np2] [NeZero z.Np3] [NeZero z.M1] [NeZero z.M2] [NeZero z.Ns]

/-- Any masses, cell sizes and velocities are held by arrays, with any outcome of `params.tau`. -/
theorem exists_collisionArrays (mass dp1 dp2 dp3 : Fin z.Ns → K) (co : PCoords (Fin z.Ns) z.P K) (tau : PyExpr K) :
    ∃ x : CollisionArrays K, x.Hold mass dp1 dp2 dp3 co ∧ x.tau = tau := by
  obtain ⟨am, hm⟩ := exists_speciesOnly (z := z) mass
  obtain ⟨d1, k1⟩ := exists_speciesOnly (z := z) dp1
  obtain ⟨d2, k2⟩ := exists_speciesOnly (z := z) dp2
  obtain ⟨d3, k3⟩ := exists_speciesOnly (z := z) dp3
  obtain ⟨b1, w1⟩ := exists_momentumOnly (z := z) co.p1
  obtain ⟨b2, w2⟩ := exists_momentumOnly (z := z) co.p2
  obtain ⟨b3, w3⟩ := exists_momentumOnly (z := z) co.p3
  exact ⟨⟨_, _, _, _, _, _, _, tau⟩, ⟨hm, k1, k2, k3, w1, w2, w3⟩, rfl⟩

/-- `C116_local_maxwellian`, `C116_collision_term`, `C116_tau_of_coordinates`: any data are held by arrays. -/
example (mass dp1 dp2 dp3 : Fin z.Ns → K) (co : PCoords (Fin z.Ns) z.P K) (tau f : Dist (Fin z.Ns) z.P z.Q K) (q : z.Q → K) :
    ∃ (x : CollisionArrays K) (m y : PyExpr K), x.Hold mass dp1 dp2 dp3 co ∧ TauHolds x.tau tau ∧ HoldsDist m f ∧
      (positionOnly z).Holds y fun i => q i.2.2 := by
  obtain ⟨t, ht⟩ := exists_holdsDist (z := z) tau
  obtain ⟨x, hx, e⟩ := exists_collisionArrays mass dp1 dp2 dp3 co (.ok (.arr t))
  obtain ⟨m, hm⟩ := exists_holdsDist (z := z) f
  obtain ⟨y, hy⟩ := exists_positionOnly (z := z) q
  exact ⟨x, _, _, hx, .inr (by rw [e]; exact ht), hm, hy⟩

end exist

/-- `C116_tau_shapes`: a relaxation time given per momentum cell only, on two by three momentum cells, two species and four by four position cells, raises. -/
example (red : List Dbl → Dbl) (fn : ElemFns Dbl) (mass dp1 dp2 dp3 : Fin 2 → Dbl) (co : PCoords (Fin 2) (AslPIdx 2 3 1) Dbl) (x : CollisionArrays Dbl)
    (hx : x.Hold (z := ⟨2, 3, 1, 2, 2, 2, 1, 1⟩) mass dp1 dp2 dp3 co) (ht : x.tau = .ok (.arr (AfArray.ofFn 6 2 1 1 fun _ _ _ _ => lit 1))) (m : PyExpr Dbl)
    (f : Dist (Fin 2) (AslPIdx 2 3 1) (ZMod 4 × ZMod 4) Dbl) (hf : HoldsDist (z := ⟨2, 3, 1, 2, 2, 2, 1, 1⟩) m f) :
    arrBgk red fn ⟨2, lit 1⟩ x false m = .error .exception := by
  have : NeZero (⟨2, 3, 1, 2, 2, 2, 1, 1⟩ : GridSizes).M1 := ⟨by decide⟩
  have : NeZero (⟨2, 3, 1, 2, 2, 2, 1, 1⟩ : GridSizes).M2 := ⟨by decide⟩
  have : NeZero (⟨2, 3, 1, 2, 2, 2, 1, 1⟩ : GridSizes).Np1 := ⟨by decide⟩
  have : NeZero (⟨2, 3, 1, 2, 2, 2, 1, 1⟩ : GridSizes).Np2 := ⟨by decide⟩
  have : NeZero (⟨2, 3, 1, 2, 2, 2, 1, 1⟩ : GridSizes).Np3 := ⟨by decide⟩
  have : NeZero (⟨2, 3, 1, 2, 2, 2, 1, 1⟩ : GridSizes).Ns := ⟨by decide⟩
  exact (C116_tau_shapes (z := ⟨2, 3, 1, 2, 2, 2, 1, 1⟩) dbl_one_mul red fn ⟨2, lit 1⟩ (by decide) x mass dp1 dp2 dp3 co hx _ ht m f hf).2
    fun h => absurd h.2.2.1 (by decide)

/-- The configuration of the coupled example with collisions. -/
def c116Cfg : CoupledConfig (Fin 2) (AslPIdx 2 3 1) (ZMod 6 × ZMod 1) Dbl := { c115Cfg with sourceEnabled := true }

theorem c116_grid : GridConfig 2 0 c115Opt c116Cfg :=
  ⟨c115_grid.q1, c115_grid.q2, c115_grid.ends1, c115_grid.ends2, c115_grid.ghosts, c115_grid.noFFT⟩

theorem c116_implemented : Implemented c116Cfg := ⟨c115_implemented.1, c115_implemented.2, c115_implemented.3⟩

/-- In double precision, on two processes, from any distribution and any state of the fields, with any exponential, square root and powers and any relaxation times:
arrays, a step with collisions and both dumps exist, and the dumped numbers are those of the whole-grid formulas of the bundled system. -/
example (red : List Dbl → Dbl) (fn : ElemFns Dbl) (f tau : Dist (Fin 2) (AslPIdx 2 3 1) (ZMod 6 × ZMod 1) Dbl) (τ : FieldState (ZMod 6 × ZMod 1) Dbl) (dt : Dbl) :
    ∃ (F F' : Fin 2 → AfArray Dbl) (σ σ' : Fin 2 → ArrFieldState Dbl) (x : Fin 2 → CollisionArrays Dbl) (ch : Fin 2 → PyExpr Dbl) (file fields : Vec Dbl) (st' : _),
      exD.Holds 2 0 (exD.cellsOf 2 0 2 3 1 2 F) f ∧ exD.FieldsHold 2 0 (exD.stateOf 2 0 2 3 1 2 σ) τ ∧
      ArrRunCoupled red exD 2 0 2 3 1 2 c115Opt c116Cfg [(dt, fun _ r => (x r).callbacks red fn ⟨2, lit 1⟩ (ch r))] F σ F' σ' ∧
      exD.DumpsTo (exD.sizes 2 3 1 2 2 0) 6 2 F' file ∧ exD.DumpsTo (exD.sizes 2 3 1 2 2 0) 6 1 (fun r => (σ' r).yee) fields ∧
      Mach.runCoupled (arrSums 2 3 1 2 red) c116Cfg [(dt, fun _ =>
        bundledCb fn ⟨2, lit 1⟩ (arrSums 2 3 1 2 red) _ c116Cfg.charge c115Mass c116Cfg.dp1 c116Cfg.dp2 c116Cfg.dp3 c116Cfg.coords tau)] (f, τ) = .ok st' ∧
      file.data (3 + 6 * (1 + 2 * 4)) = st'.1 1 (1, 1, 0) (4, 0) ∧ fields.data (5 + 6 * 4) = st'.2.yee.B3 (4, 0) := by
  obtain ⟨F, hs, hF⟩ := C113_blocks_exist exD 2 0 2 3 1 2 f
  have i1 : ∀ r, NeZero (exD.sizes 2 3 1 2 2 0 r).M1 := fun _ => ⟨by simp [GridSizes.M1, Decomp.sizes, exD]⟩
  have i2 : ∀ r, NeZero (exD.sizes 2 3 1 2 2 0 r).M2 := fun _ => ⟨by simp [GridSizes.M2, Decomp.sizes, exD]⟩
  have i3 : ∀ r, NeZero (exD.sizes 2 3 1 2 2 0 r).Np1 := fun _ => ⟨by simp [Decomp.sizes]⟩
  have i4 : ∀ r, NeZero (exD.sizes 2 3 1 2 2 0 r).Np2 := fun _ => ⟨by simp [Decomp.sizes]⟩
  have i5 : ∀ r, NeZero (exD.sizes 2 3 1 2 2 0 r).Np3 := fun _ => ⟨by simp [Decomp.sizes]⟩
  have i6 : ∀ r, NeZero (exD.sizes 2 3 1 2 2 0 r).Ns := fun _ => ⟨by simp [Decomp.sizes]⟩
  let em : ∀ r, EM (ZMod 6 × ZMod 1) Dbl → EM (exD.Loc 2 0 r) Dbl := fun r G =>
    ⟨G.E1 ∘ exD.toGlob 2 0 r, G.E2 ∘ exD.toGlob 2 0 r, G.E3 ∘ exD.toGlob 2 0 r, G.B1 ∘ exD.toGlob 2 0 r, G.B2 ∘ exD.toGlob 2 0 r, G.B3 ∘ exD.toGlob 2 0 r⟩
  have hem : ∀ r G, exD.EMHolds 2 0 r (em r G) G := by
    intro r G i l _
    fin_cases i <;> rfl
  choose σ hσ eσ using fun r => exists_state (z := exD.sizes 2 3 1 2 2 0 r)
    ⟨fun k => em r (τ.heap k), τ.cc, τ.atN, τ.atHalf, em r τ.yee, τ.flag, τ.timeElapsed⟩
  have eσ' : exD.stateOf 2 0 2 3 1 2 σ = fun r => ⟨fun k => em r (τ.heap k), τ.cc, τ.atN, τ.atHalf, em r τ.yee, τ.flag, τ.timeElapsed⟩ := funext eσ
  have hfl : ∀ r, (σ r).flag = τ.flag := fun r => congrArg FieldState.flag (eσ r)
  have hhold : exD.FieldsHold 2 0 (exD.stateOf 2 0 2 3 1 2 σ) τ := by
    rw [eσ']
    exact ⟨fun r => hem r _, fun r k => hem r _, fun _ => rfl, fun _ => rfl, fun _ => rfl, fun _ => rfl, fun _ => rfl⟩
  choose t ht using fun r => exists_holdsDist (z := exD.sizes 2 3 1 2 2 0 r) fun s p l => tau s p (exD.toGlob 2 0 r l)
  choose x hx ex using fun r => exists_collisionArrays (z := exD.sizes 2 3 1 2 2 0 r) c115Mass c116Cfg.dp1 c116Cfg.dp2 c116Cfg.dp3 c116Cfg.coords (.ok (.arr (t r)))
  choose ch hch using fun r => exists_speciesOnly (z := exD.sizes 2 3 1 2 2 0 r) c116Cfg.charge
  have htau : ∀ r, TauHolds (z := exD.sizes 2 3 1 2 2 0 r) (x r).tau fun s p l => tau s p (exD.toGlob 2 0 r l) := fun r => .inr (by rw [ex r]; exact ht r)
  have hin : exD.CoupledInputsHold 2 0 2 3 1 2 c116Cfg (fun _ r => (x r).callbacks red fn ⟨2, lit 1⟩ (.ok (.arr (ch r)))) (fun _ r =>
      bundledCb fn ⟨2, lit 1⟩ (arrSums 2 3 1 2 red) (exD.Loc 2 0 r) c116Cfg.charge c115Mass c116Cfg.dp1 c116Cfg.dp2 c116Cfg.dp3 c116Cfg.coords
        fun s p l => tau s p (exD.toGlob 2 0 r l)) := fun _ r =>
    C116_bundled_inputs red fn ⟨2, lit 1⟩ (z := exD.sizes 2 3 1 2 2 0 r) dbl_one_mul (show (2 : ℕ) ≠ 0 by decide) c116Cfg c115Mass (x r) _ (hx r) (hch r) _
      fun _ => htau r
  obtain ⟨F', σ', b', hstep, -⟩ := C115_coupled_step_succeeds red dbl_one_mul c113_sizes (o := c115Opt) ⟨rfl, rfl⟩ (c := c116Cfg) rfl c116_implemented (.inl rfl)
    dt _ _ hin F hs σ hσ τ.flag hfl
  have hrun : ArrRunCoupled red exD 2 0 2 3 1 2 c115Opt c116Cfg [(dt, fun _ r => (x r).callbacks red fn ⟨2, lit 1⟩ (.ok (.arr (ch r))))] F σ F' σ' :=
    ⟨F', σ', hstep, rfl, rfl⟩
  obtain ⟨sF', sσ', -⟩ := C115_coupled_step red dbl_one_mul c113_sizes c116_grid.ends1 c116_grid.ends2 (fun _ _ _ f => f) rfl c116_implemented (.inl rfl) dt _ _ hin
    F F' hs σ σ' hσ hstep
  obtain ⟨file, hd⟩ := exD.C38_dump_succeeds _ 2 0 _ _ F' c113_sizes sF'
  obtain ⟨fields, hdE⟩ := exD.C38_dump_succeeds _ 2 0 6 1 (fun r => (σ' r).yee) c113_sizes fun r => (sσ' r).1
  obtain ⟨st', hst'⟩ := C112_whole_grid_run_exists (arrSums 2 3 1 2 red) c116_implemented [(dt, fun _ =>
    bundledCb fn ⟨2, lit 1⟩ (arrSums 2 3 1 2 red) _ c116Cfg.charge c115Mass c116Cfg.dp1 c116Cfg.dp2 c116Cfg.dp3 c116Cfg.coords tau)] (f, τ)
  have key := C116_dumped_bundled_run red fn ⟨2, lit 1⟩ dbl_one_mul c113_sizes c116_grid rfl c116_implemented (.inl rfl) (show (2 : ℕ) ≠ 0 by decide) c115Mass tau x
    (fun r => .ok (.arr (ch r))) hx hch (fun _ r => ⟨_, htau r, fun _ _ _ _ => rfl⟩) [dt] F F' hs σ σ' hσ (f, τ) st' hF hhold hrun hst' file fields hd hdE
  refine ⟨F, F', σ, σ', x, _, file, fields, st', hF, hhold, hrun, hd, hdE, hst', ?_, ?_⟩
  · exact key.1.2 1 1 0 1 4 0 (by norm_num) (by norm_num) (by norm_num) (by norm_num) (by norm_num) (by norm_num)
  · exact key.2.2 5 4 0 (by norm_num) (by norm_num)

end Bolt
