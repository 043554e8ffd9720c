import Verif.Props.FieldArrays
import Verif.Props.ArrayProgramExample

/-!
# C115: the hypotheses are met — double precision, two species, two processes, electrodynamic fields and the Lorentz force
-/

set_option linter.unusedSectionVars false

namespace Bolt

open Machine PyExpr

section exist
variable {K : Type} [Machine K] {z : GridSizes} [NeZero z.Np1] [NeZero z.Np2] [NeZero z.Np3] [NeZero z.M1] [NeZero z.M2] [NeZero z.Ns]

theorem rowsLay_ok (n : ℕ) : (rowsLay z n).Ok where
  h0 := fun x => x.1.2
  h1 := fun _ => by show (0 : ℕ) < 1; omega
  h2 := fun x => ZMod.val_lt x.2.1
  h3 := fun x => ZMod.val_lt x.2.2

theorem exists_rows (F : Fin 6 → z.Q → K) : ∃ a : AfArray K, z.FitsEM a ∧ ∀ i, (z.emCells a).comp i = F i := by
  obtain ⟨a, b, hb, h0, h1, h2, h3, hv⟩ := (rowsLay_ok (z := z) 6).exists_array (K := K) (fun y => F y.1 y.2) fun x y h0 _ h2 h3 => by
    have e0 : x.1 = y.1 := Fin.ext h0
    have e2 : x.2 = y.2 := Prod.ext (ZMod.val_injective _ h2) (ZMod.val_injective _ h3)
    rw [e0, e2]
  cases hb
  exact ⟨a, ⟨h0, h1, h2, h3⟩, fun i => funext fun q => (emCells_comp a i q).trans (hv (i, q))⟩

/-- Any fields are held by an array of the right shape. -/
theorem exists_fitsEM (F : EM z.Q K) : ∃ a : AfArray K, z.FitsEM a ∧ z.emCells a = F := by
  obtain ⟨a, ha, hc⟩ := exists_rows (z := z) fun i => F.comp i
  exact ⟨a, ha, EM.eq_of_rows (Q := z.Q) (hc 0) (hc 1) (hc 2) (hc 3) (hc 4) (hc 5)⟩

/-- Any fields solver of the cell model is held by one with arrays. -/
theorem exists_state (τ : FieldState z.Q K) : ∃ σ : ArrFieldState K, z.FitsState σ ∧ z.stateCells σ = τ := by
  obtain ⟨y, hy, ey⟩ := exists_fitsEM (z := z) τ.yee
  choose h hh eh using fun k => exists_fitsEM (z := z) (τ.heap k)
  exact ⟨⟨h, τ.cc, τ.atN, τ.atHalf, y, τ.flag, τ.timeElapsed⟩, ⟨hy, hh⟩, by
    simp only [GridSizes.stateCells, ey, eh]⟩

/-- The callbacks of the nonrelativistic system on any position cells: free streaming and the Lorentz force. -/
def lorentzCb {S P : Type} (Q : Type) (e m : S → K) (v1 v2 v3 : S → P → K) : CoupledCallbacks S P Q K where
  Cq1 s p _ := v1 s p
  Cq2 s p _ := v2 s p
  Cp1 F s p q := (e s ⊘ m s) ⊠ ((F.E1 q ⊞ v2 s p ⊠ F.B3 q) ⊟ v3 s p ⊠ F.B2 q)
  Cp2 F s p q := (e s ⊘ m s) ⊠ ((F.E2 q ⊞ v3 s p ⊠ F.B1 q) ⊟ v1 s p ⊠ F.B3 q)
  Cp3 F s p q := (e s ⊘ m s) ⊠ ((F.E3 q ⊞ v1 s p ⊠ F.B2 q) ⊟ v2 s p ⊠ F.B1 q)
  source f := f

/-- The arrays of the nonrelativistic system meet the requirements: velocities on momentum cells only, charges and masses per species, the force
computed by `arrLorentz` from whatever field arrays `get_fields` returns. -/
theorem C115_lorentz_inputs {Q : Type} (c : CoupledConfig (Fin z.Ns) z.P Q K) (m : Fin z.Ns → K) (v1 v2 v3 : Fin z.Ns → z.P → K) :
    ∃ x : ArrCallbacks K, CoupledInputsHold c x (lorentzCb z.Q c.charge m v1 v2 v3) := by
  obtain ⟨ae, he⟩ := exists_speciesOnly (z := z) c.charge
  obtain ⟨am, hm⟩ := exists_speciesOnly (z := z) m
  obtain ⟨a1, h1⟩ := exists_momentumOnly (z := z) v1
  obtain ⟨a2, h2⟩ := exists_momentumOnly (z := z) v2
  obtain ⟨a3, h3⟩ := exists_momentumOnly (z := z) v3
  obtain ⟨d1, k1⟩ := exists_speciesOnly (z := z) c.dp1
  obtain ⟨d2, k2⟩ := exists_speciesOnly (z := z) c.dp2
  obtain ⟨d3, k3⟩ := exists_speciesOnly (z := z) c.dp3
  obtain ⟨b1, w1⟩ := exists_momentumOnly (z := z) c.coords.p1
  obtain ⟨b2, w2⟩ := exists_momentumOnly (z := z) c.coords.p2
  obtain ⟨b3, w3⟩ := exists_momentumOnly (z := z) c.coords.p3
  refine ⟨⟨.ok (.arr a1), .ok (.arr a2), fun E => (arrLorentz (.ok (.arr ae)) (.ok (.arr am)) (.ok (.arr a1)) (.ok (.arr a2)) (.ok (.arr a3)) E).1,
    fun E => (arrLorentz (.ok (.arr ae)) (.ok (.arr am)) (.ok (.arr a1)) (.ok (.arr a2)) (.ok (.arr a3)) E).2.1,
    fun E => (arrLorentz (.ok (.arr ae)) (.ok (.arr am)) (.ok (.arr a1)) (.ok (.arr a2)) (.ok (.arr a3)) E).2.2, fun a => .ok (.arr a),
    .ok (.arr d1), .ok (.arr d2), .ok (.arr d3), .ok (.arr ae), .ok (.arr b1), .ok (.arr b2), .ok (.arr b3)⟩,
    fun _ => .inr h1, fun _ => .inr h2, fun _ _ a ha => holdsDist_cells ha, fun _ E F hE => ?_, fun _ => ⟨k1, k2, k3⟩, fun _ => he, fun _ => ⟨w1, w2, w3⟩⟩
  exact C115_lorentz_force _ _ _ _ _ c.charge m v1 v2 v3 he hm h1 h2 h3 E F hE

/-- `C115_field_update`, `C115_time_levels`: any fields and currents are held by arrays. -/
example (F : EM z.Q K) (J : z.Q → K) : ∃ (a : AfArray K) (b : PyExpr K), z.FitsEM a ∧ z.emCells a = F ∧ (fieldLay z).Holds b J := by
  obtain ⟨a, ha, e⟩ := exists_fitsEM (z := z) F
  obtain ⟨b, hb⟩ := (fieldLay_ok (z := z)).exists_array J fun x y _ _ h2 h3 => by
    have e2 : x = y := Prod.ext (ZMod.val_injective _ h2) (ZMod.val_injective _ h3)
    rw [e2]
  exact ⟨a, _, ha, e, hb⟩

end exist

/-- `C115_unsummed_currents_rejected`: two species, three by three cells, zero currents. -/
example (Y : AfArray Dbl) (hY : (⟨2, 3, 1, 2, 1, 1, 1, 1⟩ : GridSizes).FitsEM Y) (dt : Dbl) (x : PyExpr Dbl) :
    arrEvolveE (lit 1) (lit 1) (lit 1) (lit 1) dt (.ok (.arr (AfArray.ofFn 1 2 3 3 fun _ _ _ _ => lit 0))) x x Y = .error .exception := by
  have : NeZero (⟨2, 3, 1, 2, 1, 1, 1, 1⟩ : GridSizes).M1 := ⟨by decide⟩
  have : NeZero (⟨2, 3, 1, 2, 1, 1, 1, 1⟩ : GridSizes).M2 := ⟨by decide⟩
  exact C115_unsummed_currents_rejected (z := ⟨2, 3, 1, 2, 1, 1, 1, 1⟩) Y hY _ _ _ _ dt _ x x (fun _ => lit 0) ⟨_, rfl, rfl, rfl, rfl, rfl, fun x =>
    AfArray.get_ofFn 1 2 3 3 (fun _ _ _ _ => lit 0) _ _ _ _ Nat.one_pos x.1.2 (ZMod.val_lt (n := 3) x.2.1)⟩ (by decide)

/-! ### a coupled run in double precision -/

/-- Two species of opposite charge, minmod, electrodynamic fields. -/
def c115Cfg : CoupledConfig (Fin 2) (AslPIdx 2 3 1) (ZMod 6 × ZMod 1) Dbl where
  solverMethodInQ := "FVM"
  solverMethodInP := "FVM"
  reconstructionInQ := "minmod"
  reconstructionInP := "ppm"
  riemannInQ := "upwind-flux"
  riemannInP := "upwind-flux"
  fieldsEnabled := true
  sourceEnabled := false
  dq1 := lit (1 / 10)
  dq2 := lit 1
  dp1 := fun s => if s = 0 then lit 1 else lit (1 / 3)
  dp2 := fun _ => lit 1
  dp3 := fun _ => lit 1
  ax := gridAxes 2 3 1 6 1
  fieldsType := "electrodynamic"
  fieldsSolver := "fdtd"
  charge := fun s => if s = 0 then lit (-1) else lit 1
  coords := ⟨fun s p => lit (s.val + p.1.val), fun _ p => lit p.2.1.val, fun _ _ => lit 0⟩
  eps := lit 1
  mu := lit 1
  hybrid := false
  Te := lit 0

/-- Periodic along the first axis, one cell without ghost zones along the second. -/
def c115Opt : BCOptions := ⟨2, fun w => match w with | .left => "periodic" | .right => "periodic" | _ => "none", "cartesian", "FVM"⟩

def c115Mass : Fin 2 → Dbl := fun s => if s = 0 then lit (1 / 10) else lit 1

/-- The callbacks on any position cells. -/
def c115Cb (Q : Type) : CoupledCallbacks (Fin 2) (AslPIdx 2 3 1) Q Dbl :=
  lorentzCb Q c115Cfg.charge c115Mass c115Cfg.coords.p1 c115Cfg.coords.p2 c115Cfg.coords.p3

theorem c115_grid : GridConfig 2 0 c115Opt c115Cfg where
  q1 := rfl
  q2 := rfl
  ends1 := .inl ⟨rfl, rfl⟩
  ends2 := .inr ⟨rfl, rfl, rfl⟩
  ghosts := by
    intro m hm
    have : m = .minmod := by injection hm with hm; exact hm.symm
    subst this
    exact ⟨.inl ⟨by decide, by decide, fun h => by cases h⟩, .inr ⟨rfl, rfl⟩⟩
  noFFT := by decide

theorem c115_implemented : Implemented c115Cfg := ⟨⟨.minmod, rfl⟩, ⟨.ppm, rfl⟩, fun _ => rfl⟩

theorem c115_agree (r : Fin 2) : exD.CoupledAgree 2 0 r (c115Cb (exD.Loc 2 0 r)) (c115Cb (ZMod 6 × ZMod 1)) where
  q1 := fun _ _ _ _ => ⟨rfl, rfl⟩
  q2 := fun _ _ _ _ => ⟨rfl, rfl⟩
  p1 := fun F G s p l _ h => by
    have h0 : F.E1 l = G.E1 (exD.toGlob 2 0 r l) := h 0
    have h4 : F.B2 l = G.B2 (exD.toGlob 2 0 r l) := h 4
    have h5 : F.B3 l = G.B3 (exD.toGlob 2 0 r l) := h 5
    simp only [c115Cb, lorentzCb, h0, h4, h5]
  p2 := fun F G s p l _ h => by
    have h0 : F.E2 l = G.E2 (exD.toGlob 2 0 r l) := h 1
    have h4 : F.B1 l = G.B1 (exD.toGlob 2 0 r l) := h 3
    have h5 : F.B3 l = G.B3 (exD.toGlob 2 0 r l) := h 5
    simp only [c115Cb, lorentzCb, h0, h4, h5]
  p3 := fun F G s p l _ h => by
    have h0 : F.E3 l = G.E3 (exD.toGlob 2 0 r l) := h 2
    have h4 : F.B1 l = G.B1 (exD.toGlob 2 0 r l) := h 3
    have h5 : F.B2 l = G.B2 (exD.toGlob 2 0 r l) := h 4
    simp only [c115Cb, lorentzCb, h0, h4, h5]
  src := fun _ _ _ _ h s p => h s p

/-- In double precision, on two processes, from any distribution and any state of the fields: arrays, inputs, a coupled step and both dumps exist, and the dumped
numbers are those of the whole-grid formulas. -/
example (red : List Dbl → Dbl) (f : Dist (Fin 2) (AslPIdx 2 3 1) (ZMod 6 × ZMod 1) Dbl) (τ : FieldState (ZMod 6 × ZMod 1) Dbl) (dt : Dbl) :
    ∃ (F F' : Fin 2 → AfArray Dbl) (σ σ' : Fin 2 → ArrFieldState Dbl) (x : Fin 2 → Fin 2 → ArrCallbacks Dbl) (file fields : Vec Dbl) (st' : _),
      exD.Holds 2 0 (exD.cellsOf 2 0 2 3 1 2 F) f ∧ exD.FieldsHold 2 0 (exD.stateOf 2 0 2 3 1 2 σ) τ ∧
      ArrRunCoupled red exD 2 0 2 3 1 2 c115Opt c115Cfg [(dt, x)] F σ F' σ' ∧
      exD.DumpsTo (exD.sizes 2 3 1 2 2 0) 6 2 F' file ∧ exD.DumpsTo (exD.sizes 2 3 1 2 2 0) 6 1 (fun r => (σ' r).yee) fields ∧
      Mach.runCoupled (arrSums 2 3 1 2 red) c115Cfg [(dt, fun _ => c115Cb _)] (f, τ) = .ok st' ∧
      file.data (3 + 6 * (1 + 2 * 4)) = st'.1 1 (1, 1, 0) (4, 0) ∧ fields.data (5 + 6 * 4) = st'.2.yee.B3 (4, 0) := by
  obtain ⟨F, hs, hF⟩ := C113_blocks_exist exD 2 0 2 3 1 2 f
  have i1 : ∀ r, NeZero (exD.sizes 2 3 1 2 2 0 r).M1 := fun _ => ⟨by simp [GridSizes.M1, Decomp.sizes, exD]⟩
  have i2 : ∀ r, NeZero (exD.sizes 2 3 1 2 2 0 r).M2 := fun _ => ⟨by simp [GridSizes.M2, Decomp.sizes, exD]⟩
  have i3 : ∀ r, NeZero (exD.sizes 2 3 1 2 2 0 r).Np1 := fun _ => ⟨by simp [Decomp.sizes]⟩
  have i4 : ∀ r, NeZero (exD.sizes 2 3 1 2 2 0 r).Np2 := fun _ => ⟨by simp [Decomp.sizes]⟩
  have i5 : ∀ r, NeZero (exD.sizes 2 3 1 2 2 0 r).Np3 := fun _ => ⟨by simp [Decomp.sizes]⟩
  have i6 : ∀ r, NeZero (exD.sizes 2 3 1 2 2 0 r).Ns := fun _ => ⟨by simp [Decomp.sizes]⟩
  let em : ∀ r, EM (ZMod 6 × ZMod 1) Dbl → EM (exD.Loc 2 0 r) Dbl := fun r G =>
    ⟨G.E1 ∘ exD.toGlob 2 0 r, G.E2 ∘ exD.toGlob 2 0 r, G.E3 ∘ exD.toGlob 2 0 r, G.B1 ∘ exD.toGlob 2 0 r, G.B2 ∘ exD.toGlob 2 0 r, G.B3 ∘ exD.toGlob 2 0 r⟩
  have hem : ∀ r G, exD.EMHolds 2 0 r (em r G) G := by
    intro r G i l _
    fin_cases i <;> rfl
  choose σ hσ eσ using fun r => exists_state (z := exD.sizes 2 3 1 2 2 0 r)
    ⟨fun k => em r (τ.heap k), τ.cc, τ.atN, τ.atHalf, em r τ.yee, τ.flag, τ.timeElapsed⟩
  have eσ' : exD.stateOf 2 0 2 3 1 2 σ = fun r => ⟨fun k => em r (τ.heap k), τ.cc, τ.atN, τ.atHalf, em r τ.yee, τ.flag, τ.timeElapsed⟩ := funext eσ
  have hfl : ∀ r, (σ r).flag = τ.flag := fun r => congrArg FieldState.flag (eσ r)
  have hhold : exD.FieldsHold 2 0 (exD.stateOf 2 0 2 3 1 2 σ) τ := by
    rw [eσ']
    exact ⟨fun r => hem r _, fun r k => hem r _, fun _ => rfl, fun _ => rfl, fun _ => rfl, fun _ => rfl, fun _ => rfl⟩
  choose x0 hx0 using fun r => C115_lorentz_inputs (z := exD.sizes 2 3 1 2 2 0 r) c115Cfg c115Mass c115Cfg.coords.p1 c115Cfg.coords.p2 c115Cfg.coords.p3
  have hx : exD.CoupledInputsHold 2 0 2 3 1 2 c115Cfg (fun _ => x0) (fun _ r => c115Cb (exD.Loc 2 0 r)) := fun _ r => hx0 r
  obtain ⟨F', σ', b', hstep, -⟩ := C115_coupled_step_succeeds red dbl_one_mul c113_sizes (o := c115Opt) ⟨rfl, rfl⟩ (c := c115Cfg) rfl c115_implemented (.inl rfl)
    dt _ _ hx F hs σ hσ τ.flag hfl
  have hrun : ArrRunCoupled red exD 2 0 2 3 1 2 c115Opt c115Cfg [(dt, fun _ => x0)] F σ F' σ' := ⟨F', σ', hstep, rfl, rfl⟩
  obtain ⟨sF', sσ', -⟩ := C115_coupled_step red dbl_one_mul c113_sizes c115_grid.ends1 c115_grid.ends2 (fun _ _ _ f => f) rfl c115_implemented (.inl rfl) dt _ _ hx
    F F' hs σ σ' hσ hstep
  obtain ⟨file, hd⟩ := exD.C38_dump_succeeds _ 2 0 _ _ F' c113_sizes sF'
  obtain ⟨fields, hdE⟩ := exD.C38_dump_succeeds _ 2 0 6 1 (fun r => (σ' r).yee) c113_sizes fun r => (sσ' r).1
  obtain ⟨st', hst'⟩ := C112_whole_grid_run_exists (arrSums 2 3 1 2 red) c115_implemented [(dt, fun _ => c115Cb _)] (f, τ)
  have key := C115_dumped_coupled_run red dbl_one_mul c113_sizes c115_grid rfl c115_implemented (.inl rfl)
    [(dt, fun _ => x0, fun _ r => c115Cb (exD.Loc 2 0 r), fun _ => c115Cb _)] (by simpa using hx)
    (by intro st hst k r; simp only [List.mem_singleton] at hst; subst hst; exact c115_agree r) F F' hs σ σ' hσ (f, τ) st' hF hhold hrun hst' file fields hd hdE
  refine ⟨F, F', σ, σ', _, file, fields, st', hF, hhold, hrun, hd, hdE, hst', ?_, ?_⟩
  · exact key.1.2 1 1 0 1 4 0 (by norm_num) (by norm_num) (by norm_num) (by norm_num) (by norm_num) (by norm_num)
  · exact key.2.2 5 4 0 (by norm_num) (by norm_num)

end Bolt
