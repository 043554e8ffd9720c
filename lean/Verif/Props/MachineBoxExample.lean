import Verif.Props.MachineBox
import Verif.Props.BoundaryArraysExample
import Verif.Props.Report

/-!
# C118: the hypotheses are met — double precision, one and two processes, mirrors and inflow
-/

set_option linter.unusedSectionVars false

namespace Bolt

open Machine PyExpr

theorem dbl_zero_mul (u : Dbl) : (0 : Dbl) ⊠ u = 0 := by
  apply Subtype.ext
  change rndDouble ((0 : ℚ) * u.1) = 0
  rw [zero_mul]; decide +kernel

/-- Velocities that depend on species and momentum, forces that depend on the position as well. -/
def c118Cb : Callbacks (Fin 2) (AslPIdx 2 3 1) (ℤ × ℤ) Dbl :=
  ⟨fun s p _ => lit (s.val + p.1.val - p.2.1.val), fun _ _ _ => lit 0, fun s _ c => lit (c.1 / 10 + s.val), fun _ p c => lit (c.1 - p.1.val),
    fun _ _ _ => lit 0, fun f => f⟩

/-- What comes in: a fixed value on the left, half of the mirrored value at the other walls. -/
def c118Inc : Wall → Fin 2 → AslPIdx 2 3 1 → ℤ × ℤ → Dbl → Dbl
  | .left, _, p, c, _ => lit (1 / 3 + p.1.val + c.2)
  | _, _, _, _, x => x ⊠ lit (1 / 2)

/-- Two mirrors, or inflow on the left and a partial mirror on the right; one cell along `q2`. -/
def c118Opt (isOpen : Bool) : BCOptions :=
  ⟨2, fun | .left => if isOpen then "dirichlet" else "mirror" | .right => if isOpen then "mirror+dirichlet" else "mirror" | _ => "none", "cartesian", "FVM"⟩

/-- As `c113Cfg`, of first order with open walls. -/
def c118Cfg (isOpen : Bool) : FVMConfig (Fin 2) Dbl := { c113Cfg with reconstructionInQ := if isOpen then "piecewise-constant" else "minmod" }

section
variable {R : Type} (D : Decomp 6 1 R)

def c118CbLoc (r : R) : Callbacks (Fin 2) (AslPIdx 2 3 1) (D.Loc 2 0 r) Dbl :=
  ⟨fun s p l => c118Cb.Cq1 s p (D.signed 2 0 r l), fun _ _ _ => lit 0, fun s p l => c118Cb.Cp1 s p (D.signed 2 0 r l),
    fun s p l => c118Cb.Cp2 s p (D.signed 2 0 r l), fun _ _ _ => lit 0, fun f => f⟩

def c118Dat (r : R) : D.LocBCData 2 0 r (Fin 2) 2 3 1 Dbl :=
  ⟨fun s p l => c118Cb.Cq1 s p (D.signed 2 0 r l), fun _ _ _ => lit 0, fun _ _ _ => 0, fun _ _ _ => 0,
    fun w x s p l => c118Inc w s p (D.signed 2 0 r l) (x s p l), fun _ f => f⟩

theorem c118_agree (r : R) : D.CallbacksAgreeBox 2 0 r (c118CbLoc D r) c118Cb where
  q1 := fun _ _ _ _ => ⟨rfl, rfl⟩
  q2 := fun _ _ _ _ => ⟨rfl, rfl⟩
  p1 := fun _ _ _ _ => rfl
  p2 := fun _ _ _ _ => rfl
  p3 := fun _ _ _ _ => rfl
  src := fun _ _ _ _ h s p => h s p

theorem c118_walls (r : R) : D.WallsAgree 2 0 (c118Opt true) r (c118Dat D r) (c118CbLoc D r) c118Inc where
  user := fun _ _ _ _ _ => rfl
  ignores := fun w hw _ _ _ _ _ => by
    cases w
    · rfl
    · simp [c118Opt] at hw
    · simp [c118Opt] at hw
    · simp [c118Opt] at hw
  left := fun _ _ _ _ _ h => h
  right := fun _ _ _ _ _ h => h
  bottom := fun _ _ _ _ _ h => h
  top := fun _ _ _ _ _ h => h

theorem c118_sizes : D.SizesOk (D.sizes 2 3 1 2 2 0) 2 0 :=
  ⟨fun _ => rfl, fun _ => rfl, fun _ => rfl, fun _ => rfl, fun h => by omega, fun _ => rfl⟩

theorem c118_setup (isOpen : Bool) : setupBCs (c118Opt isOpen).nGhost (c118Opt isOpen).name = .ok ((.ghosted, 2), (.none, 0)) := by
  cases isOpen <;> simp [setupBCs, petscAxis, c118Opt]

theorem c118_ok (isOpen : Bool) (r : R) (f : Dist (Fin 2) (AslPIdx 2 3 1) (D.Loc 2 0 r) Dbl) :
    ∃ f', applyBcsF (D.bcEnv 2 0 (c118Opt isOpen) r (c118Dat D r)) f = .ok f' := by
  have h : ∀ w f, ∃ f', atWall (D.bcEnv 2 0 (c118Opt isOpen) r (c118Dat D r)) w f = .ok f' := by
    intro w f
    unfold atWall
    split_ifs
    · cases isOpen <;> cases w <;> exact ⟨_, rfl⟩
    · exact ⟨_, rfl⟩
  obtain ⟨f1, h1⟩ := h .left f
  obtain ⟨f2, h2⟩ := h .right f1
  obtain ⟨f3, h3⟩ := h .bottom f2
  obtain ⟨f4, h4⟩ := h .top f3
  exact ⟨f4, by unfold applyBcsF; simp only [h1, h2, h3, h4, bind, Except.bind, pure, Except.pure]⟩

/-- On every decomposition a step can be made and dumped, in double precision, from any data. -/
theorem c118_step (isOpen : Bool) (f : Dist (Fin 2) (AslPIdx 2 3 1) (ZMod 6 × ZMod 1) Dbl) (dt : Dbl) :
    ∃ (st : D.StepData (K := Dbl) 2 0 2 3 1 2) (F F' : R → AfArray Dbl) (file : Vec Dbl), st.dat = (fun _ => c118Dat D) ∧ st.cb = (fun _ => c118CbLoc D) ∧
      D.BcInputsHold 2 0 2 3 1 2 (c118Opt isOpen) (c118Cfg isOpen) st.b st.x st.dat st.cb ∧ D.Shaped 2 0 (2 * 3 * 1) 2 F ∧
      D.Holds 2 0 (D.cellsOf 2 0 2 3 1 2 F) f ∧ D.ArrBcRun 2 0 2 3 1 2 (c118Opt isOpen) (c118Cfg isOpen) [(dt, st.b, st.x)] F F' ∧
      D.DumpsTo (D.sizes 2 3 1 2 2 0) (2 * 3 * 1) 2 F' file := by
  obtain ⟨F, hs, hF⟩ := C113_blocks_exist D 2 0 2 3 1 2 f
  obtain ⟨x, hx⟩ := C113_inputs_exist_run D 2 0 2 3 1 2 (c118Cfg isOpen) fun _ => c118CbLoc D
  obtain ⟨b, hb⟩ := C117_inputs_exist D 2 0 2 3 1 2 (c118Opt isOpen) fun _ => c118Dat D
  have hin : D.BcInputsHold 2 0 2 3 1 2 (c118Opt isOpen) (c118Cfg isOpen) b x (fun _ => c118Dat D) fun _ => c118CbLoc D := by
    refine ⟨hx, fun k r => (hb k r).1, fun k r w _ _ hn => ?_, fun k r => (hb k r).2⟩
    have w1 : 2 * 2 ≤ D.n1 r + 2 * 2 := by omega
    cases w
    · exact ⟨by change 0 < 2; decide, w1⟩
    · exact ⟨by change 0 < 2; decide, w1⟩
    · exact absurd rfl hn
    · exact absurd rfl hn
  have hmq : ∃ m, reconMethod (c118Cfg isOpen).reconstructionInQ = .ok m := by cases isOpen <;> exact ⟨_, rfl⟩
  have hon : (c118Cfg isOpen).solverMethodInQ = "FVM" := rfl
  obtain ⟨F', hF'⟩ := C117_step_succeeds dbl_comparisons dbl_one_mul (c118_sizes D) (c118Opt isOpen) (c118_setup isOpen) (c118Cfg isOpen) dt (.inl hon) hmq ⟨_, rfl⟩
    b x _ _ hin (fun _ => c118_ok D isOpen) F hs
  have hs' := (C117_step dbl_comparisons dbl_one_mul (c118_sizes D) (c118Opt isOpen) (c118Cfg isOpen) dt (.inl hon) b x _ _ hin F F' hs hF').1
  obtain ⟨file, hd⟩ := D.C38_dump_succeeds _ 2 0 _ _ F' (c118_sizes D) hs'
  exact ⟨⟨b, x, fun _ => c118Dat D, fun _ => c118CbLoc D⟩, F, F', file, rfl, rfl, hin, hs, hF, ⟨F', hF', rfl⟩, hd⟩

theorem c118_writes (f : Dist (Fin 2) (AslPIdx 2 3 1) (ZMod 6 × ZMod 1) Dbl) (dt : Dbl) :
    ∃ file, D.Writes 2 0 2 3 1 2 (c118Opt false) (c118Cfg false) [(dt, fun _ => c118Cb)] f file := by
  obtain ⟨st, F, F', file, -, h2, hin, hs, hF, hr, hd⟩ := c118_step D false f dt
  refine ⟨file, [((dt, fun _ => c118Cb), st)], F, F', rfl, fun t ht => ?_, hs, hF, hr, hd⟩
  simp only [List.mem_singleton] at ht
  subst ht
  exact ⟨hin, fun k r => by rw [h2]; exact c118_agree D r⟩

theorem c118_openWrites (f : Dist (Fin 2) (AslPIdx 2 3 1) (ZMod 6 × ZMod 1) Dbl) (dt : Dbl) :
    ∃ file, D.OpenWrites 2 0 2 3 1 2 (c118Opt true) (c118Cfg true) [(dt, fun _ => c118Inc, fun _ => c118Cb)] f file := by
  obtain ⟨st, F, F', file, h1, h2, hin, hs, hF, hr, hd⟩ := c118_step D true f dt
  refine ⟨file, [((dt, fun _ => c118Inc, fun _ => c118Cb), st)], F, F', rfl, fun t ht => ?_, hs, hF, hr, hd⟩
  simp only [List.mem_singleton] at ht
  subst ht
  exact ⟨hin, fun k r => by rw [h2]; exact c118_agree D r, fun k r => by rw [h1, h2]; exact c118_walls D r⟩

end

/-- Two mirrors, minmod, double precision: the runs on two processes and on one process exist and write the same numbers. -/
example (f : Dist (Fin 2) (AslPIdx 2 3 1) (ZMod 6 × ZMod 1) Dbl) (dt : Dbl) :
    ∃ file file', exD.Writes 2 0 2 3 1 2 (c118Opt false) (c118Cfg false) [(dt, fun _ => c118Cb)] f file ∧
      (oneProcess 6 1).Writes 2 0 2 3 1 2 (c118Opt false) (c118Cfg false) [(dt, fun _ => c118Cb)] f file' ∧
      file.len = 72 ∧ ∀ i < file.len, file.data i = file'.data i := by
  obtain ⟨file, h⟩ := c118_writes exD f dt
  obtain ⟨file', h'⟩ := c118_writes (oneProcess 6 1) f dt
  have h1 : AxisSetup .mirror ((c118Opt false).name .left) ((c118Opt false).name .right) 6 := .inr (.inr ⟨rfl, rfl, rfl⟩)
  have h2 : AxisSetup .wrap ((c118Opt false).name .bottom) ((c118Opt false).name .top) 1 := .inr (.inl ⟨rfl, rfl, rfl, rfl⟩)
  have hfl : MomentumMirror (Np1 := 2) (Np2 := 3) (Np3 := 1) (c118Opt false).pGrid flipCartesian := .inl ⟨rfl, rfl⟩
  have hg : ∀ m, reconMethod (c118Cfg false).reconstructionInQ = .ok m → BoxGhosts m .mirror 2 6 ∧ BoxGhosts m .wrap 0 1 := by
    intro m hm
    have : m = .minmod := by simpa [c118Cfg, reconMethod] using hm.symm
    subst this
    exact ⟨.inl (by simp [Recon.radius]), .inr ⟨rfl, rfl, rfl⟩⟩
  have hn : ∀ r, 2 ≤ exD.n1 r ∧ 0 ≤ exD.n2 r := fun r => ⟨by simp [exD], by omega⟩
  have hn' : ∀ r, 2 ≤ (oneProcess 6 1).n1 r ∧ 0 ≤ (oneProcess 6 1).n2 r := fun r => ⟨by simp [oneProcess], by omega⟩
  obtain ⟨f', hf'⟩ := (C118_box_succeeds .mirror .wrap (c118Opt false).name flipCartesian ((1, 0, 0), (0, 1, 0), (0, 0, 1)) (c118Cfg false) ⟨.minmod, rfl⟩ ⟨.ppm, rfl⟩
    f).1 [(dt, fun _ => c118Cb)]
  exact ⟨file, file', h, h', (C118_closed_file exD 2 0 dbl_comparisons dbl_one_mul (c118_sizes _) _ _ (.inl rfl) .mirror .wrap h1 h2 hfl hn hg _ f f' hf' file h).1,
    (C118_closed_same_file exD (oneProcess 6 1) 2 0 dbl_comparisons dbl_one_mul (c118_sizes _) (c118_sizes _) _ _ (.inl rfl) ⟨.minmod, rfl⟩ ⟨.ppm, rfl⟩ .mirror .wrap
      h1 h2 hfl hn hn' hg _ f file file' h h').2⟩

/-- Inflow on the left, a partial mirror on the right, first order. -/
example (f : Dist (Fin 2) (AslPIdx 2 3 1) (ZMod 6 × ZMod 1) Dbl) (dt : Dbl) :
    ∃ file file', exD.OpenWrites 2 0 2 3 1 2 (c118Opt true) (c118Cfg true) [(dt, fun _ => c118Inc, fun _ => c118Cb)] f file ∧
      (oneProcess 6 1).OpenWrites 2 0 2 3 1 2 (c118Opt true) (c118Cfg true) [(dt, fun _ => c118Inc, fun _ => c118Cb)] f file' ∧
      ∀ i < file.len, file.data i = file'.data i := by
  obtain ⟨file, h⟩ := c118_openWrites exD f dt
  obtain ⟨file', h'⟩ := c118_openWrites (oneProcess 6 1) f dt
  have h1 : OpenSetup ((c118Opt true).name .left) ((c118Opt true).name .right) 6 := .inr (.inr ⟨by simp [c118Opt], by simp [c118Opt]⟩)
  have h2 : OpenSetup ((c118Opt true).name .bottom) ((c118Opt true).name .top) 1 := .inr (.inl ⟨rfl, rfl, rfl⟩)
  have hfl : MomentumMirror (Np1 := 2) (Np2 := 3) (Np3 := 1) (c118Opt true).pGrid flipCartesian := .inl ⟨rfl, rfl⟩
  exact ⟨file, file', h, h', (C118_open_same_file exD (oneProcess 6 1) 2 0 dbl_comparisons dbl_one_mul dbl_zero_mul (c118_sizes _) (c118_sizes _) _ _ (.inl rfl)
    ⟨.ppm, rfl⟩ h1 h2 hfl rfl (.inl (by decide)) (.inr ⟨.inr rfl, rfl, rfl⟩) rfl _ f file file' h h').2⟩

end Bolt
