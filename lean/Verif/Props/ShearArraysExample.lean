import Verif.Props.ShearArrays
import Verif.Props.BoundaryArraysExample
import Verif.Props.ShearExample

/-!
# C121: the hypotheses are met — runs of the array program in shearing boxes exist
-/

set_option linter.unusedSectionVars false

namespace Bolt

open Machine

namespace Decomp
variable {N1 N2 : ℕ} {R : Type} [NeZero N1] [NeZero N2] (D : Decomp N1 N2 R) (g1 g2 Np1 Np2 Np3 Ns : ℕ) [NeZero Np1] [NeZero Np2] [NeZero Np3] [NeZero Ns] {K : Type}
  [Field K] [LinearOrder K] [IsStrictOrderedRing K] [FloorRing K]

theorem C121_centres_exist (sp : ShearParams K) (dq1 dq2 : K) : ∃ q1 q2 : R → AfArray K, D.CentresHeld g1 g2 Np1 Np2 Np3 Ns sp dq1 dq2 q1 q2 := by
  have ex : ∀ (z : GridSizes) (q : ℕ → ℕ → K), z.HoldsCoord (AfArray.ofFn 1 1 z.M1 z.M2 fun _ _ i j => q i j) q := fun z q =>
    ⟨⟨rfl, rfl, rfl, rfl⟩, fun i j hi _ => AfArray.get_ofFn _ _ _ _ _ _ _ _ _ (by omega) (by omega) hi⟩
  exact ⟨fun r => _, fun r => _, fun r => ⟨ex (D.sizes Np1 Np2 Np3 Ns g1 g2 r) _, ex (D.sizes Np1 Np2 Np3 Ns g1 g2 r) _⟩⟩

/-- What the code's routine does at the shearing walls is a function of the array: the wall's data exist on every process. -/
theorem C121_walls_exist (sp : ShearParams K) (o : BCOptions) (hg : 2 ≤ o.nGhost) (e1 : g1 = o.nGhost) (e2 : g2 = o.nGhost)
    (hL : ∀ w, o.name w = "shearing-box" → alongLo sp w < alongHi sp w) (dq1 dq2 : K) (q1 q2 : R → AfArray K)
    (hq : D.CentresHeld g1 g2 Np1 Np2 Np3 Ns sp dq1 dq2 q1 q2) :
    ∃ b : R → ArrBCData K, ∀ r, ShearsByCode (D.sizes Np1 Np2 Np3 Ns g1 g2 r) sp o.nGhost o.name (q1 r) (q2 r) (b r).sheared := by
  classical
  have ex : ∀ r w, o.name w = "shearing-box" → ∀ a, (D.sizes Np1 Np2 Np3 Ns g1 g2 r).Fits a → ∃ b, ArrShearingF sp o.nGhost w (q1 r) (q2 r) a b := by
    intro r w hs a ha
    have p1 := D.pos1 r
    have p2 := D.pos2 r
    have i1 : NeZero (D.sizes Np1 Np2 Np3 Ns g1 g2 r).M1 := ⟨by simp only [GridSizes.M1, Decomp.sizes]; omega⟩
    have i2 : NeZero (D.sizes Np1 Np2 Np3 Ns g1 g2 r).M2 := ⟨by simp only [GridSizes.M2, Decomp.sizes]; omega⟩
    have i3 : NeZero (D.sizes Np1 Np2 Np3 Ns g1 g2 r).Np1 := ‹NeZero Np1›
    have i4 : NeZero (D.sizes Np1 Np2 Np3 Ns g1 g2 r).Np2 := ‹NeZero Np2›
    have i5 : NeZero (D.sizes Np1 Np2 Np3 Ns g1 g2 r).Np3 := ‹NeZero Np3›
    have i6 : NeZero (D.sizes Np1 Np2 Np3 Ns g1 g2 r).Ns := ‹NeZero Ns›
    obtain ⟨x, -, h⟩ := C121_wall (z := D.sizes Np1 Np2 Np3 Ns g1 g2 r) sp o.nGhost w (hL w hs) hg
      (by cases w <;> simp only [GridSizes.width, GridSizes.M1, GridSizes.M2, Decomp.sizes] <;> omega)
      (by cases w <;> simp only [GridSizes.length, GridSizes.M1, GridSizes.M2, Decomp.sizes] <;> omega) _ (q1 r) (q2 r) (hq r).1 (hq r).2
    exact (h a ha).1
  refine ⟨fun r => ⟨.ok (.num 0), .ok (.num 0), .ok (.num 0), .ok (.num 0), fun _ _ => .ok (.num 0), fun w a =>
    .ok (if h : o.name w = "shearing-box" ∧ (D.sizes Np1 Np2 Np3 Ns g1 g2 r).Fits a then (ex r w h.1 a h.2).choose else a)⟩, fun r w hs a ha => ⟨_, rfl, ?_⟩⟩
  rw [dif_pos ⟨hs, ha⟩]
  exact (ex r w hs a ha).choose_spec

/-- Shearing and periodic walls never raise. -/
theorem shear_applies (o : BCOptions) (hw : ∀ w, o.name w = "shearing-box" ∨ o.name w = "periodic") (r : R)
    (dat : D.LocBCData g1 g2 r (Fin Ns) Np1 Np2 Np3 K) (f : Dist (Fin Ns) (AslPIdx Np1 Np2 Np3) (D.Loc g1 g2 r) K) :
    ∃ f', applyBcsF (D.bcEnv g1 g2 o r dat) f = .ok f' := by
  have h : ∀ w f, ∃ f', atWall (D.bcEnv g1 g2 o r dat) w f = .ok f' := by
    intro w f
    have h1 : ∃ f', applyWall (D.bcEnv g1 g2 o r dat) w f = .ok f' := by
      rcases hw w with k | k <;> exact ⟨_, by unfold applyWall; simp only [Decomp.bcEnv, k]; rfl⟩
    unfold atWall
    split_ifs
    · exact h1
    · exact ⟨_, rfl⟩
  obtain ⟨f1, h1⟩ := h .left f
  obtain ⟨f2, h2⟩ := h .right f1
  obtain ⟨f3, h3⟩ := h .bottom f2
  obtain ⟨f4, h4⟩ := h .top f3
  exact ⟨f4, by
    simp only [applyBcsF, bind, Except.bind]
    rw [h1]; dsimp only; rw [h2]; dsimp only; rw [h3]; exact h4⟩

/-- C121 (existence): for any step sizes and callbacks, in any box whose walls are shearing or periodic, the data of the walls, the inputs and the run exist. -/
theorem C121_run_exists (sp : ShearParams K) (o : BCOptions) (hw : ∀ w, o.name w = "shearing-box" ∨ o.name w = "periodic") (h2 : 2 ≤ o.nGhost) {bc1 bc2 : PetscBC}
    (hs : setupBCs o.nGhost o.name = .ok ((bc1, g1), (bc2, g2))) (dq1 dq2 : K) (hz : D.SizesOk (D.sizes Np1 Np2 Np3 Ns g1 g2) g1 g2)
    (hL : ∀ t w, o.name w = "shearing-box" → alongLo { sp with time := t } w < alongHi { sp with time := t } w) (cfg : FVMConfig (Fin Ns) K)
    (hon : cfg.solverMethodInQ = "FVM" ∨ (cfg.solverMethodInP = "FVM" ∧ cfg.fieldsEnabled = true))
    (hmq : ∃ m, reconMethod cfg.reconstructionInQ = .ok m) (hmp : ∃ m, reconMethod cfg.reconstructionInP = .ok m)
    (q1 q2 : R → AfArray K) (hq : D.CentresHeld g1 g2 Np1 Np2 Np3 Ns sp dq1 dq2 q1 q2)
    (cbs : List (K × (Fin 2 → ∀ r, Callbacks (Fin Ns) (AslPIdx Np1 Np2 Np3) (D.Loc g1 g2 r) K) × (Fin 2 → Callbacks (Fin Ns) (AslPIdx Np1 Np2 Np3) (ℤ × ℤ) K)))
    (t : K) (F : R → AfArray K) (hF : D.Shaped g1 g2 (Np1 * Np2 * Np3) Ns F) :
    ∃ (steps : ShearSteps K D g1 g2 Np1 Np2 Np3 Ns) (F' : R → AfArray K), steps.map (fun st => (st.1, st.2.2)) = cbs ∧
      (∀ st ∈ steps, D.InputsHold g1 g2 Np1 Np2 Np3 Ns cfg st.2.1.2 st.2.2.1) ∧
      D.ClockedShearArr g1 g2 Np1 Np2 Np3 Ns sp o q1 q2 t (steps.map fun st => (st.1, st.2.1.1)) ∧
      @ArrBcRun (Fin Ns) K (exactMachine K) _ _ _ D g1 g2 Np1 Np2 Np3 Ns o cfg (steps.map fun st => (st.1, st.2.1)) F F' := by
  let M : Machine K := exactMachine K
  obtain ⟨w1, w2⟩ := shear_widths g1 g2 o hw hs
  have hK : ExactComparisons K := exact_comparisons K
  have hone : ∀ u : K, lit 1 ⊠ u = u := fun u => by change ((1 : ℚ) : K) * u = u; simp
  induction cbs generalizing t F with
  | nil => exact ⟨[], F, rfl, by simp, trivial, rfl⟩
  | cons c rest ih =>
    obtain ⟨dt, cb, cbG⟩ := c
    obtain ⟨b, hb⟩ := D.C121_walls_exist g1 g2 Np1 Np2 Np3 Ns { sp with time := t } o h2 w1 w2 (hL t) dq1 dq2 q1 q2 hq
    obtain ⟨x, hx⟩ := C113_inputs_exist_run D g1 g2 Np1 Np2 Np3 Ns cfg cb
    choose dat d1 d2 d3 d4 using fun r => D.shear_data g1 g2 Np1 Np2 Np3 Ns M o hw h2 w1 w2 { sp with time := t } dq1 dq2 (hL t) q1 q2 hq r (b r) (hb r)
    have hin : D.BcInputsHold g1 g2 Np1 Np2 Np3 Ns o cfg (fun _ => b) x (fun _ => dat) cb := ⟨hx, fun _ => d2, fun _ => d3, fun _ => d4⟩
    obtain ⟨G, hG⟩ := C117_step_succeeds hK hone hz o hs cfg dt hon hmq hmp (fun _ => b) x (fun _ => dat) cb hin
      (fun _ r f => D.shear_applies g1 g2 Np1 Np2 Np3 Ns o hw r (dat r) f) F hF
    have sG := (C117_run hK hone hz o cfg hon [(dt, (fun _ => b, x), fun _ => dat, cb)] (by simpa using hin) F G hF ⟨G, hG, rfl⟩).1
    obtain ⟨steps, F', a1, a2, a3, a4⟩ := ih (t + dt) G sG
    refine ⟨(dt, (fun _ => b, x), cb, cbG) :: steps, F', by simp [a1], ?_, ⟨fun _ => hb, a3⟩, ⟨G, hG, a4⟩⟩
    intro st hst
    rcases List.mem_cons.mp hst with rfl | hst
    · exact hx
    · exact a2 st hst

end Decomp

/-- Velocity one along the first axis and one half along the second; two species. -/
def c121Cb (Q : Type) : Callbacks (Fin 2) (AslPIdx 2 3 1) Q ℚ :=
  ⟨fun s _ _ => 1 + s.val, fun _ p _ => 1 / 2 - p.1.val, fun _ _ _ => 0, fun _ _ _ => 0, fun _ _ _ => 0, fun f => f⟩

def c121Cfg : FVMConfig (Fin 2) ℚ :=
  ⟨"FVM", "FVM", "minmod", "minmod", "upwind-flux", "upwind-flux", false, false, 1, 1, fun _ => 1, fun _ => 1, fun _ => 1⟩

/-- Two processes, two species, six momentum cells, any step sizes and initial values: a run of the array program with the code's interpolation exists, and it is the undivided
run in the sheared continuation of the box. -/
example (dts : List ℚ) (t : ℚ) (f : Dist (Fin 2) (AslPIdx 2 3 1) (ZMod 4 × ZMod 3) ℚ) :
    ∃ (q1 q2 : Fin 2 → AfArray ℚ) (steps : Decomp.ShearSteps ℚ exS 2 2 2 3 1 2) (F F' : Fin 2 → AfArray ℚ) (f' : Dist (Fin 2) (AslPIdx 2 3 1) (ZMod 4 × ZMod 3) ℚ),
      steps.map Prod.fst = dts ∧ exS.CentresHeld 2 2 2 3 1 2 exSp 1 1 q1 q2 ∧
      exS.ClockedShearArr 2 2 2 3 1 2 exSp exSOpts q1 q2 t (steps.map fun st => (st.1, st.2.1.1)) ∧ exS.Holds 2 2 (exS.cellsOf 2 2 2 3 1 2 F) f ∧
      @Decomp.ArrBcRun (Fin 2) ℚ (exactMachine ℚ) _ _ _ exS 2 2 2 3 1 2 exSOpts c121Cfg (steps.map fun st => (st.1, st.2.1)) F F' ∧
      exS.Holds 2 2 (exS.cellsOf 2 2 2 3 1 2 F') f' ∧
      clockedRun (fun t => shearExt1 (1 * 1 * (4 - 0) * t / 1)) ((1, 0, 0), (0, 1, 0), (0, 0, 1)) c121Cfg t (dts.map fun dt => (dt, fun _ => c121Cb _)) f = .ok f' := by
  let M : Machine ℚ := exactMachine ℚ
  have hz : exS.SizesOk (exS.sizes 2 3 1 2 2 2) 2 2 :=
    ⟨fun _ => rfl, fun _ => rfl, fun _ => rfl, fun _ => rfl, fun h => by omega, fun h => by omega⟩
  have hs : setupBCs exSOpts.nGhost exSOpts.name = .ok ((.periodic, 2), (.periodic, 2)) := rfl
  obtain ⟨F, sF, hF⟩ := C113_blocks_exist exS 2 2 2 3 1 2 f
  obtain ⟨q1, q2, hq⟩ := exS.C121_centres_exist 2 2 2 3 1 2 exSp 1 1
  have hext : exSp.q2End = exSp.q2Start + (3 : ℕ) * 1 := by norm_num [exSp]
  obtain ⟨steps, F', a1, a2, a3, a4⟩ := exS.C121_run_exists 2 2 2 3 1 2 exSp exSOpts (Decomp.along2_walls exSOpts_shears) (le_refl 2) hs 1 1 hz
    (Decomp.along2_extent (N2 := 3) exSOpts_shears one_pos hext) c121Cfg (.inl rfl) ⟨_, rfl⟩ ⟨_, rfl⟩ q1 q2 hq
    (dts.map fun dt => (dt, (fun _ _ => c121Cb _), fun _ => c121Cb _)) t F sF
  obtain ⟨f', hf'⟩ := clockedRun_succeeds (fun t => shearExt1 (exSp.q * exSp.omega * (exSp.q1End - exSp.q1Start) * t / 1)) ((1, 0, 0), (0, 1, 0), (0, 0, 1)) c121Cfg
    (.inr (.inl rfl)) (.inr (.inl rfl)) (steps.map fun st => (st.1, st.2.2.2)) t f
  have hd : steps.map Prod.fst = dts := by
    have := congrArg (List.map Prod.fst) a1
    simpa [Function.comp_def] using this
  have hc : steps.map (fun st => (st.1, st.2.2.2)) = dts.map fun dt => (dt, fun _ => c121Cb _) := by
    have := congrArg (List.map fun x => (x.1, x.2.2)) a1
    simpa [Function.comp_def] using this
  refine ⟨q1, q2, steps, F, F', f', hd, hq, a3, hF, a4, ?_, by rw [← hc]; exact hf'⟩
  refine exS.C121_runs 2 2 2 3 1 2 exSp exSOpts exSOpts_shears (le_refl 2) hs 1 1 one_ne_zero one_pos hext (fun r => by simp [exS]) (fun r => by simp [exS]) hz c121Cfg
    (.inl rfl) (fun m hm => ?_) q1 q2 hq steps a2 ?_ t a3 F F' sF f f' hF a4 hf'
  · have : m = .minmod := by
      simpa [c121Cfg, reconMethod, eq_comm] using hm
    subst this
    exact ⟨by decide, by decide⟩
  · intro st hst j r
    have : (st.1, st.2.2) ∈ steps.map (fun st => (st.1, st.2.2)) := List.mem_map_of_mem hst
    rw [a1] at this
    obtain ⟨dt, -, h⟩ := List.mem_map.mp this
    have h2 := (Prod.mk.inj h).2
    rw [← h2]
    exact ⟨fun _ _ _ _ => ⟨rfl, rfl⟩, fun _ _ _ _ => ⟨rfl, rfl⟩, fun _ _ _ _ => rfl, fun _ _ _ _ => rfl, fun _ _ _ _ => rfl, fun f g l _ h s p => h s p⟩

/-- A single ghost cell: on the same grid the routine never returns. -/
example (f f' : AfArray ℚ) (q1 q2 : Fin 2 → AfArray ℚ) (hq : exS.CentresHeld 1 1 2 3 1 2 exSp 1 1 q1 q2) : ¬ ArrShearingF exSp 1 .left (q1 0) (q2 0) f f' := by
  have j1 : NeZero (exS.sizes 2 3 1 2 1 1 0).M1 := ⟨by decide⟩
  have j2 : NeZero (exS.sizes 2 3 1 2 1 1 0).M2 := ⟨by decide⟩
  have i1 : NeZero (exS.sizes 2 3 1 2 1 1 0).Np1 := ⟨by change 2 ≠ 0; decide⟩
  have i2 : NeZero (exS.sizes 2 3 1 2 1 1 0).Np2 := ⟨by change 3 ≠ 0; decide⟩
  have i3 : NeZero (exS.sizes 2 3 1 2 1 1 0).Np3 := ⟨by change 1 ≠ 0; decide⟩
  have i4 : NeZero (exS.sizes 2 3 1 2 1 1 0).Ns := ⟨by change 2 ≠ 0; decide⟩
  exact C121_one_ghost_cell (z := exS.sizes 2 3 1 2 1 1 0) exSp 1 .left (by decide) (.inl (le_refl 1)) _ (q1 0) (q2 0) (hq 0).1 (hq 0).2 f f'

end Bolt
