import Verif.Proofs.MachineCoupled
import Verif.Spec.MachineCoupled
import Verif.Props.MachineFields

/-!
# C112: coupled runs in the arithmetic of the machine
-/

set_option linter.unusedSectionVars false

namespace Bolt

open Machine

/-! ## the same program -/

section exact
variable {S P Q K : Type} [AddCommGroup P] [AddCommGroup Q] [Field K] [LinearOrder K] [IsStrictOrderedRing K] [Fintype S] [Fintype P] [Fintype Q]

theorem mach_exact_store [M : Machine K] (hM : M = exactMachine K) (pr : FieldParams Q K) (dt : K) (Y : EM Q K) (σ : FieldState Q K) :
    Mach.storeFields pr dt Y σ = storeFields pr dt Y σ := by
  rw [exact_is_rounded] at hM
  have h2 : ∀ x y : EM Q K, Mach.avg x y = EM.avg x y := by
    intro x y
    simp only [Mach.avg, EM.avg, Mach.r_add hM, Mach.r_mul hM, Mach.r_lit hM, id, Rat.cast_div, Rat.cast_one, Rat.cast_ofNat]
  have h3 : ∀ C, Mach.toCentre pr.q1 pr.q2 Y = toCentre pr.q1 pr.q2 .both Y C := by
    intro C
    simp only [Mach.toCentre, toCentre, Mach.r_add hM, Mach.r_mul hM, Mach.r_lit hM, id, Rat.cast_div, Rat.cast_one, Rat.cast_ofNat, or_true,
      if_true]
  have h4 : ∀ a b : K, a ⊞ b = a + b := fun a b => by rw [Mach.r_add hM]; rfl
  simp only [Mach.storeFields, storeFields, h2, h4]
  simp only [← h3]

theorem mach_exact_currents [M : Machine K] (hM : M = exactMachine K) (c : CoupledConfig S P Q K) (m : Recon) (A B f : Dist S P Q K) :
    Mach.kineticCurrents ⟨fun x => ∑ p, x p, fun x => ∑ s, x s⟩ c m A B f = kineticCurrents c m A B f := by
  have hl : ∀ (e : Q) (C x : Q → K), Mach.leftState m e C x = leftState m e C x := by
    intro e C x
    have := mach_exact_reconFaces hM m e x
    rw [exact_is_rounded] at hM
    funext i
    simp only [Mach.leftState, leftState, riemann, afSelect, this, Mach.r_lit hM, Mach.r_lt hM, id, decide_eq_true_eq,
      gt_iff_lt, Rat.cast_zero]
  rw [exact_is_rounded] at hM
  simp only [Mach.kineticCurrents, kineticCurrents, Mach.momV, momV1, momV2, momV3, integralOverV, Mach.measure, FVMConfig.measure,
    faceLeft, faceBot, hl, Mach.r_mul hM, id]

/-- **C112 (the same program).** With exact arithmetic and exact sums the machine program is the coupled program of the other theorems (kinetic
electrons, not the FFT solver). -/
theorem C112_same_program [M : Machine K] (hM : M = exactMachine K) (c : CoupledConfig S P Q K) (hh : c.hybrid = false)
    (hf : ¬ (c.fieldsType = "electrostatic" ∧ c.fieldsSolver = "fft")) (poisson) (hyb : S)
    (steps : List (K × (Fin 2 → CoupledCallbacks S P Q K))) (st : Dist S P Q K × FieldState Q K) :
    Mach.runCoupled ⟨fun x => ∑ p, x p, fun x => ∑ s, x s⟩ c steps st = runCoupled c poisson hyb steps st := by
  have hM' := hM
  rw [exact_is_rounded] at hM'
  have hs : ∀ cb dt f σ, Mach.dfdtCoupled ⟨fun x => ∑ p, x p, fun x => ∑ s, x s⟩ c cb dt f σ = dfdtCoupled c poisson cb hyb dt f f σ := by
    intro cb dt f σ
    have hE : ∀ J : Currents Q K, evolveElectrodynamic c.fieldParams id J dt σ =
        .ok (Mach.storeFields c.fieldParams dt (Mach.fdtd c.fieldParams J dt σ.yee) σ) := by
      intro J
      rw [mach_exact_store hM, mach_exact_fdtd hM]
      simp only [evolveElectrodynamic, fdtd, evolveE, CoupledConfig.fieldParams, hh, bind, Except.bind, pure, Except.pure, id,
        Bool.false_eq_true, if_false]
    simp only [Mach.dfdtCoupled, Mach.fieldUpdate, dfdtCoupled, hh, hE, mach_exact_currents hM, mach_exact_dfdtFVM hM, if_neg hf,
      Mach.r_lit hM', id, Rat.cast_zero, Bool.false_eq_true, if_false, bind, Except.bind, pure, Except.pure]
    by_cases hp : c.solverMethodInP = "FVM" ∧ c.fieldsEnabled = true
    · simp only [if_pos hp]
      by_cases h1 : c.fieldsType = "electrodynamic" ∧ σ.flag = false
      · simp only [if_pos h1]
        by_cases h2 : c.solverMethodInQ = "FVM"
        · simp only [if_pos h2]
          cases reconMethod c.reconstructionInQ <;> rfl
        · simp only [if_neg h2]
      · simp only [if_neg h1]
    · simp only [if_neg hp]
  induction steps generalizing st with
  | nil => rfl
  | cons s rest ih =>
    obtain ⟨dt, cb⟩ := s
    simp only [Mach.runCoupled, runCoupled, Mach.stepCoupled, stepCoupled, hs, ih, Mach.r_add hM', Mach.r_mul hM', Mach.r_div hM', Mach.r_lit hM', id,
      Rat.cast_ofNat]

end exact

/-! ## any arithmetic: the distribution of the cells over processes does not matter -/

section lawless
variable {S P K : Type} [AddCommGroup P] [Machine K] (Sm : Mach.Sums S P K) {N1 N2 : ℕ} {R : Type} (D : Decomp N1 N2 R) (g1 g2 : ℕ)
  [NeZero N1] [NeZero N2]

/-- **C112 (bit for bit on any number of processes).** Whatever the arithmetic does and in whatever order the columns are summed, a run of
the coupled kinetic-field system on any number of processes computes in every cell the very numbers the run on the whole grid computes:
distribution, staggered and cell-centred fields, after any number of steps. -/
theorem C112_bitwise_decomposition_independence {o : BCOptions} {c : CoupledConfig S P (ZMod N1 × ZMod N2) K} (hc : GridConfig g1 g2 o c)
    (user : ∀ r, D.LocFieldBCs g1 g2 r K)
    (steps : List (K × (Fin 2 → ∀ r, CoupledCallbacks S P (D.Loc g1 g2 r) K) × (Fin 2 → CoupledCallbacks S P (ZMod N1 × ZMod N2) K)))
    (hcb : ∀ st ∈ steps, ∀ k r, D.CoupledAgree g1 g2 r (st.2.1 k r) (st.2.2 k))
    (F F' : ∀ r, Dist S P (D.Loc g1 g2 r) K) (σ σ' : ∀ r, FieldState (D.Loc g1 g2 r) K)
    (st st' : Dist S P (ZMod N1 × ZMod N2) K × FieldState (ZMod N1 × ZMod N2) K)
    (hF : D.Holds g1 g2 F st.1) (hσ : D.FieldsHold g1 g2 σ st.2)
    (h : Mach.RunCoupled Sm D g1 g2 o user c (steps.map fun s => (s.1, s.2.1)) F σ F' σ')
    (h' : Mach.runCoupled Sm c (steps.map fun s => (s.1, s.2.2)) st = .ok st') :
    D.Holds g1 g2 F' st'.1 ∧ D.FieldsHold g1 g2 σ' st'.2 := by
  induction steps generalizing F σ st with
  | nil =>
    simp only [List.map_nil, Mach.RunCoupled, Mach.runCoupled, Except.ok.injEq] at h h'
    obtain ⟨rfl, rfl⟩ := h
    subst h'
    exact ⟨hF, hσ⟩
  | cons s rest ih =>
    obtain ⟨dt, cb, cbG⟩ := s
    simp only [List.map_cons, Mach.RunCoupled] at h
    obtain ⟨G, τ, hG, hR⟩ := h
    simp only [List.map_cons, Mach.runCoupled, bind, Except.bind] at h'
    cases h0 : Mach.stepCoupled Sm c cbG dt st with
    | error e => simp [h0] at h'
    | ok g =>
      simp only [h0] at h'
      obtain ⟨a, b⟩ := Mach.stepCoupled_agrees Sm hc dt cb cbG (hcb (dt, cb, cbG) (by simp)) hF hσ hG h0
      exact ih (fun s hs => hcb s (by simp [hs])) G τ g a b hR h'

section total
variable {Q : Type} [AddCommGroup Q]

theorem mach_slope_total {c : CoupledConfig S P Q K} (hi : Implemented c) {Q' : Type} [AddCommGroup Q'] (ax : Axes P Q')
    (cb : Callbacks S P Q' K) (f : Dist S P Q' K) : ∃ k, Mach.dfdtFVM ax c.toFVMConfig cb f = .ok k := by
  obtain ⟨mq, hq⟩ := hi.recQ
  obtain ⟨mp, hp⟩ := hi.recP
  exact ⟨_, Mach.dfdtFVM_eq ax c.toFVMConfig (mq := mq) (mp := mp) ⟨fun _ => hq, fun _ => hp⟩ cb f⟩

theorem mach_dfdtCoupled_total {c : CoupledConfig S P Q K} (hi : Implemented c) (cb : CoupledCallbacks S P Q K) (dt : K) (f : Dist S P Q K)
    (σ : FieldState Q K) : ∃ r, Mach.dfdtCoupled Sm c cb dt f σ = .ok r := by
  have up : ∃ σ1, Mach.fieldUpdate Sm c cb dt f σ = .ok σ1 := by
    unfold Mach.fieldUpdate
    obtain ⟨m, hm⟩ := hi.recQ
    by_cases h1 : c.fieldsType = "electrodynamic" ∧ σ.flag = false
    · rw [if_pos h1, if_pos (hi.fvm h1.1), hm]
      exact ⟨_, rfl⟩
    · rw [if_neg h1]
      exact ⟨_, rfl⟩
  obtain ⟨σ1, h1⟩ := up
  unfold Mach.dfdtCoupled
  by_cases hp : c.solverMethodInP = "FVM" ∧ c.fieldsEnabled = true
  · simp only [if_pos hp, h1, bind, Except.bind, pure, Except.pure]
    obtain ⟨k, hk⟩ := mach_slope_total hi c.ax ⟨cb.Cq1, cb.Cq2, cb.Cp1 (getFields c.fieldsSolver c.solverMethodInP σ1).1,
      cb.Cp2 (getFields c.fieldsSolver c.solverMethodInP (getFields c.fieldsSolver c.solverMethodInP σ1).2).1,
      cb.Cp3 (getFields c.fieldsSolver c.solverMethodInP
        (getFields c.fieldsSolver c.solverMethodInP (getFields c.fieldsSolver c.solverMethodInP σ1).2).2).1, cb.source⟩ f
    rw [hk]
    exact ⟨_, rfl⟩
  · simp only [if_neg hp, bind, Except.bind, pure, Except.pure]
    obtain ⟨k, hk⟩ := mach_slope_total hi c.ax ⟨cb.Cq1, cb.Cq2, fun _ _ _ => lit 0, fun _ _ _ => lit 0, fun _ _ _ => lit 0, cb.source⟩ f
    rw [hk]
    exact ⟨_, rfl⟩

/-- **C112 (nothing raises).** The whole-grid run never raises if the options are implemented ones, whatever the arithmetic does. -/
theorem C112_whole_grid_run_exists {c : CoupledConfig S P Q K} (hi : Implemented c) (steps : List (K × (Fin 2 → CoupledCallbacks S P Q K)))
    (st : Dist S P Q K × FieldState Q K) : ∃ st', Mach.runCoupled Sm c steps st = .ok st' := by
  induction steps generalizing st with
  | nil => exact ⟨st, rfl⟩
  | cons stp rest ih =>
    obtain ⟨dt, cb⟩ := stp
    obtain ⟨r0, h0⟩ := mach_dfdtCoupled_total Sm hi (cb 0) dt st.1 st.2
    obtain ⟨r1, h1⟩ := mach_dfdtCoupled_total Sm hi (cb 1) dt (fun s p q => st.1 s p q ⊞ r0.1 s p q ⊠ (dt ⊘ lit 2)) r0.2
    simp only [Mach.runCoupled, Mach.stepCoupled, bind, Except.bind, pure, Except.pure, h0, h1]
    exact ih _

end total

/-- **C112 (two decompositions).** Two runs of the same coupled problem on different process grids, with different ghost widths, agree bit
for bit in every cell: distribution, staggered fields and the fields handed to the forces. -/
theorem C112_two_decompositions_agree {R' : Type} (D' : Decomp N1 N2 R') (g1' g2' : ℕ)
    {o o' : BCOptions} {c : CoupledConfig S P (ZMod N1 × ZMod N2) K} (hc : GridConfig g1 g2 o c) (hc' : GridConfig g1' g2' o' c)
    (hi : Implemented c) (user : ∀ r, D.LocFieldBCs g1 g2 r K) (user' : ∀ r, D'.LocFieldBCs g1' g2' r K)
    (steps : List (K × (Fin 2 → ∀ r, CoupledCallbacks S P (D.Loc g1 g2 r) K) × (Fin 2 → ∀ r, CoupledCallbacks S P (D'.Loc g1' g2' r) K) ×
      (Fin 2 → CoupledCallbacks S P (ZMod N1 × ZMod N2) K)))
    (hcb : ∀ st ∈ steps, ∀ k r, D.CoupledAgree g1 g2 r (st.2.1 k r) (st.2.2.2 k))
    (hcb' : ∀ st ∈ steps, ∀ k r, D'.CoupledAgree g1' g2' r (st.2.2.1 k r) (st.2.2.2 k))
    (F F1 : ∀ r, Dist S P (D.Loc g1 g2 r) K) (σ σ1 : ∀ r, FieldState (D.Loc g1 g2 r) K)
    (G G1 : ∀ r, Dist S P (D'.Loc g1' g2' r) K) (ρ ρ1 : ∀ r, FieldState (D'.Loc g1' g2' r) K)
    (f : Dist S P (ZMod N1 × ZMod N2) K) (τ : FieldState (ZMod N1 × ZMod N2) K)
    (hF : D.Holds g1 g2 F f) (hσ : D.FieldsHold g1 g2 σ τ) (hG : D'.Holds g1' g2' G f) (hρ : D'.FieldsHold g1' g2' ρ τ)
    (h : Mach.RunCoupled Sm D g1 g2 o user c (steps.map fun s => (s.1, s.2.1)) F σ F1 σ1)
    (h' : Mach.RunCoupled Sm D' g1' g2' o' user' c (steps.map fun s => (s.1, s.2.2.1)) G ρ G1 ρ1) :
    ∀ r l r' l', D.Interior g1 g2 r l → D'.Interior g1' g2' r' l' → D.toGlob g1 g2 r l = D'.toGlob g1' g2' r' l' →
      (∀ s p, F1 r s p l = G1 r' s p l') ∧ (∀ k, (σ1 r).yee.comp k l = (ρ1 r').yee.comp k l') ∧
      ∀ k, (getFields c.fieldsSolver c.solverMethodInP (σ1 r)).1.comp k l = (getFields c.fieldsSolver c.solverMethodInP (ρ1 r')).1.comp k l'
    := by
  obtain ⟨⟨f', τ'⟩, hf⟩ := C112_whole_grid_run_exists Sm hi (steps.map fun s => (s.1, s.2.2.2)) (f, τ)
  obtain ⟨a1, a2⟩ := C112_bitwise_decomposition_independence Sm D g1 g2 hc user (steps.map fun s => (s.1, s.2.1, s.2.2.2))
    (by intro st hst; obtain ⟨x, hx, rfl⟩ := List.mem_map.mp hst; exact hcb x hx)
    F F1 σ σ1 (f, τ) (f', τ') hF hσ (by rw [List.map_map]; exact h) (by rw [List.map_map]; exact hf)
  obtain ⟨b1, b2⟩ := C112_bitwise_decomposition_independence Sm D' g1' g2' hc' user' (steps.map fun s => (s.1, s.2.2.1, s.2.2.2))
    (by intro st hst; obtain ⟨x, hx, rfl⟩ := List.mem_map.mp hst; exact hcb' x hx)
    G G1 ρ ρ1 (f, τ) (f', τ') hG hρ (by rw [List.map_map]; exact h') (by rw [List.map_map]; exact hf)
  intro r l r' l' hl hl' e
  refine ⟨fun s p => by rw [a1 r s p l hl, b1 r' s p l' hl', e], fun k => by rw [a2.yee r k l hl, b2.yee r' k l' hl', e], fun k => ?_⟩
  have hh : ∀ j, ((σ1 r).heap j).comp k l = ((ρ1 r').heap j).comp k l' := fun j => by rw [a2.heap r j k l hl, b2.heap r' j k l' hl', e]
  simp only [getFields, a2.cc r, a2.flag r, a2.atN r, a2.atHalf r, b2.cc r', b2.flag r', b2.atN r', b2.atHalf r']
  split_ifs <;> exact hh _

/-- Such runs exist from any state in which the processes have the same flag. -/
theorem C112_decomposed_run_exists {o : BCOptions} {c : CoupledConfig S P (ZMod N1 × ZMod N2) K} (hc : GridConfig g1 g2 o c)
    (hi : Implemented c) (hw : WidthsMatch g1 g2 o) (user : ∀ r, D.LocFieldBCs g1 g2 r K)
    (steps : List (K × (Fin 2 → ∀ r, CoupledCallbacks S P (D.Loc g1 g2 r) K)))
    (F : ∀ r, Dist S P (D.Loc g1 g2 r) K) (σ : ∀ r, FieldState (D.Loc g1 g2 r) K) (b : Bool) (hb : ∀ r, (σ r).flag = b) :
    ∃ F' σ', Mach.RunCoupled Sm D g1 g2 o user c steps F σ F' σ' := by
  have sync : ∀ F : ∀ r, EM (D.Loc g1 g2 r) K, ∃ F0, D.SyncedFields g1 g2 o user F F0 := fun F =>
    ⟨_, _, ⟨_, _, F, Decomp.widths_fields g1 g2 hw, rfl⟩,
      fun r => Decomp.applyBcsFields_wrap _ _ (fun w => Decomp.names_wrap hc.ends1 hc.ends2 w) _⟩
  have slope : ∀ (cb : ∀ r, CoupledCallbacks S P (D.Loc g1 g2 r) K) (dt : K) (F : ∀ r, Dist S P (D.Loc g1 g2 r) K)
      (σ : ∀ r, FieldState (D.Loc g1 g2 r) K) (b : Bool), (∀ r, (σ r).flag = b) →
      ∃ k σ' b', Mach.SlopeCoupled Sm D g1 g2 o user c cb dt F σ k σ' ∧ ∀ r, (σ' r).flag = b' := by
    intro cb dt F σ b hb
    by_cases hp : c.solverMethodInP = "FVM" ∧ c.fieldsEnabled = true
    · have phase : ∃ σ1, Mach.FieldPhase Sm D g1 g2 o user c cb dt F σ σ1 ∧ ∀ r, (σ1 r).flag = b := by
        by_cases he : c.fieldsType = "electrodynamic" ∧ b = false
        · obtain ⟨m, hm⟩ := hi.recQ
          obtain ⟨Y0, s0⟩ := sync (fun r => (σ r).yee)
          obtain ⟨Y2, s2⟩ := sync (fun r => Mach.evolveE (D.locCfg g1 g2 c r).fieldParams
            (Mach.kineticCurrents Sm (D.locCfg g1 g2 c r) m (cb r).Cq1 (cb r).Cq2 (F r)) dt (Y0 r))
          exact ⟨_, Or.inl ⟨he.1, fun r => by rw [hb r, he.2], hi.fvm he.1, m, hm, _, ⟨Y0, Y2, s0, s2, fun _ => rfl⟩, fun _ => rfl⟩,
            fun r => (Mach.store_rest _ _ _ _).2.1.trans (hb r)⟩
        · refine ⟨σ, Or.inr ⟨?_, rfl⟩, hb⟩
          by_cases ht : c.fieldsType = "electrodynamic"
          · right
            intro r
            rw [hb r]
            cases b
            · exact absurd ⟨ht, rfl⟩ he
            · rfl
          · exact Or.inl ht
      obtain ⟨σ1, hph, hb1⟩ := phase
      choose k hk using fun r => mach_slope_total hi (D.locCfg g1 g2 c r).ax ⟨(cb r).Cq1, (cb r).Cq2,
        (cb r).Cp1 (getFields c.fieldsSolver c.solverMethodInP (σ1 r)).1,
        (cb r).Cp2 (getFields c.fieldsSolver c.solverMethodInP (getFields c.fieldsSolver c.solverMethodInP (σ1 r)).2).1,
        (cb r).Cp3 (getFields c.fieldsSolver c.solverMethodInP
          (getFields c.fieldsSolver c.solverMethodInP (getFields c.fieldsSolver c.solverMethodInP (σ1 r)).2).2).1, (cb r).source⟩ (F r)
      refine ⟨k, fun r => (getFields c.fieldsSolver c.solverMethodInP
          (getFields c.fieldsSolver c.solverMethodInP (getFields c.fieldsSolver c.solverMethodInP (σ1 r)).2).2).2, !b, ?_, ?_⟩
      · rw [Mach.SlopeCoupled, if_pos hp]
        exact ⟨σ1, hph, fun r => ⟨hk r, rfl⟩⟩
      · intro r
        simp only [Mach.get_flag _ _ hp.1, hb1 r, Bool.not_not]
    · choose k hk using fun r => mach_slope_total hi (D.locCfg g1 g2 c r).ax
        ⟨(cb r).Cq1, (cb r).Cq2, fun _ _ _ => lit 0, fun _ _ _ => lit 0, fun _ _ _ => lit 0, (cb r).source⟩ (F r)
      refine ⟨k, σ, b, ?_, hb⟩
      rw [Mach.SlopeCoupled, if_neg hp]
      exact ⟨hk, rfl⟩
  induction steps generalizing F σ b with
  | nil => exact ⟨F, σ, rfl, rfl⟩
  | cons st rest ih =>
    obtain ⟨dt, cb⟩ := st
    obtain ⟨k0, σh, b0, a0, c0⟩ := slope (cb 0) dt (D.exchange g1 g2 .periodic .periodic F F) σ b hb
    obtain ⟨k1, σ1, b1, a1, c1⟩ := slope (cb 1) dt (D.exchange g1 g2 .periodic .periodic F
      (fun r s p l => D.exchange g1 g2 .periodic .periodic F F r s p l ⊞ k0 r s p l ⊠ (dt ⊘ lit 2))) σh b0 c0
    obtain ⟨F', σ', hR⟩ := ih (fun r s p l => D.exchange g1 g2 .periodic .periodic F F r s p l ⊞ k1 r s p l ⊠ dt) σ1 b1 c1
    exact ⟨F', σ', _, _, ⟨F, F, k0, k1, σh, a0, a1, rfl⟩, hR⟩

end lawless

end Bolt
