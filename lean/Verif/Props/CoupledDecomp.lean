import Verif.Proofs.CoupledDecomp
import Verif.Props.Coupled
import Verif.Props.DecompExample

/-!
# C67: a coupled run on several processes is the coupled run on the whole grid
-/

set_option linter.unusedSectionVars false

namespace Bolt

section global
variable {S P Q K : Type} [AddCommGroup P] [AddCommGroup Q] [Field K] [LinearOrder K] [IsStrictOrderedRing K] [Fintype S] [Fintype P]
  [Fintype Q]

theorem meanAbsSmall_zero {x : Q → K} (h : ∀ i, x i = 0) : meanAbsSmall x := by
  simp [meanAbsSmall, h]

theorem evolveE_total (pr : FieldParams Q K) (J : Currents Q K) (dt : K) (F : EM Q K)
    (h : pr.hybrid = true → ∀ i, J.J1 i = curlB1 pr F i / pr.mu ∧ J.J2 i = curlB2 pr F i / pr.mu ∧ J.J3 i = curlB3 pr F i / pr.mu) :
    ∃ F', evolveE pr J dt F = .ok F' := by
  unfold evolveE
  split_ifs with h1 h2
  · exact ⟨_, rfl⟩
  · exact absurd ⟨meanAbsSmall_zero fun i => by rw [(h h1 i).1, sub_self], meanAbsSmall_zero fun i => by rw [(h h1 i).2.1, sub_self],
      meanAbsSmall_zero fun i => by rw [(h h1 i).2.2, sub_self]⟩ h2
  · exact ⟨_, rfl⟩

/-- C67: in the hybrid model the field step checks that the current is `curl B / mu` to within `10^-14` on average, component by component:
a current that is off by the same amount `d` in every cell of one component passes exactly if `|d| < 10^-14`, and otherwise raises
`AssertionError`; either way the electric field is not touched. -/
theorem C67_current_check [Nonempty Q] {pr : FieldParams Q K} (h : pr.hybrid = true) (J : Currents Q K) (dt : K) (F : EM Q K) (d1 d2 d3 : K)
    (h1 : ∀ i, J.J1 i = curlB1 pr F i / pr.mu + d1) (h2 : ∀ i, J.J2 i = curlB2 pr F i / pr.mu + d2)
    (h3 : ∀ i, J.J3 i = curlB3 pr F i / pr.mu + d3) :
    evolveE pr J dt F = if |d1| < 1 / 100000000000000 ∧ |d2| < 1 / 100000000000000 ∧ |d3| < 1 / 100000000000000 then .ok F
      else .error .assertion := by
  have k : ∀ d : K, meanAbsSmall (fun _ : Q => d) ↔ |d| < 1 / 100000000000000 := fun d => by
    have : (Fintype.card Q : K) ≠ 0 := Nat.cast_ne_zero.mpr Fintype.card_ne_zero
    rw [meanAbsSmall, Finset.sum_const, Finset.card_univ, nsmul_eq_mul, mul_div_cancel_left₀ _ this]
    norm_num
  unfold evolveE
  simp only [h, h1, h2, h3, add_sub_cancel_left, if_true, k]

/-- A current off by `10^-14` everywhere is refused, one off by half of that is not. -/
example (pr : FieldParams (ZMod 2) ℚ) (h : pr.hybrid = true) (dt : ℚ) (F : EM (ZMod 2) ℚ) (d : ℚ) (hd : 0 ≤ d) :
    evolveE pr ⟨fun i => curlB1 pr F i / pr.mu + d, fun i => curlB2 pr F i / pr.mu + 0, fun i => curlB3 pr F i / pr.mu + 0⟩ dt F = .ok F ↔
      d < 1 / 10 ^ 14 := by
  rw [C67_current_check h _ dt F d 0 0 (fun _ => rfl) (fun _ => rfl) (fun _ => rfl)]
  split_ifs with hh
  · rw [abs_of_nonneg hd] at hh
    exact iff_of_true rfl (by have := hh.1; norm_num at this ⊢; exact this)
  · refine iff_of_false (by simp) fun hl => hh ⟨?_, by norm_num, by norm_num⟩
    rw [abs_of_nonneg hd]; norm_num at hl ⊢; exact hl

theorem slope_total {Q : Type} [AddCommGroup Q] {c : CoupledConfig S P Q K} (hc : Implemented c) {Q' : Type} [AddCommGroup Q'] (ax : Axes P Q')
    (cb : Callbacks S P Q' K) (f : Dist S P Q' K) : ∃ k, dfdtFVM ax c.toFVMConfig cb f = .ok k := by
  obtain ⟨m, hm⟩ := hc.recQ
  obtain ⟨m', hm'⟩ := hc.recP
  have hname : ∀ name : String, (∃ m, reconMethod name = .ok m) → (name = "piecewise-constant" ∨ name = "minmod" ∨ name = "ppm") := by
    intro name; simp only [reconMethod]; split_ifs <;> simp_all
  exact (C09_slope_ok_iff _ _ _ _).mpr ⟨fun _ => hname _ ⟨m, hm⟩, fun _ => hname _ ⟨m', hm'⟩⟩

theorem dfdtCoupled_total {c : CoupledConfig S P Q K} (hc : Implemented c) (poisson) (cb : CoupledCallbacks S P Q K) (hyb : S) (dt : K)
    (g f : Dist S P Q K) (σ : FieldState Q K) : ∃ r, dfdtCoupled c poisson cb hyb dt g f σ = .ok r := by
  obtain ⟨m, hm⟩ := hc.recQ
  have hk := fun cb' => slope_total hc c.ax cb' f
  have ev : ∀ (J : Currents Q K) (σ : FieldState Q K), (c.hybrid = true → ∀ i, J.J1 i = curlB1 c.fieldParams σ.yee i / c.mu ∧ J.J2 i = curlB2 c.fieldParams σ.yee i / c.mu ∧
      J.J3 i = curlB3 c.fieldParams σ.yee i / c.mu) → ∃ σ1, evolveElectrodynamic c.fieldParams id J dt σ = .ok σ1 := by
    intro J σ h
    obtain ⟨F', hF⟩ := evolveE_total c.fieldParams J dt σ.yee h
    simp only [evolveElectrodynamic, fdtd, id_eq, hF, bind, Except.bind, pure, Except.pure]
    exact ⟨_, rfl⟩
  have fin : ∀ σ2 : FieldState Q K, ∃ r, (do
      let h1 := getFields c.fieldsSolver c.solverMethodInP σ2
      let h2 := getFields c.fieldsSolver c.solverMethodInP h1.2
      let h3 := getFields c.fieldsSolver c.solverMethodInP h2.2
      let k ← dfdtFVM c.ax c.toFVMConfig ⟨cb.Cq1, cb.Cq2, cb.Cp1 h1.1, cb.Cp2 h2.1, cb.Cp3 h3.1, cb.source⟩ f
      pure (k, h3.2) : Except PyErr (Dist S P Q K × FieldState Q K)) = .ok r := by
    intro σ2
    obtain ⟨k, h⟩ := hk ⟨cb.Cq1, cb.Cq2, cb.Cp1 (getFields c.fieldsSolver c.solverMethodInP σ2).1,
      cb.Cp2 (getFields c.fieldsSolver c.solverMethodInP (getFields c.fieldsSolver c.solverMethodInP σ2).2).1,
      cb.Cp3 (getFields c.fieldsSolver c.solverMethodInP
        (getFields c.fieldsSolver c.solverMethodInP (getFields c.fieldsSolver c.solverMethodInP σ2).2).2).1, cb.source⟩
    simp only [h, bind, Except.bind, pure, Except.pure]
    exact ⟨_, rfl⟩
  simp only [bind, Except.bind, pure, Except.pure] at fin
  unfold dfdtCoupled
  by_cases h1 : c.solverMethodInP = "FVM" ∧ c.fieldsEnabled = true
  · simp only [h1.1, h1.2, and_self, if_true, hm, bind, Except.bind, pure, Except.pure] at fin ⊢
    by_cases h3 : c.fieldsType = "electrodynamic" ∧ σ.flag = false
    · have h2 : ¬ (c.fieldsType = "electrostatic" ∧ c.fieldsSolver = "fft") := fun h => by simp [h3.1] at h
      simp only [if_pos h3, if_neg h2, if_pos (hc.fvm h3.1)]
      by_cases h5 : c.hybrid = true
      · simp only [if_pos h5]
        obtain ⟨σ1, h6⟩ := ev (hybridFields c hyb m cb.Cq1 cb.Cq2 f g σ.yee).1
          { σ with yee := σ.yee.setE (some (hybridFields c hyb m cb.Cq1 cb.Cq2 f g σ.yee).2) } (fun _ i => ⟨rfl, rfl, rfl⟩)
        simp only [h6]
        exact fin σ1
      · simp only [if_neg h5]
        obtain ⟨σ1, h6⟩ := ev (kineticCurrents c m cb.Cq1 cb.Cq2 f) σ (fun h => absurd h h5)
        simp only [h6]
        exact fin σ1
    · simp only [if_neg h3]
      by_cases h2 : c.fieldsType = "electrostatic" ∧ c.fieldsSolver = "fft"
      · simp only [if_pos h2]; exact fin _
      · simp only [if_neg h2]; exact fin _
  · obtain ⟨k, h⟩ := hk ⟨cb.Cq1, cb.Cq2, fun _ _ _ => 0, fun _ _ _ => 0, fun _ _ _ => 0, cb.source⟩
    simp only [if_neg h1, h, bind, Except.bind, pure, Except.pure]
    exact ⟨_, rfl⟩

/-- C67: the whole-grid run never raises if the options are implemented ones; in particular the hybrid model's assertion always passes. -/
theorem C67_whole_grid_run_exists {c : CoupledConfig S P Q K} (hc : Implemented c) (poisson) (hyb : S)
    (steps : List (K × (Fin 2 → CoupledCallbacks S P Q K))) (st : Dist S P Q K × FieldState Q K) :
    ∃ st', runCoupled c poisson hyb steps st = .ok st' := by
  induction steps generalizing st with
  | nil => exact ⟨st, rfl⟩
  | cons stp rest ih =>
    obtain ⟨dt, cb⟩ := stp
    obtain ⟨r0, h0⟩ := dfdtCoupled_total hc poisson (cb 0) hyb dt st.1 st.1 st.2
    obtain ⟨r1, h1⟩ := dfdtCoupled_total hc poisson (cb 1) hyb dt (fun s p q => st.1 s p q + r0.1 s p q * (dt / 2))
      (fun s p q => st.1 s p q + r0.1 s p q * (dt / 2)) r0.2
    simp only [runCoupled, stepCoupled, bind, Except.bind, pure, Except.pure, h0, h1]
    exact ih _

end global

namespace Decomp

variable {N1 N2 : ℕ} {R : Type} (D : Decomp N1 N2 R) (g1 g2 : ℕ) [NeZero N1] [NeZero N2] {S K : Type} [Fintype S] [Field K] [LinearOrder K]
  [IsStrictOrderedRing K] {Np1 Np2 Np3 : ℕ} [Fintype (PIdx Np1 Np2 Np3)] [∀ r, Fintype (D.Loc g1 g2 r)] [Fintype (ZMod N1 × ZMod N2)]

theorem stepCoupled_agrees {o : BCOptions} {c : CoupledConfig S (PIdx Np1 Np2 Np3) (ZMod N1 × ZMod N2) K} (hc : GridConfig g1 g2 o c)
    (hyb : S) (poisson) (dt : K) (inp : D.CoupledInput g1 g2 S Np1 Np2 Np3 K)
    (cbG : Fin 2 → CoupledCallbacks S (PIdx Np1 Np2 Np3) (ZMod N1 × ZMod N2) K)
    (hcb : ∀ k r, D.CoupledAgree g1 g2 r (inp.cb k r) (cbG k))
    {F F' : ∀ r, Dist S (PIdx Np1 Np2 Np3) (D.Loc g1 g2 r) K} {σ σ' : ∀ r, FieldState (D.Loc g1 g2 r) K}
    {st st' : Dist S (PIdx Np1 Np2 Np3) (ZMod N1 × ZMod N2) K × FieldState (ZMod N1 × ZMod N2) K}
    (hF : D.Holds g1 g2 F st.1) (hσ : D.FieldsHold g1 g2 σ st.2) (h : D.StepCoupled g1 g2 o c hyb dt inp F σ F' σ')
    (h' : stepCoupled c poisson cbG hyb dt st = .ok st') : D.Holds g1 g2 F' st'.1 ∧ D.FieldsHold g1 g2 σ' st'.2 := by
  obtain ⟨F0, k0, Fh, k1, σh, s0, a0, s1, a1, rfl⟩ := h
  obtain ⟨r0, r1, b0, b1, rfl⟩ := stepCoupled_ok h'
  rw [holds_iff] at hF
  have f0 : ∀ r s p l, F0 r s p l = st.1 s p (D.toGlob g1 g2 r l) := fun r s p l => by
    rw [synced_wrap D g1 g2 hc.ends1 hc.ends2 s0 r s p l, hF]
  obtain ⟨u0, v0⟩ := slopeCoupled_agrees hc (hcb 0) f0 hσ a0 b0
  have hh : D.assemble g1 g2 (fun r s p l => F0 r s p l + k0 r s p l * (dt / 2)) = fun s p q => st.1 s p q + r0.1 s p q * (dt / 2) := by
    rw [← holds_iff]
    intro r s p l hl
    beta_reduce
    rw [f0, u0 r s p l hl]
  have f1 : ∀ r s p l, Fh r s p l = (fun s p q => st.1 s p q + r0.1 s p q * (dt / 2)) s p (D.toGlob g1 g2 r l) := fun r s p l => by
    rw [synced_wrap D g1 g2 hc.ends1 hc.ends2 s1 r s p l, hh]
  obtain ⟨u1, v1⟩ := slopeCoupled_agrees hc (hcb 1) f1 v0 a1 b1
  refine ⟨fun r s p l hl => ?_, v1⟩
  beta_reduce
  rw [f0, u1 r s p l hl]

/-- C67: after any number of steps of the coupled kinetic-field system (kinetic or hybrid electrons, fields updated by FDTD or frozen),
every process holds in its bulk exactly the distribution, the staggered fields and the cell-centred fields that one run on the whole grid
computes, for every partition of the grid into rectangles. -/
theorem C67_coupled_decomposition_independence {o : BCOptions} {c : CoupledConfig S (PIdx Np1 Np2 Np3) (ZMod N1 × ZMod N2) K}
    (hc : GridConfig g1 g2 o c) (hyb : S) (poisson)
    (steps : List (K × D.CoupledInput g1 g2 S Np1 Np2 Np3 K × (Fin 2 → CoupledCallbacks S (PIdx Np1 Np2 Np3) (ZMod N1 × ZMod N2) K)))
    (hcb : ∀ st ∈ steps, ∀ k r, D.CoupledAgree g1 g2 r (st.2.1.cb k r) (st.2.2 k))
    (F F' : ∀ r, Dist S (PIdx Np1 Np2 Np3) (D.Loc g1 g2 r) K) (σ σ' : ∀ r, FieldState (D.Loc g1 g2 r) K)
    (st st' : Dist S (PIdx Np1 Np2 Np3) (ZMod N1 × ZMod N2) K × FieldState (ZMod N1 × ZMod N2) K)
    (hF : D.Holds g1 g2 F st.1) (hσ : D.FieldsHold g1 g2 σ st.2)
    (h : D.RunCoupled g1 g2 o c hyb (steps.map fun s => (s.1, s.2.1)) F σ F' σ')
    (h' : runCoupled c poisson hyb (steps.map fun s => (s.1, s.2.2)) st = .ok st') :
    D.Holds g1 g2 F' st'.1 ∧ D.FieldsHold g1 g2 σ' st'.2 := by
  induction steps generalizing F σ st with
  | nil =>
    simp only [List.map_nil, RunCoupled, runCoupled, Except.ok.injEq] at h h'
    obtain ⟨rfl, rfl⟩ := h
    subst h'
    exact ⟨hF, hσ⟩
  | cons s rest ih =>
    obtain ⟨dt, inp, cbG⟩ := s
    simp only [List.map_cons, RunCoupled] at h
    obtain ⟨G, τ, hG, hR⟩ := h
    simp only [List.map_cons, runCoupled, bind, Except.bind] at h'
    cases h0 : stepCoupled c poisson cbG hyb dt st with
    | error e => simp [h0] at h'
    | ok g =>
      simp only [h0] at h'
      obtain ⟨a, b⟩ := stepCoupled_agrees D g1 g2 hc hyb poisson dt inp cbG (hcb (dt, inp, cbG) (by simp)) hF hσ hG h0
      exact ih (fun s hs => hcb s (by simp [hs])) G τ g a b hR h'

/-- C67: two coupled runs of the same problem on different partitions (any numbers of processes, any ghost widths that suffice) agree in
every cell: distribution, staggered fields and the fields handed to the forces. -/
theorem C67_two_decompositions_agree {R' : Type} (D' : Decomp N1 N2 R') (g1' g2' : ℕ) [∀ r, Fintype (D'.Loc g1' g2' r)]
    {o o' : BCOptions} {c : CoupledConfig S (PIdx Np1 Np2 Np3) (ZMod N1 × ZMod N2) K} (hc : GridConfig g1 g2 o c)
    (hc' : GridConfig g1' g2' o' c) (hi : Implemented c) (hyb : S)
    (steps : List (K × D.CoupledInput g1 g2 S Np1 Np2 Np3 K × D'.CoupledInput g1' g2' S Np1 Np2 Np3 K ×
      (Fin 2 → CoupledCallbacks S (PIdx Np1 Np2 Np3) (ZMod N1 × ZMod N2) K)))
    (hcb : ∀ st ∈ steps, ∀ k r, D.CoupledAgree g1 g2 r (st.2.1.cb k r) (st.2.2.2 k))
    (hcb' : ∀ st ∈ steps, ∀ k r, D'.CoupledAgree g1' g2' r (st.2.2.1.cb k r) (st.2.2.2 k))
    (F F1 : ∀ r, Dist S (PIdx Np1 Np2 Np3) (D.Loc g1 g2 r) K) (σ σ1 : ∀ r, FieldState (D.Loc g1 g2 r) K)
    (G G1 : ∀ r, Dist S (PIdx Np1 Np2 Np3) (D'.Loc g1' g2' r) K) (ρ ρ1 : ∀ r, FieldState (D'.Loc g1' g2' r) K)
    (f : Dist S (PIdx Np1 Np2 Np3) (ZMod N1 × ZMod N2) K) (τ : FieldState (ZMod N1 × ZMod N2) K)
    (hF : D.Holds g1 g2 F f) (hσ : D.FieldsHold g1 g2 σ τ) (hG : D'.Holds g1' g2' G f) (hρ : D'.FieldsHold g1' g2' ρ τ)
    (h : D.RunCoupled g1 g2 o c hyb (steps.map fun s => (s.1, s.2.1)) F σ F1 σ1)
    (h' : D'.RunCoupled g1' g2' o' c hyb (steps.map fun s => (s.1, s.2.2.1)) G ρ G1 ρ1) :
    ∀ r l r' l', D.Interior g1 g2 r l → D'.Interior g1' g2' r' l' → D.toGlob g1 g2 r l = D'.toGlob g1' g2' r' l' →
      (∀ s p, F1 r s p l = G1 r' s p l') ∧ (∀ k, (σ1 r).yee.comp k l = (ρ1 r').yee.comp k l') ∧
      ∀ k, (getFields c.fieldsSolver c.solverMethodInP (σ1 r)).1.comp k l = (getFields c.fieldsSolver c.solverMethodInP (ρ1 r')).1.comp k l'
    := by
  obtain ⟨⟨f', τ'⟩, hf⟩ := C67_whole_grid_run_exists hi (fun _ σ => σ) hyb (steps.map fun s => (s.1, s.2.2.2)) (f, τ)
  obtain ⟨a1, a2⟩ := C67_coupled_decomposition_independence D g1 g2 hc hyb (fun _ σ => σ) (steps.map fun s => (s.1, s.2.1, s.2.2.2))
    (by intro st hst; obtain ⟨x, hx, rfl⟩ := List.mem_map.mp hst; exact hcb x hx)
    F F1 σ σ1 (f, τ) (f', τ') hF hσ (by rw [List.map_map]; exact h) (by rw [List.map_map]; exact hf)
  obtain ⟨b1, b2⟩ := C67_coupled_decomposition_independence D' g1' g2' hc' hyb (fun _ σ => σ) (steps.map fun s => (s.1, s.2.2.1, s.2.2.2))
    (by intro st hst; obtain ⟨x, hx, rfl⟩ := List.mem_map.mp hst; exact hcb' x hx)
    G G1 ρ ρ1 (f, τ) (f', τ') hG hρ (by rw [List.map_map]; exact h') (by rw [List.map_map]; exact hf)
  intro r l r' l' hl hl' e
  refine ⟨fun s p => by rw [a1 r s p l hl, b1 r' s p l' hl', e], fun k => by rw [a2.yee r k l hl, b2.yee r' k l' hl', e], fun k => ?_⟩
  have hh : ∀ j, ((σ1 r).heap j).comp k l = ((ρ1 r').heap j).comp k l' := fun j => by rw [a2.heap r j k l hl, b2.heap r' j k l' hl', e]
  simp only [getFields, a2.cc r, a2.flag r, a2.atN r, a2.atHalf r, b2.cc r', b2.flag r', b2.atN r', b2.atHalf r']
  split_ifs <;> exact hh _

/-! ### the decomposed run exists -/

theorem synced_exists {o : BCOptions} (h1 : PeriodicEnds (o.name .left) (o.name .right) N1)
    (h2 : PeriodicEnds (o.name .bottom) (o.name .top) N2) (hw : WidthsMatch g1 g2 o) (dat : ∀ r, D.LocBCData g1 g2 r S Np1 Np2 Np3 K)
    (F : ∀ r, Dist S (PIdx Np1 Np2 Np3) (D.Loc g1 g2 r) K) : ∃ F0, D.Synced g1 g2 o dat F F0 := by
  have hset : setupBCs o.nGhost o.name = .ok (petscAxis o.nGhost (o.name .left), petscAxis o.nGhost (o.name .bottom)) := by
    unfold setupBCs
    rcases h1 with ⟨a, b⟩ | ⟨a, b, -⟩ <;> rcases h2 with ⟨d, e⟩ | ⟨d, e, -⟩ <;> simp [a, b, d, e]
  have skip : ∀ r w f, atWall (D.bcEnv g1 g2 o r (dat r)) w f = .ok f := by
    intro r w f
    unfold atWall
    split_ifs
    · have : (D.bcEnv g1 g2 o r (dat r)).name w = o.name w := rfl
      rcases names_wrap h1 h2 w with hw | hw <;> simp [applyWall, this, hw]
    · rfl
  refine ⟨D.exchange g1 g2 (petscAxis o.nGhost (o.name .left)).1 (petscAxis o.nGhost (o.name .bottom)).1 F F,
    (petscAxis o.nGhost (o.name .left)).1, (petscAxis o.nGhost (o.name .bottom)).1, F, ?_, fun r => ?_⟩
  · rw [hset, ← hw.1, ← hw.2]
  · simp only [applyBcsF, skip, bind, Except.bind]

theorem widths_fields {o : BCOptions} (hw : WidthsMatch g1 g2 o) :
    FieldTypes g1 g2 o (petscAxisFields o.nGhost (o.name .left)).1 (petscAxisFields o.nGhost (o.name .bottom)).1 := by
  have key : ∀ x, (petscAxisFields o.nGhost x).2 = (petscAxis o.nGhost x).2 := by
    intro x; simp only [petscAxis, petscAxisFields]; split_ifs <;> rfl
  constructor <;> refine Prod.ext rfl ?_
  · rw [key]; exact hw.1
  · rw [key]; exact hw.2

theorem syncedFields_exists {o : BCOptions} (h1 : PeriodicEnds (o.name .left) (o.name .right) N1)
    (h2 : PeriodicEnds (o.name .bottom) (o.name .top) N2) (hw : WidthsMatch g1 g2 o) (user : ∀ r, D.LocFieldBCs g1 g2 r K)
    (F : ∀ r, EM (D.Loc g1 g2 r) K) : ∃ F0, D.SyncedFields g1 g2 o user F F0 :=
  ⟨_, _, ⟨_, _, F, widths_fields g1 g2 hw, rfl⟩, fun r => applyBcsFields_wrap _ _ (fun w => names_wrap h1 h2 w) _⟩

theorem evolveFields_exists {o : BCOptions} (user : ∀ r, D.LocFieldBCs g1 g2 r K) (hsync : ∀ F, ∃ F0, D.SyncedFields g1 g2 o user F F0)
    (pr : ∀ r, FieldParams (D.Loc g1 g2 r) K) (J : ∀ r, Currents (D.Loc g1 g2 r) K) (dt : K) (σ : ∀ r, FieldState (D.Loc g1 g2 r) K)
    (hJ : ∀ r, (pr r).hybrid = true → ∀ Y0, D.SyncedFields g1 g2 o user (fun r => (σ r).yee) Y0 → ∀ i,
      (J r).J1 i = curlB1 (pr r) (Y0 r) i / (pr r).mu ∧ (J r).J2 i = curlB2 (pr r) (Y0 r) i / (pr r).mu ∧
      (J r).J3 i = curlB3 (pr r) (Y0 r) i / (pr r).mu) :
    ∃ σ', D.EvolveFields g1 g2 o user pr J dt σ σ' := by
  obtain ⟨Y0, s0⟩ := hsync (fun r => (σ r).yee)
  have : ∀ r, ∃ Y, evolveE (pr r) (J r) dt (Y0 r) = .ok Y := fun r => evolveE_total _ _ _ _ (fun hh => hJ r hh Y0 s0)
  choose Y1 e1 using this
  obtain ⟨Y2, s2⟩ := hsync Y1
  exact ⟨_, _, ⟨Y0, Y1, Y2, s0, e1, s2, fun _ => rfl⟩, fun _ => rfl⟩

theorem slopeCoupled_exists {o : BCOptions} {c : CoupledConfig S (PIdx Np1 Np2 Np3) (ZMod N1 × ZMod N2) K}
    (hc : c.hybrid = true → PeriodicEnds (o.name .left) (o.name .right) N1 ∧ PeriodicEnds (o.name .bottom) (o.name .top) N2)
    (hi : Implemented c) (hw : WidthsMatch g1 g2 o) (hyb : S) (user : ∀ r, D.LocFieldBCs g1 g2 r K)
    (hsync : ∀ F, ∃ F0, D.SyncedFields g1 g2 o user F F0)
    (cb : ∀ r, CoupledCallbacks S (PIdx Np1 Np2 Np3) (D.Loc g1 g2 r) K) (dt : K) (F : ∀ r, Dist S (PIdx Np1 Np2 Np3) (D.Loc g1 g2 r) K)
    (σ : ∀ r, FieldState (D.Loc g1 g2 r) K) (b : Bool) (hb : ∀ r, (σ r).flag = b) :
    ∃ k σ' b', D.SlopeCoupled g1 g2 o user c hyb cb dt F σ k σ' ∧ ∀ r, (σ' r).flag = b' := by
  by_cases hp : c.solverMethodInP = "FVM" ∧ c.fieldsEnabled = true
  · have phase : ∃ σ1, D.FieldPhase g1 g2 o user c hyb cb dt F σ σ1 ∧ ∀ r, (σ1 r).flag = b := by
      by_cases he : c.fieldsType = "electrodynamic" ∧ b = false
      · obtain ⟨m, hm⟩ := hi.recQ
        by_cases hh : c.hybrid = true
        · obtain ⟨Y, hY⟩ : ∃ Y, D.SentFields g1 g2 o (fun r => (σ r).yee) Y := ⟨_, _, _, fun r => (σ r).yee, widths_fields g1 g2 hw, rfl⟩
          obtain ⟨σ1, h1⟩ := evolveFields_exists D g1 g2 user hsync (fun r => (D.locCfg g1 g2 c r).fieldParams)
            (fun r => (hybridFields (D.locCfg g1 g2 c r) hyb m (cb r).Cq1 (cb r).Cq2 (F r) (F r) (Y r)).1) dt
            (fun r => { σ r with
              yee := (Y r).setE (some (hybridFields (D.locCfg g1 g2 c r) hyb m (cb r).Cq1 (cb r).Cq2 (F r) (F r) (Y r)).2) })
            (by
              intro r _ Y0 hY0
              have hB : (Y0 r).B1 = (Y r).B1 ∧ (Y0 r).B2 = (Y r).B2 ∧ (Y0 r).B3 = (Y r).B3 := by
                have key : ∀ k : Fin 6, 3 ≤ k → (Y0 r).comp k = (Y r).comp k := by
                  intro k hk
                  funext l
                  rw [syncedFields_wrap D g1 g2 (hc hh).1 (hc hh).2 hY0 r k l, sent_wrap D g1 g2 (hc hh).1 (hc hh).2 hY r k l,
                    assembleEM_comp, assembleEM_comp]
                  simp only [assemble]
                  have := sent_wrap D g1 g2 (hc hh).1 (hc hh).2 hY (D.owner (D.toGlob g1 g2 r l)) k
                    (D.toLoc g1 g2 (D.owner (D.toGlob g1 g2 r l)) (D.toGlob g1 g2 r l))
                  rw [toGlob_toLoc, assembleEM_comp] at this
                  simp only [assemble] at this
                  rw [← this]
                  fin_cases k <;> first | rfl | exact absurd hk (by decide)
                exact ⟨key 3 (by decide), key 4 (by decide), key 5 (by decide)⟩
              intro i
              simp only [curlB1, curlB2, curlB3, hB.1, hB.2.1, hB.2.2]
              exact ⟨rfl, rfl, rfl⟩)
          refine ⟨σ1, Or.inl ⟨he.1, fun r => by rw [hb r, he.2], hi.fvm he.1, m, hm, ?_⟩, fun r => ?_⟩
          · rw [if_pos hh]; exact ⟨Y, hY, h1⟩
          · obtain ⟨Y', -, h2⟩ := h1
            rw [h2 r, (storeFields_rest _ _ _ _).2.1]; exact hb r
        · obtain ⟨σ1, h1⟩ := evolveFields_exists D g1 g2 user hsync (fun r => (D.locCfg g1 g2 c r).fieldParams)
            (fun r => kineticCurrents (D.locCfg g1 g2 c r) m (cb r).Cq1 (cb r).Cq2 (F r)) dt σ
            (fun r h => absurd (show c.hybrid = true from h) hh)
          refine ⟨σ1, Or.inl ⟨he.1, fun r => by rw [hb r, he.2], hi.fvm he.1, m, hm, ?_⟩, fun r => ?_⟩
          · rw [if_neg hh]; exact h1
          · obtain ⟨Y', -, h2⟩ := h1
            rw [h2 r, (storeFields_rest _ _ _ _).2.1]; exact hb r
      · refine ⟨σ, Or.inr ⟨?_, rfl⟩, hb⟩
        by_cases ht : c.fieldsType = "electrodynamic"
        · right
          intro r
          rw [hb r]
          cases b
          · exact absurd ⟨ht, rfl⟩ he
          · rfl
        · exact Or.inl ht
    obtain ⟨σ1, hph, hb1⟩ := phase
    choose k hk using fun r => slope_total hi (D.locCfg g1 g2 c r).ax ⟨(cb r).Cq1, (cb r).Cq2,
      (cb r).Cp1 (getFields c.fieldsSolver c.solverMethodInP (σ1 r)).1,
      (cb r).Cp2 (getFields c.fieldsSolver c.solverMethodInP (getFields c.fieldsSolver c.solverMethodInP (σ1 r)).2).1,
      (cb r).Cp3 (getFields c.fieldsSolver c.solverMethodInP
        (getFields c.fieldsSolver c.solverMethodInP (getFields c.fieldsSolver c.solverMethodInP (σ1 r)).2).2).1, (cb r).source⟩ (F r)
    refine ⟨k, fun r => (getFields c.fieldsSolver c.solverMethodInP
        (getFields c.fieldsSolver c.solverMethodInP (getFields c.fieldsSolver c.solverMethodInP (σ1 r)).2).2).2, !b, ?_, ?_⟩
    · rw [SlopeCoupled, if_pos hp]
      exact ⟨σ1, hph, fun r => ⟨hk r, rfl⟩⟩
    · intro r
      simp only [hp.1, getFields_flag, hb1 r, Bool.not_not]
  · choose k hk using fun r => slope_total hi (D.locCfg g1 g2 c r).ax
      ⟨(cb r).Cq1, (cb r).Cq2, fun _ _ _ => 0, fun _ _ _ => 0, fun _ _ _ => 0, (cb r).source⟩ (F r)
    refine ⟨k, σ, b, ?_, hb⟩
    rw [SlopeCoupled, if_neg hp]
    exact ⟨hk, rfl⟩

theorem coupledRun_exists {o : BCOptions} {c : CoupledConfig S (PIdx Np1 Np2 Np3) (ZMod N1 × ZMod N2) K}
    (hc : c.hybrid = true → PeriodicEnds (o.name .left) (o.name .right) N1 ∧ PeriodicEnds (o.name .bottom) (o.name .top) N2)
    (hi : Implemented c) (hw : WidthsMatch g1 g2 o) (hyb : S)
    (hsyncF : ∀ (dat : ∀ r, D.LocBCData g1 g2 r S Np1 Np2 Np3 K) F, ∃ F0, D.Synced g1 g2 o dat F F0)
    (hsync : ∀ (user : ∀ r, D.LocFieldBCs g1 g2 r K) F, ∃ F0, D.SyncedFields g1 g2 o user F F0)
    (steps : List (K × D.CoupledInput g1 g2 S Np1 Np2 Np3 K))
    (F : ∀ r, Dist S (PIdx Np1 Np2 Np3) (D.Loc g1 g2 r) K) (σ : ∀ r, FieldState (D.Loc g1 g2 r) K) (b : Bool)
    (hb : ∀ r, (σ r).flag = b) : ∃ F' σ', D.RunCoupled g1 g2 o c hyb steps F σ F' σ' := by
  induction steps generalizing F σ b with
  | nil => exact ⟨F, σ, rfl, rfl⟩
  | cons st rest ih =>
    obtain ⟨dt, inp⟩ := st
    obtain ⟨F0, s0⟩ := hsyncF (inp.dat 0) F
    obtain ⟨k0, σh, b0, a0, c0⟩ := slopeCoupled_exists D g1 g2 hc hi hw hyb (inp.user 0) (hsync _) (inp.cb 0) dt F0 σ b hb
    obtain ⟨Fh, s1⟩ := hsyncF (inp.dat 1) (fun r s p l => F0 r s p l + k0 r s p l * (dt / 2))
    obtain ⟨k1, σ1, b1, a1, c1⟩ := slopeCoupled_exists D g1 g2 hc hi hw hyb (inp.user 1) (hsync _) (inp.cb 1) dt Fh σh b0 c0
    obtain ⟨F', σ', hR⟩ := ih (fun r s p l => F0 r s p l + k1 r s p l * dt) σ1 b1 c1
    exact ⟨F', σ', _, _, ⟨F0, k0, Fh, k1, σh, s0, a0, s1, a1, rfl⟩, hR⟩

/-- C67: the decomposed run exists (no process raises, the processes stay in step) whenever the options are implemented ones and the
processes start with the same flag. -/
theorem C67_decomposed_run_exists {o : BCOptions} {c : CoupledConfig S (PIdx Np1 Np2 Np3) (ZMod N1 × ZMod N2) K} (hc : GridConfig g1 g2 o c)
    (hi : Implemented c) (hw : WidthsMatch g1 g2 o) (hyb : S) (steps : List (K × D.CoupledInput g1 g2 S Np1 Np2 Np3 K))
    (F : ∀ r, Dist S (PIdx Np1 Np2 Np3) (D.Loc g1 g2 r) K) (σ : ∀ r, FieldState (D.Loc g1 g2 r) K) (b : Bool)
    (hb : ∀ r, (σ r).flag = b) : ∃ F' σ', D.RunCoupled g1 g2 o c hyb steps F σ F' σ' :=
  coupledRun_exists D g1 g2 (fun _ => ⟨hc.ends1, hc.ends2⟩) hi hw hyb (synced_exists D g1 g2 hc.ends1 hc.ends2 hw)
    (syncedFields_exists D g1 g2 hc.ends1 hc.ends2 hw) steps F σ b hb

/-! ### initial fields -/

theorem toCentre_init {r : R} {F : EM (D.Loc g1 g2 r) K} {G : EM (ZMod N1 × ZMod N2) K} {l : D.Loc g1 g2 r}
    (h : D.EMBox g1 g2 1 r F G l) (C : EM (D.Loc g1 g2 r) K) (CG : EM (ZMod N1 × ZMod N2) K) (c : Fin 6) :
    (toCentre (1, 0) (0, 1) .both F C).comp c l = (toCentre (1, 0) (0, 1) .both G CG).comp c (D.toGlob g1 g2 r l) := by
  have h0 := h.at0
  have e0 := h0 0; have e1 := h0 1; have e2 := h0 2; have e3 := h0 3; have e4 := h0 4; have e5 := h0 5
  simp only [EM.comp] at e0 e1 e2 e3 e4 e5
  fin_cases c <;> simp [toCentre, EM.comp, -afShift_one, -afShift_neg_one, afShift_q1, afShift_q2, off_add, add_off_zero, e0, e1, e2, e3, e4, e5, h.E1, h.E2, h.E3, h.B1,
    h.B2, h.B3]

theorem initBox_electric {pr : FieldParams (ZMod N1 × ZMod N2) K} (q1 : pr.q1 = (1, 0)) (q2 : pr.q2 = (0, 1))
    {ini : InitFns (ZMod N1 × ZMod N2) K} (h1 : InitGhosts ini g1 N1) (h2 : InitGhosts ini g2 N2) (r : R)
    {prL : FieldParams (D.Loc g1 g2 r) K} (hp : D.SameParams g1 g2 r prL pr) {Z F : EM (D.Loc g1 g2 r) K} {ZG G : EM (ZMod N1 × ZMod N2) K}
    (h : initElectric prL (ini.at (D.toGlob g1 g2 r)) Z = .ok F) (h' : initElectric pr ini ZG = .ok G) (l : D.Loc g1 g2 r)
    (hl : D.Interior g1 g2 r l) : ∀ a b : ℤ, |a| ≤ 1 → |b| ≤ 1 →
      F.E1 (l + off a b) = G.E1 (D.toGlob g1 g2 r l + off a b) ∧ F.E2 (l + off a b) = G.E2 (D.toGlob g1 g2 r l + off a b) ∧
      F.E3 (l + off a b) = G.E3 (D.toGlob g1 g2 r l + off a b) := by
  have one := toGlob_off D g1 g2 1 (by rcases h1 with h | h | h <;> omega) (by rcases h2 with h | h | h <;> omega) r l hl
  obtain ⟨rfl, -, -⟩ := hp
  intro a b ha hb
  cases hE : ini.E with
  | some E =>
    simp only [initElectric, InitFns.at, hE, Option.map_some, Except.ok.injEq] at h h'
    subst h h'
    simp [one a b (by exact_mod_cast ha) (by exact_mod_cast hb)]
  | none =>
    have two := toGlob_off D g1 g2 2 (by rcases h1 with h | h | h <;> simp_all) (by rcases h2 with h | h | h <;> simp_all) r l hl
    cases hA : ini.A_phi with
    | none => simp [initElectric, hE, hA] at h'
    | some A =>
      simp only [initElectric, InitFns.at, hE, hA, Option.map_some, Option.map_none, Except.ok.injEq] at h h'
      subst h h'
      rw [abs_le] at ha hb
      have t00 := two a b (by rw [abs_le]; constructor <;> push_cast <;> omega) (by rw [abs_le]; constructor <;> push_cast <;> omega)
      have t10 := two (a + 1) b (by rw [abs_le]; constructor <;> push_cast <;> omega) (by rw [abs_le]; constructor <;> push_cast <;> omega)
      have t01 := two a (b + 1) (by rw [abs_le]; constructor <;> push_cast <;> omega) (by rw [abs_le]; constructor <;> push_cast <;> omega)
      have tm0 := two (a + -1) b (by rw [abs_le]; constructor <;> push_cast <;> omega) (by rw [abs_le]; constructor <;> push_cast <;> omega)
      have t0m := two a (b + -1) (by rw [abs_le]; constructor <;> push_cast <;> omega) (by rw [abs_le]; constructor <;> push_cast <;> omega)
      simp [fwdDiff, q1, q2, -afShift_one, -afShift_neg_one, afShift_q1, afShift_q2, off_add, t00, t10, t01, tm0, t0m]

theorem initBox_magnetic {pr : FieldParams (ZMod N1 × ZMod N2) K} (q1 : pr.q1 = (1, 0)) (q2 : pr.q2 = (0, 1))
    {ini : InitFns (ZMod N1 × ZMod N2) K} (h1 : InitGhosts ini g1 N1) (h2 : InitGhosts ini g2 N2) (r : R)
    {prL : FieldParams (D.Loc g1 g2 r) K} (hp : D.SameParams g1 g2 r prL pr) {Z F : EM (D.Loc g1 g2 r) K} {ZG G : EM (ZMod N1 × ZMod N2) K}
    (h : initMagnetic prL (ini.at (D.toGlob g1 g2 r)) Z = .ok F) (h' : initMagnetic pr ini ZG = .ok G) (l : D.Loc g1 g2 r)
    (hl : D.Interior g1 g2 r l) : (F.E1 = Z.E1 ∧ F.E2 = Z.E2 ∧ F.E3 = Z.E3) ∧ (G.E1 = ZG.E1 ∧ G.E2 = ZG.E2 ∧ G.E3 = ZG.E3) ∧
      ∀ a b : ℤ, |a| ≤ 1 → |b| ≤ 1 →
      F.B1 (l + off a b) = G.B1 (D.toGlob g1 g2 r l + off a b) ∧ F.B2 (l + off a b) = G.B2 (D.toGlob g1 g2 r l + off a b) ∧
      F.B3 (l + off a b) = G.B3 (D.toGlob g1 g2 r l + off a b) := by
  have one := toGlob_off D g1 g2 1 (by rcases h1 with h | h | h <;> omega) (by rcases h2 with h | h | h <;> omega) r l hl
  obtain ⟨rfl, -, -⟩ := hp
  cases hB : ini.B with
  | some B =>
    cases hA : ini.A3_B3 with
    | some _ => simp [initMagnetic, hB, hA] at h'
    | none =>
      simp only [initMagnetic, InitFns.at, hB, hA, Option.map_some, Option.map_none, Except.ok.injEq] at h h'
      subst h h'
      refine ⟨⟨rfl, rfl, rfl⟩, ⟨rfl, rfl, rfl⟩, fun a b ha hb => ?_⟩
      simp [one a b (by exact_mod_cast ha) (by exact_mod_cast hb)]
  | none =>
    have two := toGlob_off D g1 g2 2 (by rcases h1 with h | h | h <;> simp_all) (by rcases h2 with h | h | h <;> simp_all) r l hl
    have shifts : ∀ a b : ℤ, |a| ≤ 1 → |b| ≤ 1 →
        (D.toGlob g1 g2 r (l + off a b) = D.toGlob g1 g2 r l + off a b) ∧
        (D.toGlob g1 g2 r (l + off (a + 1) b) = D.toGlob g1 g2 r l + off (a + 1) b) ∧
        (D.toGlob g1 g2 r (l + off a (b + 1)) = D.toGlob g1 g2 r l + off a (b + 1)) ∧
        (D.toGlob g1 g2 r (l + off (a + -1) b) = D.toGlob g1 g2 r l + off (a + -1) b) ∧
        (D.toGlob g1 g2 r (l + off a (b + -1)) = D.toGlob g1 g2 r l + off a (b + -1)) := by
      intro a b ha hb
      rw [abs_le] at ha hb
      refine ⟨two _ _ ?_ ?_, two _ _ ?_ ?_, two _ _ ?_ ?_, two _ _ ?_ ?_, two _ _ ?_ ?_⟩ <;> rw [abs_le] <;> constructor <;> push_cast <;>
        omega
    cases hA : ini.A with
    | some A =>
      simp only [initMagnetic, InitFns.at, hB, hA, Option.map_some, Option.map_none, Except.ok.injEq] at h h'
      subst h h'
      refine ⟨⟨rfl, rfl, rfl⟩, ⟨rfl, rfl, rfl⟩, fun a b ha hb => ?_⟩
      obtain ⟨t00, t10, t01, tm0, t0m⟩ := shifts a b ha hb
      simp [fwdDiff, q1, q2, -afShift_one, -afShift_neg_one, afShift_q1, afShift_q2, off_add, t00, t10, t01]
    | none =>
      cases hA3 : ini.A3_B3 with
      | none => simp [initMagnetic, hB, hA, hA3] at h'
      | some A3 =>
        simp only [initMagnetic, InitFns.at, hB, hA, hA3, Option.map_some, Option.map_none, Except.ok.injEq] at h h'
        subst h h'
        refine ⟨⟨rfl, rfl, rfl⟩, ⟨rfl, rfl, rfl⟩, fun a b ha hb => ?_⟩
        obtain ⟨t00, t10, t01, tm0, t0m⟩ := shifts a b ha hb
        simp [q1, q2, -afShift_one, -afShift_neg_one, afShift_q1, afShift_q2, off_add, t00, tm0, t0m]

/-- C67: the processes' fields solvers, each initialised from the user's functions on its own coordinates, together hold the fields the
whole-grid run starts from (so the two runs of the theorem above do start from the same data), and they raise the same errors. -/
theorem C67_initial_fields_agree (c : CoupledConfig S (PIdx Np1 Np2 Np3) (ZMod N1 × ZMod N2) K) (q1 : c.ax.q1 = (1, 0))
    (q2 : c.ax.q2 = (0, 1)) (ini : InitFns (ZMod N1 × ZMod N2) K) (h1 : InitGhosts ini g1 N1) (h2 : InitGhosts ini g2 N2) :
    (∀ e, initFields c.fieldParams ini = .error e →
      ∀ r, initFields (D.locCfg g1 g2 c r).fieldParams (ini.at (D.toGlob g1 g2 r)) = .error e) ∧
    ∀ τ, initFields c.fieldParams ini = .ok τ → ∃ σ : ∀ r, FieldState (D.Loc g1 g2 r) K,
      (∀ r, initFields (D.locCfg g1 g2 c r).fieldParams (ini.at (D.toGlob g1 g2 r)) = .ok (σ r)) ∧ D.FieldsHold g1 g2 σ τ := by
  have loc : ∀ r, (∀ e, initFields c.fieldParams ini = .error e →
      initFields (D.locCfg g1 g2 c r).fieldParams (ini.at (D.toGlob g1 g2 r)) = .error e) ∧
      (∀ τ, initFields c.fieldParams ini = .ok τ →
        ∃ σ, initFields (D.locCfg g1 g2 c r).fieldParams (ini.at (D.toGlob g1 g2 r)) = .ok σ) := by
    intro r
    cases hE : ini.E <;> cases hA : ini.A_phi <;> cases hB : ini.B <;> cases hA' : ini.A <;> cases hA3 : ini.A3_B3 <;>
      simp [initFields, initElectric, initMagnetic, InitFns.at, hE, hA, hB, hA', hA3, bind, Except.bind, pure, Except.pure]
  refine ⟨fun e he r => (loc r).1 e he, fun τ hτ => ?_⟩
  choose σ hσ using fun r => (loc r).2 τ hτ
  refine ⟨σ, hσ, ?_⟩
  have par : ∀ r, D.SameParams g1 g2 r (D.locCfg g1 g2 c r).fieldParams c.fieldParams := fun r => sameParams c q1 q2 r
  simp only [initFields, bind, Except.bind, pure, Except.pure] at hτ hσ
  cases hE : initElectric c.fieldParams ini ⟨fun _ => 0, fun _ => 0, fun _ => 0, fun _ => 0, fun _ => 0, fun _ => 0⟩ with
  | error e => simp [hE] at hτ
  | ok G1 =>
    simp only [hE] at hτ
    cases hB : initMagnetic c.fieldParams ini G1 with
    | error e => simp [hB] at hτ
    | ok G2 =>
      simp only [hB, Except.ok.injEq] at hτ
      subst hτ
      have at_r : ∀ r, ∃ Y, (∀ l, D.Interior g1 g2 r l → D.EMBox g1 g2 1 r Y G2 l) ∧
          σ r = { heap := fun k => if k = 0 then toCentre (1, 0) (0, 1) .both Y
                    ⟨fun _ => 0, fun _ => 0, fun _ => 0, fun _ => 0, fun _ => 0, fun _ => 0⟩
                    else ⟨fun _ => 0, fun _ => 0, fun _ => 0, fun _ => 0, fun _ => 0, fun _ => 0⟩
                  cc := 0, atN := 0, atHalf := 0, yee := Y, flag := true, timeElapsed := 0 } := by
        intro r
        have h := hσ r
        cases lE : initElectric (D.locCfg g1 g2 c r).fieldParams (ini.at (D.toGlob g1 g2 r))
            ⟨fun _ => 0, fun _ => 0, fun _ => 0, fun _ => 0, fun _ => 0, fun _ => 0⟩ with
        | error e => simp [lE] at h
        | ok L1 =>
          simp only [lE] at h
          cases lB : initMagnetic (D.locCfg g1 g2 c r).fieldParams (ini.at (D.toGlob g1 g2 r)) L1 with
          | error e => simp [lB] at h
          | ok L2 =>
            simp only [lB, Except.ok.injEq] at h
            refine ⟨L2, fun l hl => ?_, h.symm⟩
            have e := initBox_electric D g1 g2 (pr := c.fieldParams) q1 q2 h1 h2 r (par r) lE hE l hl
            obtain ⟨⟨a1, a2, a3⟩, ⟨b1, b2, b3⟩, m⟩ := initBox_magnetic D g1 g2 (pr := c.fieldParams) q1 q2 h1 h2 r (par r) lB hB l hl
            constructor <;> intro a b ha hb <;> have ha : |a| ≤ 1 := by exact_mod_cast ha
            all_goals have hb : |b| ≤ 1 := by exact_mod_cast hb
            · rw [a1, b1]; exact (e a b ha hb).1
            · rw [a2, b2]; exact (e a b ha hb).2.1
            · rw [a3, b3]; exact (e a b ha hb).2.2
            · exact (m a b ha hb).1
            · exact (m a b ha hb).2.1
            · exact (m a b ha hb).2.2
      choose Y box eq using at_r
      constructor
      · intro r k l hl; rw [eq r]; exact (box r l hl).at0 k
      · intro r k c' l hl
        rw [eq r]
        by_cases hk : k = 0
        · simp only [hk, if_true]
          have := toCentre_init D g1 g2 (box r l hl) ⟨fun _ => 0, fun _ => 0, fun _ => 0, fun _ => 0, fun _ => 0, fun _ => 0⟩
            ⟨fun _ => 0, fun _ => 0, fun _ => 0, fun _ => 0, fun _ => 0, fun _ => 0⟩ c'
          rw [this]
          simp only [CoupledConfig.fieldParams, q1, q2]
        · simp only [hk, if_false]
          fin_cases c' <;> rfl
      all_goals intro r; rw [eq r]

end Decomp

/-! ### a concrete case -/

/-- One species, two momenta, PPM in position, minmod in momentum, fields on (kinetic electrons or the hybrid model). -/
def c67Cfg (hybrid : Bool) : CoupledConfig Unit (PIdx 2 1 1) (ZMod 6 × ZMod 1) ℚ where
  solverMethodInQ := "FVM"
  solverMethodInP := "FVM"
  reconstructionInQ := "ppm"
  reconstructionInP := "minmod"
  riemannInQ := "upwind-flux"
  riemannInP := "upwind-flux"
  fieldsEnabled := true
  sourceEnabled := false
  dq1 := 1
  dq2 := 1
  dp1 := fun _ => 1
  dp2 := fun _ => 1
  dp3 := fun _ => 1
  ax := ⟨(1, 0, 0), (0, 1, 0), (0, 0, 1), (1, 0), (0, 1)⟩
  fieldsType := "electrodynamic"
  fieldsSolver := "fdtd"
  charge := fun _ => -1
  coords := ⟨fun _ p => if p.1 = 0 then -1 else 1, fun _ _ => 1, fun _ _ => 0⟩
  eps := 3
  mu := 5
  hybrid := hybrid
  Te := 2

def c67Opt : BCOptions :=
  ⟨3, fun w => match w with | .left | .right => "periodic" | .bottom | .top => "none", "cartesian", "FVM"⟩

/-- Velocities `p1`, `p2` and a force that depends on the fields handed out. -/
def c67Cb {Q : Type} : CoupledCallbacks Unit (PIdx 2 1 1) Q ℚ where
  Cq1 := fun s p _ => (c67Cfg false).coords.p1 s p
  Cq2 := fun s p _ => (c67Cfg false).coords.p2 s p
  Cp1 := fun F _ _ q => -F.E1 q + F.B3 q
  Cp2 := fun F _ p q => -F.E2 q - (c67Cfg false).coords.p1 () p * F.B3 q
  Cp3 := fun F _ _ q => -F.E3 q
  source := id

def c67Ini : InitFns (ZMod 6 × ZMod 1) ℚ :=
  ⟨some (fun i => i.1.val, fun i => i.1.val ^ 2, fun _ => 1), none, none, some (fun _ => 0, fun i => i.1.val, fun i => (i.1.val : ℚ) ^ 3), none⟩

def c67F : Dist Unit (PIdx 2 1 1) (ZMod 6 × ZMod 1) ℚ := fun _ p i => 1 + i.1.val + p.1.val * i.1.val ^ 2

theorem c67_agree (r : Fin 2) : exD.CoupledAgree 3 0 r c67Cb c67Cb where
  q1 := fun _ _ _ _ => ⟨rfl, rfl⟩
  q2 := fun _ _ _ _ => ⟨rfl, rfl⟩
  p1 := fun F G s p l _ h => by
    have a := h 0; have b := h 5
    simp only [EM.comp] at a b
    simp only [c67Cb, a, b]
  p2 := fun F G s p l _ h => by
    have a := h 1; have b := h 5
    simp only [EM.comp] at a b
    simp only [c67Cb, a, b]
  p3 := fun F G s p l _ h => by
    have a := h 2
    simp only [EM.comp] at a
    simp only [c67Cb, a]
  src := fun f g l _ h s p => h s p

theorem c67_grid (b : Bool) : GridConfig 3 0 c67Opt (c67Cfg b) where
  q1 := rfl
  q2 := rfl
  ends1 := Or.inl ⟨rfl, rfl⟩
  ends2 := Or.inr ⟨rfl, rfl, rfl⟩
  ghosts := by
    intro m hm
    have : m = .ppm := by simpa [c67Cfg, reconMethod] using hm.symm
    subst this
    exact ⟨Or.inl ⟨by simp [Recon.radius], by omega, fun _ => by omega⟩, Or.inr ⟨rfl, rfl⟩⟩
  noFFT := by simp [c67Cfg]

/-- The hypotheses of C67 are met: six cells on two processes, kinetic electrons or the hybrid model, fields started from a vector
potential, any number of steps. -/
example (b : Bool) (n : ℕ) (dt : ℚ) (dat : ∀ r, exD.LocBCData 3 0 r Unit 2 1 1 ℚ) (user : ∀ r, exD.LocFieldBCs 3 0 r ℚ)
    [∀ r, Fintype (exD.Loc 3 0 r)] :
    ∃ σ τ F' σ' st', initFields (c67Cfg b).fieldParams c67Ini = .ok τ ∧
      (∀ r, initFields (exD.locCfg 3 0 (c67Cfg b) r).fieldParams (c67Ini.at (exD.toGlob 3 0 r)) = .ok (σ r)) ∧
      exD.RunCoupled 3 0 c67Opt (c67Cfg b) () (List.replicate n (dt, ⟨fun _ _ => c67Cb, fun _ => dat, fun _ => user⟩))
        (fun r s p l => c67F s p (exD.toGlob 3 0 r l)) σ F' σ' ∧
      runCoupled (c67Cfg b) (fun _ σ => σ) () (List.replicate n (dt, fun _ => c67Cb)) (c67F, τ) = .ok st' ∧
      exD.Holds 3 0 F' st'.1 ∧ exD.FieldsHold 3 0 σ' st'.2 := by
  have hi : Implemented (c67Cfg b) := ⟨⟨.ppm, rfl⟩, ⟨.minmod, rfl⟩, fun _ => rfl⟩
  obtain ⟨τ, hτ⟩ : ∃ τ, initFields (c67Cfg b).fieldParams c67Ini = .ok τ := ⟨_, rfl⟩
  obtain ⟨σ, hσ, hh⟩ := (exD.C67_initial_fields_agree 3 0 (c67Cfg b) rfl rfl c67Ini (Or.inl (by omega)) (Or.inr (Or.inr ⟨rfl, rfl⟩))).2 τ hτ
  obtain ⟨F', σ', hr⟩ := exD.C67_decomposed_run_exists 3 0 (c67_grid b) hi ⟨rfl, rfl⟩ ()
    (List.replicate n (dt, ⟨fun _ _ => c67Cb, fun _ => dat, fun _ => user⟩)) (fun r s p l => c67F s p (exD.toGlob 3 0 r l)) σ τ.flag hh.flag
  obtain ⟨st', hs⟩ := C67_whole_grid_run_exists hi (fun _ σ => σ) () (List.replicate n (dt, fun _ => c67Cb)) (c67F, τ)
  refine ⟨σ, τ, F', σ', st', hτ, hσ, hr, hs, ?_⟩
  refine exD.C67_coupled_decomposition_independence 3 0 (c67_grid b) () (fun _ σ => σ)
    (List.replicate n (dt, ⟨fun _ _ => c67Cb, fun _ => dat, fun _ => user⟩, fun _ => c67Cb)) ?_ _ _ _ _ (c67F, τ) st'
    (fun r s p l _ => rfl) hh ?_ ?_
  · intro st hst k r
    rw [List.eq_of_mem_replicate hst]
    exact c67_agree r
  · simpa using hr
  · simpa using hs

end Bolt
