import Verif.Model.Diagnostics
import Verif.Props.Maxwell

/-!
# C74: asking the slope for one of its momentum-space terms
-/

set_option linter.unusedSectionVars false

namespace Bolt

open Finset

variable {S P Q K : Type} [AddCommGroup P] [AddCommGroup Q] [Field K] [LinearOrder K] [IsStrictOrderedRing K]
  [Fintype S] [Fintype P] [Fintype Q]

/-- The names of the three terms. -/
def momentumTerms : List String := ["d_flux_p1_dp1", "d_flux_p2_dp2", "d_flux_p3_dp3"]

/-- The reconstruction in momentum space is known whenever the slope could be computed. -/
theorem recon_of_slope {ax : Axes P Q} {cfg : FVMConfig S K} (hp : cfg.solverMethodInP = "FVM" ∧ cfg.fieldsEnabled = true)
    {cb : Callbacks S P Q K} {f k : Dist S P Q K} (h : dfdtFVM ax cfg cb f = .ok k) : ∃ m, reconMethod cfg.reconstructionInP = .ok m := by
  obtain ⟨a, b, -, -, ⟨-, m, hm, -⟩ | ⟨hn, -⟩⟩ := dfdtFVM_ok h
  · exact ⟨m, hm⟩
  · exact absurd hp hn

/-- C74: with any other argument than the three names (the default `'all'`, or a misspelt name) the call is the evaluation of the whole slope that
the time step uses: same array, same effects, same errors. -/
theorem C74_any_other_name (term : String) (ht : term ∉ momentumTerms) (c : CoupledConfig S P Q K) (poisson) (cb : CoupledCallbacks S P Q K)
    (hyb : S) (dt : K) (selff f : Dist S P Q K) (σ : FieldState Q K) :
    dfdtTerm term c poisson cb hyb (some dt) selff f σ = dfdtCoupled c poisson cb hyb dt selff f σ := by
  simp only [momentumTerms, List.mem_cons, List.not_mem_nil, or_false, not_or] at ht
  obtain ⟨t1, t2, t3⟩ := ht
  by_cases hp : c.solverMethodInP = "FVM" ∧ c.fieldsEnabled = true
  · rw [dfdtTerm, dfdtCoupled, if_pos hp, if_pos hp]
    simp only [fieldsForFluxes, if_neg t1, if_neg t2, if_neg t3, bind, Except.bind, pure, Except.pure]
    by_cases he : c.fieldsType = "electrodynamic" ∧ σ.flag = false
    · simp only [if_pos he]
      by_cases hq : c.solverMethodInQ = "FVM"
      · simp only [if_pos hq]
        cases hm : reconMethod c.reconstructionInQ with
        | error e => rfl
        | ok m =>
          by_cases hh : c.hybrid = true
          · simp only [if_pos hh]
            cases evolveElectrodynamic c.fieldParams id (hybridFields c hyb m cb.Cq1 cb.Cq2 f selff σ.yee).1 dt
              { σ with yee := σ.yee.setE (some (hybridFields c hyb m cb.Cq1 cb.Cq2 f selff σ.yee).2) } with
            | error e => rfl
            | ok σ1 =>
              dsimp only
              split
              · rfl
              · rename_i k hk
                obtain ⟨m', hm'⟩ := recon_of_slope hp hk
                simp only [hm']
          · simp only [if_neg hh]
            cases evolveElectrodynamic c.fieldParams id (kineticCurrents c m cb.Cq1 cb.Cq2 f) dt σ with
            | error e => rfl
            | ok σ1 =>
              dsimp only
              split
              · rfl
              · rename_i k hk
                obtain ⟨m', hm'⟩ := recon_of_slope hp hk
                simp only [hm']
      · simp only [if_neg hq]
    · simp only [if_neg he]
      split
      · rfl
      · rename_i k hk
        obtain ⟨m', hm'⟩ := recon_of_slope hp hk
        simp only [hm']
  · rw [dfdtTerm, dfdtCoupled, if_neg hp, if_neg hp]
    simp only [if_neg t1, if_neg t2, if_neg t3]

/-- C74: if no momentum-space advection takes place (another method, or no fields), each of the three names raises: a `NameError`, unless the
evaluation of the slope raises something else first. -/
theorem C74_no_momentum_advection (c : CoupledConfig S P Q K) (hp : ¬ (c.solverMethodInP = "FVM" ∧ c.fieldsEnabled = true)) (poisson)
    (cb : CoupledCallbacks S P Q K) (hyb : S) (dt : K) (odt : Option K) (selff f : Dist S P Q K) (σ : FieldState Q K) (term : String)
    (ht : term ∈ momentumTerms) : dfdtTerm term c poisson cb hyb odt selff f σ =
      match dfdtCoupled c poisson cb hyb dt selff f σ with
      | .ok _ => .error .nameError
      | .error e => .error e := by
  rw [dfdtTerm, if_neg hp, dfdtCoupled, if_neg hp]
  simp only [momentumTerms, List.mem_cons, List.not_mem_nil, or_false] at ht
  cases hk : dfdtFVM c.ax c.toFVMConfig ⟨cb.Cq1, cb.Cq2, fun _ _ _ => 0, fun _ _ _ => 0, fun _ _ _ => 0, cb.source⟩ f with
  | error e => rfl
  | ok k =>
    rcases ht with rfl | rfl | rfl <;> simp [bind, Except.bind, pure, Except.pure]

/-- C74: **what the terms are.**  Suppose the slope can be evaluated in a state.  Then each of the three terms can be evaluated in that state as
well, all leave the fields solver in the state the slope leaves it in, and their sum is the part of the slope that the fields are
responsible for, with the opposite sign: the slope computed without fields minus the slope. -/
theorem C74_terms_add_up (c : CoupledConfig S P Q K) (hp : c.solverMethodInP = "FVM" ∧ c.fieldsEnabled = true) (poisson)
    (cb : CoupledCallbacks S P Q K) (hyb : S) (dt : K) (selff f : Dist S P Q K) (σ : FieldState Q K) (k : Dist S P Q K) (σ' : FieldState Q K)
    (h : dfdtCoupled c poisson cb hyb dt selff f σ = .ok (k, σ')) :
    ∃ t1 t2 t3 k0, dfdtTerm "d_flux_p1_dp1" c poisson cb hyb (some dt) selff f σ = .ok (t1, σ') ∧
      dfdtTerm "d_flux_p2_dp2" c poisson cb hyb (some dt) selff f σ = .ok (t2, σ') ∧
      dfdtTerm "d_flux_p3_dp3" c poisson cb hyb (some dt) selff f σ = .ok (t3, σ') ∧
      dfdtCoupled { c with fieldsEnabled := false } poisson cb hyb dt selff f σ = .ok (k0, σ) ∧
      ∀ s p q, t1 s p q + t2 s p q + t3 s p q = k0 s p q - k s p q := by
  rw [← C74_any_other_name "all" (by decide)] at h
  simp only [dfdtTerm, if_pos hp, bind, Except.bind] at h ⊢
  cases hF : fieldsForFluxes c poisson cb hyb (some dt) selff f σ with
  | error e => simp [hF] at h
  | ok σ2 =>
    simp only [hF] at h ⊢
    split at h
    · cases h
    · rename_i k' hk'
      obtain ⟨m, hm⟩ := recon_of_slope hp hk'
      simp only [hm, pure, Except.pure] at h ⊢
      simp (decide := true) only [if_false, Except.ok.injEq, Prod.mk.injEq] at h
      obtain ⟨rfl, rfl⟩ := h
      obtain ⟨a, b, h1, h2, h3⟩ := dfdtFVM_ok hk'
      obtain ⟨-, m', hm', hb⟩ : (c.solverMethodInP = "FVM" ∧ c.fieldsEnabled = true) ∧ ∃ m, reconMethod c.reconstructionInP = .ok m ∧ _ :=
        h3.resolve_right fun h => h.1 hp
      obtain rfl : m = m' := by rw [hm] at hm'; exact Except.ok.inj hm'
      refine ⟨_, _, _, a, rfl, rfl, rfl, ?_, fun s p q => ?_⟩
      · rw [dfdtCoupled, if_neg (by simp)]
        have : dfdtFVM c.ax { c.toFVMConfig with fieldsEnabled := false }
            ⟨cb.Cq1, cb.Cq2, fun _ _ _ => 0, fun _ _ _ => 0, fun _ _ _ => 0, cb.source⟩ f = .ok a := by
          rcases h2 with ⟨hq, mq, hmq, ha⟩ | ⟨hq, ha⟩
          · simp only [dfdtFVM, hq, hmq, if_true, Bind.bind, Except.bind, Pure.pure, Except.pure, Bool.false_eq_true, and_false, if_false]
            split_ifs with hs
            · congr 1; funext s p q; simp [ha, hs]
            · congr 1; funext s p q; simp [ha, hs]
          · simp only [dfdtFVM, hq, if_false, Bind.bind, Except.bind, Pure.pure, Except.pure, Bool.false_eq_true, and_false]
            congr 1; funext s p q; simp [ha]
        simp only [this, Bind.bind, Except.bind, Pure.pure, Except.pure]
      · rw [h1, hb, dfdtP]
        ring

/-- Replacing the accelerations changes the slope by the change of the momentum-space part. -/
theorem dfdtFVM_replace {ax : Axes P Q} {cfg : FVMConfig S K} (hp : cfg.solverMethodInP = "FVM" ∧ cfg.fieldsEnabled = true)
    {cb : Callbacks S P Q K} {f k : Dist S P Q K} (hk : dfdtFVM ax cfg cb f = .ok k) {m : Recon} (hm : reconMethod cfg.reconstructionInP = .ok m)
    (C1 C2 C3 : Dist S P Q K) : ∃ k', dfdtFVM ax cfg ⟨cb.Cq1, cb.Cq2, C1, C2, C3, cb.source⟩ f = .ok k' ∧ ∀ s p q, k' s p q - k s p q =
      dfdtP ax m cfg.dp1 cfg.dp2 cfg.dp3 C1 C2 C3 f s p q - dfdtP ax m cfg.dp1 cfg.dp2 cfg.dp3 cb.Cp1 cb.Cp2 cb.Cp3 f s p q := by
  simp only [dfdtFVM, if_pos hp, hm, Bind.bind, Except.bind, Pure.pure, Except.pure] at hk ⊢
  by_cases hq : cfg.solverMethodInQ = "FVM"
  · simp only [if_pos hq] at hk ⊢
    cases hmq : reconMethod cfg.reconstructionInQ with
    | error e => simp [hmq] at hk
    | ok mq =>
      simp only [hmq] at hk ⊢
      by_cases hs : cfg.sourceEnabled = true
      · simp only [if_pos hs] at hk ⊢
        cases hk
        exact ⟨_, rfl, fun s p q => by ring⟩
      · simp only [if_neg hs] at hk ⊢
        cases hk
        exact ⟨_, rfl, fun s p q => by ring⟩
  · simp only [if_neg hq] at hk ⊢
    cases hk
    exact ⟨_, rfl, fun s p q => by ring⟩

theorem dFluxP_zero (m : Recon) (e : P) (dp : S → K) (f : Dist S P Q K) (s : S) (p : P) (q : Q) : dFluxP m e dp (fun _ _ _ => 0) f s p q = 0 := by
  simp [dFluxP, leftFlux, afShift]

/-- C74: **which term is which.**  Each term is the part of the slope that the acceleration along its own momentum axis is responsible for, with the
opposite sign: the slope computed as if that component of the acceleration vanished everywhere, minus the slope. -/
theorem C74_each_term (c : CoupledConfig S P Q K) (hp : c.solverMethodInP = "FVM" ∧ c.fieldsEnabled = true) (poisson)
    (cb : CoupledCallbacks S P Q K) (hyb : S) (dt : K) (selff f : Dist S P Q K) (σ : FieldState Q K) (k : Dist S P Q K) (σ' : FieldState Q K)
    (h : dfdtCoupled c poisson cb hyb dt selff f σ = .ok (k, σ')) :
    (∃ t k', dfdtTerm "d_flux_p1_dp1" c poisson cb hyb (some dt) selff f σ = .ok (t, σ') ∧
      dfdtCoupled c poisson { cb with Cp1 := fun _ _ _ _ => 0 } hyb dt selff f σ = .ok (k', σ') ∧ ∀ s p q, t s p q = k' s p q - k s p q) ∧
    (∃ t k', dfdtTerm "d_flux_p2_dp2" c poisson cb hyb (some dt) selff f σ = .ok (t, σ') ∧
      dfdtCoupled c poisson { cb with Cp2 := fun _ _ _ _ => 0 } hyb dt selff f σ = .ok (k', σ') ∧ ∀ s p q, t s p q = k' s p q - k s p q) ∧
    (∃ t k', dfdtTerm "d_flux_p3_dp3" c poisson cb hyb (some dt) selff f σ = .ok (t, σ') ∧
      dfdtCoupled c poisson { cb with Cp3 := fun _ _ _ _ => 0 } hyb dt selff f σ = .ok (k', σ') ∧ ∀ s p q, t s p q = k' s p q - k s p q) := by
  simp only [← C74_any_other_name "all" (by decide)] at h ⊢
  have i1 : fieldsForFluxes c poisson { cb with Cp1 := fun _ _ _ _ => 0 } hyb (some dt) selff f σ = fieldsForFluxes c poisson cb hyb (some dt) selff f σ := rfl
  have i2 : fieldsForFluxes c poisson { cb with Cp2 := fun _ _ _ _ => 0 } hyb (some dt) selff f σ = fieldsForFluxes c poisson cb hyb (some dt) selff f σ := rfl
  have i3 : fieldsForFluxes c poisson { cb with Cp3 := fun _ _ _ _ => 0 } hyb (some dt) selff f σ = fieldsForFluxes c poisson cb hyb (some dt) selff f σ := rfl
  simp only [dfdtTerm, if_pos hp, i1, i2, i3, bind, Except.bind] at h ⊢
  cases hF : fieldsForFluxes c poisson cb hyb (some dt) selff f σ with
  | error e => simp [hF] at h
  | ok σ2 =>
    simp only [hF] at h ⊢
    split at h
    · cases h
    · rename_i k0 hk
      obtain ⟨m, hm⟩ := recon_of_slope hp hk
      simp only [hm, pure, Except.pure] at h ⊢
      simp (decide := true) only [if_true, if_false, Except.ok.injEq, Prod.mk.injEq] at h ⊢
      obtain ⟨rfl, rfl⟩ := h
      let g1 := getFields c.fieldsSolver c.solverMethodInP σ2
      let g2 := getFields c.fieldsSolver c.solverMethodInP g1.2
      let g3 := getFields c.fieldsSolver c.solverMethodInP g2.2
      refine ⟨?_, ?_, ?_⟩
      · obtain ⟨k', e1, e2⟩ := dfdtFVM_replace hp hk hm (fun _ _ _ => 0) (cb.Cp2 g2.1) (cb.Cp3 g3.1)
        refine ⟨_, k', ⟨rfl, rfl⟩, by rw [e1], fun s p q => ?_⟩
        rw [e2]
        simp only [dfdtP, dFluxP_zero]
        ring
      · obtain ⟨k', e1, e2⟩ := dfdtFVM_replace hp hk hm (cb.Cp1 g1.1) (fun _ _ _ => 0) (cb.Cp3 g3.1)
        refine ⟨_, k', ⟨rfl, rfl⟩, by rw [e1], fun s p q => ?_⟩
        rw [e2]
        simp only [dfdtP, dFluxP_zero]
        ring
      · obtain ⟨k', e1, e2⟩ := dfdtFVM_replace hp hk hm (cb.Cp1 g1.1) (cb.Cp2 g2.1) (fun _ _ _ => 0)
        refine ⟨_, k', ⟨rfl, rfl⟩, by rw [e1], fun s p q => ?_⟩
        rw [e2]
        simp only [dfdtP, dFluxP_zero]
        ring

/-- C74: each term moves particles between momentum cells and creates none: its sum over momentum vanishes, for every species and position. -/
theorem C74_terms_conserve (term : String) (ht : term ∈ momentumTerms) (c : CoupledConfig S P Q K) (poisson) (cb : CoupledCallbacks S P Q K)
    (hyb : S) (dt : Option K) (selff f : Dist S P Q K) (σ : FieldState Q K) (t : Dist S P Q K) (σ' : FieldState Q K)
    (h : dfdtTerm term c poisson cb hyb dt selff f σ = .ok (t, σ')) (s : S) (q : Q) : ∑ p, t s p q = 0 := by
  by_cases hp : c.solverMethodInP = "FVM" ∧ c.fieldsEnabled = true
  · simp only [dfdtTerm, if_pos hp, bind, Except.bind] at h
    split at h
    · cases h
    · split at h
      · cases h
      · split at h
        · cases h
        · simp only [momentumTerms, List.mem_cons, List.not_mem_nil, or_false] at ht
          rcases ht with rfl | rfl | rfl <;>
          · simp (decide := true) only [if_true, if_false, pure, Except.pure, Except.ok.injEq, Prod.mk.injEq] at h
            obtain ⟨rfl, -⟩ := h
            exact sum_dFluxP _ _ _ _ _ _ _
  · rw [C74_no_momentum_advection c hp poisson cb hyb 0 dt selff f σ term ht] at h
    split at h <;> cases h

/-- The effect of a diagnostic call on the fields solver of an electrodynamic run. -/
theorem dfdtTerm_state {c : CoupledConfig S P Q K} (hc : ElectrodynamicFVM c) {term : String} {poisson} {cb : CoupledCallbacks S P Q K} {hyb : S}
    {dt : Option K} {selff f : Dist S P Q K} {σ : FieldState Q K} {r : Dist S P Q K × FieldState Q K}
    (h : dfdtTerm term c poisson cb hyb dt selff f σ = .ok r) :
    (σ.flag = true ∧ r.2 = { σ with flag := false }) ∨
    (σ.flag = false ∧ r.2.flag = true ∧ ∃ d, dt = some d ∧ r.2.timeElapsed = σ.timeElapsed + d ∧
      ∃ J E, fdtd c.fieldParams id J d (σ.yee.setE E) = .ok r.2.yee) := by
  obtain ⟨hq, hp1, hp2, ht⟩ := hc
  simp only [dfdtTerm, if_pos (And.intro hp1 hp2), bind, Except.bind] at h
  cases hF : fieldsForFluxes c poisson cb hyb dt selff f σ with
  | error e => simp [hF] at h
  | ok σ2 =>
    simp only [hF] at h
    have hr : r.2 = { σ2 with flag := !σ2.flag } := by
      split at h
      · cases h
      · split at h
        · cases h
        · simp only [hp1, getFields_flag, Bool.not_not, pure, Except.pure] at h
          split_ifs at h <;> (simp only [Except.ok.injEq] at h; rw [← h])
    have hne : ¬ (c.fieldsType = "electrostatic" ∧ c.fieldsSolver = "fft") := by rw [ht]; simp
    simp only [fieldsForFluxes, if_neg hne, bind, Except.bind, pure, Except.pure] at hF
    cases hf : σ.flag with
    | true =>
      rw [if_neg (by simp [hf])] at hF
      simp only [Except.ok.injEq] at hF
      subst hF
      exact Or.inl ⟨rfl, by rw [hr, hf]; rfl⟩
    | false =>
      rw [if_pos ⟨ht, hf⟩, if_pos hq] at hF
      refine Or.inr ⟨rfl, ?_⟩
      cases hm : reconMethod c.reconstructionInQ with
      | error e => simp [hm] at hF
      | ok m =>
        cases dt with
        | none => simp [hm] at hF
        | some d =>
          have key : ∀ J E, evolveElectrodynamic c.fieldParams id J d { σ with yee := σ.yee.setE E } = .ok σ2 →
              r.2.flag = true ∧ ∃ d', some d = some d' ∧ r.2.timeElapsed = σ.timeElapsed + d' ∧
                ∃ J E, fdtd c.fieldParams id J d' (σ.yee.setE E) = .ok r.2.yee := by
            intro J E he
            obtain ⟨e1, e2, e3, -⟩ := evolveElectrodynamic_ok he
            rw [hr]
            exact ⟨by simp [e2, hf], d, rfl, by simp [e3], J, E, by simpa using e1⟩
          by_cases hh : c.hybrid = true
          · cases he2 : evolveElectrodynamic c.fieldParams id (hybridFields c hyb m cb.Cq1 cb.Cq2 f selff σ.yee).1 d
              { σ with yee := σ.yee.setE (some (hybridFields c hyb m cb.Cq1 cb.Cq2 f selff σ.yee).2) } with
            | error e => simp [hm, hh, he2] at hF
            | ok σ1 =>
              simp only [hm, if_pos hh, he2, Except.ok.injEq] at hF
              subst hF
              exact key _ _ he2
          · cases he2 : evolveElectrodynamic c.fieldParams id (kineticCurrents c m cb.Cq1 cb.Cq2 f) d σ with
            | error e => simp [hm, hh, he2] at hF
            | ok σ1 =>
              simp only [hm, if_neg hh, he2, Except.ok.injEq] at hF
              subst hF
              exact key _ none he2

/-- C74 (negative): **diagnostics are not free of effects.**  In an electrodynamic run, two successive calls — for whichever terms, in
whichever state — advance the electromagnetic fields by one step of size `self.dt`, although no time step was taken: after them the clock
of the fields is ahead by `self.dt`, and if the calls began between steps the staggered fields are one update further. -/
theorem C74_two_calls_advance_the_fields (c : CoupledConfig S P Q K) (hc : ElectrodynamicFVM c) (term term' : String) (poisson)
    (cb cb' : CoupledCallbacks S P Q K) (hyb : S) (dt : Option K) (selff f f' : Dist S P Q K) (σ : FieldState Q K) (r r' : Dist S P Q K × FieldState Q K)
    (h : dfdtTerm term c poisson cb hyb dt selff f σ = .ok r) (h' : dfdtTerm term' c poisson cb' hyb dt selff f' r.2 = .ok r') :
    ∃ d, dt = some d ∧ r'.2.timeElapsed = σ.timeElapsed + d ∧ r'.2.flag = σ.flag ∧
      ∃ J E, fdtd c.fieldParams id J d (σ.yee.setE E) = .ok r'.2.yee := by
  rcases dfdtTerm_state hc h with ⟨hf, hr⟩ | ⟨hf, hr, d, rfl, ht, J, E, hJ⟩
  · rcases dfdtTerm_state hc h' with ⟨hf', -⟩ | ⟨-, hr', d, rfl, ht, J, E, hJ⟩
    · rw [hr] at hf'; cases hf'
    · rw [hr] at ht hJ
      exact ⟨d, rfl, ht, by rw [hr', hf], J, E, hJ⟩
  · rcases dfdtTerm_state hc h' with ⟨-, hr'⟩ | ⟨hf', -⟩
    · rw [hr']
      exact ⟨d, rfl, ht, hf.symm, J, E, hJ⟩
    · rw [hr] at hf'; cases hf'

/-- C74 (negative): on a solver that has not taken a step and whose attribute `dt` has not been set, one of two successive calls raises. -/
theorem C74_needs_a_step_size (c : CoupledConfig S P Q K) (hc : ElectrodynamicFVM c) (term term' : String) (poisson)
    (cb cb' : CoupledCallbacks S P Q K) (hyb : S) (selff f f' : Dist S P Q K) (σ : FieldState Q K) (r : Dist S P Q K × FieldState Q K)
    (h : dfdtTerm term c poisson cb hyb none selff f σ = .ok r) : ∃ e, dfdtTerm term' c poisson cb' hyb none selff f' r.2 = .error e := by
  cases h' : dfdtTerm term' c poisson cb' hyb none selff f' r.2 with
  | error e => exact ⟨e, rfl⟩
  | ok r' =>
    obtain ⟨d, hd, -⟩ := C74_two_calls_advance_the_fields c hc term term' poisson cb cb' hyb none selff f f' σ r r' h h'
    cases hd

/-- Non-vacuity of C74: three species cells, PPM and minmod, an electrodynamic run with kinetic species. -/
example : ∃ k σ', dfdtCoupled c69Cfg (fun _ σ => σ) c69Cb 0 (1 / 10) c71F c71F c71State = .ok (k, σ') ∧ ElectrodynamicFVM c69Cfg := by
  obtain ⟨r, h⟩ := dfdtCoupled_exists c69Cfg ⟨rfl, rfl, rfl, rfl⟩ rfl ⟨.ppm, rfl⟩ ⟨.minmod, rfl⟩ (fun _ σ => σ) c69Cb 0 (1 / 10) c71F c71F c71State
  exact ⟨r.1, r.2, h, rfl, rfl, rfl, rfl⟩

end Bolt
