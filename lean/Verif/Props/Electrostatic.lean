import Verif.Proofs.Electrostatic
import Verif.Props.CoupledDecomp

/-!
# C82: momentum in electrostatic runs
-/

set_option linter.unusedSectionVars false

namespace Bolt

open Finset

variable {M1 M2 : ℕ} [NeZero M1] [NeZero M2]

/-- C82: **no self-force.**  The field of the spectral Poisson solver exerts no net force on the charge that creates it. -/
theorem C82_no_self_force {cs : ℕ} {dq1 dq2 eps : ℝ} {rho E1 E2 : ZMod M1 × ZMod M2 → ℝ} (h : fftPoisson cs dq1 dq2 eps rho = .ok (E1, E2)) :
    ∑ q, rho q * E1 q = 0 ∧ ∑ q, rho q * E2 q = 0 := by
  rw [fftPoisson] at h
  split_ifs at h
  simp only [Except.ok.injEq, Prod.mk.injEq] at h
  obtain ⟨rfl, rfl⟩ := h
  constructor
  all_goals
    refine no_self_force_component rho 0 _ (fun k => 4 * Real.pi ^ 2 * (fftfreq M1 dq1 k.1 ^ 2 + fftfreq M2 dq2 k.2 ^ 2)) eps _ (fun k hk => ?_) ?_
    · rw [if_neg hk, afFft2_sub_const _ _ _ hk]
    · rw [if_pos rfl]

section
variable {S : Type} [Fintype S] {N1 N2 N3 : ℕ} [NeZero N1] [NeZero N2] [NeZero N3]

/-- An electrostatic finite-volume run. -/
structure ElectrostaticFVM {P : Type} (c : CoupledConfig S P (ZMod M1 × ZMod M2) ℝ) : Prop where
  inP : c.solverMethodInP = "FVM"
  enabled : c.fieldsEnabled = true
  type : c.fieldsType = "electrostatic"
  solver : c.fieldsSolver = "fft"
  cells : M2 ≠ 1

/-- C82: **what the forces see.**  In an electrostatic run with the bundled nonrelativistic physics, a slope evaluated at `f` is that of transport
with the velocity of the momentum cell and of the Lorentz force in the spectral Poisson field of the charge density of `f`, the other four
components being those of the array of the fields solver, which the evaluation leaves alone. -/
theorem C82_fields_seen {P : Type} [AddCommGroup P] [Fintype P] {c : CoupledConfig S P (ZMod M1 × ZMod M2) ℝ} (hc : ElectrostaticFVM c) (m : S → ℝ)
    (ctr cor : PCoords S P ℝ) (src : (S → P → ℝ) → S → P → ℝ) (hyb : S) (dt : ℝ) {selff f k : Dist S P (ZMod M1 × ZMod M2) ℝ}
    {σ σ' : FieldState (ZMod M1 × ZMod M2) ℝ}
    (h : dfdtCoupled c (electrostaticFFT c.dq1 c.dq2 c.eps) (nonrelCallbacks c.charge m ctr cor src) hyb dt selff f σ = .ok (k, σ')) :
    ∃ E1 E2, fftPoisson 1 c.dq1 c.dq2 c.eps (fun q => ∑ s, c.charge s * density c.coords c.measure f s q) = .ok (E1, E2) ∧
      (let G := σ.heap σ.cc
       let a := fun (s : S) (q : ZMod M1 × ZMod M2) (v : Fin 3 → ℝ) =>
        lorentz (c.charge s) (m s) ![E1 q, E2 q, G.E3 q] ![G.B1 q, G.B2 q, G.B3 q] v
       dfdtFVM c.ax c.toFVMConfig ⟨fun s p _ => ctr.p1 s p, fun s p _ => ctr.p2 s p,
          fun s p q => a s q ![cor.p1 s p, ctr.p2 s p, ctr.p3 s p] 0,
          fun s p q => a s q ![ctr.p1 s p, cor.p2 s p, ctr.p3 s p] 1,
          fun s p q => a s q ![ctr.p1 s p, ctr.p2 s p, cor.p3 s p] 2,
          fun f s p q => src (fun s p => f s p q) s p⟩ f = .ok k) ∧
      σ'.heap σ'.cc = { σ.heap σ.cc with E1 := E1, E2 := E2 } := by
  obtain ⟨σ1, σ2, u, a, b, d⟩ := dfdtCoupled_ok ⟨hc.inP, hc.enabled⟩ h
  have e1 : σ1 = σ := by
    rcases u with ⟨hf, _⟩ | ⟨_, e⟩
    · rw [hc.type] at hf; exact absurd hf (by decide)
    · exact e
  subst e1
  rw [if_pos ⟨hc.type, hc.solver⟩] at a
  obtain ⟨⟨E1, E2⟩, hE⟩ : ∃ E, fftPoisson 1 c.dq1 c.dq2 c.eps (fun j => ∑ s, c.charge s * density c.coords c.measure f s j) = .ok E := by
    simp only [fftPoisson, ne_eq, not_true_eq_false, if_false, if_neg hc.cells]; exact ⟨_, rfl⟩
  simp only [electrostaticFFT, hE] at a
  have eh : σ2.heap σ2.cc = { σ1.heap σ1.cc with E1 := E1, E2 := E2 } := by rw [a]; simp
  have g1 : ∀ ρ : FieldState (ZMod M1 × ZMod M2) ℝ, (getFields c.fieldsSolver "FVM" ρ).1 = ρ.heap ρ.cc := fun ρ => by
    simp [getFields, hc.solver]
  refine ⟨E1, E2, hE, ?_, ?_⟩
  · simp only [g1] at d
    rw [eh] at d
    rw [← d]
    congr 1
    simp only [nonrelCallbacks, nonrelCq, nonrelCp, lorentz, Matrix.cons_val_zero, Matrix.cons_val_one, Matrix.cons_val, add_sub_assoc]
  · change (k, σ').2.heap (k, σ').2.cc = _
    rw [b]
    exact eh

/-- C82: what the forces see satisfies Gauss's law for the charge of the distribution the slope is evaluated at, in every resolved mode. -/
theorem C82_gauss {P : Type} [AddCommGroup P] [Fintype P] {c : CoupledConfig S P (ZMod M1 × ZMod M2) ℝ} (hc : ElectrostaticFVM c)
    (h1 : c.dq1 ≠ 0) (h2 : c.dq2 ≠ 0) (m : S → ℝ)
    (ctr cor : PCoords S P ℝ) (src : (S → P → ℝ) → S → P → ℝ) (hyb : S) (dt : ℝ) {selff f k : Dist S P (ZMod M1 × ZMod M2) ℝ}
    {σ σ' : FieldState (ZMod M1 × ZMod M2) ℝ}
    (h : dfdtCoupled c (electrostaticFFT c.dq1 c.dq2 c.eps) (nonrelCallbacks c.charge m ctr cor src) hyb dt selff f σ = .ok (k, σ'))
    (w : ZMod M1 × ZMod M2) (hw : w ≠ 0) (n1 : ¬ Nyquist w.1) (n2 : ¬ Nyquist w.2) :
    Complex.I * waveNumber c.dq1 w.1 * coeff (fun j => ((σ'.heap σ'.cc).E1 j : ℂ)) w +
        Complex.I * waveNumber c.dq2 w.2 * coeff (fun j => ((σ'.heap σ'.cc).E2 j : ℂ)) w
      = coeff (fun j => ((∑ s, c.charge s * density c.coords c.measure f s j : ℝ) : ℂ)) w / c.eps := by
  obtain ⟨E1, E2, hE, -, e⟩ := C82_fields_seen hc m ctr cor src hyb dt h
  rw [e]
  exact C21_gauss_in_every_resolved_mode h1 h2 hE w hw n1 n2

/-- The momentum of all particles: `∑ over species of m_s` times the integral of `f v`. -/
noncomputable def allMomentum (m : S → ℝ) (c : PCoords S (PIdx N1 N2 N3) ℝ) (measure : S → ℝ) (f : Dist S (PIdx N1 N2 N3) (ZMod M1 × ZMod M2) ℝ) (j : Fin 3) : ℝ :=
  ∑ s, m s * totalMomentum c measure f s j

variable {c : CoupledConfig S (PIdx N1 N2 N3) (ZMod M1 × ZMod M2) ℝ}

theorem nonrel_lorentz (e m : S → ℝ) (ctr cor : PCoords S (PIdx N1 N2 N3) ℝ) (E B : Fin 3 → ZMod M1 × ZMod M2 → ℝ) :
    ((fun s p q => lorentz (e s) (m s) ![E 0 q, E 1 q, E 2 q] ![B 0 q, B 1 q, B 2 q] ![cor.p1 s p, ctr.p2 s p, ctr.p3 s p] 0,
      fun s p q => lorentz (e s) (m s) ![E 0 q, E 1 q, E 2 q] ![B 0 q, B 1 q, B 2 q] ![ctr.p1 s p, cor.p2 s p, ctr.p3 s p] 1,
      fun s p q => lorentz (e s) (m s) ![E 0 q, E 1 q, E 2 q] ![B 0 q, B 1 q, B 2 q] ![ctr.p1 s p, ctr.p2 s p, cor.p3 s p] 2) :
      Dist S (PIdx N1 N2 N3) (ZMod M1 × ZMod M2) ℝ × Dist S (PIdx N1 N2 N3) (ZMod M1 × ZMod M2) ℝ × Dist S (PIdx N1 N2 N3) (ZMod M1 × ZMod M2) ℝ)
    = nonrelCallbacksP e m ctr cor (fun _ => ![E 0, E 1, E 2, B 0, B 1, B 2]) := by
  simp only [nonrelCallbacksP, nonrelCp, lorentz, Matrix.cons_val_zero, Matrix.cons_val_one, Matrix.cons_val, add_sub_assoc]

/-- C82: **the electrostatic field moves no momentum in all.**  In a collisionless electrostatic run with the first-order scheme in momentum space,
whatever scheme is used in position space, the momentum of all particles along any resolved axis whose outermost cells are empty changes
at the rate of the force of the magnetic field and of the third component of the electric field, both of which come from outside: the self-consistent field
contributes nothing. -/
theorem C82_momentum_rate (hc : ElectrostaticFVM c) (hax : MomentumAxes c.ax) (hdp : ∀ s, c.dp1 s ≠ 0 ∧ c.dp2 s ≠ 0 ∧ c.dp3 s ≠ 0)
    (hsrc : c.sourceEnabled = false) (hm : c.reconstructionInP = "piecewise-constant") (m : S → ℝ) (hmass : ∀ s, m s ≠ 0) (s1 s2 s3 : S → ℝ)
    (cor : PCoords S (PIdx N1 N2 N3) ℝ) (src : (S → PIdx N1 N2 N3 → ℝ) → S → PIdx N1 N2 N3 → ℝ) (hyb : S) (dt : ℝ)
    {selff f k : Dist S (PIdx N1 N2 N3) (ZMod M1 × ZMod M2) ℝ} {σ σ' : FieldState (ZMod M1 × ZMod M2) ℝ}
    (h : dfdtCoupled c (electrostaticFFT c.dq1 c.dq2 c.eps) (nonrelCallbacks c.charge m (centres c.toFVMConfig s1 s2 s3) cor src) hyb dt selff f σ
      = .ok (k, σ')) (j : Fin 3) (hj : ClearOfEdges j 1 f) :
    let G := σ.heap σ.cc
    allMomentum m (centres c.toFVMConfig s1 s2 s3) c.measure k j =
      ∑ q, ∑ s, m s * forceDensity (c.charge s) (m s) ![0, 0, G.E3 q] ![G.B1 q, G.B2 q, G.B3 q]
        (density (centres c.toFVMConfig s1 s2 s3) c.measure f s q) (momentumDensity (centres c.toFVMConfig s1 s2 s3) c.measure f s q) j := by
  intro G
  obtain ⟨E1, E2, hE, hk, -⟩ := C82_fields_seen hc m _ cor src hyb dt h
  have hC := nonrel_lorentz c.charge m (centres c.toFVMConfig s1 s2 s3) cor ![E1, E2, G.E3] ![G.B1, G.B2, G.B3]
  have key := fun s => total_slope_fields s1 s2 s3 c.charge m cor _ hax hdp ⟨hc.inP, hc.enabled⟩ hsrc hm hC hk j hj s
  have n := C82_no_self_force hE
  simp only [allMomentum, key, mul_sum]
  rw [sum_comm]
  have d0 : ∀ s q, density (centres c.toFVMConfig s1 s2 s3) c.measure f s q = density c.coords c.measure f s q := fun _ _ => rfl
  have n1 : ∑ q, ∑ s, c.charge s * density c.coords c.measure f s q * E1 q = 0 := by
    simpa only [sum_mul] using n.1
  have n2 : ∑ q, ∑ s, c.charge s * density c.coords c.measure f s q * E2 q = 0 := by
    simpa only [sum_mul] using n.2
  have can : ∀ s x, m s * (c.charge s / m s * x) = c.charge s * x := fun s x => by
    rw [← mul_assoc, mul_div_cancel₀ _ (hmass s)]
  fin_cases j <;>
    simp only [forceDensity, fieldE, fieldB, Fin.zero_eta, Fin.mk_one, Fin.reduceFinMk, Matrix.cons_val_zero, Matrix.cons_val_one,
      Matrix.cons_val, can, d0]
  · rw [← sub_eq_zero, ← sum_sub_distrib]
    refine Eq.trans ?_ n1
    refine sum_congr rfl fun q _ => ?_
    rw [← sum_sub_distrib]
    exact sum_congr rfl fun s _ => by ring
  · rw [← sub_eq_zero, ← sum_sub_distrib]
    refine Eq.trans ?_ n2
    refine sum_congr rfl fun q _ => ?_
    rw [← sum_sub_distrib]
    exact sum_congr rfl fun s _ => by ring

/-- The fields from outside are zero. -/
def NoOutsideField (σ : FieldState (ZMod M1 × ZMod M2) ℝ) : Prop :=
  (σ.heap σ.cc).E3 = 0 ∧ (σ.heap σ.cc).B1 = 0 ∧ (σ.heap σ.cc).B2 = 0 ∧ (σ.heap σ.cc).B3 = 0

/-- C82: **momentum is conserved in electrostatic runs.**  A collisionless electrostatic run of any number `n` of steps of any sizes, with the
first-order scheme in momentum space, any available scheme in position space, and no field from outside, conserves exactly the momentum of all
particles along every momentum axis whose outermost `2 n` layers are empty at the start. -/
theorem C82_momentum_conserved (hc : ElectrostaticFVM c) (hax : MomentumAxes c.ax) (hdp : ∀ s, c.dp1 s ≠ 0 ∧ c.dp2 s ≠ 0 ∧ c.dp3 s ≠ 0)
    (hsrc : c.sourceEnabled = false) (hm : c.reconstructionInP = "piecewise-constant") (m : S → ℝ) (hmass : ∀ s, m s ≠ 0) (s1 s2 s3 : S → ℝ)
    (hyb : S) (steps : List (ℝ × (Fin 2 → CoupledCallbacks S (PIdx N1 N2 N3) (ZMod M1 × ZMod M2) ℝ)))
    (hcb : ∀ st ∈ steps, ∀ t, ∃ cor src, st.2 t = nonrelCallbacks c.charge m (centres c.toFVMConfig s1 s2 s3) cor src)
    {f f' : Dist S (PIdx N1 N2 N3) (ZMod M1 × ZMod M2) ℝ} {σ σ' : FieldState (ZMod M1 × ZMod M2) ℝ} (h0 : NoOutsideField σ) (j : Fin 3)
    (hj : ClearOfEdges j (2 * steps.length) f)
    (h : runCoupled c (electrostaticFFT c.dq1 c.dq2 c.eps) hyb steps (f, σ) = .ok (f', σ')) :
    allMomentum m (centres c.toFVMConfig s1 s2 s3) c.measure f' j = allMomentum m (centres c.toFVMConfig s1 s2 s3) c.measure f j := by
  -- one slope
  have slope : ∀ (cb : CoupledCallbacks S (PIdx N1 N2 N3) (ZMod M1 × ZMod M2) ℝ),
      (∃ cor src, cb = nonrelCallbacks c.charge m (centres c.toFVMConfig s1 s2 s3) cor src) →
      ∀ (dt : ℝ) (g : Dist S (PIdx N1 N2 N3) (ZMod M1 × ZMod M2) ℝ) (τ : FieldState (ZMod M1 × ZMod M2) ℝ)
        (r : Dist S (PIdx N1 N2 N3) (ZMod M1 × ZMod M2) ℝ × FieldState (ZMod M1 × ZMod M2) ℝ) (l : ℕ), NoOutsideField τ → ClearOfEdges j (l + 1) g →
      dfdtCoupled c (electrostaticFFT c.dq1 c.dq2 c.eps) cb hyb dt g g τ = .ok r →
      NoOutsideField r.2 ∧ ClearOfEdges j l r.1 ∧ allMomentum m (centres c.toFVMConfig s1 s2 s3) c.measure r.1 j = 0 := by
    rintro _ ⟨cor, src, rfl⟩ dt g τ ⟨k, τ'⟩ l hτ hg hr
    obtain ⟨E1, E2, hE, hk, e⟩ := C82_fields_seen hc m _ cor src hyb dt hr
    refine ⟨?_, slope_clear_layers hax hsrc hm hk j l hg, ?_⟩
    · simp only [NoOutsideField, e]; exact hτ
    · have := C82_momentum_rate hc hax hdp hsrc hm m hmass s1 s2 s3 cor src hyb dt hr j (fun s p q hpq => hg s p q (by omega))
      simp only at this ⊢
      rw [this, hτ.1, hτ.2.1, hτ.2.2.1, hτ.2.2.2]
      refine sum_eq_zero fun q _ => sum_eq_zero fun s _ => ?_
      fin_cases j <;> simp [forceDensity]
  have lin : ∀ (g k g' : Dist S (PIdx N1 N2 N3) (ZMod M1 × ZMod M2) ℝ) (x : ℝ), (∀ s p q, g' s p q = g s p q + k s p q * x) →
      allMomentum m (centres c.toFVMConfig s1 s2 s3) c.measure k j = 0 →
      allMomentum m (centres c.toFVMConfig s1 s2 s3) c.measure g' j = allMomentum m (centres c.toFVMConfig s1 s2 s3) c.measure g j := by
    intro g k g' x hg hk
    simp only [allMomentum, totalMomentum_linear _ _ g k g' x hg]
    simp only [allMomentum] at hk
    simp only [mul_add, sum_add_distrib]
    rw [show ∑ s, m s * (x * totalMomentum (centres c.toFVMConfig s1 s2 s3) c.measure k s j) =
      x * ∑ s, m s * totalMomentum (centres c.toFVMConfig s1 s2 s3) c.measure k s j by
        rw [mul_sum]; exact sum_congr rfl fun s _ => by ring, hk, mul_zero, add_zero]
  induction steps generalizing f σ with
  | nil => simp only [runCoupled, Except.ok.injEq, Prod.mk.injEq] at h; rw [h.1]
  | cons st rest ih =>
    obtain ⟨dt, cb⟩ := st
    simp only [runCoupled, bind, Except.bind] at h
    cases h1 : stepCoupled c (electrostaticFFT c.dq1 c.dq2 c.eps) cb hyb dt (f, σ) with
    | error err => simp [h1] at h
    | ok st' =>
      simp only [h1] at h
      obtain ⟨r0, r1, a, b, d⟩ := stepCoupled_ok h1
      simp only at a b d
      have hl : ClearOfEdges j (2 * rest.length + 1 + 1) f := fun s p q hpq => hj s p q (by simp only [List.length_cons]; omega)
      obtain ⟨o0, c0, m0⟩ := slope (cb 0) (hcb (dt, cb) (by simp) 0) dt f σ r0 _ h0 hl a
      have hh : ClearOfEdges j (2 * rest.length + 1) (fun s p q => f s p q + r0.1 s p q * (dt / 2)) := fun s p q hpq => by
        have z1 := c0 s p q hpq
        have z2 := hl s p q (by omega)
        simp only [z1, z2]; ring
      obtain ⟨o1, c1, m1⟩ := slope (cb 1) (hcb (dt, cb) (by simp) 1) dt _ r0.2 r1 _ o0 hh b
      have hn : ClearOfEdges j (2 * rest.length) (fun s p q => f s p q + r1.1 s p q * dt) := fun s p q hpq => by
        have z1 := c1 s p q hpq
        have z2 := hl s p q (by omega)
        simp only [z1, z2]; ring
      rw [d] at h
      rw [ih (fun x hx => hcb x (List.mem_cons_of_mem _ hx)) o1 hn h]
      exact lin f r1.1 _ dt (fun _ _ _ => rfl) m1

end

/-! ## A case meeting the hypotheses: two species, 5 momentum cells, 3 × 2 positions, two unequal bunches in the middle momentum cell -/

noncomputable def c82Cfg : CoupledConfig (Fin 2) (PIdx 5 1 1) (ZMod 3 × ZMod 2) ℝ where
  solverMethodInQ := "FVM"
  solverMethodInP := "FVM"
  reconstructionInQ := "ppm"
  reconstructionInP := "piecewise-constant"
  riemannInQ := "upwind-flux"
  riemannInP := "upwind-flux"
  sourceEnabled := false
  fieldsEnabled := true
  dq1 := 1
  dq2 := 2
  dp1 := fun _ => 1
  dp2 := fun _ => 1
  dp3 := fun _ => 1
  ax := ⟨(1, 0, 0), (0, 1, 0), (0, 0, 1), (1, 0), (0, 1)⟩
  fieldsType := "electrostatic"
  fieldsSolver := "fft"
  charge := fun s => if s = 0 then 1 else -1
  coords := gridCoords 5 1 1 (1 / 2) 0 0 0 (fun _ => 1) (fun _ => 1) (fun _ => 1)
  eps := 3
  mu := 5
  hybrid := false
  Te := 0

def c82F : Dist (Fin 2) (PIdx 5 1 1) (ZMod 3 × ZMod 2) ℝ := fun s p q => if p.1 = 2 then 1 + s.val * q.1.val else 0

/-- The hypotheses are met, the step exists, the bunches carry momentum, and the charge is not uniform. -/
example (dt : ℝ) :
    let stp : ℝ × (Fin 2 → CoupledCallbacks (Fin 2) (PIdx 5 1 1) (ZMod 3 × ZMod 2) ℝ) :=
      (dt, fun _ => nonrelCallbacks c82Cfg.charge (fun s => 1 + s.val) (centres c82Cfg.toFVMConfig 0 0 0) (centres c82Cfg.toFVMConfig 0 0 0) id)
    let σ : FieldState (ZMod 3 × ZMod 2) ℝ := ⟨fun _ => EM.const 0 0 0 0 0 0, 0, 0, 0, EM.const 0 0 0 0 0 0, true, 0⟩
    ∃ f' σ', runCoupled c82Cfg (electrostaticFFT c82Cfg.dq1 c82Cfg.dq2 c82Cfg.eps) 0 [stp] (c82F, σ) = .ok (f', σ') ∧
      allMomentum (fun s => 1 + s.val) (centres c82Cfg.toFVMConfig 0 0 0) c82Cfg.measure f' 0 =
        allMomentum (fun s => 1 + s.val) (centres c82Cfg.toFVMConfig 0 0 0) c82Cfg.measure c82F 0 ∧
      0 < allMomentum (fun s => 1 + s.val) (centres c82Cfg.toFVMConfig 0 0 0) c82Cfg.measure c82F 0 ∧
      ∑ s, c82Cfg.charge s * density c82Cfg.coords c82Cfg.measure c82F s (0, 0) ≠
        ∑ s, c82Cfg.charge s * density c82Cfg.coords c82Cfg.measure c82F s (1, 0) := by
  intro stp σ
  obtain ⟨⟨f', σ'⟩, h⟩ := C67_whole_grid_run_exists (c := c82Cfg) ⟨⟨.ppm, rfl⟩, ⟨.piecewiseConstant, rfl⟩, fun _ => rfl⟩
    (electrostaticFFT c82Cfg.dq1 c82Cfg.dq2 c82Cfg.eps) 0 [stp] (c82F, σ)
  refine ⟨f', σ', h, ?_, ?_, ?_⟩
  · refine C82_momentum_conserved (c := c82Cfg) ⟨rfl, rfl, rfl, rfl, by decide⟩ ⟨rfl, rfl, rfl⟩ (by simp [c82Cfg]) rfl rfl _ (fun s => by positivity)
      0 0 0 0 [stp] (fun x hx t => ?_) ⟨rfl, rfl, rfl, rfl⟩ 0 (fun s p q hp => ?_) h
    · rw [List.mem_singleton] at hx
      subst hx
      exact ⟨_, _, rfl⟩
    · refine if_neg fun e => ?_
      simp only [momentumIndex, e, List.length_singleton, Matrix.cons_val_zero] at hp
      revert hp
      decide
  · have pos : ∀ s p q, 0 ≤ c82F s p q := fun s p q => by unfold c82F; split_ifs <;> positivity
    have v : ∀ s (p : PIdx 5 1 1), 0 < (centres c82Cfg.toFVMConfig 0 0 0 : PCoords (Fin 2) (PIdx 5 1 1) ℝ).p1 s p := fun s p => by
      simp only [gridCoords, c82Cfg, Pi.zero_apply]; positivity
    have ms : ∀ s, c82Cfg.measure s = 1 := fun s => by simp [FVMConfig.measure, c82Cfg]
    unfold allMomentum totalMomentum momentumDensity
    have nn : ∀ s q, 0 ≤ momV1 (centres c82Cfg.toFVMConfig 0 0 0) c82Cfg.measure c82F s q := fun s q => by
      unfold momV1 integralOverV
      rw [ms, mul_one]
      exact sum_nonneg fun p _ => mul_nonneg (pos s p q) (v s p).le
    have p0 : 0 < momV1 (centres c82Cfg.toFVMConfig 0 0 0) c82Cfg.measure c82F 0 (0, 0) := by
      unfold momV1 integralOverV
      rw [ms, mul_one]
      refine sum_pos' (fun p _ => mul_nonneg (pos 0 p _) (v 0 p).le) ⟨(2, 0, 0), mem_univ _, mul_pos ?_ (v _ _)⟩
      simp [c82F]
    refine sum_pos' (fun s _ => mul_nonneg (by positivity) (sum_nonneg fun q _ => nn s q)) ⟨0, mem_univ _, mul_pos (by positivity) ?_⟩
    exact sum_pos' (fun q _ => nn 0 q) ⟨(0, 0), mem_univ _, p0⟩
  · have ms : ∀ s, c82Cfg.measure s = 1 := fun s => by simp [FVMConfig.measure, c82Cfg]
    have dn : ∀ s q, density c82Cfg.coords c82Cfg.measure c82F s q = 1 + s.val * q.1.val := fun s q => by
      unfold density integralOverV c82F
      rw [ms, mul_one]
      rw [Fintype.sum_prod_type]
      have u : (univ : Finset (ZMod 1 × ZMod 1)) = {(0, 0)} := rfl
      simp only [u, sum_singleton]
      rw [sum_ite_eq' univ (2 : ZMod 5), if_pos (mem_univ _)]
    have v0 : ((0 : ZMod 3).val : ℝ) = 0 := by norm_num
    have v1 : ((1 : ZMod 3).val : ℝ) = 1 := by rw [show (1 : ZMod 3).val = 1 from rfl]; norm_num
    simp only [Fin.sum_univ_two, dn, v0, v1]
    simp [c82Cfg]

end Bolt
