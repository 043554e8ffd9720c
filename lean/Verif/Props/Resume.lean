import Verif.Proofs.Resume
import Verif.Model.Electrostatic
import Verif.Props.Cover

/-!
# C78: resuming a run with evolving fields
-/

set_option linter.unusedSectionVars false

namespace Bolt

variable {S P Q K : Type} [AddCommGroup P] [AddCommGroup Q] [Field K] [LinearOrder K] [IsStrictOrderedRing K]
  [Fintype S] [Fintype P] [Fintype Q]

/-- C78: what a restart restores.  `st'` is the state after any electrodynamic run, `σ1` a freshly initialised fields solver (with any initial fields) into which
the dumped staggered fields are loaded.  Staggered fields, the time-level flag, and the magnetic field handed to the momentum fluxes are those of the interrupted
run; the electric field handed out is the dumped one interpolated to the centres, at both time levels; the fields' clock is back at zero. -/
theorem C78_restored (c : CoupledConfig S P Q K) (hc : ElectrodynamicFVM c) (poisson) (hyb : S) (ini ini1 : InitFns Q K)
    (σ0 σ1 : FieldState Q K) (h0 : initFields c.fieldParams ini = .ok σ0) (h1 : initFields c.fieldParams ini1 = .ok σ1) (f0 : Dist S P Q K)
    (steps : List (K × (Fin 2 → CoupledCallbacks S P Q K))) (st' : Dist S P Q K × FieldState Q K)
    (h : runCoupled c poisson hyb steps (f0, σ0) = .ok st') (b : Bool) :
    let ℓ := σ1.load c.fieldParams st'.2.yee
    let out (σ : FieldState Q K) := (getFields "fdtd" "FVM" { σ with flag := b }).1
    ℓ.yee = st'.2.yee ∧ ℓ.flag = st'.2.flag ∧ ℓ.timeElapsed = 0 ∧ st'.2.timeElapsed = (steps.map Prod.fst).sum ∧
      (out ℓ).B1 = (out st'.2).B1 ∧ (out ℓ).B2 = (out st'.2).B2 ∧ (out ℓ).B3 = (out st'.2).B3 ∧
      (out ℓ).E1 = (fun i => 1 / 2 * (st'.2.yee.E1 i + st'.2.yee.E1 (i + c.ax.q1))) ∧
      (out ℓ).E2 = (fun i => 1 / 2 * (st'.2.yee.E2 i + st'.2.yee.E2 (i + c.ax.q2))) ∧ (out ℓ).E3 = st'.2.yee.E3 := by
  obtain ⟨b0, t0, -⟩ := boundary_init c ini σ0 h0
  obtain ⟨b1, t1, -⟩ := boundary_init c ini1 σ1 h1
  have b' := boundary_run c hc poisson hyb steps (f0, σ0) st' b0 h
  obtain ⟨-, tt⟩ := C19_flag_and_time c hc poisson hyb steps (f0, σ0) st' b0.flag h
  have eL : ∀ k, k = σ1.cc → (σ1.load c.fieldParams st'.2.yee).heap k = toCentre c.ax.q1 c.ax.q2 .both st'.2.yee (σ1.heap σ1.cc) := by
    intro k hk; simp only [FieldState.load, if_pos hk]; rfl
  have o1 : (getFields "fdtd" "FVM" { σ1.load c.fieldParams st'.2.yee with flag := b }).1
      = toCentre c.ax.q1 c.ax.q2 .both st'.2.yee (σ1.heap σ1.cc) := by
    cases b <;> simp only [getFields, ne_eq, not_true_eq_false, if_false, if_true, Bool.false_eq_true]
    · exact eL _ b1.aliased.2.symm
    · exact eL _ b1.aliased.1.symm
  have o2 : (getFields "fdtd" "FVM" { st'.2 with flag := b }).1 = st'.2.heap st'.2.cc := by
    cases b <;> simp only [getFields, ne_eq, not_true_eq_false, if_false, if_true, Bool.false_eq_true]
    · rw [b'.aliased.2]
    · rw [b'.aliased.1]
  intro ℓ out
  refine ⟨rfl, b1.flag.trans b'.flag.symm, t1, by rw [tt]; simp [t0], ?_, ?_, ?_, ?_, ?_, ?_⟩
  · simp only [out, ℓ, o1, o2, b'.B1]; rfl
  · simp only [out, ℓ, o1, o2, b'.B2]; rfl
  · simp only [out, ℓ, o1, o2, b'.B3]; rfl
  · simp only [out, ℓ, o1]; funext i; simp [toCentre]
  · simp only [out, ℓ, o1]; funext i; simp [toCentre]
  · simp only [out, ℓ, o1]; rfl

/-- C78: what a restart does not restore.  The uninterrupted run hands out, after its last step, the average of the electric field handed out before that step and the
new centred one; so the restarted run sees the same fields exactly if that step did not change the centred electric field handed out. -/
theorem C78_exact_iff (c : CoupledConfig S P Q K) (hc : ElectrodynamicFVM c) (poisson) (hyb : S) (ini ini1 : InitFns Q K)
    (σ0 σ1 : FieldState Q K) (h0 : initFields c.fieldParams ini = .ok σ0) (h1 : initFields c.fieldParams ini1 = .ok σ1) (f0 : Dist S P Q K)
    (steps : List (K × (Fin 2 → CoupledCallbacks S P Q K))) (dt : K) (cb : Fin 2 → CoupledCallbacks S P Q K)
    (st st' : Dist S P Q K × FieldState Q K) (h : runCoupled c poisson hyb steps (f0, σ0) = .ok st)
    (hl : stepCoupled c poisson cb hyb dt st = .ok st') (b : Bool) :
    let ℓ := σ1.load c.fieldParams st'.2.yee
    let out (σ : FieldState Q K) := (getFields "fdtd" "FVM" { σ with flag := b }).1
    (∀ i, (out st'.2).E1 i = 1 / 2 * ((out st.2).E1 i + (out ℓ).E1 i)) ∧ (∀ i, (out st'.2).E2 i = 1 / 2 * ((out st.2).E2 i + (out ℓ).E2 i)) ∧
      (∀ i, (out st'.2).E3 i = 1 / 2 * ((out st.2).E3 i + (out ℓ).E3 i)) ∧
      (out ℓ = out st'.2 ↔ (out ℓ).E1 = (out st.2).E1 ∧ (out ℓ).E2 = (out st.2).E2 ∧ (out ℓ).E3 = (out st.2).E3) := by
  have hrun : runCoupled c poisson hyb (steps ++ [(dt, cb)]) (f0, σ0) = .ok st' := by
    rw [runCoupled_append, h]
    simp only [Except.bind, runCoupled, bind, hl]
  obtain ⟨-, -, -, -, eB1, eB2, eB3, eE1, eE2, eE3⟩ := C78_restored c hc poisson hyb ini ini1 σ0 σ1 h0 h1 f0 _ st' hrun b
  obtain ⟨b0, -, -⟩ := boundary_init c ini σ0 h0
  have bs := boundary_run c hc poisson hyb steps (f0, σ0) st b0 h
  obtain ⟨e, al, -⟩ := stored_after_step c hc poisson cb hyb dt st st' bs.flag bs.aliased hl
  have o : ∀ σ : FieldState Q K, Aliased σ → (getFields "fdtd" "FVM" { σ with flag := b }).1 = σ.heap σ.cc := by
    intro σ ha
    cases b <;> simp only [getFields, ne_eq, not_true_eq_false, if_false, if_true, Bool.false_eq_true]
    · rw [ha.2]
    · rw [ha.1]
  intro ℓ out
  have a1 : ∀ i, (out st'.2).E1 i = 1 / 2 * ((out st.2).E1 i + (out ℓ).E1 i) := by
    intro i; simp only [out, ℓ, eE1, o _ al, o _ bs.aliased, e]; simp [toCentre, EM.avg]
  have a2 : ∀ i, (out st'.2).E2 i = 1 / 2 * ((out st.2).E2 i + (out ℓ).E2 i) := by
    intro i; simp only [out, ℓ, eE2, o _ al, o _ bs.aliased, e]; simp [toCentre, EM.avg]
  have a3 : ∀ i, (out st'.2).E3 i = 1 / 2 * ((out st.2).E3 i + (out ℓ).E3 i) := by
    intro i; simp only [out, ℓ, eE3, o _ al, o _ bs.aliased, e]; simp [toCentre, EM.avg]
  refine ⟨a1, a2, a3, fun he => ?_, fun ⟨x1, x2, x3⟩ => ?_⟩
  · refine ⟨funext fun i => ?_, funext fun i => ?_, funext fun i => ?_⟩
    · have := a1 i; rw [← he] at this; linarith
    · have := a2 i; rw [← he] at this; linarith
    · have := a3 i; rw [← he] at this; linarith
  · refine EM.ext (funext fun i => ?_) (funext fun i => ?_) (funext fun i => ?_) eB1 eB2 eB3
    · rw [a1 i, ← x1]; ring
    · rw [a2 i, ← x2]; ring
    · rw [a3 i, ← x3]; ring

/-! ## A run changed by a restart -/

/-- One spatial cell, two momentum cells, a drift along `p3` that drives a uniform current. -/
def c78Cfg : CoupledConfig Unit (PIdx 2 1 1) (ZMod 1 × ZMod 1) ℚ where
  solverMethodInQ := "FVM"
  solverMethodInP := "FVM"
  reconstructionInQ := "piecewise-constant"
  reconstructionInP := "piecewise-constant"
  riemannInQ := "upwind-flux"
  riemannInP := "upwind-flux"
  sourceEnabled := false
  fieldsEnabled := true
  dq1 := 1
  dq2 := 1
  dp1 := fun _ => 1
  dp2 := fun _ => 1
  dp3 := fun _ => 1
  ax := ⟨(1, 0, 0), (0, 1, 0), (0, 0, 1), (1, 0), (0, 1)⟩
  fieldsType := "electrodynamic"
  fieldsSolver := "fdtd"
  charge := fun _ => 1
  coords := ⟨fun _ _ => 0, fun _ _ => 0, fun _ _ => 1⟩
  eps := 2
  mu := 1
  hybrid := false
  Te := 0

/-- A force along `p1` given by the electric field handed out. -/
def c78Cb : CoupledCallbacks Unit (PIdx 2 1 1) (ZMod 1 × ZMod 1) ℚ where
  Cq1 := fun _ _ _ => 0
  Cq2 := fun _ _ _ => 0
  Cp1 := fun F _ _ q => F.E3 q
  Cp2 := fun _ _ _ _ => 0
  Cp3 := fun _ _ _ _ => 0
  source := id

def c78Ini : InitFns (ZMod 1 × ZMod 1) ℚ := ⟨some (fun _ => 0, fun _ => 0, fun _ => 0), none, some (fun _ => 0, fun _ => 0, fun _ => 0), none, none⟩

/-- The distribution with values `a` and `b` in the two momentum cells. -/
def c78F (a b : ℚ) : Dist Unit (PIdx 2 1 1) (ZMod 1 × ZMod 1) ℚ := fun _ p _ => if p.1 = 0 then a else b

/-- The fields solver with cell-centred electric field `e` and staggered electric field `y` along `q3`. -/
def c78St (e y t : ℚ) : FieldState (ZMod 1 × ZMod 1) ℚ :=
  ⟨fun k => if k = 0 then EM.const 0 0 e 0 0 0 else EM.const 0 0 0 0 0 0, 0, 0, 0, EM.const 0 0 y 0 0 0, true, t⟩

theorem c78_slope (e a b : ℚ) :
    dfdtFVM c78Cfg.ax c78Cfg.toFVMConfig ⟨c78Cb.Cq1, c78Cb.Cq2, fun _ _ _ => e, fun _ _ _ => 0, fun _ _ _ => 0, id⟩ (c78F a b)
      = .ok (c78F (-|e| * (a - b)) (|e| * (a - b))) := by
  simp only [dfdtFVM, c78Cfg, reconMethod, bind, Except.bind, pure, Except.pure, c78Cb]
  simp only [reduceIte, true_and, Bool.false_eq_true, Except.ok.injEq]
  funext s p q
  obtain ⟨p1, p2, p3⟩ := p
  have h11 : (1 + 1 : ZMod 2) = 0 := rfl
  have h01 : (0 - 1 : ZMod 2) = 1 := rfl
  have hn : (1 : ZMod 2) ≠ 0 := by decide
  simp only [dfdtQ, dfdtP, dFluxP, fluxDiv_eq, c78F, leftFlux, leftState, reconFaces, riemann, afShift_one]
  obtain rfl | rfl : p1 = 0 ∨ p1 = 1 := by revert p1; decide
  all_goals
    rcases lt_trichotomy e 0 with h | h | h
    · simp [leftFlux, leftState, reconFaces, riemann, afSelect, h11, hn, abs_of_neg h, not_lt.mpr h.le]; try ring
    · simp [leftFlux, leftState, reconFaces, riemann, afSelect, h]
    · simp [leftFlux, leftState, reconFaces, riemann, afSelect, h11, hn, h, abs_of_pos h]; try ring

theorem c78_dynamic : ElectrodynamicFVM c78Cfg := ⟨rfl, rfl, rfl, rfl⟩

theorem c78_current (a b : ℚ) : kineticCurrents c78Cfg .piecewiseConstant c78Cb.Cq1 c78Cb.Cq2 (c78F a b)
    = ⟨fun _ => 0, fun _ => 0, fun _ => a + b⟩ := by
  have h : ∀ g : PIdx 2 1 1 → ℚ, ∑ p, g p = g (0, 0, 0) + g (1, 0, 0) := fun g => by
    rw [Fintype.sum_prod_type, show (Finset.univ : Finset (ZMod 2)) = {0, 1} from rfl, Finset.sum_pair (by decide)]
    rw [show (Finset.univ : Finset (ZMod 1 × ZMod 1)) = {(0, 0)} from rfl, Finset.sum_singleton, Finset.sum_singleton]
  simp only [kineticCurrents, momV1, momV2, momV3, integralOverV, FVMConfig.measure, c78Cfg, h]
  simp [c78F]

theorem c78_step (a b e y t : ℚ) :
    stepCoupled c78Cfg (fun _ σ => σ) (fun _ => c78Cb) () 1 (c78F a b, c78St e y t) =
      (let y' := y - (a + b) / 2
       let e' := (e + y') / 2
       let d := (a - b) * (1 - |e|)
       .ok (c78F (a - |e'| * d) (b + |e'| * d), c78St e' y' (t + 1))) := by
  have ex := fun g f σ => dfdtCoupled_exists c78Cfg c78_dynamic rfl ⟨.piecewiseConstant, rfl⟩ ⟨.piecewiseConstant, rfl⟩ (fun _ σ => σ) c78Cb () 1 g f σ
  have s1 : dfdtCoupled c78Cfg (fun _ σ => σ) c78Cb () 1 (c78F a b) (c78F a b) (c78St e y t)
      = .ok (c78F (-|e| * (a - b)) (|e| * (a - b)), { c78St e y t with flag := false }) := by
    obtain ⟨r, hr⟩ := ex (c78F a b) (c78F a b) (c78St e y t)
    obtain ⟨σ1, σ2, u, x, w, d⟩ := dfdtCoupled_ok ⟨rfl, rfl⟩ hr
    have e1 : σ1 = c78St e y t := by
      rcases u with ⟨_, hf, _⟩ | ⟨_, h⟩
      · cases hf
      · exact h
    have e2 : σ2 = c78St e y t := by rw [x, e1]; simp
    subst e2
    have d' := (c78_slope e a b).symm.trans d
    rw [Except.ok.injEq] at d'
    rw [hr]
    obtain ⟨r1, r2⟩ := r
    simp only at d' w
    rw [d', w]; rfl
  set ah := a + -|e| * (a - b) * (1 / 2) with hah
  set bh := b + |e| * (a - b) * (1 / 2) with hbh
  have fh : (fun s p q => c78F a b s p q + c78F (-|e| * (a - b)) (|e| * (a - b)) s p q * ((1 : ℚ) / 2)) = c78F ah bh := by
    funext s p q; simp only [c78F]; split_ifs <;> rfl
  set y' := y - (a + b) / 2 with hy'
  set e' := (e + y') / 2 with he'
  have s2 : dfdtCoupled c78Cfg (fun _ σ => σ) c78Cb () 1 (c78F ah bh) (c78F ah bh) { c78St e y t with flag := false }
      = .ok (c78F (-|e'| * (ah - bh)) (|e'| * (ah - bh)), c78St e' y' (t + 1)) := by
    obtain ⟨r, hr⟩ := ex (c78F ah bh) (c78F ah bh) { c78St e y t with flag := false }
    obtain ⟨σ1, σ2, u, x, w, d⟩ := dfdtCoupled_ok ⟨rfl, rfl⟩ hr
    have e1 : σ1 = { c78St e' y' (t + 1) with flag := false } := by
      rcases u with ⟨_, hf, _, m, hm, ⟨hh, _⟩ | ⟨_, he⟩⟩ | ⟨hn, h⟩
      · cases hh
      · have : m = .piecewiseConstant := by simpa [c78Cfg, reconMethod] using hm.symm
        subst this
        rw [c78_current] at he
        simp only [evolveElectrodynamic, fdtd_eq c78Cfg.fieldParams rfl, bind, Except.bind, pure, Except.pure, Except.ok.injEq] at he
        rw [← he]
        have hyee : evolveB c78Cfg.fieldParams 1 (addCurlB c78Cfg.fieldParams ⟨fun _ => 0, fun _ => 0, fun _ => ah + bh⟩ 1
            (EM.const 0 0 y 0 0 0)) = EM.const 0 0 y' 0 0 0 := by
          have : ah + bh = a + b := by simp only [ah, bh]; ring
          rw [this]
          refine EM.ext ?_ ?_ ?_ ?_ ?_ ?_ <;> funext i <;>
            simp [evolveB, addCurlB, curlB1, curlB2, curlB3, curlE1, curlE2, curlE3, EM.const, c78Cfg, CoupledConfig.fieldParams, y', sub_eq_add_neg]
        have hy2 : (c78St e y t).yee = EM.const 0 0 y 0 0 0 := rfl
        simp only [hy2, hyee]
        simp only [storeFields, c78St, FieldState.writeE, FieldState.writeB, FieldState.mk.injEq, and_true, true_and]
        funext k
        by_cases hk : k = 0
        · subst hk
          refine EM.ext ?_ ?_ ?_ ?_ ?_ ?_ <;> funext i <;> simp [toCentre, EM.avg, EM.const, e', div_eq_inv_mul]
        · simp [hk]
      · exact absurd ⟨rfl, rfl⟩ hn
    have e2 : σ2 = { c78St e' y' (t + 1) with flag := false } := by rw [x, e1]; simp
    subst e2
    have d' := (c78_slope e' ah bh).symm.trans d
    rw [Except.ok.injEq] at d'
    rw [hr]
    obtain ⟨r1, r2⟩ := r
    simp only at d' w
    rw [d', w]; rfl
  simp only [stepCoupled, bind, Except.bind, pure, Except.pure, s1, fh, s2]
  refine congrArg Except.ok (Prod.ext ?_ rfl)
  funext s p q
  simp only [c78F]
  split_ifs <;> simp only [ah, bh] <;> ring

/-- C78 (negative): restarting changes the run.  Two steps of an electrodynamic run without interruption end with a different distribution function from one step, a dump of the
distribution function and the fields, a load into a fresh solver of the same problem, and the second step. -/
theorem C78_restart_changes_the_run : ∃ (σ0 : FieldState (ZMod 1 × ZMod 1) ℚ) (st1 st2 rs2 : Dist Unit (PIdx 2 1 1) (ZMod 1 × ZMod 1) ℚ × FieldState (ZMod 1 × ZMod 1) ℚ),
    initFields c78Cfg.fieldParams c78Ini = .ok σ0 ∧
    runCoupled c78Cfg (fun _ σ => σ) () [(1, fun _ => c78Cb)] (c78F 1 0, σ0) = .ok st1 ∧
    runCoupled c78Cfg (fun _ σ => σ) () [(1, fun _ => c78Cb), (1, fun _ => c78Cb)] (c78F 1 0, σ0) = .ok st2 ∧
    runCoupled c78Cfg (fun _ σ => σ) () [(1, fun _ => c78Cb)] (st1.1, σ0.load c78Cfg.fieldParams st1.2.yee) = .ok rs2 ∧
    st2.1 () 0 0 = 33 / 64 ∧ rs2.1 () 0 0 = 36 / 64 := by
  have hi : initFields c78Cfg.fieldParams c78Ini = .ok (c78St 0 0 0) := by
    simp only [initFields, initElectric, initMagnetic, c78Ini, bind, Except.bind, pure, Except.pure, c78St, Except.ok.injEq,
      FieldState.mk.injEq, and_true, true_and]
    refine ⟨?_, rfl⟩
    funext k
    split_ifs
    · refine EM.ext ?_ ?_ ?_ ?_ ?_ ?_ <;> funext i <;> simp [toCentre, EM.const]
    · rfl
  have h1 := c78_step 1 0 0 0 0
  norm_num [abs_of_neg] at h1
  have h2 := c78_step (3 / 4) (1 / 4) (-(1 / 4)) (-(1 / 2)) 1
  norm_num [abs_of_neg] at h2
  have h3 := c78_step (3 / 4) (1 / 4) (-(1 / 2)) (-(1 / 2)) 0
  norm_num [abs_of_neg] at h3
  have hl : (c78St 0 0 0).load c78Cfg.fieldParams (c78St (-(1 / 4)) (-(1 / 2)) 1).yee = c78St (-(1 / 2)) (-(1 / 2)) 0 := by
    simp only [FieldState.load, c78St, FieldState.mk.injEq, and_true]
    funext k
    by_cases hk : k = 0
    · subst hk
      refine EM.ext ?_ ?_ ?_ ?_ ?_ ?_ <;> funext i <;> simp [toCentre, EM.const]
    · simp [hk]
  refine ⟨c78St 0 0 0, (c78F (3 / 4) (1 / 4), c78St (-(1 / 4)) (-(1 / 2)) 1), (c78F (33 / 64) (31 / 64), c78St (-(5 / 8)) (-1) 2),
    (c78F (9 / 16) (7 / 16), c78St (-(3 / 4)) (-1) 1), hi, ?_, ?_, ?_, rfl, ?_⟩
  · simp only [runCoupled, bind, Except.bind, h1]
  · simp only [runCoupled, bind, Except.bind, h1, h2]
  · simp only [runCoupled, bind, Except.bind, hl, h3]
  · simp only [c78F, Prod.fst_zero, if_true]; norm_num

/-! ## Electrostatic runs -/

/-- Two fields solvers that agree in everything an electrostatic run does not recompute: the third component of the electric field and the magnetic field. -/
def SameBackground {Q K : Type} (σ τ : FieldState Q K) : Prop :=
  (σ.heap σ.cc).E3 = (τ.heap τ.cc).E3 ∧ (σ.heap σ.cc).B1 = (τ.heap τ.cc).B1 ∧ (σ.heap σ.cc).B2 = (τ.heap τ.cc).B2 ∧
    (σ.heap σ.cc).B3 = (τ.heap τ.cc).B3

section electrostatic
variable {N1 N2 : ℕ} [NeZero N1] [NeZero N2]

theorem electrostatic_slope (c : CoupledConfig S P (ZMod N1 × ZMod N2) ℝ) (hN : N2 ≠ 1) (hp : c.solverMethodInP = "FVM" ∧ c.fieldsEnabled = true)
    (ht : c.fieldsType = "electrostatic") (hs : c.fieldsSolver = "fft") (cb : CoupledCallbacks S P (ZMod N1 × ZMod N2) ℝ) (hyb : S) (dt : ℝ)
    (f : Dist S P (ZMod N1 × ZMod N2) ℝ) (σ τ : FieldState (ZMod N1 × ZMod N2) ℝ) (hb : SameBackground σ τ)
    (r r' : Dist S P (ZMod N1 × ZMod N2) ℝ × FieldState (ZMod N1 × ZMod N2) ℝ)
    (h : dfdtCoupled c (electrostaticFFT c.dq1 c.dq2 c.eps) cb hyb dt f f σ = .ok r)
    (h' : dfdtCoupled c (electrostaticFFT c.dq1 c.dq2 c.eps) cb hyb dt f f τ = .ok r') :
    r'.1 = r.1 ∧ SameBackground r.2 r'.2 ∧ SameBackground r.2 σ ∧ r.2.heap r.2.cc = r'.2.heap r'.2.cc := by
  obtain ⟨σ1, σ2, u, a, b, d⟩ := dfdtCoupled_ok hp h
  obtain ⟨τ1, τ2, u', a', b', d'⟩ := dfdtCoupled_ok hp h'
  have e1 : σ1 = σ := by
    rcases u with ⟨hf, _⟩ | ⟨_, e⟩
    · rw [ht] at hf; exact absurd hf (by decide)
    · exact e
  have e2 : τ1 = τ := by
    rcases u' with ⟨hf, _⟩ | ⟨_, e⟩
    · rw [ht] at hf; exact absurd hf (by decide)
    · exact e
  subst e1 e2
  rw [if_pos ⟨ht, hs⟩] at a a'
  obtain ⟨⟨E1, E2⟩, hE⟩ : ∃ E, fftPoisson 1 c.dq1 c.dq2 c.eps (fun j => ∑ s, c.charge s * density c.coords c.measure f s j) = .ok E := by
    simp only [fftPoisson, ne_eq, not_true_eq_false, if_false, if_neg hN]; exact ⟨_, rfl⟩
  simp only [electrostaticFFT, hE] at a a'
  have eh : σ2.heap σ2.cc = τ2.heap τ2.cc := by
    rw [a, a']
    simp only [if_true]
    exact EM.ext rfl rfl hb.1 hb.2.1 hb.2.2.1 hb.2.2.2
  have g1 : ∀ ρ : FieldState (ZMod N1 × ZMod N2) ℝ, (getFields c.fieldsSolver "FVM" ρ).1 = ρ.heap ρ.cc := fun ρ => by
    simp [getFields, hs]
  simp only [g1] at d d'
  have : r'.1 = r.1 := by
    rw [eh] at d
    exact Except.ok.inj (d'.symm.trans d)
  have eh' : r.2.heap r.2.cc = r'.2.heap r'.2.cc := by rw [b, b']; exact eh
  refine ⟨this, ?_, ?_, eh'⟩
  · exact ⟨by rw [eh'], by rw [eh'], by rw [eh'], by rw [eh']⟩
  · rw [b, a]; simp only [SameBackground, if_true, and_self]

theorem electrostatic_step (c : CoupledConfig S P (ZMod N1 × ZMod N2) ℝ) (hN : N2 ≠ 1) (hp : c.solverMethodInP = "FVM" ∧ c.fieldsEnabled = true)
    (ht : c.fieldsType = "electrostatic") (hs : c.fieldsSolver = "fft") (cb : Fin 2 → CoupledCallbacks S P (ZMod N1 × ZMod N2) ℝ) (hyb : S) (dt : ℝ)
    (f : Dist S P (ZMod N1 × ZMod N2) ℝ) (σ τ : FieldState (ZMod N1 × ZMod N2) ℝ) (hb : SameBackground σ τ)
    (r r' : Dist S P (ZMod N1 × ZMod N2) ℝ × FieldState (ZMod N1 × ZMod N2) ℝ)
    (h : stepCoupled c (electrostaticFFT c.dq1 c.dq2 c.eps) cb hyb dt (f, σ) = .ok r)
    (h' : stepCoupled c (electrostaticFFT c.dq1 c.dq2 c.eps) cb hyb dt (f, τ) = .ok r') :
    r'.1 = r.1 ∧ SameBackground r.2 r'.2 ∧ SameBackground r.2 σ ∧ r.2.heap r.2.cc = r'.2.heap r'.2.cc := by
  obtain ⟨r0, r1, h0, h1, rfl⟩ := stepCoupled_ok h
  obtain ⟨s0, s1, k0, k1, rfl⟩ := stepCoupled_ok h'
  obtain ⟨e0, b0, b0', -⟩ := electrostatic_slope c hN hp ht hs (cb 0) hyb dt f σ τ hb r0 s0 h0 k0
  simp only at h1 k1
  rw [e0] at k1
  obtain ⟨e1, b1, b1', x1⟩ := electrostatic_slope c hN hp ht hs (cb 1) hyb dt _ r0.2 s0.2 b0 r1 s1 h1 k1
  refine ⟨by simp only [e1], b1, ?_, x1⟩
  exact ⟨b1'.1.trans b0'.1, b1'.2.1.trans b0'.2.1, b1'.2.2.1.trans b0'.2.2.1, b1'.2.2.2.trans b0'.2.2.2⟩

theorem electrostatic_run (c : CoupledConfig S P (ZMod N1 × ZMod N2) ℝ) (hN : N2 ≠ 1) (hp : c.solverMethodInP = "FVM" ∧ c.fieldsEnabled = true)
    (ht : c.fieldsType = "electrostatic") (hs : c.fieldsSolver = "fft") (hyb : S)
    (steps : List (ℝ × (Fin 2 → CoupledCallbacks S P (ZMod N1 × ZMod N2) ℝ)))
    (f : Dist S P (ZMod N1 × ZMod N2) ℝ) (σ τ : FieldState (ZMod N1 × ZMod N2) ℝ) (hb : SameBackground σ τ)
    (r r' : Dist S P (ZMod N1 × ZMod N2) ℝ × FieldState (ZMod N1 × ZMod N2) ℝ)
    (h : runCoupled c (electrostaticFFT c.dq1 c.dq2 c.eps) hyb steps (f, σ) = .ok r)
    (h' : runCoupled c (electrostaticFFT c.dq1 c.dq2 c.eps) hyb steps (f, τ) = .ok r') :
    r'.1 = r.1 ∧ SameBackground r.2 σ ∧ (steps ≠ [] → r.2.heap r.2.cc = r'.2.heap r'.2.cc) := by
  induction steps generalizing f σ τ with
  | nil =>
    simp only [runCoupled, Except.ok.injEq] at h h'
    subst h h'
    exact ⟨rfl, ⟨rfl, rfl, rfl, rfl⟩, fun x => absurd rfl x⟩
  | cons stp rest ih =>
    obtain ⟨dt, cb⟩ := stp
    simp only [runCoupled, bind, Except.bind] at h h'
    cases h1 : stepCoupled c (electrostaticFFT c.dq1 c.dq2 c.eps) cb hyb dt (f, σ) with
    | error e => simp [h1] at h
    | ok G =>
      cases h2 : stepCoupled c (electrostaticFFT c.dq1 c.dq2 c.eps) cb hyb dt (f, τ) with
      | error e => simp [h2] at h'
      | ok G' =>
        simp only [h1] at h
        simp only [h2] at h'
        obtain ⟨e, b, b', x⟩ := electrostatic_step c hN hp ht hs cb hyb dt f σ τ hb G G' h1 h2
        obtain ⟨g, ρ⟩ := G
        obtain ⟨g', ρ'⟩ := G'
        simp only at e b b' x
        subst e
        obtain ⟨i1, i2, i3⟩ := ih g' ρ ρ' b h h'
        refine ⟨i1, ⟨i2.1.trans b'.1, i2.2.1.trans b'.2.1, i2.2.2.1.trans b'.2.2.1, i2.2.2.2.trans b'.2.2.2⟩, fun _ => ?_⟩
        cases rest with
        | nil =>
          simp only [runCoupled, Except.ok.injEq] at h h'
          subst h h'
          exact x
        | cons _ _ => exact i3 (by simp)

/-- C78 (electrostatic): with the FFT solver a restart is exact.  Only the distribution function has to be loaded: a fresh solver of the same problem (its own magnetic field and third
electric component, which the run does not change, are the initial ones) continues as if the run had not been interrupted, and hands out the same fields. -/
theorem C78_electrostatic_exact (c : CoupledConfig S P (ZMod N1 × ZMod N2) ℝ) (hN : N2 ≠ 1) (hp : c.solverMethodInP = "FVM" ∧ c.fieldsEnabled = true)
    (ht : c.fieldsType = "electrostatic") (hs : c.fieldsSolver = "fft") (hyb : S)
    (steps1 steps2 : List (ℝ × (Fin 2 → CoupledCallbacks S P (ZMod N1 × ZMod N2) ℝ))) (f0 : Dist S P (ZMod N1 × ZMod N2) ℝ)
    (σ0 σ1 : FieldState (ZMod N1 × ZMod N2) ℝ) (hb : SameBackground σ0 σ1)
    (st1 st2 rs2 : Dist S P (ZMod N1 × ZMod N2) ℝ × FieldState (ZMod N1 × ZMod N2) ℝ)
    (h1 : runCoupled c (electrostaticFFT c.dq1 c.dq2 c.eps) hyb steps1 (f0, σ0) = .ok st1)
    (h2 : runCoupled c (electrostaticFFT c.dq1 c.dq2 c.eps) hyb (steps1 ++ steps2) (f0, σ0) = .ok st2)
    (hr : runCoupled c (electrostaticFFT c.dq1 c.dq2 c.eps) hyb steps2 (st1.1, σ1) = .ok rs2) :
    rs2.1 = st2.1 ∧ (steps2 ≠ [] → (getFields c.fieldsSolver "FVM" rs2.2).1 = (getFields c.fieldsSolver "FVM" st2.2).1) := by
  rw [runCoupled_append, h1] at h2
  simp only [Except.bind] at h2
  obtain ⟨-, b, -⟩ := electrostatic_run c hN hp ht hs hyb steps1 f0 σ0 σ0 ⟨rfl, rfl, rfl, rfl⟩ st1 st1 h1 h1
  obtain ⟨f1, ρ⟩ := st1
  have b' : SameBackground ρ σ1 := ⟨b.1.trans hb.1, b.2.1.trans hb.2.1, b.2.2.1.trans hb.2.2.1, b.2.2.2.trans hb.2.2.2⟩
  obtain ⟨e, -, x⟩ := electrostatic_run c hN hp ht hs hyb steps2 f1 ρ σ1 b' st2 rs2 h2 hr
  refine ⟨e, fun hne => ?_⟩
  simp only [getFields, hs, ne_eq, reduceCtorEq, not_false_eq_true, if_true]
  simpa using (x hne).symm

end electrostatic

/-! ## On several processes -/

namespace Decomp

variable {N1 N2 : ℕ} [NeZero N1] [NeZero N2] {R : Type} (D : Decomp N1 N2 R) (g1 g2 : ℕ) {Ns Np1 Np2 Np3 : ℕ} [NeZero Np1] [NeZero Np2] [NeZero Np3]

/-- The files list the whole-grid distribution `f` and the whole-grid staggered fields `Y`: cells with `q1` running fastest, the numbers of a cell adjacent. -/
def FilesList (fileF fileEM : Vec K) (f : Dist (Fin Ns) (PIdx Np1 Np2 Np3) (ZMod N1 × ZMod N2) K) (Y : EM (ZMod N1 × ZMod N2) K) : Prop :=
  fileF.len = Np1 * Np2 * Np3 * Ns * (N1 * N2) ∧ fileEM.len = 6 * (N1 * N2) ∧
  (∀ (s : Fin Ns) (p : PIdx Np1 Np2 Np3) (i : ZMod N1 × ZMod N2),
    fileF.data ((p.1.val + Np1 * (p.2.1.val + Np2 * p.2.2.val)) + Np1 * Np2 * Np3 * (s.val + Ns * (i.1.val + N1 * i.2.val))) = f s p i) ∧
  ∀ (n : Fin 6) (i : ZMod N1 × ZMod N2), fileEM.data (n.val + 6 * (i.1.val + N1 * i.2.val)) = Y.comp n i

/-- The files of a coupled run on any set of processes list what the whole-grid run computes. -/
theorem C78_files [∀ r, Fintype (D.Loc g1 g2 r)] {o : BCOptions} {c : CoupledConfig (Fin Ns) (PIdx Np1 Np2 Np3) (ZMod N1 × ZMod N2) K}
    (hc : GridConfig g1 g2 o c) (hg1 : 1 ≤ g1 ∨ g1 = 0 ∧ N1 = 1) (hg2 : 1 ≤ g2 ∨ g2 = 0 ∧ N2 = 1) (hyb : Fin Ns) (poisson)
    (steps : List (K × D.CoupledInput g1 g2 (Fin Ns) Np1 Np2 Np3 K × (Fin 2 → CoupledCallbacks (Fin Ns) (PIdx Np1 Np2 Np3) (ZMod N1 × ZMod N2) K)))
    (hcb : ∀ st ∈ steps, ∀ k r, D.CoupledAgree g1 g2 r (st.2.1.cb k r) (st.2.2 k))
    (F : ∀ r, Dist (Fin Ns) (PIdx Np1 Np2 Np3) (D.Loc g1 g2 r) K) (σ : ∀ r, FieldState (D.Loc g1 g2 r) K)
    (st st' : Dist (Fin Ns) (PIdx Np1 Np2 Np3) (ZMod N1 × ZMod N2) K × FieldState (ZMod N1 × ZMod N2) K)
    (hF : D.Holds g1 g2 F st.1) (hσ : D.FieldsHold g1 g2 σ st.2) (fileF fileEM : Vec K)
    (h : D.RunAndDump g1 g2 o c hyb (steps.map fun s => (s.1, s.2.1)) F σ fileF fileEM)
    (h' : runCoupled c poisson hyb (steps.map fun s => (s.1, s.2.2)) st = .ok st') : FilesList fileF fileEM st'.1 st'.2.yee := by
  obtain ⟨F', σ', hrun, hd, hd'⟩ := h
  obtain ⟨hF', hσ'⟩ := D.C67_coupled_decomposition_independence g1 g2 hc hyb poisson steps hcb F F' σ σ' st st' hF hσ hrun h'
  have hh : D.Holds g1 g2 (fun r => (AfArray.ofDist _ _ (F' r)).toDist (D.n1 r + 2 * g1) (D.n2 r + 2 * g2)) st'.1 := by
    intro r s p l hl
    have n1 : NeZero (D.n1 r + 2 * g1) := ⟨by have := D.pos1 r; omega⟩
    have n2 : NeZero (D.n2 r + 2 * g2) := ⟨by have := D.pos2 r; omega⟩
    simp only [toDist_ofDist]
    exact hF' r s p l hl
  obtain ⟨a, b⟩ := D.dump_data g1 g2 _ fileF hg1 hg2 st'.1 hh (D.shaped_ofDist g1 g2 F') hd
  obtain ⟨a', b'⟩ := D.C38_file_contents _ g1 g2 6 1 _ fileEM (D.sizesOk g1 g2 hg1 hg2) (D.em_shaped g1 g2 fun r => (σ' r).yee) hd' _
    (D.em_bulk g1 g2 (fun r => (σ' r).yee) st'.2.yee hσ'.yee)
  refine ⟨a, by simpa using a', b, fun n i => ?_⟩
  have := b' n.val 0 i.1.val i.2.val n.2 (by norm_num) (ZMod.val_lt _) (ZMod.val_lt _)
  simp only [zero_add, one_mul, ZMod.natCast_val, ZMod.cast_id', id_eq] at this
  rw [this]
  fin_cases n <;> rfl

/-- C78 (several processes): an interrupted coupled run does not depend on the processes before or after the interruption.  Whatever partition ran and dumped the first part, and whatever
partition loads the files and runs the second part, the final files list what the whole-grid run computes when it is interrupted at the same step in the same way. -/
theorem C78_partition_independent {R' : Type} (D' : Decomp N1 N2 R') (g1' g2' : ℕ) [∀ r, Fintype (D.Loc g1 g2 r)] [∀ r, Fintype (D'.Loc g1' g2' r)]
    {o o' : BCOptions} {c : CoupledConfig (Fin Ns) (PIdx Np1 Np2 Np3) (ZMod N1 × ZMod N2) K} (hc : GridConfig g1 g2 o c) (hc' : GridConfig g1' g2' o' c)
    (hg1 : 1 ≤ g1 ∨ g1 = 0 ∧ N1 = 1) (hg2 : 1 ≤ g2 ∨ g2 = 0 ∧ N2 = 1) (hg1' : 1 ≤ g1' ∨ g1' = 0 ∧ N1 = 1) (hg2' : 1 ≤ g2' ∨ g2' = 0 ∧ N2 = 1)
    (hyb : Fin Ns) (poisson)
    (steps1 : List (K × D.CoupledInput g1 g2 (Fin Ns) Np1 Np2 Np3 K × (Fin 2 → CoupledCallbacks (Fin Ns) (PIdx Np1 Np2 Np3) (ZMod N1 × ZMod N2) K)))
    (steps2 : List (K × D'.CoupledInput g1' g2' (Fin Ns) Np1 Np2 Np3 K × (Fin 2 → CoupledCallbacks (Fin Ns) (PIdx Np1 Np2 Np3) (ZMod N1 × ZMod N2) K)))
    (hcb1 : ∀ st ∈ steps1, ∀ k r, D.CoupledAgree g1 g2 r (st.2.1.cb k r) (st.2.2 k))
    (hcb2 : ∀ st ∈ steps2, ∀ k r, D'.CoupledAgree g1' g2' r (st.2.1.cb k r) (st.2.2 k))
    (F : ∀ r, Dist (Fin Ns) (PIdx Np1 Np2 Np3) (D.Loc g1 g2 r) K) (σ : ∀ r, FieldState (D.Loc g1 g2 r) K) (ρ : ∀ r, FieldState (D'.Loc g1' g2' r) K)
    (st st1 rs2 : Dist (Fin Ns) (PIdx Np1 Np2 Np3) (ZMod N1 × ZMod N2) K × FieldState (ZMod N1 × ZMod N2) K) (τ : FieldState (ZMod N1 × ZMod N2) K)
    (hF : D.Holds g1 g2 F st.1) (hσ : D.FieldsHold g1 g2 σ st.2) (hρ : D'.FieldsHold g1' g2' ρ τ) (stale stale' : R' → Vec K)
    (fileF fileEM fileF' fileEM' : Vec K)
    (h1 : D.RunAndDump g1 g2 o c hyb (steps1.map fun s => (s.1, s.2.1)) F σ fileF fileEM)
    (h2 : D'.ResumeAndDump g1' g2' o' c hyb (steps2.map fun s => (s.1, s.2.1)) ρ stale stale' fileF fileEM fileF' fileEM')
    (w1 : runCoupled c poisson hyb (steps1.map fun s => (s.1, s.2.2)) st = .ok st1)
    (w2 : runCoupled c poisson hyb (steps2.map fun s => (s.1, s.2.2)) (st1.1, τ.load c.fieldParams st1.2.yee) = .ok rs2) :
    FilesList fileF' fileEM' rs2.1 rs2.2.yee := by
  obtain ⟨-, -, dF, -⟩ := D.C78_files g1 g2 hc hg1 hg2 hyb poisson steps1 hcb1 F σ st st1 hF hσ fileF fileEM h1 w1
  obtain ⟨F', σ', hrun, hd, hd'⟩ := h1
  obtain ⟨-, hσ'⟩ := D.C67_coupled_decomposition_independence g1 g2 hc hyb poisson steps1 hcb1 F F' σ σ' st st1 hF hσ hrun w1
  obtain ⟨A, Y, hlF, hlE, hr⟩ := h2
  exact D'.C78_files g1' g2' hc' hg1' hg2' hyb poisson steps2 hcb2 _ _ (st1.1, τ.load c.fieldParams st1.2.yee) rs2
    (D'.load_holds g1' g2' A fileF stale hg1' hg2' st1.1 dF hlF)
    (D.load_fieldsHold g1 g2 D' _ _ g1' g2' stale' (fun r => (σ' r).yee) Y fileEM (D.sizesOk g1 g2 hg1 hg2) (D'.sizesOk g1' g2' hg1' hg2')
      st1.2.yee hσ'.yee hd' hlE c hc.q1 hc.q2 ρ τ hρ) fileF' fileEM' hr w2

/-- C78: neither script raises, on files of the right length. -/
theorem C78_scripts_succeed [∀ r, Fintype (D.Loc g1 g2 r)] {o : BCOptions} {c : CoupledConfig (Fin Ns) (PIdx Np1 Np2 Np3) (ZMod N1 × ZMod N2) K}
    (hc : GridConfig g1 g2 o c) (hi : Implemented c) (hw : WidthsMatch g1 g2 o) (hg1 : 1 ≤ g1 ∨ g1 = 0 ∧ N1 = 1) (hg2 : 1 ≤ g2 ∨ g2 = 0 ∧ N2 = 1)
    (hyb : Fin Ns) (steps : List (K × D.CoupledInput g1 g2 (Fin Ns) Np1 Np2 Np3 K)) (σ : ∀ r, FieldState (D.Loc g1 g2 r) K) (b : Bool)
    (hb : ∀ r, (σ r).flag = b) :
    (∀ F, ∃ fileF fileEM, D.RunAndDump g1 g2 o c hyb steps F σ fileF fileEM) ∧
    ∀ stale stale' fileF fileEM, fileF.len = Np1 * Np2 * Np3 * Ns * (N1 * N2) → fileEM.len = 6 * (N1 * N2) →
      ∃ fileF' fileEM', D.ResumeAndDump g1 g2 o c hyb steps σ stale stale' fileF fileEM fileF' fileEM' := by
  have key : ∀ (F : ∀ r, Dist (Fin Ns) (PIdx Np1 Np2 Np3) (D.Loc g1 g2 r) K) (σ : ∀ r, FieldState (D.Loc g1 g2 r) K), (∀ r, (σ r).flag = b) →
      ∃ fileF fileEM, D.RunAndDump g1 g2 o c hyb steps F σ fileF fileEM := by
    intro F σ hb
    obtain ⟨F', σ', h⟩ := D.C67_decomposed_run_exists g1 g2 hc hi hw hyb steps F σ b hb
    obtain ⟨f1, h1⟩ := D.C38_dump_succeeds (fun r => D.sizes Np1 Np2 Np3 Ns g1 g2 r) g1 g2 _ _ _ (D.sizesOk g1 g2 hg1 hg2) (D.shaped_ofDist g1 g2 F')
    obtain ⟨f2, h2⟩ := D.C38_dump_succeeds (fun r => D.sizes Np1 Np2 Np3 Ns g1 g2 r) g1 g2 _ _ _ (D.sizesOk g1 g2 hg1 hg2)
      (D.em_shaped g1 g2 fun r => (σ' r).yee)
    exact ⟨f1, f2, F', σ', h, h1, h2⟩
  refine ⟨fun F => key F σ hb, fun stale stale' fileF fileEM hf he => ?_⟩
  obtain ⟨A, hA⟩ := (D.C38_load_succeeds (fun r => D.sizes Np1 Np2 Np3 Ns g1 g2 r) g1 g2 .periodic .periodic _ _ stale fileF (D.sizesOk g1 g2 hg1 hg2)).mp hf
  obtain ⟨Y, hY⟩ := (D.C38_load_succeeds (fun r => D.sizes Np1 Np2 Np3 Ns g1 g2 r) g1 g2 .periodic .periodic 6 1 stale' fileEM
    (D.sizesOk g1 g2 hg1 hg2)).mp (by simpa using he)
  obtain ⟨f1, f2, h⟩ := key (fun r => (A r).toDist _ _) (fun r => (σ r).load (D.locCfg g1 g2 c r).fieldParams (Y r).toEM) hb
  exact ⟨f1, f2, A, Y, hA, hY, h⟩

end Decomp

/-! ## Concrete cases -/

/-- The hypotheses of `C78_restored` and `C78_exact_iff` are met by the run above. -/
example (b : Bool) : ∃ σ0 st', initFields c78Cfg.fieldParams c78Ini = .ok σ0 ∧
    runCoupled c78Cfg (fun _ σ => σ) () [(1, fun _ => c78Cb)] (c78F 1 0, σ0) = .ok st' ∧
    (getFields "fdtd" "FVM" { σ0.load c78Cfg.fieldParams st'.2.yee with flag := b }).1.E3 = st'.2.yee.E3 := by
  obtain ⟨σ0, st1, -, -, h0, h1, -⟩ := C78_restart_changes_the_run
  exact ⟨σ0, st1, h0, h1, (C78_restored c78Cfg c78_dynamic _ () c78Ini c78Ini σ0 σ0 h0 h0 _ _ st1 h1 b).2.2.2.2.2.2.2.2.2⟩

/-- An electrostatic run of three steps on a 3 × 2 grid, restarted after the first. -/
example : ∃ st1 st2 rs2, let stp : ℝ × (Fin 2 → CoupledCallbacks Unit (ZMod 2 × ZMod 1 × ZMod 1) (ZMod 3 × ZMod 2) ℝ) :=
      (1 / 10, fun _ => nonrelCallbacks (fun _ => -1) (fun _ => 1) c69Es.coords c69Es.coords id)
    let σ0 : FieldState (ZMod 3 × ZMod 2) ℝ := ⟨fun _ => EM.const 0 0 0 1 2 3, 0, 0, 0, EM.const 0 0 0 1 2 3, true, 0⟩
    runCoupled c69Es (electrostaticFFT c69Es.dq1 c69Es.dq2 c69Es.eps) () [stp] (fun _ p i => p.1.val + i.1.val ^ 2, σ0) = .ok st1 ∧
    runCoupled c69Es (electrostaticFFT c69Es.dq1 c69Es.dq2 c69Es.eps) () ([stp] ++ [stp, stp]) (fun _ p i => p.1.val + i.1.val ^ 2, σ0) = .ok st2 ∧
    runCoupled c69Es (electrostaticFFT c69Es.dq1 c69Es.dq2 c69Es.eps) () [stp, stp] (st1.1, σ0) = .ok rs2 ∧ rs2.1 = st2.1 := by
  have hi : Implemented c69Es := ⟨⟨.ppm, rfl⟩, ⟨.minmod, rfl⟩, fun _ => rfl⟩
  have ex := fun steps st => C67_whole_grid_run_exists hi (electrostaticFFT c69Es.dq1 c69Es.dq2 c69Es.eps) () steps st
  obtain ⟨st1, h1⟩ := ex _ _
  obtain ⟨st2, h2⟩ := ex _ _
  obtain ⟨rs2, h3⟩ := ex _ _
  exact ⟨st1, st2, rs2, h1, h2, h3, (C78_electrostatic_exact c69Es (by norm_num) ⟨rfl, rfl⟩ rfl rfl () _ _ _ _ _ ⟨rfl, rfl, rfl, rfl⟩ st1 st2 rs2 h1 h2 h3).1⟩

/-- One species, two momenta, fields on, six cells. -/
def c78Par : CoupledConfig (Fin 1) (PIdx 2 1 1) (ZMod 6 × ZMod 1) ℚ :=
  { c67Cfg false with
    dp1 := fun _ => 1, dp2 := fun _ => 1, dp3 := fun _ => 1, charge := fun _ => -1
    coords := ⟨fun _ p => if p.1 = 0 then -1 else 1, fun _ _ => 1, fun _ _ => 0⟩ }

def c78ParCb {Q : Type} : CoupledCallbacks (Fin 1) (PIdx 2 1 1) Q ℚ where
  Cq1 := fun s p _ => c78Par.coords.p1 s p
  Cq2 := fun s p _ => c78Par.coords.p2 s p
  Cp1 := fun F _ _ q => -F.E1 q + F.B3 q
  Cp2 := fun F s p q => -F.E2 q - c78Par.coords.p1 s p * F.B3 q
  Cp3 := fun F _ _ q => -F.E3 q
  source := id

theorem c78_agree {R : Type} (D : Decomp 6 1 R) (r : R) : D.CoupledAgree 3 0 r c78ParCb c78ParCb where
  q1 := fun _ _ _ _ => ⟨rfl, rfl⟩
  q2 := fun _ _ _ _ => ⟨rfl, rfl⟩
  p1 := fun F G s p l _ h => by
    have a := h 0; have b := h 5
    simp only [EM.comp] at a b
    simp only [c78ParCb, a, b]
  p2 := fun F G s p l _ h => by
    have a := h 1; have b := h 5
    simp only [EM.comp] at a b
    simp only [c78ParCb, a, b]
  p3 := fun F G s p l _ h => by
    have a := h 2
    simp only [EM.comp] at a
    simp only [c78ParCb, a]
  src := fun f g l _ h s p => h s p

theorem c78_grid : GridConfig 3 0 c67Opt c78Par where
  q1 := rfl
  q2 := rfl
  ends1 := Or.inl ⟨rfl, rfl⟩
  ends2 := Or.inr ⟨rfl, rfl, rfl⟩
  ghosts := by
    intro m hm
    have : m = .ppm := by simpa [c78Par, c67Cfg, reconMethod] using hm.symm
    subst this
    exact ⟨Or.inl ⟨by simp [Recon.radius], by omega, fun _ => by omega⟩, Or.inr ⟨rfl, rfl⟩⟩
  noFFT := by simp [c78Par, c67Cfg]

/-- The scripts exist: `n` steps on two processes, dumped, resumed for `m` steps on one process; the files list the whole-grid run interrupted after `n` steps. -/
example (n m : ℕ) (dt : ℚ) (dat : ∀ r, exD.LocBCData 3 0 r (Fin 1) 2 1 1 ℚ) (user : ∀ r, exD.LocFieldBCs 3 0 r ℚ)
    (dat' : ∀ r, (oneProcess 6 1).LocBCData 3 0 r (Fin 1) 2 1 1 ℚ) (user' : ∀ r, (oneProcess 6 1).LocFieldBCs 3 0 r ℚ)
    [∀ r, Fintype (exD.Loc 3 0 r)] [∀ r, Fintype ((oneProcess 6 1).Loc 3 0 r)] :
    ∃ σ ρ τ fileF fileEM fileF' fileEM' st1 rs2,
      exD.RunAndDump 3 0 c67Opt c78Par 0 (List.replicate n (dt, ⟨fun _ _ => c78ParCb, fun _ => dat, fun _ => user⟩))
        (fun r s p l => c67F () p (exD.toGlob 3 0 r l)) σ fileF fileEM ∧
      (oneProcess 6 1).ResumeAndDump 3 0 c67Opt c78Par 0 (List.replicate m (dt, ⟨fun _ _ => c78ParCb, fun _ => dat', fun _ => user'⟩)) ρ
        (fun _ => ⟨0, fun _ => 0⟩) (fun _ => ⟨0, fun _ => 0⟩) fileF fileEM fileF' fileEM' ∧
      initFields c78Par.fieldParams c67Ini = .ok τ ∧
      runCoupled c78Par (fun _ σ => σ) 0 (List.replicate n (dt, fun _ => c78ParCb)) (fun _ p i => c67F () p i, τ) = .ok st1 ∧
      runCoupled c78Par (fun _ σ => σ) 0 (List.replicate m (dt, fun _ => c78ParCb)) (st1.1, τ.load c78Par.fieldParams st1.2.yee) = .ok rs2 ∧
      Decomp.FilesList fileF' fileEM' rs2.1 rs2.2.yee := by
  have hi : Implemented c78Par := ⟨⟨.ppm, rfl⟩, ⟨.minmod, rfl⟩, fun _ => rfl⟩
  obtain ⟨τ, hτ⟩ : ∃ τ, initFields c78Par.fieldParams c67Ini = .ok τ := ⟨_, rfl⟩
  obtain ⟨σ, -, hh⟩ := (exD.C67_initial_fields_agree 3 0 c78Par rfl rfl c67Ini (Or.inl (by omega)) (Or.inr (Or.inr ⟨rfl, rfl⟩))).2 τ hτ
  obtain ⟨ρ, -, hh'⟩ := ((oneProcess 6 1).C67_initial_fields_agree 3 0 c78Par rfl rfl c67Ini (Or.inl (by omega)) (Or.inr (Or.inr ⟨rfl, rfl⟩))).2 τ hτ
  have g1 : 1 ≤ 3 ∨ 3 = 0 ∧ 6 = 1 := Or.inl (by norm_num)
  have g2 : 1 ≤ 0 ∨ 0 = 0 ∧ 1 = 1 := Or.inr ⟨rfl, rfl⟩
  obtain ⟨st1, w1⟩ := C67_whole_grid_run_exists hi (fun _ σ => σ) 0 (List.replicate n (dt, fun _ => c78ParCb)) (fun _ p i => c67F () p i, τ)
  obtain ⟨rs2, w2⟩ := C67_whole_grid_run_exists hi (fun _ σ => σ) 0 (List.replicate m (dt, fun _ => c78ParCb)) (st1.1, τ.load c78Par.fieldParams st1.2.yee)
  obtain ⟨fileF, fileEM, h1⟩ := (exD.C78_scripts_succeed 3 0 c78_grid hi ⟨rfl, rfl⟩ g1 g2 0
    (List.replicate n (dt, ⟨fun _ _ => c78ParCb, fun _ => dat, fun _ => user⟩)) σ τ.flag hh.flag).1 (fun r s p l => c67F () p (exD.toGlob 3 0 r l))
  have a1 : ∀ (k : ℕ) (st), st ∈ List.replicate k (dt, (⟨fun _ _ => c78ParCb, fun _ => dat, fun _ => user⟩ : exD.CoupledInput 3 0 (Fin 1) 2 1 1 ℚ),
      fun _ : Fin 2 => (c78ParCb : CoupledCallbacks (Fin 1) (PIdx 2 1 1) (ZMod 6 × ZMod 1) ℚ)) → ∀ k r, exD.CoupledAgree 3 0 r (st.2.1.cb k r) (st.2.2 k) := by
    intro k st hst k' r
    rw [List.eq_of_mem_replicate hst]
    exact c78_agree exD r
  have a2 : ∀ (k : ℕ) (st), st ∈ List.replicate k (dt, (⟨fun _ _ => c78ParCb, fun _ => dat', fun _ => user'⟩ : (oneProcess 6 1).CoupledInput 3 0 (Fin 1) 2 1 1 ℚ),
      fun _ : Fin 2 => (c78ParCb : CoupledCallbacks (Fin 1) (PIdx 2 1 1) (ZMod 6 × ZMod 1) ℚ)) →
      ∀ k r, (oneProcess 6 1).CoupledAgree 3 0 r (st.2.1.cb k r) (st.2.2 k) := by
    intro k st hst k' r
    rw [List.eq_of_mem_replicate hst]
    exact c78_agree (oneProcess 6 1) r
  obtain ⟨l1, l2, -⟩ := exD.C78_files 3 0 c78_grid g1 g2 0 (fun _ σ => σ) _ (a1 n) _ σ (fun _ p i => c67F () p i, τ) st1 (fun r s p l _ => rfl) hh fileF fileEM
    (by simpa using h1) (by simpa using w1)
  obtain ⟨fileF', fileEM', h2⟩ := ((oneProcess 6 1).C78_scripts_succeed 3 0 c78_grid hi ⟨rfl, rfl⟩ g1 g2 0
    (List.replicate m (dt, ⟨fun _ _ => c78ParCb, fun _ => dat', fun _ => user'⟩)) ρ τ.flag hh'.flag).2 (fun _ => ⟨0, fun _ => 0⟩) (fun _ => ⟨0, fun _ => 0⟩)
    fileF fileEM l1 l2
  exact ⟨σ, ρ, τ, fileF, fileEM, fileF', fileEM', st1, rs2, h1, h2, hτ, w1, w2,
    exD.C78_partition_independent 3 0 (oneProcess 6 1) 3 0 c78_grid c78_grid g1 g2 g1 g2 0 (fun _ σ => σ) _ _ (a1 n) (a2 m) _ σ ρ (fun _ p i => c67F () p i, τ)
      st1 rs2 τ (fun r s p l _ => rfl) hh hh' _ _ fileF fileEM fileF' fileEM' (by simpa using h1) (by simpa using h2) (by simpa using w1) (by simpa using w2)⟩

end Bolt
