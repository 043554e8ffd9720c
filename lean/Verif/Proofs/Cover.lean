import Verif.Spec.Cover
import Verif.Proofs.CoupledDecomp

/-! Every function of the coupled step commutes with copying data along a covering of grids. -/

set_option linter.unusedSectionVars false

namespace Bolt

variable {Q Q' S P K : Type} [AddCommGroup P] [AddCommGroup Q] [AddCommGroup Q'] [Field K] [LinearOrder K] [IsStrictOrderedRing K] [Fintype S] [Fintype P]
  {φ : Q' → Q} {q1' q2' : Q'} {q1 q2 : Q}

theorem step_zsmul {e' : Q'} {e : Q} (h : ∀ i, φ (i + e') = φ i + e) (i : Q') (k : ℤ) : φ (i + k • e') = φ i + k • e := by
  induction k using Int.induction_on with
  | zero => simp
  | succ n ih => rw [add_smul, one_smul, ← add_assoc, h, ih, add_smul, one_smul, add_assoc]
  | pred n ih =>
    have := h (i + (-(n : ℤ) - 1) • e')
    rw [add_assoc, ← add_one_zsmul, sub_add_cancel, ih] at this
    rw [sub_smul (-(n : ℤ)) 1 e, one_smul, ← add_sub_assoc, this, add_sub_cancel_right]

theorem step_sub {e' : Q'} {e : Q} (h : ∀ i, φ (i + e') = φ i + e) (i : Q') (k : ℤ) : φ (i - k • e') = φ i - k • e := by
  have := step_zsmul h i (-k)
  rwa [neg_smul, neg_smul, ← sub_eq_add_neg, ← sub_eq_add_neg] at this

namespace Covers

variable (hφ : Covers φ q1' q2' q1 q2)
include hφ

theorem shift1 (k : ℤ) (x : Q → K) (i : Q') : afShift q1' k (fun i => x (φ i)) i = afShift q1 k x (φ i) := by
  rw [afShift, afShift, step_sub hφ.step1]

theorem shift2 (k : ℤ) (x : Q → K) (i : Q') : afShift q2' k (fun i => x (φ i)) i = afShift q2 k x (φ i) := by
  rw [afShift, afShift, step_sub hφ.step2]

theorem fluxDiv1 (m : Recon) (d : K) (C x : Q → K) (i : Q') :
    fluxDiv m q1' d (fun i => C (φ i)) (fun i => x (φ i)) i = fluxDiv m q1 d C x (φ i) :=
  fluxDiv_congr m _ _ d _ _ _ _ i (φ i) rfl (by rw [hφ.step1]) (fun k _ => by rw [step_zsmul hφ.step1])

theorem fluxDiv2 (m : Recon) (d : K) (C x : Q → K) (i : Q') :
    fluxDiv m q2' d (fun i => C (φ i)) (fun i => x (φ i)) i = fluxDiv m q2 d C x (φ i) :=
  fluxDiv_congr m _ _ d _ _ _ _ i (φ i) rfl (by rw [hφ.step2]) (fun k _ => by rw [step_zsmul hφ.step2])

variable (ax : Axes P Q) (h1 : ax.q1 = q1) (h2 : ax.q2 = q2)
include h1 h2

theorem dfdtFVM (cfg : FVMConfig S K) (cb : Callbacks S P Q K) (src' : Dist S P Q' K → Dist S P Q' K)
    (f : Dist S P Q K) (hs : src' (Dist.pull φ f) = Dist.pull φ (cb.source f)) :
    Bolt.dfdtFVM ⟨ax.p1, ax.p2, ax.p3, q1', q2'⟩ cfg
      ⟨Dist.pull φ cb.Cq1, Dist.pull φ cb.Cq2, Dist.pull φ cb.Cp1, Dist.pull φ cb.Cp2, Dist.pull φ cb.Cp3, src'⟩ (Dist.pull φ f)
      = (Bolt.dfdtFVM ax cfg cb f).map (Dist.pull φ) := by
  have eq : ∀ m, dfdtQ (⟨ax.p1, ax.p2, ax.p3, q1', q2'⟩ : Axes P Q') m cfg.dq1 cfg.dq2 (Dist.pull φ cb.Cq1) (Dist.pull φ cb.Cq2) (Dist.pull φ f)
      = Dist.pull φ (dfdtQ ax m cfg.dq1 cfg.dq2 cb.Cq1 cb.Cq2 f) := by
    intro m
    funext s p i
    have a := hφ.fluxDiv1 m cfg.dq1 (cb.Cq1 s p) (f s p) i
    have b := hφ.fluxDiv2 m cfg.dq2 (cb.Cq2 s p) (f s p) i
    show -fluxDiv m q1' cfg.dq1 (fun i => cb.Cq1 s p (φ i)) (fun i => f s p (φ i)) i
      - fluxDiv m q2' cfg.dq2 (fun i => cb.Cq2 s p (φ i)) (fun i => f s p (φ i)) i = _
    rw [a, b]
    simp only [Dist.pull, dfdtQ, h1, h2]
  have ep : ∀ m, dfdtP (⟨ax.p1, ax.p2, ax.p3, q1', q2'⟩ : Axes P Q') m cfg.dp1 cfg.dp2 cfg.dp3 (Dist.pull φ cb.Cp1) (Dist.pull φ cb.Cp2)
      (Dist.pull φ cb.Cp3) (Dist.pull φ f) = Dist.pull φ (dfdtP ax m cfg.dp1 cfg.dp2 cfg.dp3 cb.Cp1 cb.Cp2 cb.Cp3 f) := fun m => rfl
  unfold Bolt.dfdtFVM
  simp only [eq, ep, hs]
  cases reconMethod cfg.reconstructionInQ <;> cases reconMethod cfg.reconstructionInP <;> split_ifs <;> rfl

end Covers

/-! ### fields -/

/-- The same parameters on another grid. -/
def FieldParams.onGrid (pr : FieldParams Q K) (q1' q2' : Q') : FieldParams Q' K := ⟨q1', q2', pr.dq1, pr.dq2, pr.eps, pr.mu, pr.hybrid⟩

/-- Currents copied. -/
def Currents.pull (φ : Q' → Q) (J : Currents Q K) : Currents Q' K := ⟨fun i => J.J1 (φ i), fun i => J.J2 (φ i), fun i => J.J3 (φ i)⟩

/-- Lines 635-636 of `fields.py`. -/
def placeYee (q1 q2 : Q) (Y : EM Q K) (σ : FieldState Q K) : FieldState Q K :=
  { σ with yee := Y, heap := fun k => if k = σ.cc then Bolt.toCentre q1 q2 .both Y (σ.heap σ.cc) else σ.heap k }

/-- Line 646 of `fields.py`. -/
def addTime (dt : K) (σ : FieldState Q K) : FieldState Q K := { σ with timeElapsed := σ.timeElapsed + dt }

namespace Covers

variable {pr : FieldParams Q K} (hφ : Covers φ q1' q2' pr.q1 pr.q2)
include hφ

theorem addCurlB (J : Currents Q K) (dt : K) (F : EM Q K) :
    Bolt.addCurlB (pr.onGrid q1' q2') (J.pull φ) dt (F.pull φ) = (Bolt.addCurlB pr J dt F).pull φ := by
  simp only [Bolt.addCurlB, EM.pull, Currents.pull, curlB1, curlB2, curlB3, FieldParams.onGrid, afShift, step_sub hφ.step1, step_sub hφ.step2]

theorem evolveB (dt : K) (F : EM Q K) : Bolt.evolveB (pr.onGrid q1' q2') dt (F.pull φ) = (Bolt.evolveB pr dt F).pull φ := by
  simp only [Bolt.evolveB, EM.pull, curlE1, curlE2, curlE3, FieldParams.onGrid, afShift, step_sub hφ.step1, step_sub hφ.step2]

theorem toCentre (w : Which) (Y C : EM Q K) :
    Bolt.toCentre q1' q2' w (Y.pull φ) (C.pull φ) = (Bolt.toCentre pr.q1 pr.q2 w Y C).pull φ := by
  cases w <;> simp [Bolt.toCentre, EM.pull, hφ.step1, hφ.step2]

omit hφ in
theorem storeFields_eq (dt : K) (Y : EM Q K) (σ : FieldState Q K) : Bolt.storeFields pr dt Y σ =
    let σ1 := σ.writeE σ.atN (σ.heap σ.cc)
    let σ2 := σ1.writeB σ1.atN (EM.avg (σ1.heap σ1.atHalf) (σ1.heap σ1.cc))
    let σ3 := σ2.writeB σ2.atHalf (σ1.heap σ1.cc)
    let σ4 := placeYee pr.q1 pr.q2 Y σ3
    addTime dt (σ4.writeE σ4.atHalf (EM.avg (σ.heap σ.cc) (σ4.heap σ4.cc))) := rfl

theorem storeFields (dt : K) (Y : EM Q K) (σ : FieldState Q K) :
    Bolt.storeFields (pr.onGrid q1' q2') dt (Y.pull φ) (σ.pull φ) = (Bolt.storeFields pr dt Y σ).pull φ := by
  have wE : ∀ (σ : FieldState Q K) o E, (σ.pull φ).writeE o (E.pull φ) = (σ.writeE o E).pull φ := by
    intro σ o E
    simp only [FieldState.writeE, FieldState.pull]
    congr 1
    funext k
    split_ifs <;> rfl
  have wB : ∀ (σ : FieldState Q K) o E, (σ.pull φ).writeB o (E.pull φ) = (σ.writeB o E).pull φ := by
    intro σ o E
    simp only [FieldState.writeB, FieldState.pull]
    congr 1
    funext k
    split_ifs <;> rfl
  have av : ∀ x y : EM Q K, EM.avg (x.pull φ) (y.pull φ) = (EM.avg x y).pull φ := fun _ _ => rfl
  have hp : ∀ (σ : FieldState Q K) k, (σ.pull φ).heap k = (σ.heap k).pull φ := fun _ _ => rfl
  have e1 : ∀ σ : FieldState Q K, (σ.pull φ).cc = σ.cc := fun _ => rfl
  have e2 : ∀ σ : FieldState Q K, (σ.pull φ).atN = σ.atN := fun _ => rfl
  have e3 : ∀ σ : FieldState Q K, (σ.pull φ).atHalf = σ.atHalf := fun _ => rfl
  have mid : ∀ σ : FieldState Q K, placeYee (pr.onGrid q1' q2').q1 (pr.onGrid q1' q2').q2 (Y.pull φ) (σ.pull φ)
      = (placeYee pr.q1 pr.q2 Y σ).pull φ := by
    intro σ
    simp only [FieldState.pull, placeYee]
    congr 1
    funext k
    by_cases h : k = σ.cc
    · simp only [h, if_true]
      exact hφ.toCentre .both Y _
    · simp only [h, if_false]
  have tm : ∀ σ : FieldState Q K, addTime dt (σ.pull φ) = (addTime dt σ).pull φ := fun _ => rfl
  rw [storeFields_eq, storeFields_eq]
  simp only [hp, e1, e2, e3, wE, av, wB, mid, tm]

end Covers

variable [Fintype Q] [Fintype Q']

theorem evolveE_hybrid {pr : FieldParams Q K} (h : pr.hybrid = true) (J : Currents Q K) (dt : K) (F : EM Q K)
    (hJ : J = ⟨fun i => curlB1 pr F i / pr.mu, fun i => curlB2 pr F i / pr.mu, fun i => curlB3 pr F i / pr.mu⟩) :
    evolveE pr J dt F = .ok F := by
  subst hJ
  have z : meanAbsSmall (fun _ : Q => (0 : K)) := by simp [meanAbsSmall]
  simp only [evolveE, h, sub_self, if_true, z, and_self]

/-- The part of `dfdtCoupled` after the evolution of the fields — `df_dt_fvm.py:235-339`. -/
def afterFields (c : CoupledConfig S P Q K) (poisson : (S → Q → K) → FieldState Q K → FieldState Q K)
    (cb : CoupledCallbacks S P Q K) (f : Dist S P Q K) (σ1 : FieldState Q K) : Except PyErr (Dist S P Q K × FieldState Q K) :=
  let σ2 := if c.fieldsType = "electrostatic" ∧ c.fieldsSolver = "fft" then
      poisson (fun s q => c.charge s * density c.coords c.measure f s q) σ1 else σ1
  let g1 := Bolt.getFields c.fieldsSolver c.solverMethodInP σ2
  let g2 := Bolt.getFields c.fieldsSolver c.solverMethodInP g1.2
  let g3 := Bolt.getFields c.fieldsSolver c.solverMethodInP g2.2
  Bolt.dfdtFVM c.ax c.toFVMConfig ⟨cb.Cq1, cb.Cq2, cb.Cp1 g1.1, cb.Cp2 g2.1, cb.Cp3 g3.1, cb.source⟩ f >>= fun k => pure (k, g3.2)

namespace Covers

variable {c : CoupledConfig S P Q K} (hφ : Covers φ q1' q2' c.ax.q1 c.ax.q2)
include hφ

theorem faceLeft (m : Recon) (C f : Dist S P Q K) :
    Bolt.faceLeft (c.onGrid q1' q2').ax m (Dist.pull φ C) (Dist.pull φ f) = Dist.pull φ (Bolt.faceLeft c.ax m C f) := by
  funext s p i
  exact leftState_congr m _ _ _ _ _ _ i (φ i) rfl (fun k _ _ => by
    show f s p (φ (i + k • q1')) = _
    rw [step_zsmul hφ.step1])

theorem faceBot (m : Recon) (C f : Dist S P Q K) :
    Bolt.faceBot (c.onGrid q1' q2').ax m (Dist.pull φ C) (Dist.pull φ f) = Dist.pull φ (Bolt.faceBot c.ax m C f) := by
  funext s p i
  exact leftState_congr m _ _ _ _ _ _ i (φ i) rfl (fun k _ _ => by
    show f s p (φ (i + k • q2')) = _
    rw [step_zsmul hφ.step2])

theorem kineticCurrents (m : Recon) (Cq1 Cq2 f : Dist S P Q K) :
    Bolt.kineticCurrents (c.onGrid q1' q2') m (Dist.pull φ Cq1) (Dist.pull φ Cq2) (Dist.pull φ f)
      = (Bolt.kineticCurrents c m Cq1 Cq2 f).pull φ := by
  simp only [Bolt.kineticCurrents, hφ.faceLeft, hφ.faceBot]
  rfl

theorem hybridFields (s : S) (m : Recon) (Cq1 Cq2 f selff : Dist S P Q K) (Y : EM Q K) :
    Bolt.hybridFields (c.onGrid q1' q2') s m (Dist.pull φ Cq1) (Dist.pull φ Cq2) (Dist.pull φ f) (Dist.pull φ selff) (Y.pull φ)
      = ((Bolt.hybridFields c s m Cq1 Cq2 f selff Y).1.pull φ, (fun i => (Bolt.hybridFields c s m Cq1 Cq2 f selff Y).2.1 (φ i)),
        (fun i => (Bolt.hybridFields c s m Cq1 Cq2 f selff Y).2.2.1 (φ i)), (fun i => (Bolt.hybridFields c s m Cq1 Cq2 f selff Y).2.2.2 (φ i))) := by
  have d : ∀ (x : Dist S P Q K) i, density c.coords c.measure (Dist.pull φ x) s i = density c.coords c.measure x s (φ i) := fun _ _ => rfl
  have v1 : ∀ (x : Dist S P Q K) i, momV1 c.coords c.measure (Dist.pull φ x) s i = momV1 c.coords c.measure x s (φ i) := fun _ _ => rfl
  have v2 : ∀ (x : Dist S P Q K) i, momV2 c.coords c.measure (Dist.pull φ x) s i = momV2 c.coords c.measure x s (φ i) := fun _ _ => rfl
  have v3 : ∀ (x : Dist S P Q K) i, momV3 c.coords c.measure (Dist.pull φ x) s i = momV3 c.coords c.measure x s (φ i) := fun _ _ => rfl
  simp only [Bolt.hybridFields, hφ.faceLeft, hφ.faceBot]
  simp only [CoupledConfig.fieldParams, CoupledConfig.onGrid, Currents.pull, EM.pull, curlB1, curlB2, curlB3, afShift,
    d, v1, v2, v3, step_sub hφ.step1, step_sub hφ.step2]

omit hφ in
theorem fieldParams : (c.onGrid q1' q2').fieldParams = c.fieldParams.onGrid q1' q2' := rfl

theorem evolve (J : Currents Q K) (dt : K) (σ : FieldState Q K)
    (hJ : c.hybrid = true → J = ⟨fun i => curlB1 c.fieldParams σ.yee i / c.mu, fun i => curlB2 c.fieldParams σ.yee i / c.mu,
      fun i => curlB3 c.fieldParams σ.yee i / c.mu⟩) :
    ∃ σ', evolveElectrodynamic c.fieldParams id J dt σ = .ok σ' ∧
      evolveElectrodynamic (c.onGrid q1' q2').fieldParams id (J.pull φ) dt (σ.pull φ) = .ok (σ'.pull φ) := by
  have hφ' : Covers φ q1' q2' c.fieldParams.q1 c.fieldParams.q2 := hφ
  obtain ⟨F, hF, hF'⟩ : ∃ F, evolveE c.fieldParams J dt σ.yee = .ok F ∧
      evolveE (c.fieldParams.onGrid q1' q2') (J.pull φ) dt (σ.yee.pull φ) = .ok (F.pull φ) := by
    by_cases h : c.hybrid = true
    · refine ⟨σ.yee, evolveE_hybrid h _ _ _ (hJ h), evolveE_hybrid h _ _ _ ?_⟩
      rw [hJ h]
      simp only [Currents.pull, EM.pull, curlB1, curlB2, curlB3, FieldParams.onGrid, afShift, step_sub hφ'.step1, step_sub hφ'.step2,
        Currents.mk.injEq]
      exact ⟨rfl, rfl, rfl⟩
    · refine ⟨Bolt.addCurlB c.fieldParams J dt σ.yee, ?_, ?_⟩
      · have h' : ¬c.fieldParams.hybrid = true := h
        rw [evolveE, if_neg h']
      · have h' : ¬(c.fieldParams.onGrid q1' q2').hybrid = true := h
        rw [evolveE, if_neg h', hφ'.addCurlB]
  refine ⟨Bolt.storeFields c.fieldParams dt (Bolt.evolveB c.fieldParams dt F) σ, ?_, ?_⟩
  · simp only [evolveElectrodynamic, fdtd, id, hF, bind, Except.bind, pure, Except.pure]
  · have e : (σ.pull φ).yee = σ.yee.pull φ := rfl
    simp only [evolveElectrodynamic, fdtd, id, fieldParams, e, hF', bind, Except.bind, pure, Except.pure, hφ'.evolveB, hφ'.storeFields]

omit hφ [IsStrictOrderedRing K] [AddCommGroup Q] [AddCommGroup Q'] [Field K] [LinearOrder K] [Fintype Q] [Fintype Q'] in
theorem getFields (a b : String) (σ : FieldState Q K) :
    Bolt.getFields a b (σ.pull φ) = ((Bolt.getFields a b σ).1.pull φ, (Bolt.getFields a b σ).2.pull φ) := by
  obtain ⟨heap, cc, atN, atHalf, yee, flag, t⟩ := σ
  by_cases ha : a = "fdtd" <;> by_cases hb : b = "FVM" <;> cases flag <;> simp [Bolt.getFields, FieldState.pull, ha, hb]

variable {poisson : (S → Q → K) → FieldState Q K → FieldState Q K} {poisson' : (S → Q' → K) → FieldState Q' K → FieldState Q' K}
  (hp : ∀ ρ σ, poisson' (fun s i => ρ s (φ i)) (σ.pull φ) = (poisson ρ σ).pull φ)
include hp

theorem dfdtCoupled {cb : CoupledCallbacks S P Q K} {cb' : CoupledCallbacks S P Q' K} (hcb : CallbacksCover φ cb' cb) (hyb : S) (dt : K)
    (selff f : Dist S P Q K) (σ : FieldState Q K) :
    Bolt.dfdtCoupled (c.onGrid q1' q2') poisson' cb' hyb dt (Dist.pull φ selff) (Dist.pull φ f) (σ.pull φ)
      = (Bolt.dfdtCoupled c poisson cb hyb dt selff f σ).map (fun r => (Dist.pull φ r.1, r.2.pull φ)) := by
  have hd : ∀ G1 G2 G3 : EM Q K, Bolt.dfdtFVM (c.onGrid q1' q2').ax (c.onGrid q1' q2').toFVMConfig
      ⟨cb'.Cq1, cb'.Cq2, cb'.Cp1 (G1.pull φ), cb'.Cp2 (G2.pull φ), cb'.Cp3 (G3.pull φ), cb'.source⟩ (Dist.pull φ f)
      = (Bolt.dfdtFVM c.ax c.toFVMConfig ⟨cb.Cq1, cb.Cq2, cb.Cp1 G1, cb.Cp2 G2, cb.Cp3 G3, cb.source⟩ f).map (Dist.pull φ) := by
    intro G1 G2 G3
    rw [hcb.q1, hcb.q2, hcb.p1, hcb.p2, hcb.p3]
    exact hφ.dfdtFVM c.ax rfl rfl c.toFVMConfig ⟨cb.Cq1, cb.Cq2, cb.Cp1 G1, cb.Cp2 G2, cb.Cp3 G3, cb.source⟩ cb'.source f (hcb.src f)
  have h0 : Bolt.dfdtFVM (c.onGrid q1' q2').ax (c.onGrid q1' q2').toFVMConfig
      ⟨cb'.Cq1, cb'.Cq2, fun _ _ _ => 0, fun _ _ _ => 0, fun _ _ _ => 0, cb'.source⟩ (Dist.pull φ f)
      = (Bolt.dfdtFVM c.ax c.toFVMConfig ⟨cb.Cq1, cb.Cq2, fun _ _ _ => 0, fun _ _ _ => 0, fun _ _ _ => 0, cb.source⟩ f).map (Dist.pull φ) := by
    rw [hcb.q1, hcb.q2]
    exact hφ.dfdtFVM c.ax rfl rfl c.toFVMConfig ⟨cb.Cq1, cb.Cq2, fun _ _ _ => 0, fun _ _ _ => 0, fun _ _ _ => 0, cb.source⟩ cb'.source f (hcb.src f)
  -- the part after the evolution of the fields
  have tail : ∀ σ1 : FieldState Q K, afterFields (c.onGrid q1' q2') poisson' cb' (Dist.pull φ f) (σ1.pull φ)
      = (afterFields c poisson cb f σ1).map (fun r => (Dist.pull φ r.1, r.2.pull φ)) := by
    intro σ1
    have e : (if c.fieldsType = "electrostatic" ∧ c.fieldsSolver = "fft" then
          poisson' (fun s q => c.charge s * density c.coords c.measure (Dist.pull φ f) s q) (σ1.pull φ) else σ1.pull φ)
        = FieldState.pull φ (if c.fieldsType = "electrostatic" ∧ c.fieldsSolver = "fft" then
          poisson (fun s q => c.charge s * density c.coords c.measure f s q) σ1 else σ1) := by
      split_ifs
      · exact hp (fun s q => c.charge s * density c.coords c.measure f s q) σ1
      · rfl
    have e' := e
    unfold afterFields
    show (let σ2 := (if c.fieldsType = "electrostatic" ∧ c.fieldsSolver = "fft" then
          poisson' (fun s q => c.charge s * density c.coords c.measure (Dist.pull φ f) s q) (σ1.pull φ) else σ1.pull φ)
        let g1 := Bolt.getFields c.fieldsSolver c.solverMethodInP σ2
        let g2 := Bolt.getFields c.fieldsSolver c.solverMethodInP g1.2
        let g3 := Bolt.getFields c.fieldsSolver c.solverMethodInP g2.2
        (Bolt.dfdtFVM (c.onGrid q1' q2').ax (c.onGrid q1' q2').toFVMConfig
            ⟨cb'.Cq1, cb'.Cq2, cb'.Cp1 g1.1, cb'.Cp2 g2.1, cb'.Cp3 g3.1, cb'.source⟩ (Dist.pull φ f) >>= fun k => pure (k, g3.2))) = _
    simp only [e, getFields, hd]
    generalize Bolt.dfdtFVM c.ax c.toFVMConfig _ f = x
    cases x <;> rfl
  unfold Bolt.dfdtCoupled
  by_cases hA : c.solverMethodInP = "FVM" ∧ c.fieldsEnabled = true
  · have hA' : (c.onGrid q1' q2').solverMethodInP = "FVM" ∧ (c.onGrid q1' q2').fieldsEnabled = true := hA
    rw [if_pos hA, if_pos hA']
    by_cases hB : c.fieldsType = "electrodynamic" ∧ σ.flag = false
    · have hB' : (c.onGrid q1' q2').fieldsType = "electrodynamic" ∧ (σ.pull φ).flag = false := hB
      simp only [if_pos hB, if_pos hB']
      by_cases hC : c.solverMethodInQ = "FVM"
      · have hC' : (c.onGrid q1' q2').solverMethodInQ = "FVM" := hC
        rw [if_pos hC, if_pos hC']
        have hr : (c.onGrid q1' q2').reconstructionInQ = c.reconstructionInQ := rfl
        rw [hr]
        cases hm : reconMethod c.reconstructionInQ with
        | error e => rfl
        | ok m =>
          by_cases hH : c.hybrid = true
          · have hH' : (c.onGrid q1' q2').hybrid = true := hH
            simp only [bind, Except.bind, if_pos hH, if_pos hH']
            have e : (σ.pull φ).yee = σ.yee.pull φ := rfl
            obtain ⟨σ', h1, h2⟩ := hφ.evolve (Bolt.hybridFields c hyb m cb.Cq1 cb.Cq2 f selff σ.yee).1 dt
              { σ with yee := σ.yee.setE (some (Bolt.hybridFields c hyb m cb.Cq1 cb.Cq2 f selff σ.yee).2) } (fun _ => rfl)
            have h3 : evolveElectrodynamic (c.onGrid q1' q2').fieldParams id (Bolt.hybridFields (c.onGrid q1' q2') hyb m cb'.Cq1 cb'.Cq2
                (Dist.pull φ f) (Dist.pull φ selff) (σ.pull φ).yee).1 dt { σ.pull φ with
                  yee := (σ.pull φ).yee.setE (some (Bolt.hybridFields (c.onGrid q1' q2') hyb m cb'.Cq1 cb'.Cq2
                (Dist.pull φ f) (Dist.pull φ selff) (σ.pull φ).yee).2) } = .ok (σ'.pull φ) := by
              rw [hcb.q1, hcb.q2, e, hφ.hybridFields]
              exact h2
            rw [h1, h3]
            exact tail σ'
          · have hH' : ¬(c.onGrid q1' q2').hybrid = true := hH
            simp only [bind, Except.bind, if_neg hH, if_neg hH']
            obtain ⟨σ', h1, h2⟩ := hφ.evolve (Bolt.kineticCurrents c m cb.Cq1 cb.Cq2 f) dt σ (fun h => absurd h hH)
            have h3 : evolveElectrodynamic (c.onGrid q1' q2').fieldParams id (Bolt.kineticCurrents (c.onGrid q1' q2') m cb'.Cq1 cb'.Cq2
                (Dist.pull φ f)) dt (σ.pull φ) = .ok (σ'.pull φ) := by
              rw [hcb.q1, hcb.q2, hφ.kineticCurrents, h2]
            rw [h1, h3]
            exact tail σ'
      · have hC' : ¬(c.onGrid q1' q2').solverMethodInQ = "FVM" := hC
        rw [if_neg hC, if_neg hC']
        rfl
    · have hB' : ¬((c.onGrid q1' q2').fieldsType = "electrodynamic" ∧ (σ.pull φ).flag = false) := hB
      simp only [if_neg hB, if_neg hB']
      exact tail σ
  · have hA' : ¬((c.onGrid q1' q2').solverMethodInP = "FVM" ∧ (c.onGrid q1' q2').fieldsEnabled = true) := hA
    rw [if_neg hA, if_neg hA', h0]
    cases Bolt.dfdtFVM c.ax c.toFVMConfig _ f <;> rfl

theorem stepCoupled {cb : Fin 2 → CoupledCallbacks S P Q K} {cb' : Fin 2 → CoupledCallbacks S P Q' K}
    (hcb : ∀ k, CallbacksCover φ (cb' k) (cb k)) (hyb : S) (dt : K) (st : Dist S P Q K × FieldState Q K) :
    Bolt.stepCoupled (c.onGrid q1' q2') poisson' cb' hyb dt (Dist.pull φ st.1, st.2.pull φ)
      = (Bolt.stepCoupled c poisson cb hyb dt st).map (fun r => (Dist.pull φ r.1, r.2.pull φ)) := by
  unfold Bolt.stepCoupled
  simp only [hφ.dfdtCoupled hp (hcb 0)]
  cases h0 : Bolt.dfdtCoupled c poisson (cb 0) hyb dt st.1 st.1 st.2 with
  | error e => rfl
  | ok r0 =>
    simp only [Except.map, bind, Except.bind]
    have e := hφ.dfdtCoupled hp (hcb 1) hyb dt (fun s p q => st.1 s p q + r0.1 s p q * (dt / 2))
      (fun s p q => st.1 s p q + r0.1 s p q * (dt / 2)) r0.2
    have e' : Dist.pull φ (fun s p q => st.1 s p q + r0.1 s p q * (dt / 2))
      = fun s p q => Dist.pull φ st.1 s p q + Dist.pull φ r0.1 s p q * (dt / 2) := rfl
    rw [e'] at e
    rw [e]
    cases Bolt.dfdtCoupled c poisson (cb 1) hyb dt _ _ r0.2 <;> rfl

end Covers

end Bolt
