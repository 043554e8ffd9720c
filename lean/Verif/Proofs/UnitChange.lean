import Verif.Spec.UnitChange
import Verif.Proofs.Exchange

/-! A change of units. -/

set_option linter.unusedSectionVars false

namespace Bolt

section
variable {I K : Type} [AddCommGroup I] [Field K] [LinearOrder K] [IsStrictOrderedRing K]

theorem leftState_scale (m : Recon) (e : I) {a : K} (ha : 0 < a) (b : K) (C x : I → K) (i : I) :
    leftState m e (fun j => a * C j) (fun j => b * x j) i = b * leftState m e C x i := by
  rw [leftState_smul, leftState_eq, leftState_eq]
  simp only [mul_pos_iff_of_pos_left ha]

theorem fluxDiv_scale (m : Recon) (e : I) {a : K} (ha : 0 < a) (b l d : K) (C x : I → K) (i : I) :
    fluxDiv m e (l * d) (fun j => a * C j) (fun j => b * x j) i = a * b / l * fluxDiv m e d C x i := by
  simp only [fluxDiv_eq, leftState_scale m e ha]
  rw [div_mul_div_comm]
  ring

end

variable {Q S P K : Type} [AddCommGroup P] [AddCommGroup Q] [Field K] [LinearOrder K] [IsStrictOrderedRing K]

theorem dfdtFVM_units {u : UnitChange K} (hu : u.Positive) (c : CoupledConfig S P Q K) (cb cb' : Callbacks S P Q K)
    (h1 : ∀ s p i, cb'.Cq1 s p i = u.length / u.time * cb.Cq1 s p i)
    (h2 : ∀ s p i, cb'.Cq2 s p i = u.length / u.time * cb.Cq2 s p i)
    (h3 : ∀ s p i, cb'.Cp1 s p i = u.momentum / u.time * cb.Cp1 s p i)
    (h4 : ∀ s p i, cb'.Cp2 s p i = u.momentum / u.time * cb.Cp2 s p i)
    (h5 : ∀ s p i, cb'.Cp3 s p i = u.momentum / u.time * cb.Cp3 s p i)
    (h6 : ∀ f s p i, cb'.source (f.inUnits u) s p i = u.dist / u.time * cb.source f s p i) (f : Dist S P Q K) :
    dfdtFVM c.ax (c.inUnits u).toFVMConfig cb' (f.inUnits u)
      = (dfdtFVM c.ax c.toFVMConfig cb f).map fun k s p i => u.dist / u.time * k s p i := by
  have hl := hu.length.ne'
  have ht := hu.time.ne'
  have hm := hu.momentum.ne'
  have aq : 0 < u.length / u.time := div_pos hu.length hu.time
  have ap : 0 < u.momentum / u.time := div_pos hu.momentum hu.time
  have eq : ∀ m, dfdtQ c.ax m (u.length * c.dq1) (u.length * c.dq2) cb'.Cq1 cb'.Cq2 (f.inUnits u)
      = fun s p i => u.dist / u.time * dfdtQ c.ax m c.dq1 c.dq2 cb.Cq1 cb.Cq2 f s p i := fun m => by
    funext s p q
    simp only [dfdtQ]
    rw [show f.inUnits u s p = fun i => u.dist * f s p i from rfl, show cb'.Cq1 s p = fun i => u.length / u.time * cb.Cq1 s p i from funext (h1 s p),
      show cb'.Cq2 s p = fun i => u.length / u.time * cb.Cq2 s p i from funext (h2 s p), fluxDiv_scale m _ aq, fluxDiv_scale m _ aq]
    field_simp
  have ep : ∀ m, dfdtP c.ax m (fun s => u.momentum * c.dp1 s) (fun s => u.momentum * c.dp2 s) (fun s => u.momentum * c.dp3 s) cb'.Cp1 cb'.Cp2 cb'.Cp3
      (f.inUnits u) = fun s p i => u.dist / u.time * dfdtP c.ax m c.dp1 c.dp2 c.dp3 cb.Cp1 cb.Cp2 cb.Cp3 f s p i := fun m => by
    funext s p q
    simp only [dfdtP, dFluxP_eq, Dist.inUnits, h3, h4, h5, fluxDiv_scale m _ ap]
    field_simp
  have e1 : (c.inUnits u).toFVMConfig.solverMethodInQ = c.solverMethodInQ := rfl
  have e2 : (c.inUnits u).toFVMConfig.solverMethodInP = c.solverMethodInP := rfl
  have e3 : (c.inUnits u).toFVMConfig.reconstructionInQ = c.reconstructionInQ := rfl
  have e4 : (c.inUnits u).toFVMConfig.reconstructionInP = c.reconstructionInP := rfl
  have e5 : (c.inUnits u).toFVMConfig.sourceEnabled = c.sourceEnabled := rfl
  have e6 : (c.inUnits u).toFVMConfig.fieldsEnabled = c.fieldsEnabled := rfl
  have e7 : (c.inUnits u).toFVMConfig.dq1 = u.length * c.dq1 := rfl
  have e8 : (c.inUnits u).toFVMConfig.dq2 = u.length * c.dq2 := rfl
  have e9 : (c.inUnits u).toFVMConfig.dp1 = fun s => u.momentum * c.dp1 s := rfl
  have e10 : (c.inUnits u).toFVMConfig.dp2 = fun s => u.momentum * c.dp2 s := rfl
  have e11 : (c.inUnits u).toFVMConfig.dp3 = fun s => u.momentum * c.dp3 s := rfl
  unfold dfdtFVM
  simp only [e1, e2, e3, e4, e5, e6, e7, e8, e9, e10, e11, eq, ep, h6]
  by_cases a : c.solverMethodInQ = "FVM" <;> by_cases b : c.solverMethodInP = "FVM" ∧ c.fieldsEnabled = true <;>
    cases reconMethod c.reconstructionInQ <;> cases reconMethod c.reconstructionInP <;> by_cases d : c.sourceEnabled = true <;>
    simp only [a, b, d, if_true, if_false, bind, Except.bind, pure, Except.pure, Except.map, mul_add, mul_zero, and_self, Bool.false_eq_true]

variable [Fintype S] [Fintype P] [Fintype Q]

theorem units_measure (u : UnitChange K) (c : CoupledConfig S P Q K) (s : S) : (c.inUnits u).measure s = u.momentum ^ 3 * c.measure s := by
  simp only [FVMConfig.measure, CoupledConfig.inUnits]
  ring

theorem units_density (u : UnitChange K) (c : CoupledConfig S P Q K) (f : Dist S P Q K) (s : S) (q : Q) :
    density (c.inUnits u).coords (c.inUnits u).measure (f.inUnits u) s q = u.momentum ^ 3 * u.dist * density c.coords c.measure f s q := by
  simp only [density, integralOverV, units_measure, Dist.inUnits]
  rw [← Finset.mul_sum]
  ring

theorem units_mom (u : UnitChange K) (c : CoupledConfig S P Q K) (f : Dist S P Q K) (s : S) (q : Q) :
    momV1 (c.inUnits u).coords (c.inUnits u).measure (f.inUnits u) s q = u.momentum ^ 4 * u.dist * momV1 c.coords c.measure f s q ∧
    momV2 (c.inUnits u).coords (c.inUnits u).measure (f.inUnits u) s q = u.momentum ^ 4 * u.dist * momV2 c.coords c.measure f s q ∧
    momV3 (c.inUnits u).coords (c.inUnits u).measure (f.inUnits u) s q = u.momentum ^ 4 * u.dist * momV3 c.coords c.measure f s q := by
  have key : ∀ x : P → K, (∑ p, u.dist * f s p q * (u.momentum * x p)) = u.dist * u.momentum * ∑ p, f s p q * x p := fun x => by
    rw [Finset.mul_sum]
    exact Finset.sum_congr rfl fun p _ => by ring
  simp only [momV1, momV2, momV3, integralOverV, units_measure, Dist.inUnits]
  refine ⟨?_, ?_, ?_⟩ <;> (refine Eq.trans (congrArg (· * _) (key _)) ?_; ring)

theorem units_faceLeft (u : UnitChange K) (hu : u.Positive) (c : CoupledConfig S P Q K) (m : Recon) {C C' : Dist S P Q K}
    (h : ∀ s p i, C' s p i = u.length / u.time * C s p i) (f : Dist S P Q K) :
    faceLeft (c.inUnits u).ax m C' (f.inUnits u) = Dist.inUnits u (faceLeft c.ax m C f) ∧
    faceBot (c.inUnits u).ax m C' (f.inUnits u) = Dist.inUnits u (faceBot c.ax m C f) := by
  have aq : 0 < u.length / u.time := div_pos hu.length hu.time
  constructor <;> funext s p q <;> simp only [faceLeft, faceBot, Dist.inUnits]
  · rw [show C' s p = fun i => u.length / u.time * C s p i from funext (h s p)]
    exact leftState_scale m _ aq _ _ _ _
  · rw [show C' s p = fun i => u.length / u.time * C s p i from funext (h s p)]
    exact leftState_scale m _ aq _ _ _ _

/-- Currents in the other units. -/
def Currents.scaled (a : K) (J : Currents Q K) : Currents Q K := ⟨fun i => a * J.J1 i, fun i => a * J.J2 i, fun i => a * J.J3 i⟩

theorem units_kinetic (u : UnitChange K) (hu : u.Positive) (c : CoupledConfig S P Q K) (m : Recon) {C1 C1' C2 C2' : Dist S P Q K}
    (h1 : ∀ s p i, C1' s p i = u.length / u.time * C1 s p i) (h2 : ∀ s p i, C2' s p i = u.length / u.time * C2 s p i) (f : Dist S P Q K) :
    kineticCurrents (c.inUnits u) m C1' C2' (f.inUnits u) = (kineticCurrents c m C1 C2 f).scaled (u.charge * u.momentum ^ 4 * u.dist) := by
  have ec : ∀ s, (c.inUnits u).charge s = u.charge * c.charge s := fun _ => rfl
  simp only [kineticCurrents, (units_faceLeft u hu c m h1 f).1, (units_faceLeft u hu c m h2 f).2, (units_mom u c _ _ _).1, (units_mom u c _ _ _).2.1,
    (units_mom u c _ _ _).2.2, ec, Currents.scaled, Finset.mul_sum, Currents.mk.injEq]
  refine ⟨?_, ?_, ?_⟩ <;> funext q <;> exact Finset.sum_congr rfl fun s _ => by ring

theorem units_curls (u : UnitChange K) (c : CoupledConfig S P Q K) (F : EM Q K) (i : Q) :
    curlB1 (c.inUnits u).fieldParams (F.inUnits u) i = u.fieldB / u.length * curlB1 c.fieldParams F i ∧
    curlB2 (c.inUnits u).fieldParams (F.inUnits u) i = u.fieldB / u.length * curlB2 c.fieldParams F i ∧
    curlB3 (c.inUnits u).fieldParams (F.inUnits u) i = u.fieldB / u.length * curlB3 c.fieldParams F i := by
  have k : ∀ a b d x y : K, (a * x - a * y) / (b * d) = a / b * ((x - y) / d) := fun a b d x y => by rw [← mul_sub, mul_div_mul_comm]
  have k' : ∀ a b d x y : K, -(a * x - a * y) / (b * d) = a / b * (-(x - y) / d) := fun a b d x y => by rw [← mul_sub, ← mul_neg, mul_div_mul_comm]
  simp only [curlB1, curlB2, curlB3, CoupledConfig.fieldParams, CoupledConfig.inUnits, EM.inUnits, afShift]
  refine ⟨?_, ?_, ?_⟩ <;> simp only [k, k', mul_sub]

theorem units_curlsE (u : UnitChange K) (c : CoupledConfig S P Q K) (F : EM Q K) (i : Q) :
    curlE1 (c.inUnits u).fieldParams (F.inUnits u) i = u.fieldE / u.length * curlE1 c.fieldParams F i ∧
    curlE2 (c.inUnits u).fieldParams (F.inUnits u) i = u.fieldE / u.length * curlE2 c.fieldParams F i ∧
    curlE3 (c.inUnits u).fieldParams (F.inUnits u) i = u.fieldE / u.length * curlE3 c.fieldParams F i := by
  have k : ∀ a b d x y : K, (a * x - a * y) / (b * d) = a / b * ((x - y) / d) := fun a b d x y => by rw [← mul_sub, mul_div_mul_comm]
  have k' : ∀ a b d x y : K, -(a * x - a * y) / (b * d) = a / b * (-(x - y) / d) := fun a b d x y => by rw [← mul_sub, ← mul_neg, mul_div_mul_comm]
  simp only [curlE1, curlE2, curlE3, CoupledConfig.fieldParams, CoupledConfig.inUnits, EM.inUnits, afShift]
  refine ⟨?_, ?_, ?_⟩ <;> simp only [k, k', mul_sub]

theorem units_fieldMap {u : UnitChange K} (hl : u.length ≠ 0) (hu : u.fieldB * u.length = u.fieldE * u.time) (c : CoupledConfig S P Q K) :
    FieldMap c.fieldParams (c.inUnits u).fieldParams (EM.inUnits u) (EM.inUnits u) (u.time * ·) (u.time * ·) where
  avg := fun x y => by
    simp only [EM.inUnits, EM.avg, EM.mk.injEq]
    refine ⟨?_, ?_, ?_, ?_, ?_, ?_⟩ <;> funext i <;> ring
  mixE := fun _ _ => rfl
  mixB := fun _ _ => rfl
  centre := fun Y C => by
    simp only [toCentre, CoupledConfig.fieldParams, CoupledConfig.inUnits, EM.inUnits, or_true, if_true, EM.mk.injEq, true_and]
    refine ⟨?_, ?_, ?_, ?_, ?_⟩ <;> funext i <;> simp only [afShift] <;> ring
  evolveB := fun dt F => by
    have h : u.time * (u.fieldE / u.length) = u.fieldB := by
      rw [← mul_div_assoc, mul_comm u.time, ← hu, mul_div_cancel_right₀ _ hl]
    simp only [evolveB, (units_curlsE u c F _).1, (units_curlsE u c F _).2.1, (units_curlsE u c F _).2.2, EM.mk.injEq]
    simp only [EM.inUnits, EM.mk.injEq, true_and]
    have k : ∀ x y : K, u.fieldB * x + -(u.time * dt) * (u.fieldE / u.length * y) = u.fieldB * (x + -dt * y) := fun x y => by
      rw [show -(u.time * dt) * (u.fieldE / u.length * y) = -(u.time * (u.fieldE / u.length)) * dt * y by ring, h]
      ring
    simp only [k, and_self]
  time := fun t dt => mul_add _ _ _

theorem units_evolveE {u : UnitChange K} (hl : u.length ≠ 0) (hu : u.Maxwell) {c : CoupledConfig S P Q K} (hh : c.hybrid = false) (J : Currents Q K) (dt : K)
    (F : EM Q K) :
    evolveE (c.inUnits u).fieldParams (J.scaled (u.charge * u.momentum ^ 4 * u.dist)) (u.time * dt) (F.inUnits u)
      = (evolveE c.fieldParams J dt F).map (EM.inUnits u) := by
  have e0 : (c.inUnits u).fieldParams.hybrid = false := hh
  have e1 : c.fieldParams.hybrid = false := hh
  have em : (c.inUnits u).fieldParams.mu = u.mu * c.mu := rfl
  have ee : (c.inUnits u).fieldParams.eps = u.eps * c.eps := rfl
  have em' : c.fieldParams.mu = c.mu := rfl
  have ee' : c.fieldParams.eps = c.eps := rfl
  unfold evolveE
  rw [e0, e1]
  simp only [Bool.false_eq_true, if_false, Except.map, Except.ok.injEq, addCurlB, (units_curls u c F _).1, (units_curls u c F _).2.1, (units_curls u c F _).2.2,
    em, ee, em', ee', Currents.scaled]
  simp only [EM.inUnits, EM.mk.injEq, and_true]
  have hm := hu.mu
  have hep := hu.eps
  have a : u.time / (u.mu * u.eps) * (u.fieldB / u.length) = u.fieldE := by
    rw [div_mul_div_comm, div_eq_iff (by positivity)]
    linear_combination -hu.displacement
  have b : u.charge * u.momentum ^ 4 * u.dist * u.time / u.eps = u.fieldE := by
    rw [div_eq_iff hep, hu.current]
  have k : ∀ x y z : K, u.fieldE * x + (u.time * dt / (u.mu * c.mu * (u.eps * c.eps)) * (u.fieldB / u.length * y)
        - u.charge * u.momentum ^ 4 * u.dist * z * (u.time * dt) / (u.eps * c.eps))
      = u.fieldE * (x + (dt / (c.mu * c.eps) * y - z * dt / c.eps)) := fun x y z => by
    rw [show u.time * dt / (u.mu * c.mu * (u.eps * c.eps)) = u.time / (u.mu * u.eps) * (dt / (c.mu * c.eps)) by
        rw [div_mul_div_comm]; congr 1; ring,
      show u.charge * u.momentum ^ 4 * u.dist * z * (u.time * dt) / (u.eps * c.eps)
        = u.charge * u.momentum ^ 4 * u.dist * u.time / u.eps * (z * dt / c.eps) by rw [div_mul_div_comm]; congr 1; ring, b,
      show u.time / (u.mu * u.eps) * (dt / (c.mu * c.eps)) * (u.fieldB / u.length * y)
        = u.time / (u.mu * u.eps) * (u.fieldB / u.length) * (dt / (c.mu * c.eps) * y) by ring, a]
    ring
  simp only [k, and_self]

theorem units_hybrid {u : UnitChange K} (hu : u.Positive) (hM : u.Maxwell) (hO : u.Ohm) (c : CoupledConfig S P Q K) (s : S) (m : Recon)
    {C1 C1' C2 C2' : Dist S P Q K}
    (h1 : ∀ s p i, C1' s p i = u.length / u.time * C1 s p i) (h2 : ∀ s p i, C2' s p i = u.length / u.time * C2 s p i) (f g : Dist S P Q K) (Y : EM Q K) :
    (hybridFields (c.inUnits u) s m C1' C2' (f.inUnits u) (g.inUnits u) (Y.inUnits u)).1
        = (hybridFields c s m C1 C2 f g Y).1.scaled (u.charge * u.momentum ^ 4 * u.dist) ∧
    (Y.inUnits u).setE (some (hybridFields (c.inUnits u) s m C1' C2' (f.inUnits u) (g.inUnits u) (Y.inUnits u)).2)
      = (Y.setE (some (hybridFields c s m C1 C2 f g Y).2)).inUnits u := by
  have hl := hu.length.ne'
  have ht := hu.time.ne'
  have hp := hu.momentum.ne'
  have hm := hM.mu
  have hep := hM.eps
  have hc := hO.charge
  have hd := hO.dist
  have eB : u.fieldB * u.momentum = u.fieldE := by
    refine mul_right_cancel₀ ht ?_
    linear_combination hM.faraday + u.fieldB * hO.velocity
  have eJ : u.fieldB / u.length / u.mu = u.charge * u.momentum ^ 4 * u.dist := by
    rw [div_div, div_eq_iff (mul_ne_zero hl hm)]
    refine mul_right_cancel₀ ht ?_
    linear_combination -hM.displacement - u.length * u.mu * hM.current
  have em : (c.inUnits u).mu = u.mu * c.mu := rfl
  have et : (c.inUnits u).Te = u.temperature * c.Te := rfl
  have ec : ∀ s, (c.inUnits u).charge s = u.charge * c.charge s := fun _ => rfl
  have e1 : (c.inUnits u).ax = c.ax := rfl
  have d1 : (c.inUnits u).dq1 = u.length * c.dq1 := rfl
  have d2 : (c.inUnits u).dq2 = u.length * c.dq2 := rfl
  have j : ∀ x : K, u.fieldB / u.length * x / (u.mu * c.mu) = u.charge * u.momentum ^ 4 * u.dist * (x / c.mu) := fun x => by
    rw [← eJ]; field_simp
  have fl := fun x => (units_faceLeft u hu c m h1 x).1
  have fb := fun x => (units_faceLeft u hu c m h2 x).2
  rw [e1] at fl fb
  have v : ∀ x y : K, u.momentum ^ 4 * u.dist * x / (u.momentum ^ 3 * u.dist * y) = u.momentum * (x / y) := fun x y => by
    rw [mul_div_mul_comm]
    congr 1
    field_simp
  constructor
  · simp only [hybridFields, (units_curls u c Y _).1, (units_curls u c Y _).2.1, (units_curls u c Y _).2.2, em, Currents.scaled, j]
  · simp only [hybridFields, (units_curls u c Y _).1, (units_curls u c Y _).2.1, (units_curls u c Y _).2.2, em, et, ec, e1, d1, d2, fl, fb, j,
      units_density, (units_mom u c _ _ _).1, (units_mom u c _ _ _).2.1, (units_mom u c _ _ _).2.2, v, EM.setE]
    simp only [EM.inUnits, EM.mk.injEq, and_true]
    have q : ∀ x n : K, u.fieldB * (u.charge * u.momentum ^ 4 * u.dist) * x / (u.momentum ^ 3 * u.dist * n * (u.charge * c.charge s))
        = u.fieldE * (x / (n * c.charge s)) := fun x n => by
      rw [show u.momentum ^ 3 * u.dist * n * (u.charge * c.charge s) = (u.momentum ^ 3 * u.dist * u.charge) * (n * c.charge s) by ring, mul_div_mul_comm]
      congr 1
      rw [← eB]
      field_simp
    have t : ∀ x y n : K, 1 / 2 * (u.temperature * c.Te) * (u.momentum ^ 3 * u.dist / u.length * x + u.momentum ^ 3 * u.dist / u.length * y)
          / (u.charge * c.charge s * (u.momentum ^ 3 * u.dist * n))
        = u.fieldE * (1 / 2 * c.Te * (x + y) / (c.charge s * n)) := fun x y n => by
      rw [show 1 / 2 * (u.temperature * c.Te) * (u.momentum ^ 3 * u.dist / u.length * x + u.momentum ^ 3 * u.dist / u.length * y)
          = (u.temperature * (u.momentum ^ 3 * u.dist / u.length)) * (1 / 2 * c.Te * (x + y)) by ring,
        show u.charge * c.charge s * (u.momentum ^ 3 * u.dist * n) = u.charge * (u.momentum ^ 3 * u.dist) * (c.charge s * n) by ring, mul_div_mul_comm]
      congr 1
      rw [hO.temperature]
      field_simp
    have g : ∀ (d a b x y : K), (-(u.momentum ^ 3 * u.dist * a) + 8 * (u.momentum ^ 3 * u.dist * b) - 8 * (u.momentum ^ 3 * u.dist * x)
          + u.momentum ^ 3 * u.dist * y) / (12 * (u.length * d))
        = u.momentum ^ 3 * u.dist / u.length * ((-a + 8 * b - 8 * x + y) / (12 * d)) := fun d a b x y => by
      rw [div_mul_div_comm]
      congr 1 <;> ring
    refine ⟨?_, ?_, ?_⟩ <;> funext i <;> simp only [afShift, g, t, units_density]
    · rw [mul_sub u.fieldE, mul_add u.fieldE, ← q]
      refine congrArg₂ (· - ·) (congrArg₂ (· + ·) ?_ ?_) rfl
      · rw [← eB]; ring
      · congr 1; ring
    · rw [mul_sub u.fieldE, mul_add u.fieldE, ← q]
      refine congrArg₂ (· - ·) (congrArg₂ (· + ·) ?_ ?_) rfl
      · rw [← eB]; ring
      · congr 1; ring
    · rw [mul_add u.fieldE, ← q]
      refine congrArg₂ (· + ·) ?_ ?_
      · rw [← eB]; ring
      · congr 1; ring

/-- A change of units commutes with the coupled step. -/
theorem unitMap {c : CoupledConfig S P Q K} (hyb : S) {u : UnitChange K} (hu : u.Positive)
    (hM : c.fieldsType = "electrodynamic" → u.Maxwell) (hO : c.fieldsType = "electrodynamic" → c.hybrid = true → u.Ohm)
    {poisson poisson' : (S → Q → K) → FieldState Q K → FieldState Q K}
    (hp : c.fieldsType = "electrostatic" → ∀ ρ σ, poisson' (fun s q => u.charge * u.momentum ^ 3 * u.dist * ρ s q) (σ.inUnits u) = (poisson ρ σ).inUnits u) :
    StepMap c (c.inUnits u) poisson poisson' hyb hyb (Dist.inUnits u) (fun k s p i => u.dist / u.time * k s p i) (EM.inUnits u) (FieldState.inUnits u)
      (u.time * ·) (CallbacksInUnits u) (fun _ => True) where
  solverQ := rfl
  solverP := rfl
  recQ := rfl
  enabled := rfl
  ftype := rfl
  fsolver := rfl
  flag := fun _ => rfl
  half := fun dt => mul_div_assoc _ _ _ |>.symm
  update := fun f k dt => by
    have ht := hu.time.ne'
    funext s p i
    simp only [Dist.inUnits]
    field_simp
  get := fun a b σ => mapEM_get a b σ
  getI := fun _ _ _ _ => trivial
  evolve := by
    intro cb' cb hR m dt selff f σ _ he _
    have hM := hM he
    have eh : (c.inUnits u).hybrid = c.hybrid := rfl
    unfold evolveBranch
    rw [eh]
    by_cases hH : c.hybrid = true
    · have hO := hO he hH
      simp only [if_pos hH]
      obtain ⟨e1, e2⟩ := units_hybrid hu hM hO c hyb m hR.q1 hR.q2 f selff σ.yee
      rw [show (σ.inUnits u).yee = σ.yee.inUnits u from rfl, e1, e2]
      refine (units_fieldMap hu.length.ne' hM.faraday c).evolve (dt := dt)
        (σ := { σ with yee := σ.yee.setE (some (hybridFields c hyb m cb.Cq1 cb.Cq2 f selff σ.yee).2) }) ?_
      have ok : ∀ (c : CoupledConfig S P Q K) (J : Currents Q K) (dt : K) (F : EM Q K), c.hybrid = true → (∀ i, J.J1 i = curlB1 c.fieldParams F i / c.mu) →
          (∀ i, J.J2 i = curlB2 c.fieldParams F i / c.mu) → (∀ i, J.J3 i = curlB3 c.fieldParams F i / c.mu) → evolveE c.fieldParams J dt F = .ok F := by
        intro c J dt F hc a1 a2 a3
        have z : ∀ x : Q → K, (∀ i, x i = 0) → meanAbsSmall x := fun x h => by
          simp only [meanAbsSmall, h, abs_zero, Finset.sum_const_zero, zero_div]
          positivity
        unfold evolveE
        rw [if_pos (show c.fieldParams.hybrid = true from hc)]
        exact if_pos ⟨z _ fun i => sub_eq_zero.mpr (a1 i), z _ fun i => sub_eq_zero.mpr (a2 i), z _ fun i => sub_eq_zero.mpr (a3 i)⟩
      rw [ok c _ dt _ hH (fun _ => rfl) (fun _ => rfl) (fun _ => rfl)]
      refine ok (c.inUnits u) _ (u.time * dt) _ hH ?_ ?_ ?_ <;> intro i
      · have := congrArg (fun J => J.J1 i) e1
        exact this.symm
      · have := congrArg (fun J => J.J2 i) e1
        exact this.symm
      · have := congrArg (fun J => J.J3 i) e1
        exact this.symm
    · simp only [if_neg hH, units_kinetic u hu c m hR.q1 hR.q2]
      exact (units_fieldMap hu.length.ne' hM.faraday c).evolve (units_evolveE hu.length.ne' hM (by simpa using hH) _ dt _)
  evolveI := fun _ _ _ _ _ _ _ _ _ => trivial
  poissonT := fun he f σ _ => by
    rw [← hp he]
    congr 1
    funext s q
    rw [units_density]
    show u.charge * c.charge s * _ = _
    ring
  poissonI := fun _ _ _ => trivial
  slope := by
    intro cb' cb hR f σ _
    exact dfdtFVM_units hu c ⟨cb.Cq1, cb.Cq2, cb.Cp1 _, cb.Cp2 _, cb.Cp3 _, cb.source⟩
      ⟨cb'.Cq1, cb'.Cq2, cb'.Cp1 _, cb'.Cp2 _, cb'.Cp3 _, cb'.source⟩ hR.q1 hR.q2 (hR.p1 _) (hR.p2 _) (hR.p3 _) hR.src f
  slope0 := by
    intro cb' cb hR f
    exact dfdtFVM_units hu c ⟨cb.Cq1, cb.Cq2, fun _ _ _ => 0, fun _ _ _ => 0, fun _ _ _ => 0, cb.source⟩
      ⟨cb'.Cq1, cb'.Cq2, fun _ _ _ => 0, fun _ _ _ => 0, fun _ _ _ => 0, cb'.source⟩ hR.q1 hR.q2 (fun _ _ _ => (mul_zero _).symm)
      (fun _ _ _ => (mul_zero _).symm) (fun _ _ _ => (mul_zero _).symm) hR.src f

end Bolt
