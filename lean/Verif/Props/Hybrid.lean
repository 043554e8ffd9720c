import Verif.Spec.Hybrid
import Verif.Props.Cover

/-!
# C70: the electric field of the hybrid model
-/

set_option linter.unusedSectionVars false

namespace Bolt

variable {S P Q K : Type} [AddCommGroup P] [AddCommGroup Q] [Field K] [LinearOrder K] [IsStrictOrderedRing K] [Fintype S] [Fintype P]
  [Fintype Q]

/-- The distribution of the ions at the location of each component of the electric field: the upwind states on the left and bottom faces
(those of the fluxes) and the cell averages. -/
def ionsAt (c : CoupledConfig S P Q K) (m : Recon) (Cq1 Cq2 f : Dist S P Q K) : Fin 3 → Dist S P Q K
  | 0 => faceLeft c.ax m Cq1 f | 1 => faceBot c.ax m Cq2 f | 2 => f

theorem weighted_sum (c : CoupledConfig S P Q K) (x : P → K) (s : S) :
    (∑ p, x p) * c.measure s = ∑ p, x p * (c.dp1 s * c.dp2 s * c.dp3 s) := by
  rw [Finset.sum_mul]
  refine Finset.sum_congr rfl fun p _ => ?_
  rw [FVMConfig.measure]
  ring

theorem density_spec (c : CoupledConfig S P Q K) (f : Dist S P Q K) (s : S) (q : Q) :
    density c.coords c.measure f s q = numberDensity c f s q := weighted_sum c _ s

theorem velocity_spec (c : CoupledConfig S P Q K) (f : Dist S P Q K) (s : S) (q : Q) :
    momV1 c.coords c.measure f s q / numberDensity c f s q = meanVelocity c f s q 0 ∧
    momV2 c.coords c.measure f s q / numberDensity c f s q = meanVelocity c f s q 1 ∧
    momV3 c.coords c.measure f s q / numberDensity c f s q = meanVelocity c f s q 2 := by
  simp only [meanVelocity, momV1, momV2, momV3, integralOverV, weighted_sum, and_self]

theorem ampere_spec (c : CoupledConfig S P Q K) (Y : EM Q K) :
    (fun i => curlB1 c.fieldParams Y i / c.mu) = ampere c.ax.q1 c.ax.q2 c.dq1 c.dq2 c.mu Y.magnetic 0 ∧
    (fun i => curlB2 c.fieldParams Y i / c.mu) = ampere c.ax.q1 c.ax.q2 c.dq1 c.dq2 c.mu Y.magnetic 1 ∧
    (fun i => curlB3 c.fieldParams Y i / c.mu) = ampere c.ax.q1 c.ax.q2 c.dq1 c.dq2 c.mu Y.magnetic 2 := by
  simp only [curlB1, curlB2, curlB3, CoupledConfig.fieldParams, ampere, EM.magnetic, afShift_neg_one, neg_div, and_self]

theorem shift_minus_two (e : Q) (x : Q → K) (i : Q) : afShift e (-2) x i = x (i + (2 : ℤ) • e) := by
  rw [afShift, neg_smul, sub_neg_eq_add]

theorem shift_plus_two (e : Q) (x : Q → K) (i : Q) : afShift e 2 x i = x (i - (2 : ℤ) • e) := rfl

theorem cross_zero (a b : Fin 3 → K) : cross a b 0 = a 1 * b 2 - a 2 * b 1 := rfl
theorem cross_one (a b : Fin 3 → K) : cross a b 1 = a 2 * b 0 - a 0 * b 2 := rfl
theorem cross_two (a b : Fin 3 → K) : cross a b 2 = a 0 * b 1 - a 1 * b 0 := rfl

/-- **C70 (the field computed).** The electric field the hybrid model assigns, and the current it hands on, are those of the generalised
Ohm's law and of Ampère's law. -/
theorem C70_fields_assigned (c : CoupledConfig S P Q K) (s : S) (m : Recon) (Cq1 Cq2 f selff : Dist S P Q K) (Y : EM Q K) :
    let h := hybridFields c s m Cq1 Cq2 f selff Y
    h.1.J1 = ampere c.ax.q1 c.ax.q2 c.dq1 c.dq2 c.mu Y.magnetic 0 ∧ h.1.J2 = ampere c.ax.q1 c.ax.q2 c.dq1 c.dq2 c.mu Y.magnetic 1 ∧
    h.1.J3 = ampere c.ax.q1 c.ax.q2 c.dq1 c.dq2 c.mu Y.magnetic 2 ∧
    h.2.1 = ohm c s (ionsAt c m Cq1 Cq2 f) selff Y.magnetic 0 ∧ h.2.2.1 = ohm c s (ionsAt c m Cq1 Cq2 f) selff Y.magnetic 1 ∧
    h.2.2.2 = ohm c s (ionsAt c m Cq1 Cq2 f) selff Y.magnetic 2 := by
  intro h
  obtain ⟨a1, a2, a3⟩ := ampere_spec c Y
  have b1 : ∀ i, curlB1 c.fieldParams Y i / c.mu = ampere c.ax.q1 c.ax.q2 c.dq1 c.dq2 c.mu Y.magnetic 0 i := congrFun a1
  have b2 : ∀ i, curlB2 c.fieldParams Y i / c.mu = ampere c.ax.q1 c.ax.q2 c.dq1 c.dq2 c.mu Y.magnetic 1 i := congrFun a2
  have b3 : ∀ i, curlB3 c.fieldParams Y i / c.mu = ampere c.ax.q1 c.ax.q2 c.dq1 c.dq2 c.mu Y.magnetic 2 i := congrFun a3
  refine ⟨a1, a2, a3, funext fun i => ?_, funext fun i => ?_, funext fun i => ?_⟩
  all_goals
    simp only [h, hybridFields, b1, b2, b3, density_spec, (velocity_spec c _ s _).1, (velocity_spec c _ s _).2.1, (velocity_spec c _ s _).2.2]
    simp only [ohm, interp, interpAxis, siteE, siteB, cross_zero, cross_one, cross_two, ionsAt, densityGradient, centralDiff, EM.magnetic,
      afShift_one, afShift_neg_one, shift_minus_two, shift_plus_two, density_spec]
  · ring
  · ring
  · ring

/-- The configuration of a hybrid run. -/
def HybridFVM (c : CoupledConfig S P Q K) : Prop := ElectrodynamicFVM c ∧ c.hybrid = true

/-- **C70 (every step).** After every step of a hybrid run the staggered electric field satisfies the generalised Ohm's law with the
magnetic field the step started from and the ions half a step later, and the magnetic field has changed by minus the step size times the
curl of that electric field. -/
theorem C70_step {c : CoupledConfig S P Q K} (hc : HybridFVM c) {m : Recon} (hm : reconMethod c.reconstructionInQ = .ok m) {poisson}
    {cb : Fin 2 → CoupledCallbacks S P Q K} {hyb : S} {dt : K} {st st' : Dist S P Q K × FieldState Q K} (hflag : st.2.flag = true)
    (h : stepCoupled c poisson cb hyb dt st = .ok st') :
    ∃ r0, dfdtCoupled c poisson (cb 0) hyb dt st.1 st.1 st.2 = .ok r0 ∧
      (let fh : Dist S P Q K := fun s p q => st.1 s p q + r0.1 s p q * (dt / 2)
       ∀ k i, st'.2.yee.electric k i = ohm c hyb (ionsAt c m (cb 1).Cq1 (cb 1).Cq2 fh) fh st.2.yee.magnetic k i) ∧
      ∀ i, st'.2.yee.B1 i = st.2.yee.B1 i + -dt * curlE1 c.fieldParams st'.2.yee i ∧
        st'.2.yee.B2 i = st.2.yee.B2 i + -dt * curlE2 c.fieldParams st'.2.yee i ∧
        st'.2.yee.B3 i = st.2.yee.B3 i + -dt * curlE3 c.fieldParams st'.2.yee i := by
  have hB := step_B hc.1 hflag h
  obtain ⟨⟨hq, hp1, hp2, ht⟩, hh⟩ := hc
  obtain ⟨r0, r1, h0, h1, rfl⟩ := stepCoupled_ok h
  refine ⟨r0, h0, ?_, hB⟩
  obtain ⟨σ1, σ2, u, a, b, -⟩ := dfdtCoupled_ok ⟨hp1, hp2⟩ h0
  obtain ⟨τ1, τ2, u', a', b', -⟩ := dfdtCoupled_ok ⟨hp1, hp2⟩ h1
  have hne : ¬ (c.fieldsType = "electrostatic" ∧ c.fieldsSolver = "fft") := by rw [ht]; simp
  rw [if_neg hne] at a a'
  subst a a'
  have hs : σ2 = st.2 := by
    rcases u with ⟨_, hf, _⟩ | ⟨_, e⟩
    · rw [hflag] at hf; cases hf
    · exact e
  subst hs
  have hy : r0.2.yee = st.2.yee := by rw [b]
  rcases u' with ⟨_, _, _, m', hm', ⟨_, hF, rfl, he⟩ | ⟨hh', _⟩⟩ | ⟨hn, _⟩
  · rw [hm] at hm'
    cases hm'
    obtain ⟨e1, -⟩ := evolveElectrodynamic_ok he
    obtain ⟨-, -, -, c1, c2, c3⟩ := C70_fields_assigned c hyb m (cb 1).Cq1 (cb 1).Cq2 (fun s p q => st.1 s p q + r0.1 s p q * (dt / 2))
      (fun s p q => st.1 s p q + r0.1 s p q * (dt / 2)) st.2.yee
    have hE : ∀ J (x y : EM Q K), evolveE c.fieldParams J dt x = .ok y → y = x := by
      intro J x y hxy
      have hh' : c.fieldParams.hybrid = true := hh
      unfold evolveE at hxy
      rw [if_pos hh'] at hxy
      split_ifs at hxy
      cases hxy
      rfl
    have hyee : r1.2.yee = τ2.yee := by rw [b']
    simp only [fdtd, id, bind, Except.bind, pure, Except.pure] at e1
    split at e1
    · cases e1
    · rename_i y hy'
      simp only [Except.ok.injEq] at e1
      have := hE _ _ _ hy'
      subst this
      rw [hy] at e1
      intro fh k i
      simp only [hyee, ← e1]
      fin_cases k
      · exact congrFun c1 i
      · exact congrFun c2 i
      · exact congrFun c3 i
  · rw [hh] at hh'; cases hh'
  · exact absurd ⟨ht, by rw [b]; simp [hflag]⟩ hn

theorem ionsAt_const (c : CoupledConfig S P Q K) (m : Recon) (Cq1 Cq2 : Dist S P Q K) (f0 : S → P → K) (k : Fin 3) :
    ionsAt c m Cq1 Cq2 (fun s p _ => f0 s p) k = fun s p _ => f0 s p := by
  fin_cases k
  · funext s p
    exact leftState_const m _ _ _
  · funext s p
    exact leftState_const m _ _ _
  · rfl

/-- **C70 (uniform plasma).** For uniform ions in a uniform magnetic field the law is exactly `E = -u × B`. -/
theorem C70_uniform (c : CoupledConfig S P Q K) (s : S) (m : Recon) (Cq1 Cq2 : Dist S P Q K) (f0 : S → P → K) (b : Fin 3 → K) (k : Fin 3)
    (i : Q) :
    ohm c s (ionsAt c m Cq1 Cq2 (fun s p _ => f0 s p)) (fun s p _ => f0 s p) (fun k _ => b k) k i
      = -cross (meanVelocity c (fun s p (_ : Q) => f0 s p) s i) b k := by
  have e : ∀ (a a' : Site) (x : K), interp c.ax.q1 c.ax.q2 a a' (fun _ => x) i = x := by
    intro a a' x
    obtain ⟨a1, a2⟩ := a
    obtain ⟨b1, b2⟩ := a'
    cases a1 <;> cases a2 <;> cases b1 <;> cases b2 <;> simp [interp, interpAxis]
  have J : ∀ j, ampere c.ax.q1 c.ax.q2 c.dq1 c.dq2 c.mu (fun k (_ : Q) => b k) j = fun _ => 0 := by
    intro j
    fin_cases j <;> simp [ampere]
  have D : densityGradient c (numberDensity c (fun s p (_ : Q) => f0 s p) s) k = fun _ => 0 := by
    fin_cases k
    · funext q
      simp only [densityGradient, centralDiff, numberDensity]
      simp
    · funext q
      simp only [densityGradient, centralDiff, numberDensity]
      simp
    · rfl
  simp only [ohm, ionsAt_const, e, J, D]
  simp [cross]

/-- **C70 (no net force from the electron pressure).** Charge times density times the pressure part of each component of the field, summed
over the periodic domain, vanishes. -/
theorem C70_pressure_exerts_no_net_force (c : CoupledConfig S P Q K) (s : S) (g : Fin 3 → Dist S P Q K) (f : Dist S P Q K)
    (B : Fin 3 → Q → K) (k : Fin 3) (hs : c.charge s ≠ 0) (hn : ∀ i, numberDensity c f s i ≠ 0) :
    ∑ i, c.charge s * numberDensity c f s i * (ohm c s g f B k i - ohm { c with Te := 0 } s g f B k i) = 0 := by
  have e : ∀ i, c.charge s * numberDensity c f s i * (ohm c s g f B k i - ohm { c with Te := 0 } s g f B k i)
      = -c.Te * interp c.ax.q1 c.ax.q2 (false, false) (siteE k) (densityGradient c (numberDensity c f s) k) i := by
    intro i
    have h1 := hn i
    have : ohm c s g f B k i - ohm { c with Te := 0 } s g f B k i
        = -(c.Te * interp c.ax.q1 c.ax.q2 (false, false) (siteE k) (densityGradient c (numberDensity c f s) k) i
          / (c.charge s * numberDensity c f s i)) := by
      have z : ∀ a x y : K, a - x - (a - 0 * y) = -x := by intros; ring
      simp only [ohm]
      rw [zero_mul, zero_div, sub_zero]
      exact sub_sub_cancel_left _ _
    rw [this]
    field_simp
  simp only [e]
  rw [← Finset.mul_sum]
  have tr : ∀ (x : Q → K) (t : Q), ∑ i, x (i + t) = ∑ i, x i := fun x t => Fintype.sum_equiv (Equiv.addRight t) _ _ fun i => rfl
  have tr' : ∀ (x : Q → K) (t : Q), ∑ i, x (i - t) = ∑ i, x i := fun x t => Fintype.sum_equiv (Equiv.subRight t) _ _ fun i => rfl
  have cd : ∀ (t : Q) (d : K) (n : Q → K), ∑ i, centralDiff t d n i = 0 := by
    intro t d n
    simp only [centralDiff]
    rw [← Finset.sum_div, Finset.sum_sub_distrib, Finset.sum_add_distrib, Finset.sum_sub_distrib, ← Finset.mul_sum, ← Finset.mul_sum,
      tr, tr, tr', tr']
    ring_nf
  have gr : ∑ i, densityGradient c (numberDensity c f s) k i = 0 := by
    fin_cases k
    · exact cd _ _ _
    · exact cd _ _ _
    · simp [densityGradient]
  have ia : ∀ (t : Q) (a b : Bool) (x : Q → K), ∑ i, interpAxis t a b x i = ∑ i, x i := by
    intro t a b x
    cases a <;> cases b
    · rfl
    · show ∑ i, (x (i - t) + x i) / 2 = _
      rw [← Finset.sum_div, Finset.sum_add_distrib, tr']
      ring
    · show ∑ i, (x i + x (i + t)) / 2 = _
      rw [← Finset.sum_div, Finset.sum_add_distrib, tr]
      ring
    · rfl
  rw [interp, ia, ia, gr, mul_zero]

/-- **C70 (where the density of the pressure term is taken).** The pressure term of E1 and E2 is located on a face but divided by the
density at the centre; it agrees with the law that divides by the density interpolated to the face only where there is no pressure
gradient or the two densities coincide. -/
theorem C70_density_of_the_pressure_term (c : CoupledConfig S P Q K) (s : S) (g : Fin 3 → Dist S P Q K) (f : Dist S P Q K)
    (B : Fin 3 → Q → K) (k : Fin 3) (i : Q) (hs : c.charge s ≠ 0) (hn : numberDensity c f s i ≠ 0)
    (hn' : interp c.ax.q1 c.ax.q2 (false, false) (siteE k) (numberDensity c f s) i ≠ 0) :
    ohm c s g f B k i = ohm { c with Te := 0 } s g f B k i
        - c.Te * interp c.ax.q1 c.ax.q2 (false, false) (siteE k) (densityGradient c (numberDensity c f s) k) i
          / (c.charge s * interp c.ax.q1 c.ax.q2 (false, false) (siteE k) (numberDensity c f s) i) ↔
      c.Te * interp c.ax.q1 c.ax.q2 (false, false) (siteE k) (densityGradient c (numberDensity c f s) k) i = 0 ∨
        interp c.ax.q1 c.ax.q2 (false, false) (siteE k) (numberDensity c f s) i = numberDensity c f s i := by
  have e : ohm c s g f B k i = ohm { c with Te := 0 } s g f B k i
      - c.Te * interp c.ax.q1 c.ax.q2 (false, false) (siteE k) (densityGradient c (numberDensity c f s) k) i
          / (c.charge s * numberDensity c f s i) := by
    simp only [ohm]
    rw [zero_mul, zero_div, sub_zero]
    rfl
  rw [e, sub_right_inj]
  generalize c.Te * interp c.ax.q1 c.ax.q2 (false, false) (siteE k) (densityGradient c (numberDensity c f s) k) i = x
  generalize numberDensity c f s i = n at *
  generalize interp c.ax.q1 c.ax.q2 (false, false) (siteE k) (numberDensity c f s) i = n' at *
  rw [div_eq_div_iff (mul_ne_zero hs hn) (mul_ne_zero hs hn')]
  constructor
  · intro h
    by_cases hx : x = 0
    · exact Or.inl hx
    · right
      exact mul_left_cancel₀ hs (mul_left_cancel₀ hx h)
  · rintro (h | h)
    · rw [h, zero_mul, zero_mul]
    · rw [h]

/-! ## A concrete case -/

/-- The hypotheses of `C70_step` are met by the first step of a run from initialised fields. -/
example : ∃ τ st', initFields (c67Cfg true).fieldParams c67Ini = .ok τ ∧ τ.flag = true ∧ HybridFVM (c67Cfg true) ∧
    reconMethod (c67Cfg true).reconstructionInQ = .ok .ppm ∧
    stepCoupled (c67Cfg true) (fun _ σ => σ) (fun _ => c67Cb) () (1 / 10) (c67F, τ) = .ok st' := by
  have hi : Implemented (c67Cfg true) := ⟨⟨.ppm, rfl⟩, ⟨.minmod, rfl⟩, fun _ => rfl⟩
  obtain ⟨τ, hτ⟩ : ∃ τ, initFields (c67Cfg true).fieldParams c67Ini = .ok τ := ⟨_, rfl⟩
  obtain ⟨st', hs⟩ := C67_whole_grid_run_exists hi (fun _ σ => σ) () [(1 / 10, fun _ => c67Cb)] (c67F, τ)
  simp only [runCoupled, bind, Except.bind] at hs
  split at hs
  · cases hs
  · rename_i r hr
    refine ⟨τ, r, hτ, ?_, ⟨⟨rfl, rfl, rfl, rfl⟩, rfl⟩, rfl, hr⟩
    cases hτ
    rfl

theorem c70_density (i : ZMod 6 × ZMod 1) : numberDensity (c67Cfg true) c67F () i = 2 * (1 + i.1.val) + (i.1.val : ℚ) ^ 2 := by
  have e : ∀ x : PIdx 2 1 1 → ℚ, ∑ p, x p = x (0, 0, 0) + x (1, 0, 0) := by
    intro x
    have u : (Finset.univ : Finset (PIdx 2 1 1)) = {(0, 0, 0), (1, 0, 0)} := by decide
    rw [u, Finset.sum_pair (by decide)]
  have h0 : (0 : ZMod 2).val = 0 := rfl
  have h1 : (1 : ZMod 2).val = 1 := rfl
  simp only [numberDensity, e, c67F, c67Cfg, h0, h1, Nat.cast_zero, Nat.cast_one]
  ring

/-- The density does not vanish, and at some cell the gradient is not zero and the two densities differ. -/
example : (∀ i, numberDensity (c67Cfg true) c67F () i ≠ 0) ∧
    interp (1, 0) (0, 1) (false, false) (siteE 0) (numberDensity (c67Cfg true) c67F ()) (2, 0) ≠ numberDensity (c67Cfg true) c67F () (2, 0) ∧
    interp (1, 0) (0, 1) (false, false) (siteE 0) (densityGradient (c67Cfg true) (numberDensity (c67Cfg true) c67F ()) 0) (2, 0) ≠ 0 := by
  refine ⟨fun i => ?_, ?_, ?_⟩
  · rw [c70_density]
    positivity
  · simp only [interp, interpAxis, siteE, c70_density]
    have : ((2, 0) - (1, 0) : ZMod 6 × ZMod 1).1.val = 1 := by decide
    rw [this]
    have : ((2, 0) : ZMod 6 × ZMod 1).1.val = 2 := by decide
    rw [this]
    norm_num
  · simp only [interp, interpAxis, siteE, densityGradient, centralDiff, c70_density]
    have h0 : (((2, 0) - (1, 0) - (2 : ℤ) • (1, 0) : ZMod 6 × ZMod 1)).1.val = 5 := by decide
    have h1 : (((2, 0) - (1, 0) - (1, 0) : ZMod 6 × ZMod 1)).1.val = 0 := by decide
    have h2 : (((2, 0) - (1, 0) + (1, 0) : ZMod 6 × ZMod 1)).1.val = 2 := by decide
    have h3 : (((2, 0) - (1, 0) + (2 : ℤ) • (1, 0) : ZMod 6 × ZMod 1)).1.val = 3 := by decide
    have h4 : (((2, 0) - (2 : ℤ) • (1, 0) : ZMod 6 × ZMod 1)).1.val = 0 := by decide
    have h5 : (((2, 0) - (1, 0) : ZMod 6 × ZMod 1)).1.val = 1 := by decide
    have h6 : (((2, 0) + (1, 0) : ZMod 6 × ZMod 1)).1.val = 3 := by decide
    have h7 : (((2, 0) + (2 : ℤ) • (1, 0) : ZMod 6 × ZMod 1)).1.val = 4 := by decide
    simp only [c67Cfg, h0, h1, h2, h3, h4, h5, h6, h7]
    norm_num

end Bolt
