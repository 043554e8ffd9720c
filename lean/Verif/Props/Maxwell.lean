import Verif.Spec.Maxwell
import Verif.Props.Hybrid

/-!
# C71: Maxwell's equations in runs with self-consistent fields
-/

set_option linter.unusedSectionVars false

namespace Bolt

variable {S P Q K : Type} [AddCommGroup P] [AddCommGroup Q] [Field K] [LinearOrder K] [IsStrictOrderedRing K] [Fintype S] [Fintype P]
  [Fintype Q]

theorem kineticCurrents_spec (c : CoupledConfig S P Q K) (m : Recon) (Cq1 Cq2 f : Dist S P Q K) (i : Q) :
    (kineticCurrents c m Cq1 Cq2 f).J1 i = currentDensity c (ionsAt c m Cq1 Cq2 f) 0 i ∧
    (kineticCurrents c m Cq1 Cq2 f).J2 i = currentDensity c (ionsAt c m Cq1 Cq2 f) 1 i ∧
    (kineticCurrents c m Cq1 Cq2 f).J3 i = currentDensity c (ionsAt c m Cq1 Cq2 f) 2 i := by
  refine ⟨?_, ?_, ?_⟩
  all_goals
    simp only [kineticCurrents, currentDensity, momV1, momV2, momV3, integralOverV, weighted_sum, velocity, ionsAt]
    refine Finset.sum_congr rfl fun s _ => congrArg _ (Finset.sum_congr rfl fun p _ => ?_)
    ring

/-- The configuration of a run of kinetic species with self-consistent electrodynamic fields. -/
def KineticFVM (c : CoupledConfig S P Q K) : Prop := ElectrodynamicFVM c ∧ c.hybrid = false

/-- **C71 (every step).** A step changes the electric field by the step size times `(curl B / mu - J) / eps`, where `B` is the magnetic
field before the step and `J` the current of all species half a step later, at the location of each component; it then changes the magnetic
field by minus the step size times the curl of the new electric field. -/
theorem C71_step {c : CoupledConfig S P Q K} (hc : KineticFVM c) {m : Recon} (hm : reconMethod c.reconstructionInQ = .ok m) {poisson}
    {cb : Fin 2 → CoupledCallbacks S P Q K} {hyb : S} {dt : K} {st st' : Dist S P Q K × FieldState Q K} (hflag : st.2.flag = true)
    (h : stepCoupled c poisson cb hyb dt st = .ok st') :
    ∃ r0, dfdtCoupled c poisson (cb 0) hyb dt st.1 st.1 st.2 = .ok r0 ∧
      (let fh : Dist S P Q K := fun s p q => st.1 s p q + r0.1 s p q * (dt / 2)
       ∀ k i, st'.2.yee.electric k i = st.2.yee.electric k i
        + dt * ((ampere c.ax.q1 c.ax.q2 c.dq1 c.dq2 c.mu st.2.yee.magnetic k i
            - currentDensity c (ionsAt c m (cb 1).Cq1 (cb 1).Cq2 fh) k i) / c.eps)) ∧
      ∀ k i, st'.2.yee.magnetic k i = st.2.yee.magnetic k i
        - dt * curlOfE c.ax.q1 c.ax.q2 c.dq1 c.dq2 st'.2.yee.electric k i := by
  have hB := step_B hc.1 hflag h
  obtain ⟨⟨hq, hp1, hp2, ht⟩, hh⟩ := hc
  obtain ⟨r0, r1, h0, h1, rfl⟩ := stepCoupled_ok h
  refine ⟨r0, h0, ?_, ?_⟩
  swap
  · intro k i
    obtain ⟨b1, b2, b3⟩ := hB i
    fin_cases k
    · refine b1.trans ?_
      simp only [curlE1, afShift_one, EM.magnetic, curlOfE, EM.electric, CoupledConfig.fieldParams]
      ring
    · refine b2.trans ?_
      simp only [curlE2, afShift_one, EM.magnetic, curlOfE, EM.electric, CoupledConfig.fieldParams]
      ring
    · refine b3.trans ?_
      simp only [curlE3, afShift_one, EM.magnetic, curlOfE, EM.electric, CoupledConfig.fieldParams]
      ring
  obtain ⟨σ1, σ2, u, a, b, -⟩ := dfdtCoupled_ok ⟨hp1, hp2⟩ h0
  obtain ⟨τ1, τ2, u', a', b', -⟩ := dfdtCoupled_ok ⟨hp1, hp2⟩ h1
  have hne : ¬ (c.fieldsType = "electrostatic" ∧ c.fieldsSolver = "fft") := by rw [ht]; simp
  rw [if_neg hne] at a a'
  subst a a'
  have hs : σ2 = st.2 := by
    rcases u with ⟨_, hf, _⟩ | ⟨_, e⟩
    · rw [hflag] at hf; cases hf
    · exact e
  subst hs
  have hy : r0.2.yee = st.2.yee := by rw [b]
  rcases u' with ⟨_, _, _, m', hm', ⟨hh', _⟩ | ⟨_, he⟩⟩ | ⟨hn, _⟩
  · rw [hh] at hh'; cases hh'
  · rw [hm] at hm'
    cases hm'
    obtain ⟨e1, -⟩ := evolveElectrodynamic_ok he
    have hyee : r1.2.yee = τ2.yee := by rw [b']
    have hh' : ¬ c.fieldParams.hybrid = true := by
      change ¬ c.hybrid = true
      rw [hh]; simp
    have hE : ∀ J x, evolveE c.fieldParams J dt x = .ok (addCurlB c.fieldParams J dt x) := by
      intro J x
      unfold evolveE
      rw [if_neg hh']
    simp only [fdtd, hE, id, bind, Except.bind, pure, Except.pure, Except.ok.injEq] at e1
    rw [hy] at e1
    intro fh k i
    obtain ⟨j1, j2, j3⟩ := kineticCurrents_spec c m (cb 1).Cq1 (cb 1).Cq2 fh i
    obtain ⟨a1, a2, a3⟩ := ampere_spec c st.2.yee
    rw [hyee, ← e1]
    have key : ∀ x a J A : K, a / c.mu = A → x + (dt / (c.mu * c.eps) * a - J * dt / c.eps) = x + dt * ((A - J) / c.eps) := by
      intro x a J A hA
      rw [← hA]
      field_simp
    fin_cases k
    · refine (key _ _ _ _ (congrFun a1 i)).trans ?_
      rw [show (kineticCurrents c m (cb 1).Cq1 (cb 1).Cq2 _).J1 i = _ from j1]
      rfl
    · refine (key _ _ _ _ (congrFun a2 i)).trans ?_
      rw [show (kineticCurrents c m (cb 1).Cq1 (cb 1).Cq2 _).J2 i = _ from j2]
      rfl
    · refine (key _ _ _ _ (congrFun a3 i)).trans ?_
      rw [show (kineticCurrents c m (cb 1).Cq1 (cb 1).Cq2 _).J3 i = _ from j3]
      rfl
  · exact absurd ⟨ht, by rw [b]; simp [hflag]⟩ hn

theorem sum_curlOfE (q1 q2 : Q) (dq1 dq2 : K) (E : Fin 3 → Q → K) (k : Fin 3) : ∑ i, curlOfE q1 q2 dq1 dq2 E k i = 0 := by
  have tr : ∀ (x : Q → K) (t : Q) (d : K), ∑ i, (x i - x (i - t)) / d = 0 := by
    intro x t d
    rw [← Finset.sum_div, Finset.sum_sub_distrib, Fintype.sum_equiv (Equiv.subRight t) (fun i => x (i - t)) x fun i => rfl]
    simp
  fin_cases k
  · exact tr _ _ _
  · refine (Finset.sum_neg_distrib _).trans ?_
    rw [tr, neg_zero]
  · refine (Finset.sum_sub_distrib _ _).trans ?_
    rw [tr, tr, sub_zero]

theorem sum_ampere (q1 q2 : Q) (dq1 dq2 mu : K) (B : Fin 3 → Q → K) (k : Fin 3) : ∑ i, ampere q1 q2 dq1 dq2 mu B k i = 0 := by
  have tr : ∀ (x : Q → K) (t : Q) (d : K), ∑ i, (x (i + t) - x i) / d = 0 := by
    intro x t d
    rw [← Finset.sum_div, Finset.sum_sub_distrib, Fintype.sum_equiv (Equiv.addRight t) (fun i => x (i + t)) x fun i => rfl]
    simp
  fin_cases k
  · change ∑ i, (B 2 (i + q2) - B 2 i) / dq2 / mu = 0
    rw [← Finset.sum_div, tr, zero_div]
  · change ∑ i, -((B 2 (i + q1) - B 2 i) / dq1) / mu = 0
    rw [← Finset.sum_div, Finset.sum_neg_distrib, tr, neg_zero, zero_div]
  · change ∑ i, ((B 1 (i + q1) - B 1 i) / dq1 - (B 0 (i + q2) - B 0 i) / dq2) / mu = 0
    rw [← Finset.sum_div, Finset.sum_sub_distrib, tr, tr, sub_zero, zero_div]

/-- **C71 (mean electric field).** Each component of the electric field, summed over the periodic domain, changes in a step by minus the
step size over `eps` times the total current. -/
theorem C71_mean_electric_field {c : CoupledConfig S P Q K} (hc : KineticFVM c) {m : Recon} (hm : reconMethod c.reconstructionInQ = .ok m)
    {poisson} {cb : Fin 2 → CoupledCallbacks S P Q K} {hyb : S} {dt : K} {st st' : Dist S P Q K × FieldState Q K} (hflag : st.2.flag = true)
    (h : stepCoupled c poisson cb hyb dt st = .ok st') :
    ∃ r0, dfdtCoupled c poisson (cb 0) hyb dt st.1 st.1 st.2 = .ok r0 ∧
      (let fh : Dist S P Q K := fun s p q => st.1 s p q + r0.1 s p q * (dt / 2)
       ∀ k, ∑ i, st'.2.yee.electric k i = ∑ i, st.2.yee.electric k i
        - dt / c.eps * ∑ i, currentDensity c (ionsAt c m (cb 1).Cq1 (cb 1).Cq2 fh) k i) := by
  obtain ⟨r0, h0, hE, -⟩ := C71_step hc hm hflag h
  refine ⟨r0, h0, fun k => ?_⟩
  simp only [hE, Finset.sum_add_distrib, ← Finset.mul_sum, ← Finset.sum_div, Finset.sum_sub_distrib, sum_ampere]
  ring

/-- **C71 (mean magnetic field).** Each component of the magnetic field, summed over the periodic domain, is the same after any run,
kinetic or hybrid. -/
theorem C71_mean_magnetic_field {c : CoupledConfig S P Q K} (hc : ElectrodynamicFVM c) {poisson} (hyb : S)
    (steps : List (K × (Fin 2 → CoupledCallbacks S P Q K))) {f f' : Dist S P Q K} {σ σ' : FieldState Q K} (hflag : σ.flag = true)
    (h : runCoupled c poisson hyb steps (f, σ) = .ok (f', σ')) (k : Fin 3) :
    ∑ i, σ'.yee.magnetic k i = ∑ i, σ.yee.magnetic k i := by
  have hs : ∀ F : EM Q K, ∑ i, curlE1 c.fieldParams F i = 0 ∧ ∑ i, curlE2 c.fieldParams F i = 0 ∧ ∑ i, curlE3 c.fieldParams F i = 0 := by
    intro F
    have e := sum_curlOfE c.ax.q1 c.ax.q2 c.dq1 c.dq2 F.electric
    refine ⟨?_, ?_, ?_⟩
    · rw [← e 0]
      refine Finset.sum_congr rfl fun i _ => ?_
      simp only [curlE1, afShift_one, curlOfE, EM.electric, CoupledConfig.fieldParams]
    · rw [← e 1]
      refine Finset.sum_congr rfl fun i _ => ?_
      simp only [curlE2, afShift_one, curlOfE, EM.electric, CoupledConfig.fieldParams]
      ring
    · rw [← e 2]
      refine Finset.sum_congr rfl fun i _ => ?_
      simp only [curlE3, afShift_one, curlOfE, EM.electric, CoupledConfig.fieldParams]
  have := runCoupled_invariant (c := c) (poisson := poisson) (hyb := hyb)
    (fun st => st.2.flag = true ∧ ∑ i, st.2.yee.magnetic k i = ∑ i, σ.yee.magnetic k i) steps ?_ (f, σ) (f', σ') ⟨hflag, rfl⟩ h
  · exact this.2
  intro x hx st st' ⟨h1, h2⟩ hst
  refine ⟨(C19_one_update_per_step c hc poisson x.2 hyb x.1 st st' h1 hst).1, h2 ▸ ?_⟩
  have hb := step_B hc h1 hst
  obtain ⟨s1, s2, s3⟩ := hs st'.2.yee
  fin_cases k
  · change ∑ i, st'.2.yee.B1 i = ∑ i, st.2.yee.B1 i
    simp only [(hb _).1, Finset.sum_add_distrib, ← Finset.mul_sum, s1, mul_zero, add_zero]
  · change ∑ i, st'.2.yee.B2 i = ∑ i, st.2.yee.B2 i
    simp only [(hb _).2.1, Finset.sum_add_distrib, ← Finset.mul_sum, s2, mul_zero, add_zero]
  · change ∑ i, st'.2.yee.B3 i = ∑ i, st.2.yee.B3 i
    simp only [(hb _).2.2, Finset.sum_add_distrib, ← Finset.mul_sum, s3, mul_zero, add_zero]

theorem half_step_uniform {c : CoupledConfig S P Q K} (hc : ElectrodynamicFVM c) {poisson} {cb : CoupledCallbacks S P Q K} {hyb : S} {dt : K}
    {f : Dist S P Q K} {σ : FieldState Q K} (hu : ∀ t, InvariantAlong t f σ) (hcb : ∀ t, CallbacksCover (· + t) cb cb)
    {r0 : Dist S P Q K × FieldState Q K} (h0 : dfdtCoupled c poisson cb hyb dt f f σ = .ok r0) (s : S) (p : P) (q : Q) :
    r0.1 s p q = r0.1 s p 0 := by
  rw [dfdtCoupled_poisson hc] at h0
  obtain ⟨hf, hσ⟩ := invariantAlong_iff.mp (hu q)
  have := Covers.dfdtCoupled (c := c) (φ := (· + q)) (q1' := c.ax.q1) (q2' := c.ax.q2) (poisson := fun _ τ => τ) (poisson' := fun _ τ => τ)
    ⟨fun i => add_right_comm _ _ _, fun i => add_right_comm _ _ _⟩ (fun _ _ => rfl) (hcb q) hyb dt f f σ
  rw [hf, hσ, h0] at this
  have e : c.onGrid c.ax.q1 c.ax.q2 = c := rfl
  rw [e, h0] at this
  simp only [Except.map, Except.ok.injEq] at this
  have h1 := congrFun (congrFun (congrFun (congrArg Prod.fst this) s) p) 0
  rw [h1]
  show r0.1 s p q = r0.1 s p (0 + q)
  rw [zero_add]

/-- **C71 (uniform plasma).** From uniform particles and fields, and with callbacks that do not single out a position, a step changes the
electric field by the same amount everywhere: minus the step size over `eps` times the current of the velocity distribution half a step
later; reconstruction plays no part. -/
theorem C71_uniform {c : CoupledConfig S P Q K} (hc : KineticFVM c) {m : Recon} (hm : reconMethod c.reconstructionInQ = .ok m) {poisson}
    {cb : Fin 2 → CoupledCallbacks S P Q K} {hyb : S} {dt : K} {st st' : Dist S P Q K × FieldState Q K} (hflag : st.2.flag = true)
    (h : stepCoupled c poisson cb hyb dt st = .ok st') (hu : ∀ t, InvariantAlong t st.1 st.2) (hcb : ∀ t k, CallbacksCover (· + t) (cb k) (cb k)) :
    ∃ r0, dfdtCoupled c poisson (cb 0) hyb dt st.1 st.1 st.2 = .ok r0 ∧
      ∀ k i, st'.2.yee.electric k i = st.2.yee.electric k 0
        - dt / c.eps * ∑ s, c.charge s * ∑ p, velocity c k s p * ((st.1 s p 0 + r0.1 s p 0 * (dt / 2)) * (c.dp1 s * c.dp2 s * c.dp3 s)) := by
  obtain ⟨r0, h0, hE, -⟩ := C71_step hc hm hflag h
  refine ⟨r0, h0, fun k i => ?_⟩
  have uf : ∀ s p q, st.1 s p q = st.1 s p 0 := by
    intro s p q
    have := (hu q).1 s p 0
    rwa [zero_add] at this
  have uF : ∀ j q, st.2.yee.comp j q = st.2.yee.comp j 0 := by
    intro j q
    have := (hu q).2.1 j 0
    rwa [zero_add] at this
  have uB : ∀ j q, st.2.yee.magnetic j q = st.2.yee.magnetic j 0 := by
    intro j q
    fin_cases j
    · exact uF 3 q
    · exact uF 4 q
    · exact uF 5 q
  have uE : st.2.yee.electric k i = st.2.yee.electric k 0 := by
    fin_cases k
    · exact uF 0 i
    · exact uF 1 i
    · exact uF 2 i
  have e : (fun s p q => st.1 s p q + r0.1 s p q * (dt / 2)) = (fun s p (_ : Q) => st.1 s p 0 + r0.1 s p 0 * (dt / 2)) := by
    funext s p q
    rw [uf, half_step_uniform hc.1 hu (fun t => hcb t 0) h0 s p q]
  have a : ampere c.ax.q1 c.ax.q2 c.dq1 c.dq2 c.mu st.2.yee.magnetic k i = 0 := by
    fin_cases k
    · change (st.2.yee.magnetic 2 (i + c.ax.q2) - st.2.yee.magnetic 2 i) / c.dq2 / c.mu = 0
      rw [uB, uB _ i, sub_self, zero_div, zero_div]
    · change -((st.2.yee.magnetic 2 (i + c.ax.q1) - st.2.yee.magnetic 2 i) / c.dq1) / c.mu = 0
      rw [uB, uB _ i, sub_self, zero_div, neg_zero, zero_div]
    · change ((st.2.yee.magnetic 1 (i + c.ax.q1) - st.2.yee.magnetic 1 i) / c.dq1
        - (st.2.yee.magnetic 0 (i + c.ax.q2) - st.2.yee.magnetic 0 i) / c.dq2) / c.mu = 0
      rw [uB, uB 1 i, uB 0 (i + _), uB 0 i, sub_self, sub_self, zero_div, zero_div, sub_zero, zero_div]
  simp only [hE k i, e, a, uE]
  have : currentDensity c (ionsAt c m (cb 1).Cq1 (cb 1).Cq2 fun s p (_ : Q) => st.1 s p 0 + r0.1 s p 0 * (dt / 2)) k i
      = ∑ s, c.charge s * ∑ p, velocity c k s p * ((st.1 s p 0 + r0.1 s p 0 * (dt / 2)) * (c.dp1 s * c.dp2 s * c.dp3 s)) := by
    rw [currentDensity, ionsAt_const]
  rw [this]
  ring

/-! ## A concrete case -/

/-- The hypotheses of `C71_step` are met by the first step of a run from initialised fields. -/
example : (∃ τ st', initFields (c67Cfg false).fieldParams c67Ini = .ok τ ∧ τ.flag = true ∧ KineticFVM (c67Cfg false) ∧
    reconMethod (c67Cfg false).reconstructionInQ = .ok .ppm ∧
    stepCoupled (c67Cfg false) (fun _ σ => σ) (fun _ => c67Cb) () (1 / 10) (c67F, τ) = .ok st') := by
  have hi : Implemented (c67Cfg false) := ⟨⟨.ppm, rfl⟩, ⟨.minmod, rfl⟩, fun _ => rfl⟩
  obtain ⟨τ, hτ⟩ : ∃ τ, initFields (c67Cfg false).fieldParams c67Ini = .ok τ := ⟨_, rfl⟩
  obtain ⟨st', hs⟩ := C67_whole_grid_run_exists hi (fun _ σ => σ) () [(1 / 10, fun _ => c67Cb)] (c67F, τ)
  simp only [runCoupled, bind, Except.bind] at hs
  split at hs
  · cases hs
  · rename_i r hr
    refine ⟨τ, r, hτ, ?_, ⟨⟨rfl, rfl, rfl, rfl⟩, rfl⟩, rfl, hr⟩
    cases hτ
    rfl

def c71F : Dist (Fin 2) (ZMod 2 × ZMod 1 × ZMod 1) (ZMod 3 × ZMod 1) ℚ := fun s p _ => 1 + s.val + p.1.val

def c71State : FieldState (ZMod 3 × ZMod 1) ℚ := ⟨fun _ => EM.const 1 2 3 4 5 6, 0, 0, 0, EM.const 1 2 3 4 5 6, true, 0⟩

/-- The hypotheses of `C71_uniform` are met by two uniform species in uniform fields, with the nonrelativistic callbacks. -/
example : ∃ st', stepCoupled c69Cfg (fun _ σ => σ) (fun _ => c69Cb) 0 (1 / 10) (c71F, c71State) = .ok st' ∧ KineticFVM c69Cfg ∧
    (∀ t, InvariantAlong t c71F c71State) ∧
    ∀ t : ZMod 3 × ZMod 1, CallbacksCover (· + t) c69Cb c69Cb := by
  have hc : KineticFVM c69Cfg := ⟨⟨rfl, rfl, rfl, rfl⟩, rfl⟩
  obtain ⟨r, h⟩ := C14_run_exists c69Cfg hc.1 rfl ⟨.ppm, rfl⟩ ⟨.minmod, rfl⟩ (fun _ σ => σ) 0 [(1 / 10, fun _ => c69Cb)]
    (c71F, c71State)
  simp only [runCoupled, bind, Except.bind] at h
  split at h
  · cases h
  · rename_i r hr
    refine ⟨r, hr, hc, fun t => ⟨fun _ _ _ => rfl, fun k i => ?_, fun o k i => ?_⟩, fun t => c69Cb_covers _⟩ <;> fin_cases k <;> rfl

end Bolt
