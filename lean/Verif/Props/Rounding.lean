import Verif.Props.MachineArith

/-!
# C107: correctly rounded arithmetic
-/

set_option linter.unusedSectionVars false

namespace Bolt

open Machine Finset

variable {S P Q K : Type} [AddCommGroup P] [AddCommGroup Q] [Field K] [LinearOrder K] [IsStrictOrderedRing K] {rnd : K → K} {u : K}
  [M : Machine K]

/-! ## uniform states -/

theorem rnd_nonpos (hu : u < 1) (ha : AccurateTo u rnd) {x : K} (hx : x ≤ 0) : rnd x ≤ 0 := by
  have h := ha.2 x
  rw [abs_of_nonpos hx] at h
  have := le_abs_self (rnd x - x)
  nlinarith [ha.1]

theorem rnd_nonneg (hu : u < 1) (ha : AccurateTo u rnd) {x : K} (hx : 0 ≤ x) : 0 ≤ rnd x := by
  have h := ha.2 x
  rw [abs_of_nonneg hx] at h
  have := neg_abs_le (rnd x - x)
  nlinarith [ha.1]

theorem mach_reconFaces_const (hM : M = roundedMachine rnd) (hu : u < 1) (ha : AccurateTo u rnd) (h1 : rnd 1 = 1) {I : Type}
    [AddCommGroup I] (m : Recon) (e : I) (c : K) (hc : Representable rnd c) :
    Mach.reconFaces m e (fun _ => c) = (fun _ => c, fun _ => c) := by
  have h0 : rnd 0 = 0 := Mach.rnd_zero ha.2
  have hc' : rnd c = c := hc
  cases m with
  | piecewiseConstant => rfl
  | minmod =>
    have hz : Mach.slopeMinmod e (fun _ => c) = fun _ : I => (0 : K) := by
      funext i
      simp [Mach.slopeMinmod, afShift, Mach.minmod, Mach.r_add hM, Mach.r_sub hM, Mach.r_mul hM, Mach.r_lit hM, Mach.r_minof hM,
        Mach.r_abs hM, Mach.r_sign hM, h0]
    simp [Mach.reconFaces, Mach.reconstructMinmod, hz, Mach.r_add hM, Mach.r_sub hM, Mach.r_mul hM, h0, hc']
  | ppm =>
    have key : Mach.ppmCell c c c c c = (c, c) := by
      have hdq : ∀ D : K, Mach.ppmDQ D (0 : K) 0 = 0 := fun D => by
        simp [Mach.ppmDQ, Machine.ofBool, Mach.r_sub hM, Mach.r_mul hM, Mach.r_lit hM, Mach.r_le hM, h0, h1]
      set L : K := rnd (rnd (rnd ((1 / 2 : ℚ) : K) * rnd (c + c))) with hL
      have hsign : rnd (rnd (L - c) * rnd (c - L)) ≤ 0 := by
        apply rnd_nonpos hu ha
        rcases le_total L c with h | h
        · exact mul_nonpos_of_nonpos_of_nonneg (rnd_nonpos hu ha (by linarith)) (rnd_nonneg hu ha (by linarith))
        · exact mul_nonpos_of_nonneg_of_nonpos (rnd_nonneg hu ha (by linarith)) (rnd_nonpos hu ha (by linarith))
      simp only [Mach.ppmCell, Mach.r_sub hM, Mach.r_mul hM, Mach.r_add hM, Mach.r_div hM, sub_self, h0, mul_zero, hdq, zero_div,
        sub_zero, Mach.r_lit hM, Machine.ofBool, Mach.r_le hM, Mach.r_lt hM, ← hL, Rat.cast_zero, Rat.cast_one, hsign, h1]
      simp [h0, h1, hc', hsign]
    simp [Mach.reconFaces, Mach.reconstructPPM, afShift, key]

theorem mach_fluxJump_const (hM : M = roundedMachine rnd) (hu : u < 1) (ha : AccurateTo u rnd) (h1 : rnd 1 = 1) {I : Type}
    [AddCommGroup I] (m : Recon) (e : I) (C c : K) (hc : Representable rnd c) (i : I) :
    Mach.fluxJump m e (fun _ => C) (fun _ => c) i = 0 := by
  have h0 : rnd 0 = 0 := Mach.rnd_zero ha.2
  have hs : ∀ i, Mach.leftState m e (fun _ => C) (fun _ => c) i = c := fun i => by
    simp [Mach.leftState, mach_reconFaces_const hM hu ha h1 m e c hc, afShift]
  simp [Mach.fluxJump, Mach.leftFlux, hs, afShift, Mach.r_sub hM, h0]

/-- C107 (uniform states): in correctly rounded arithmetic a uniform state of representable numbers with uniform velocities stays
exactly — bit for bit — as it is, with every reconstruction, for any steps. -/
theorem C107_uniform_state_kept (hM : M = roundedMachine rnd) (hu : u < 1) (ha : AccurateTo u rnd) (h1 : Representable rnd 1)
    (ax : Axes P Q) (cfg : FVMConfig S K) (hsrc : cfg.sourceEnabled = false) (hfields : cfg.fieldsEnabled = false)
    (steps : List (K × (Fin 2 → Callbacks S P Q K)))
    (hv : ∀ st ∈ steps, ∀ k s p q q', (st.2 k).Cq1 s p q = (st.2 k).Cq1 s p q' ∧ (st.2 k).Cq2 s p q = (st.2 k).Cq2 s p q')
    (f f' : Dist S P Q K) (hf : ∀ s p q q', f s p q = f s p q') (hrep : ∀ s p q, Representable rnd (f s p q))
    (h : Mach.runFVM ax cfg steps f = .ok f') : f' = f := by
  have h0 : rnd 0 = 0 := Mach.rnd_zero ha.2
  induction steps with
  | nil => simp only [Mach.runFVM, Except.ok.injEq] at h; exact h.symm
  | cons st rest ih =>
    obtain ⟨mq, mp, hU⟩ := Mach.runFVM_uses h (by simp)
    rw [Mach.runFVM_cons ax cfg hU] at h
    have slope0 : ∀ (k : Fin 2) s p q, Mach.slopeValue ax cfg mq mp (st.2 k) f s p q = 0 := by
      intro k s p q
      have e1 : Mach.fluxJump mq ax.q1 ((st.2 k).Cq1 s p) (f s p) q = 0 := by
        have a : (st.2 k).Cq1 s p = fun _ => (st.2 k).Cq1 s p q := by
          funext q'; exact (hv st (by simp) k s p q' q).1
        have b : f s p = fun _ => f s p q := by funext q'; exact hf s p q' q
        rw [a, b]; exact mach_fluxJump_const hM hu ha h1 mq ax.q1 _ _ (hrep s p q) q
      have e2 : Mach.fluxJump mq ax.q2 ((st.2 k).Cq2 s p) (f s p) q = 0 := by
        have a : (st.2 k).Cq2 s p = fun _ => (st.2 k).Cq2 s p q := by
          funext q'; exact (hv st (by simp) k s p q' q).2
        have b : f s p = fun _ => f s p q := by funext q'; exact hf s p q' q
        rw [a, b]; exact mach_fluxJump_const hM hu ha h1 mq ax.q2 _ _ (hrep s p q) q
      simp [Mach.slopeValue, hsrc, hfields, Mach.dfdtQ, e1, e2, Mach.r_add hM, Mach.r_sub hM, Mach.r_div hM, Mach.r_neg hM,
        Mach.r_lit hM, h0]
    have hstep : Mach.stepValue ax cfg mq mp st.1 st.2 f = f := by
      have half : (fun s p q => f s p q ⊞ Mach.slopeValue ax cfg mq mp (st.2 0) f s p q ⊠ (st.1 ⊘ lit 2)) = f := by
        funext s p q
        rw [slope0, Mach.r_add hM, Mach.r_mul hM, zero_mul, h0, add_zero]; exact hrep s p q
      funext s p q
      rw [Mach.stepValue, half, slope0, Mach.r_add hM, Mach.r_mul hM, zero_mul, h0, add_zero]; exact hrep s p q
    rw [hstep] at h
    exact ih (fun st hst => hv st (by simp [hst])) h

/-! ## conservation -/

theorem sum_jump_zero {J : Type} [Fintype J] [AddCommGroup J] (F : J → K) (e : J) : ∑ i, (F (i + e) - F i) = 0 := by
  rw [sum_sub_distrib, sub_eq_zero]
  exact Equiv.sum_comp (Equiv.addRight e) F

theorem sum_abs_jump_le {J : Type} [Fintype J] [AddCommGroup J] (F : J → K) (e : J) : ∑ i, |F (i + e) - F i| ≤ 2 * ∑ i, |F i| := by
  have h : ∑ i, |F (i + e)| = ∑ i, |F i| := Equiv.sum_comp (Equiv.addRight e) fun i => |F i|
  calc ∑ i, |F (i + e) - F i| ≤ ∑ i, (|F (i + e)| + |F i|) := sum_le_sum fun i _ => abs_sub _ _
    _ = 2 * ∑ i, |F i| := by rw [sum_add_distrib, h, two_mul]

/-- C107 (conservation): in correctly rounded arithmetic one step changes the total of `f` by no more than rounding: `u/(1-u)` of the
total of the absolute values plus seven roundings of the differences of the computed fluxes — even though the computed fluxes
themselves may be as wrong as they like, they cancel exactly.  `fh` is the computed half-step state. -/
theorem C107_conservation_up_to_rounding [Fintype P] [Fintype Q] (hM : M = roundedMachine rnd) (hu : u < 1) (ha : AccurateTo u rnd)
    (h1 : Representable rnd 1) (ax : Axes P Q) (cfg : FVMConfig S K) (hsrc : cfg.sourceEnabled = false)
    (hq : cfg.solverMethodInQ = "FVM") (hp : cfg.solverMethodInP = "FVM") (hfe : cfg.fieldsEnabled = true)
    (mq mp : Recon) (hmq : reconMethod cfg.reconstructionInQ = .ok mq) (hmp : reconMethod cfg.reconstructionInP = .ok mp)
    (dt : K) (cb : Fin 2 → Callbacks S P Q K) (f k0 f' : Dist S P Q K) (hk0 : Mach.dfdtFVM ax cfg (cb 0) f = .ok k0)
    (fh : Dist S P Q K) (hfh : fh = fun s p q => f s p q ⊞ k0 s p q ⊠ (dt ⊘ lit 2))
    (h : Mach.timestepFVM (fun k => Mach.dfdtFVM ax cfg (cb k)) dt f = .ok f') (s : S) :
    |∑ p, ∑ q, f' s p q - ∑ p, ∑ q, f s p q| ≤ u / (1 - u) * ∑ p, ∑ q, |f' s p q| +
      ((1 + u) ^ 7 - 1) * |dt| * ∑ p, ∑ q,
        (|Mach.leftFlux mq ax.q1 ((cb 1).Cq1 s p) (fh s p) (q + ax.q1) - Mach.leftFlux mq ax.q1 ((cb 1).Cq1 s p) (fh s p) q| / |cfg.dq1|
        + |Mach.leftFlux mq ax.q2 ((cb 1).Cq2 s p) (fh s p) (q + ax.q2) - Mach.leftFlux mq ax.q2 ((cb 1).Cq2 s p) (fh s p) q| / |cfg.dq2|
        + |Mach.leftFlux mp ax.p1 (fun p => (cb 1).Cp1 s p q) (fun p => fh s p q) (p + ax.p1)
            - Mach.leftFlux mp ax.p1 (fun p => (cb 1).Cp1 s p q) (fun p => fh s p q) p| / |cfg.dp1 s|
        + |Mach.leftFlux mp ax.p2 (fun p => (cb 1).Cp2 s p q) (fun p => fh s p q) (p + ax.p2)
            - Mach.leftFlux mp ax.p2 (fun p => (cb 1).Cp2 s p q) (fun p => fh s p q) p| / |cfg.dp2 s|
        + |Mach.leftFlux mp ax.p3 (fun p => (cb 1).Cp3 s p q) (fun p => fh s p q) (p + ax.p3)
            - Mach.leftFlux mp ax.p3 (fun p => (cb 1).Cp3 s p q) (fun p => fh s p q) p| / |cfg.dp3 s|) := by
  obtain ⟨hu0, hr⟩ := ha
  have hU : Mach.Uses cfg mq mp := ⟨fun _ => hmq, fun _ => hmp⟩
  rw [Mach.timestepFVM_eq ax cfg hU, Except.ok.injEq] at h
  rw [Mach.dfdtFVM_eq ax cfg hU, Except.ok.injEq] at hk0
  subst hk0
  have hf' : ∀ s p q, f' s p q = rnd (f s p q + rnd (Mach.slopeValue ax cfg mq mp (cb 1) fh s p q * dt)) := fun s p q => by
    rw [← h, Mach.stepValue, ← hfh, Mach.r_add hM, Mach.r_mul hM]
  -- the exact differences of the computed fluxes
  set X1 : P → Q → K := fun p q => Mach.leftFlux mq ax.q1 ((cb 1).Cq1 s p) (fh s p) (q + ax.q1) - Mach.leftFlux mq ax.q1 ((cb 1).Cq1 s p) (fh s p) q with hX1
  set X2 : P → Q → K := fun p q => Mach.leftFlux mq ax.q2 ((cb 1).Cq2 s p) (fh s p) (q + ax.q2) - Mach.leftFlux mq ax.q2 ((cb 1).Cq2 s p) (fh s p) q with hX2
  set Y1 : P → Q → K := fun p q => Mach.leftFlux mp ax.p1 (fun p => (cb 1).Cp1 s p q) (fun p => fh s p q) (p + ax.p1)
            - Mach.leftFlux mp ax.p1 (fun p => (cb 1).Cp1 s p q) (fun p => fh s p q) p with hY1
  set Y2 : P → Q → K := fun p q => Mach.leftFlux mp ax.p2 (fun p => (cb 1).Cp2 s p q) (fun p => fh s p q) (p + ax.p2)
            - Mach.leftFlux mp ax.p2 (fun p => (cb 1).Cp2 s p q) (fun p => fh s p q) p with hY2
  set Y3 : P → Q → K := fun p q => Mach.leftFlux mp ax.p3 (fun p => (cb 1).Cp3 s p q) (fun p => fh s p q) (p + ax.p3)
            - Mach.leftFlux mp ax.p3 (fun p => (cb 1).Cp3 s p q) (fun p => fh s p q) p with hY3
  set E : P → Q → K := fun p q => (-(X1 p q) / cfg.dq1 - X2 p q / cfg.dq2
      + -(Y1 p q * (1 / cfg.dp1 s) + Y2 p q * (1 / cfg.dp2 s) + Y3 p q * (1 / cfg.dp3 s))) * dt with hE
  have app : ∀ p q, Mach.App u 7 (rnd (Mach.slopeValue ax cfg mq mp (cb 1) fh s p q * dt)) (E p q)
      ((|X1 p q| / |cfg.dq1| + |X2 p q| / |cfg.dq2| + (|Y1 p q| * |1 / cfg.dp1 s| + |Y2 p q| * |1 / cfg.dp2 s| + |Y3 p q| * |1 / cfg.dp3 s|))
        * |dt|) := by
    intro p q
    have a := Mach.app_dfdtQ hu0 hr hM ax mq cfg.dq1 cfg.dq2 (cb 1).Cq1 (cb 1).Cq2 fh s p q
    have b1 := Mach.app_dFluxP hu0 hr hM mp ax.p1 cfg.dp1 (cb 1).Cp1 fh s p q h1
    have b2 := Mach.app_dFluxP hu0 hr hM mp ax.p2 cfg.dp2 (cb 1).Cp2 fh s p q h1
    have b3 := Mach.app_dFluxP hu0 hr hM mp ax.p3 cfg.dp3 (cb 1).Cp3 fh s p q h1
    have b := (((b1.add hu0 b2).round hu0 hr).add hu0 (b3.mono hu0 (by norm_num : 3 ≤ 3 + 1))).round hu0 hr
    have c := (((a.mono hu0 (by norm_num : 4 ≤ 3 + 1 + 1)).add hu0 (b.neg hu0)).round hu0 hr)
    have d := (c.mulc hu0 dt).round hu0 hr
    have e : Mach.slopeValue ax cfg mq mp (cb 1) fh s p q = rnd ((lit 0 ⊞ Mach.dfdtQ ax mq cfg.dq1 cfg.dq2 (cb 1).Cq1 (cb 1).Cq2 fh s p q) +
        -rnd (rnd (Mach.dFluxP mp ax.p1 cfg.dp1 (cb 1).Cp1 fh s p q + Mach.dFluxP mp ax.p2 cfg.dp2 (cb 1).Cp2 fh s p q) +
          Mach.dFluxP mp ax.p3 cfg.dp3 (cb 1).Cp3 fh s p q)) := by
      simp only [Mach.slopeValue, hq, hp, hfe, hsrc, if_true, and_self, Bool.false_eq_true, if_false, Mach.dfdtP]
      rw [Mach.r_add hM, Mach.r_neg hM, Mach.r_add hM (Mach.dFluxP _ _ _ _ _ _ _ _ ⊞ Mach.dFluxP _ _ _ _ _ _ _ _),
        Mach.r_add hM (Mach.dFluxP _ _ _ _ _ _ _ _)]
    rw [e]
    exact d
  have sumE : ∑ p, ∑ q, E p q = 0 := by
    have z1 : ∀ p, ∑ q, X1 p q = 0 := fun p => sum_jump_zero _ _
    have z2 : ∀ p, ∑ q, X2 p q = 0 := fun p => sum_jump_zero _ _
    have w1 : ∀ q, ∑ p, Y1 p q = 0 := fun q => sum_jump_zero _ _
    have w2 : ∀ q, ∑ p, Y2 p q = 0 := fun q => sum_jump_zero _ _
    have w3 : ∀ q, ∑ p, Y3 p q = 0 := fun q => sum_jump_zero _ _
    have split : ∀ p q, E p q = (X1 p q) * (-(dt / cfg.dq1)) + X2 p q * (-(dt / cfg.dq2)) + (Y1 p q * (-(dt / cfg.dp1 s))
        + Y2 p q * (-(dt / cfg.dp2 s)) + Y3 p q * (-(dt / cfg.dp3 s))) := fun p q => by simp only [hE]; ring
    simp only [split, sum_add_distrib, ← sum_mul, z1, z2, zero_mul, sum_const_zero, zero_add]
    rw [sum_comm (f := Y1), sum_comm (f := Y2), sum_comm (f := Y3)]
    simp only [w1, w2, w3, zero_mul, sum_const_zero, add_zero]
  have e1 : ∑ p, ∑ q, f' s p q - ∑ p, ∑ q, f s p q = ∑ p, ∑ q, (f' s p q - f s p q - E p q) := by
    simp only [sum_sub_distrib, sumE, sub_zero]
  rw [e1]
  refine (abs_sum_le_sum_abs _ _).trans ?_
  rw [mul_sum, mul_sum, ← sum_add_distrib]
  refine sum_le_sum fun p _ => (abs_sum_le_sum_abs _ _).trans ?_
  rw [mul_sum, mul_sum, ← sum_add_distrib]
  refine sum_le_sum fun q _ => ?_
  rw [hf']
  refine (Mach.last_add hu0 hu hr _ (app p q)).trans (le_of_eq ?_)
  change _ = _ + ((1 + u) ^ 7 - 1) * |dt| * (|X1 p q| / |cfg.dq1| + |X2 p q| / |cfg.dq2| + |Y1 p q| / |cfg.dp1 s| + |Y2 p q| / |cfg.dp2 s|
    + |Y3 p q| / |cfg.dp3 s|)
  simp only [abs_div, abs_one]
  generalize (1 + u) ^ 7 - 1 = w
  ring

end Bolt
