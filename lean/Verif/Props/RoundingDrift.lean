import Verif.Props.Rounding
import Mathlib.Tactic.NormNum.Pow

/-!
# C107: drift of the particle number of the first-order scheme in rounded arithmetic
-/

set_option linter.unusedSectionVars false

namespace Bolt

open Machine Finset

variable {S P Q K : Type} [AddCommGroup P] [AddCommGroup Q] [Field K] [LinearOrder K] [IsStrictOrderedRing K] {rnd : K → K} {u : K}
  [M : Machine K]

/-- Total of the computed fluxes of the first-order scheme. -/
theorem sum_leftFlux_le {I : Type} [AddCommGroup I] [Fintype I] (hM : M = roundedMachine rnd) (ha : AccurateTo u rnd) (e : I)
    (C x : I → K) (c : K) (hC : ∀ i, |C i| ≤ c) :
    ∑ i, |Mach.leftFlux .piecewiseConstant e C x (i + e) - Mach.leftFlux .piecewiseConstant e C x i| ≤ 4 * (1 + u) * c * ∑ i, |x i| := by
  obtain ⟨hu0, hr⟩ := ha
  have one : ∀ i, |Mach.leftFlux .piecewiseConstant e C x i| ≤ (1 + u) * c * (|x (i - e)| + |x i|) := by
    intro i
    have hc : 0 ≤ c := (abs_nonneg _).trans (hC i)
    rw [Mach.leftFlux, Mach.r_mul hM]
    refine (Mach.rnd_le hu0 hr _).trans ?_
    rw [mul_assoc]
    refine mul_le_mul_of_nonneg_left ?_ (by linarith)
    rw [abs_mul]
    refine mul_le_mul (hC i) ?_ (abs_nonneg _) hc
    rw [Mach.leftState_eq]
    simp only [Mach.reconFaces]
    have := abs_nonneg (x (i - e))
    have := abs_nonneg (x i)
    split_ifs <;> linarith
  refine (sum_abs_jump_le _ e).trans ?_
  have h2 : ∑ i, |x (i - e)| = ∑ i, |x i| := Equiv.sum_comp (Equiv.subRight e) fun i => |x i|
  calc 2 * ∑ i, |Mach.leftFlux .piecewiseConstant e C x i| ≤ 2 * ∑ i, (1 + u) * c * (|x (i - e)| + |x i|) :=
        mul_le_mul_of_nonneg_left (sum_le_sum fun i _ => one i) (by norm_num)
    _ = 4 * (1 + u) * c * ∑ i, |x i| := by rw [← mul_sum, sum_add_distrib, h2]; ring

/-- Numerical part of `C107_first_order_drift`. -/
theorem drift_arith {u a h A A' b : K} (hu0 : 0 ≤ u) (hu : u ≤ 1 / 1000) (ha : 0 ≤ a) (hA0 : 0 ≤ A') (hA : A ≤ 2 * (1 + u) * a)
    (hh : h ≤ (1 + u) * (a + (1 + u) ^ 6 * A)) (hA' : A' ≤ 4 * (1 + u) * h) (hb : b ≤ (1 + u) * (a + (1 + u) ^ 5 * A')) :
    u / (1 - u) * b + ((1 + u) ^ 5 - 1) * A' ≤ 80 * u * a := by
  have hv : 1 ≤ 1 + u := by linarith
  have hv' : 1 + u ≤ 1001 / 1000 := by linarith
  have p5 : (1 + u) ^ 5 ≤ 101 / 100 := (pow_le_pow_left₀ (by linarith) hv' 5).trans (by norm_num)
  have p6 : (1 + u) ^ 6 ≤ 101 / 100 := (pow_le_pow_left₀ (by linarith) hv' 6).trans (by norm_num)
  have q6 : 0 ≤ (1 + u) ^ 6 := by positivity
  have q5 : 0 ≤ (1 + u) ^ 5 := by positivity
  have hA1 : A ≤ 2002 / 1000 * a := by nlinarith
  have s1 : (1 + u) ^ 6 * A ≤ 2023 / 1000 * a := by
    calc (1 + u) ^ 6 * A ≤ (1 + u) ^ 6 * (2002 / 1000 * a) := mul_le_mul_of_nonneg_left hA1 q6
      _ ≤ 101 / 100 * (2002 / 1000 * a) := mul_le_mul_of_nonneg_right p6 (by positivity)
      _ ≤ 2023 / 1000 * a := by linarith
  have s2 : h ≤ 3027 / 1000 * a := by
    calc h ≤ (1 + u) * (a + (1 + u) ^ 6 * A) := hh
      _ ≤ (1 + u) * (3023 / 1000 * a) := mul_le_mul_of_nonneg_left (by linarith) (by linarith)
      _ ≤ 1001 / 1000 * (3023 / 1000 * a) := mul_le_mul_of_nonneg_right hv' (by positivity)
      _ ≤ 3027 / 1000 * a := by linarith
  have s3 : A' ≤ 12125 / 1000 * a := by
    calc A' ≤ 4 * (1 + u) * h := hA'
      _ ≤ 4 * (1 + u) * (3027 / 1000 * a) := mul_le_mul_of_nonneg_left s2 (by linarith)
      _ ≤ 4 * (1001 / 1000) * (3027 / 1000 * a) := mul_le_mul_of_nonneg_right (by linarith) (by positivity)
      _ ≤ 12125 / 1000 * a := by linarith
  have s4 : b ≤ 13265 / 1000 * a := by
    have t : (1 + u) ^ 5 * A' ≤ 101 / 100 * (12125 / 1000 * a) := mul_le_mul p5 s3 hA0 (by norm_num)
    calc b ≤ (1 + u) * (a + (1 + u) ^ 5 * A') := hb
      _ ≤ (1 + u) * (13250 / 1000 * a) := mul_le_mul_of_nonneg_left (by linarith) (by linarith)
      _ ≤ 1001 / 1000 * (13250 / 1000 * a) := mul_le_mul_of_nonneg_right hv' (by positivity)
      _ ≤ 13265 / 1000 * a := by linarith
  have s5 : (1 + u) ^ 5 - 1 ≤ 502 / 100 * u := by
    have e : (1 + u) ^ 5 - 1 = u * (5 + 10 * u + 10 * u ^ 2 + 5 * u ^ 3 + u ^ 4) := by ring
    have u2 : u ^ 2 ≤ u := by nlinarith
    have u3 : u ^ 3 ≤ u := by nlinarith [sq_nonneg u]
    have u4 : u ^ 4 ≤ u := by nlinarith [sq_nonneg u, sq_nonneg (u ^ 2)]
    rw [e]; nlinarith
  have s6 : u / (1 - u) ≤ 101 / 100 * u := by
    rw [div_le_iff₀ (by linarith)]; nlinarith
  have t1 : u / (1 - u) * b ≤ 101 / 100 * u * (13265 / 1000 * a) := by
    have d : 0 ≤ u / (1 - u) := div_nonneg hu0 (by linarith)
    exact (mul_le_mul_of_nonneg_left s4 d).trans (mul_le_mul_of_nonneg_right s6 (by positivity))
  have t2 : ((1 + u) ^ 5 - 1) * A' ≤ 502 / 100 * u * (12125 / 1000 * a) := by
    have d : 0 ≤ (1 + u) ^ 5 - 1 := by have := one_le_pow₀ hv (n := 5); linarith
    exact (mul_le_mul_of_nonneg_left s3 d).trans (mul_le_mul_of_nonneg_right s5 (by positivity))
  have := mul_nonneg hu0 ha
  nlinarith

/-- C107 (conservation, first order): at Courant number at most 1 the relative change of the number of particles at each momentum in
one first-order step is at most 80 units of roundoff. -/
theorem C107_first_order_drift [Fintype Q] (hM : M = roundedMachine rnd) (hu : u ≤ 1 / 1000) (ha : AccurateTo u rnd)
    (h2 : Representable rnd 2) (ax : Axes P Q) (cfg : FVMConfig S K) (hq : cfg.solverMethodInQ = "FVM")
    (hrec : cfg.reconstructionInQ = "piecewise-constant") (hsrc : cfg.sourceEnabled = false) (hfe : cfg.fieldsEnabled = false)
    (dt : K) (cb : Fin 2 → Callbacks S P Q K) (c1 c2 : K) (hc1 : ∀ k s p q, |(cb k).Cq1 s p q| ≤ c1)
    (hc2 : ∀ k s p q, |(cb k).Cq2 s p q| ≤ c2) (hcfl : (c1 / |cfg.dq1| + c2 / |cfg.dq2|) * |dt| ≤ 1) (f f' : Dist S P Q K)
    (h : Mach.timestepFVM (fun k => Mach.dfdtFVM ax cfg (cb k)) dt f = .ok f') (s : S) (p : P) :
    |∑ q, f' s p q - ∑ q, f s p q| ≤ 80 * u * ∑ q, |f s p q| := by
  obtain ⟨hu0, hr⟩ := ha
  have hU : Mach.Uses cfg .piecewiseConstant .piecewiseConstant :=
    ⟨fun _ => by rw [hrec]; rfl, fun c => by rw [hfe] at c; simp at c⟩
  rw [Mach.timestepFVM_eq ax cfg hU, Except.ok.injEq] at h
  set pc := Recon.piecewiseConstant with hpc
  have hsl : ∀ k x s p q, Mach.slopeValue ax cfg pc pc (cb k) x s p q = lit 0 ⊞ Mach.dfdtQ ax pc cfg.dq1 cfg.dq2 (cb k).Cq1 (cb k).Cq2 x s p q :=
    fun k x s p q => by simp [Mach.slopeValue, hq, hsrc, hfe]
  set k0 := Mach.slopeValue ax cfg pc pc (cb 0) f with hk0
  set fh : Dist S P Q K := fun s p q => f s p q ⊞ k0 s p q ⊠ (dt ⊘ lit 2) with hfh
  have hfh' : ∀ q, fh s p q = rnd (f s p q + rnd (k0 s p q * rnd (dt / 2))) := fun q => by
    simp only [hfh]
    rw [Mach.r_add hM, Mach.r_mul hM, Mach.r_div hM, Mach.r_lit hM, Rat.cast_ofNat, show rnd 2 = 2 from h2]
  have hf' : ∀ q, f' s p q = rnd (f s p q + rnd (Mach.slopeValue ax cfg pc pc (cb 1) fh s p q * dt)) := fun q => by
    rw [← h, Mach.stepValue, ← hk0, ← hfh, Mach.r_add hM, Mach.r_mul hM]
  -- size of the flux differences
  set B : Fin 2 → Dist S P Q K → Q → K := fun k x q =>
    |Mach.leftFlux pc ax.q1 ((cb k).Cq1 s p) (x s p) (q + ax.q1) - Mach.leftFlux pc ax.q1 ((cb k).Cq1 s p) (x s p) q| / |cfg.dq1|
      + |Mach.leftFlux pc ax.q2 ((cb k).Cq2 s p) (x s p) (q + ax.q2) - Mach.leftFlux pc ax.q2 ((cb k).Cq2 s p) (x s p) q| / |cfg.dq2| with hB
  have hBsum : ∀ k x, ∑ q, B k x q * |dt| ≤ 4 * (1 + u) * ∑ q, |x s p q| := by
    intro k x
    have b1 := sum_leftFlux_le (u := u) hM ⟨hu0, hr⟩ ax.q1 ((cb k).Cq1 s p) (x s p) c1 (hc1 k s p)
    have b2 := sum_leftFlux_le (u := u) hM ⟨hu0, hr⟩ ax.q2 ((cb k).Cq2 s p) (x s p) c2 (hc2 k s p)
    have hX : 0 ≤ ∑ q, |x s p q| := sum_nonneg fun _ _ => abs_nonneg _
    rw [← sum_mul]
    simp only [hB, sum_add_distrib, ← sum_div]
    have d1 := div_le_div_of_nonneg_right b1 (abs_nonneg cfg.dq1)
    have d2 := div_le_div_of_nonneg_right b2 (abs_nonneg cfg.dq2)
    calc _ ≤ (4 * (1 + u) * c1 * ∑ q, |x s p q|) / |cfg.dq1| * |dt| + (4 * (1 + u) * c2 * ∑ q, |x s p q|) / |cfg.dq2| * |dt| := by
          rw [← add_mul]; exact mul_le_mul_of_nonneg_right (add_le_add d1 d2) (abs_nonneg _)
      _ = 4 * (1 + u) * (∑ q, |x s p q|) * ((c1 / |cfg.dq1| + c2 / |cfg.dq2|) * |dt|) := by ring
      _ ≤ 4 * (1 + u) * (∑ q, |x s p q|) * 1 := mul_le_mul_of_nonneg_left hcfl (by positivity)
      _ = _ := mul_one _
  -- the half step
  have app0 : ∀ q, |rnd (k0 s p q * rnd (dt / 2))| ≤ (1 + u) ^ 6 * (B 0 f q * |dt / 2|) := by
    intro q
    have a := Mach.app_dfdtQ hu0 hr hM ax pc cfg.dq1 cfg.dq2 (cb 0).Cq1 (cb 0).Cq2 f s p q
    have b := (Mach.app_exact hu0 (dt / 2)).round hu0 hr
    have c := (a.mul hu0 b).round hu0 hr
    rw [hk0, hsl]
    exact c.le hu0
  have hsumh : ∑ q, |fh s p q| ≤ (1 + u) * (∑ q, |f s p q| + (1 + u) ^ 6 * ∑ q, B 0 f q * |dt / 2|) := by
    rw [mul_sum, ← sum_add_distrib, mul_sum]
    refine sum_le_sum fun q _ => ?_
    rw [hfh']
    refine (Mach.rnd_le hu0 hr _).trans (mul_le_mul_of_nonneg_left ?_ (by linarith))
    exact (abs_add_le _ _).trans (add_le_add (le_refl _) (app0 q))
  have hhalf : ∑ q, B 0 f q * |dt / 2| ≤ 2 * (1 + u) * ∑ q, |f s p q| := by
    have := hBsum 0 f
    have e : ∑ q, B 0 f q * |dt / 2| = (∑ q, B 0 f q * |dt|) / 2 := by
      rw [sum_div]; refine sum_congr rfl fun q _ => ?_
      rw [abs_div, abs_two]; ring
    rw [e]; linarith
  -- the full step
  set E : Q → K := fun q =>
    (-(Mach.leftFlux pc ax.q1 ((cb 1).Cq1 s p) (fh s p) (q + ax.q1) - Mach.leftFlux pc ax.q1 ((cb 1).Cq1 s p) (fh s p) q) / cfg.dq1
      - (Mach.leftFlux pc ax.q2 ((cb 1).Cq2 s p) (fh s p) (q + ax.q2) - Mach.leftFlux pc ax.q2 ((cb 1).Cq2 s p) (fh s p) q) / cfg.dq2) * dt with hE
  have app : ∀ q, Mach.App u 5 (rnd (Mach.slopeValue ax cfg pc pc (cb 1) fh s p q * dt)) (E q) (B 1 fh q * |dt|) := by
    intro q
    have a := Mach.app_dfdtQ hu0 hr hM ax pc cfg.dq1 cfg.dq2 (cb 1).Cq1 (cb 1).Cq2 fh s p q
    rw [hsl]
    exact (a.mulc hu0 dt).round hu0 hr
  have sumE : ∑ q, E q = 0 := by
    have split : ∀ q, E q =
        (Mach.leftFlux pc ax.q1 ((cb 1).Cq1 s p) (fh s p) (q + ax.q1) - Mach.leftFlux pc ax.q1 ((cb 1).Cq1 s p) (fh s p) q) * (-(dt / cfg.dq1))
        + (Mach.leftFlux pc ax.q2 ((cb 1).Cq2 s p) (fh s p) (q + ax.q2) - Mach.leftFlux pc ax.q2 ((cb 1).Cq2 s p) (fh s p) q) * (-(dt / cfg.dq2)) :=
      fun q => by simp only [hE]; ring
    simp only [split, sum_add_distrib, ← sum_mul, sum_jump_zero, zero_mul, add_zero]
  have e1 : ∑ q, f' s p q - ∑ q, f s p q = ∑ q, (f' s p q - f s p q - E q) := by
    simp only [sum_sub_distrib, sumE, sub_zero]
  have hu1 : u < 1 := by linarith
  have hdrift : |∑ q, f' s p q - ∑ q, f s p q| ≤ u / (1 - u) * ∑ q, |f' s p q| + ((1 + u) ^ 5 - 1) * ∑ q, B 1 fh q * |dt| := by
    rw [e1]
    refine (abs_sum_le_sum_abs _ _).trans ?_
    rw [mul_sum, mul_sum, ← sum_add_distrib]
    refine sum_le_sum fun q _ => ?_
    rw [hf']
    exact Mach.last_add hu0 hu1 hr _ (app q)
  have hsum' : ∑ q, |f' s p q| ≤ (1 + u) * (∑ q, |f s p q| + (1 + u) ^ 5 * ∑ q, B 1 fh q * |dt|) := by
    rw [mul_sum, ← sum_add_distrib, mul_sum]
    refine sum_le_sum fun q _ => ?_
    rw [hf']
    refine (Mach.rnd_le hu0 hr _).trans (mul_le_mul_of_nonneg_left ?_ (by linarith))
    exact (abs_add_le _ _).trans (add_le_add (le_refl _) ((app q).le hu0))
  have hB0 : 0 ≤ ∑ q, B 1 fh q * |dt| := sum_nonneg fun q _ => (app q).nonneg hu0
  exact hdrift.trans (drift_arith hu0 hu (sum_nonneg fun _ _ => abs_nonneg _) hB0 hhalf hsumh (hBsum 1 fh) hsum')

/-- C107 (conservation, first order, whole runs): after `n` such steps the number of particles has changed by at most `80 u n` times
the largest total of absolute values met on the way. -/
theorem C107_first_order_drift_run [Fintype Q] (hM : M = roundedMachine rnd) (hu : u ≤ 1 / 1000) (ha : AccurateTo u rnd)
    (h2 : Representable rnd 2) (ax : Axes P Q) (cfg : FVMConfig S K) (hq : cfg.solverMethodInQ = "FVM")
    (hrec : cfg.reconstructionInQ = "piecewise-constant") (hsrc : cfg.sourceEnabled = false) (hfe : cfg.fieldsEnabled = false)
    (steps : List (K × (Fin 2 → Callbacks S P Q K))) (c1 c2 : K)
    (hc : ∀ st ∈ steps, ∀ k s p q, |(st.2 k).Cq1 s p q| ≤ c1 ∧ |(st.2 k).Cq2 s p q| ≤ c2)
    (hcfl : ∀ st ∈ steps, (c1 / |cfg.dq1| + c2 / |cfg.dq2|) * |st.1| ≤ 1) (f f' : Dist S P Q K)
    (h : Mach.runFVM ax cfg steps f = .ok f') (s : S) (p : P) (A : K)
    (hA : ∀ n < steps.length, ∀ g, Mach.runFVM ax cfg (steps.take n) f = .ok g → ∑ q, |g s p q| ≤ A) :
    |∑ q, f' s p q - ∑ q, f s p q| ≤ steps.length * (80 * u * A) := by
  induction steps generalizing f with
  | nil => simp only [Mach.runFVM, Except.ok.injEq] at h; subst h; simp
  | cons st rest ih =>
    obtain ⟨mq, mp, hU⟩ := Mach.runFVM_uses h (by simp)
    rw [Mach.runFVM_cons ax cfg hU] at h
    have hstep := Mach.timestepFVM_eq ax cfg hU st.1 st.2 f
    have a := C107_first_order_drift hM hu ha h2 ax cfg hq hrec hsrc hfe st.1 st.2 c1 c2
      (fun k s p q => (hc st (by simp) k s p q).1) (fun k s p q => (hc st (by simp) k s p q).2) (hcfl st (by simp)) f _ hstep s p
    have b := ih (fun st' hst' => hc st' (by simp [hst'])) (fun st' hst' => hcfl st' (by simp [hst'])) _ h (fun n hn g hg =>
      hA (n + 1) (by simpa using hn) g (by rw [List.take_succ_cons, Mach.runFVM_cons ax cfg hU]; exact hg))
    have c := hA 0 (by simp) f (by simp [Mach.runFVM])
    have d : 80 * u * ∑ q, |f s p q| ≤ 80 * u * A := mul_le_mul_of_nonneg_left c (by have := ha.1; linarith)
    have e := abs_sub_le (∑ q, f' s p q) (∑ q, Mach.stepValue ax cfg mq mp st.1 st.2 f s p q) (∑ q, f s p q)
    have g : ((st :: rest).length : K) * (80 * u * A) = rest.length * (80 * u * A) + 80 * u * A := by
      rw [List.length_cons]; push_cast; ring
    rw [g]; linarith

end Bolt
