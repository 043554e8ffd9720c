import Verif.Proofs.UnitChange
import Verif.Props.Mirror

/-!
# C91: changing the units
-/

set_option linter.unusedSectionVars false

namespace Bolt

section
variable {S P Q K : Type} [AddCommGroup P] [AddCommGroup Q] [Field K] [LinearOrder K] [IsStrictOrderedRing K] [Fintype S] [Fintype P] [Fintype Q]

/-- **C91.** The numbers that come out do not depend on the units in which the problem is posed: if lengths, times, momenta, charges, fields
and values of the distribution function are multiplied by factors that respect the dimensions of Maxwell's equations (for the hybrid model also
those of Ohm's law), every result is multiplied by the factor of its own dimension, for every reconstruction and any number of
steps; an error is raised in the same cases.  Without electrodynamic fields the factors of length, time, momentum and distribution function are independent. -/
theorem C91_run_in_other_units {c : CoupledConfig S P Q K} (hyb : S) {u : UnitChange K} (hu : u.Positive)
    (hM : c.fieldsType = "electrodynamic" → u.Maxwell) (hO : c.fieldsType = "electrodynamic" → c.hybrid = true → u.Ohm)
    {poisson poisson' : (S → Q → K) → FieldState Q K → FieldState Q K}
    (hp : c.fieldsType = "electrostatic" → ∀ ρ σ, poisson' (fun s q => u.charge * u.momentum ^ 3 * u.dist * ρ s q) (σ.inUnits u) = (poisson ρ σ).inUnits u)
    (steps steps' : List (K × (Fin 2 → CoupledCallbacks S P Q K)))
    (hs : List.Forall₂ (fun x' x => x'.1 = u.time * x.1 ∧ ∀ k, CallbacksInUnits u (x'.2 k) (x.2 k)) steps' steps)
    (f : Dist S P Q K) (σ : FieldState Q K) :
    runCoupled (c.inUnits u) poisson' hyb steps' (f.inUnits u, σ.inUnits u)
      = (runCoupled c poisson hyb steps (f, σ)).map fun r => (r.1.inUnits u, r.2.inUnits u) :=
  (unitMap hyb hu hM hO hp).run steps steps' hs f σ trivial

/-- **C91 (electrodynamic runs).** -/
theorem C91_electrodynamic_run {c : CoupledConfig S P Q K} (hc : ElectrodynamicFVM c) (hyb : S) {u : UnitChange K} (hu : u.Positive) (hM : u.Maxwell)
    (hO : c.hybrid = true → u.Ohm) (poisson poisson') (steps steps' : List (K × (Fin 2 → CoupledCallbacks S P Q K)))
    (hs : List.Forall₂ (fun x' x => x'.1 = u.time * x.1 ∧ ∀ k, CallbacksInUnits u (x'.2 k) (x.2 k)) steps' steps)
    (f : Dist S P Q K) (σ : FieldState Q K) :
    runCoupled (c.inUnits u) poisson' hyb steps' (f.inUnits u, σ.inUnits u)
      = (runCoupled c poisson hyb steps (f, σ)).map fun r => (r.1.inUnits u, r.2.inUnits u) := by
  obtain ⟨h1, h2, h3, h4⟩ := id hc
  exact C91_run_in_other_units hyb hu (fun _ => hM) (fun _ => hO) (fun he => absurd (h4.symm.trans he) (by decide)) steps steps' hs f σ

/-- **C91 (the bundled physics).** The nonrelativistic velocities and forces have the dimensions required, if momenta are measured as
velocities and the factor of the mass is the one of the Lorentz force. -/
theorem C91_nonrelativistic_callbacks {u : UnitChange K} (hu : u.Positive) (hv : u.momentum * u.time = u.length) (hB : u.fieldB * u.momentum = u.fieldE)
    {mass : K} (h0 : mass ≠ 0) (hF : u.charge * u.fieldE * u.time = mass * u.momentum) (e m : S → K) (ctr cor : PCoords S P K)
    {src src' : (S → P → K) → S → P → K} (hs : ∀ g s p, src' (fun s p => u.dist * g s p) s p = u.dist / u.time * src g s p) :
    CallbacksInUnits (Q := Q) u (nonrelCallbacks (fun s => u.charge * e s) (fun s => mass * m s) (ctr.inUnits u) (cor.inUnits u) src')
      (nonrelCallbacks e m ctr cor src) := by
  have ht := hu.time.ne'
  have lt : u.length / u.time = u.momentum := by rw [← hv, mul_div_cancel_right₀ _ ht]
  have key : ∀ e m x a b c d : K, u.charge * e / (mass * m) * (u.fieldE * x + u.momentum * a * (u.fieldB * b) - u.momentum * c * (u.fieldB * d))
      = u.momentum / u.time * (e / m * (x + a * b - c * d)) := by
    intro e m x a b c d
    rw [mul_div_mul_comm, ← hB]
    have : u.charge / mass * (u.fieldB * u.momentum) = u.momentum / u.time := by
      rw [hB, div_mul_eq_mul_div, div_eq_div_iff h0 ht, hF, mul_comm]
    rw [← this]
    ring
  refine ⟨fun s p i => ?_, fun s p i => ?_, fun F s p i => ?_, fun F s p i => ?_, fun F s p i => ?_, fun f s p i => ?_⟩
  · rw [lt]; rfl
  · rw [lt]; rfl
  · simp only [nonrelCallbacks, nonrelCp, EM.inUnits, PCoords.inUnits, key]
  · simp only [nonrelCallbacks, nonrelCp, EM.inUnits, PCoords.inUnits, key]
  · simp only [nonrelCallbacks, nonrelCp, EM.inUnits, PCoords.inUnits, key]
  · exact hs (fun s p => f s p i) s p

end

/-! ### the electrostatic field -/

section
variable {S P : Type} [AddCommGroup P] [Fintype P] [Fintype S] {N1 N2 : ℕ} [NeZero N1] [NeZero N2]

theorem fftfreq_scale {N : ℕ} (l d : ℝ) (k : ZMod N) : fftfreq N (l * d) k = fftfreq N d k / l := by
  simp only [fftfreq]
  rw [div_div]
  congr 1
  ring

theorem coeff_units (a : ℝ) (x : ZMod N1 × ZMod N2 → ℝ) (k : ZMod N1 × ZMod N2) :
    coeff (fun j => ((a * x j : ℝ) : ℂ)) k = a * coeff (fun j => (x j : ℂ)) k := by
  simp only [coeff_eq, afFft2_eq, Complex.ofReal_mul, mul_assoc, ← Finset.mul_sum, mul_div_assoc]

theorem fftPoisson_scale {l : ℝ} (hl : l ≠ 0) (s a dq1 dq2 eps : ℝ) (rho : ZMod N1 × ZMod N2 → ℝ) :
    fftPoisson 1 (l * dq1) (l * dq2) (s * eps) (fun j => a * rho j) =
      (fftPoisson 1 dq1 dq2 eps rho).map fun E => (fun j => a * l / s * E.1 j, fun j => a * l / s * E.2 j) := by
  by_cases h : N2 = 1
  · simp only [fftPoisson, if_pos h]
    rfl
  obtain ⟨E, hE⟩ : ∃ E, fftPoisson 1 dq1 dq2 eps rho = .ok E := by
    simp only [fftPoisson, if_neg h, ne_eq, not_true_eq_false, if_false]
    exact ⟨_, rfl⟩
  obtain ⟨E', hE'⟩ : ∃ E, fftPoisson 1 (l * dq1) (l * dq2) (s * eps) (fun j => a * rho j) = .ok E := by
    simp only [fftPoisson, if_neg h, ne_eq, not_true_eq_false, if_false]
    exact ⟨_, rfl⟩
  rw [hE, hE']
  simp only [Except.map, Except.ok.injEq]
  have hl' : (l : ℂ) ≠ 0 := by exact_mod_cast hl
  have key : ∀ (w : ℂ) (r : ℂ) (x y : ℝ), w / l * (a * r / ((4 * Real.pi ^ 2 * ((x / l) ^ 2 + (y / l) ^ 2) : ℝ) : ℂ)) / ((s * eps : ℝ) : ℂ)
      = ((a * l / s : ℝ) : ℂ) * (w * (r / ((4 * Real.pi ^ 2 * (x ^ 2 + y ^ 2) : ℝ) : ℂ)) / eps) := by
    intro w r x y
    have e : (4 * Real.pi ^ 2 * ((x / l) ^ 2 + (y / l) ^ 2) : ℝ) = (4 * Real.pi ^ 2 * (x ^ 2 + y ^ 2)) / l ^ 2 := by ring
    rw [e]
    generalize (4 * Real.pi ^ 2 * (x ^ 2 + y ^ 2) : ℝ) = D
    push_cast
    rw [mul_div_assoc, div_div_eq_mul_div, mul_div_assoc]
    by_cases hs : (s : ℂ) = 0
    · simp [hs]
    by_cases hp : (eps : ℂ) = 0
    · simp [hp]
    by_cases hD : (D : ℂ) = 0
    · simp [hD]
    field_simp
  refine Prod.ext (eq_of_coeff fun k => ?_) (eq_of_coeff fun k => ?_)
  · by_cases hk : k = 0
    · subst hk
      rw [coeff_zero, coeff_zero, (C21_mean_zero hE').1]
      simp only [← Finset.mul_sum, (C21_mean_zero hE).1, mul_zero]
    · rw [(fftPoisson_coeff hE' k hk).1, coeff_units a rho, show coeff (fun j => (((fun j => a * l / s * E.1 j, fun j => a * l / s * E.2 j) :
          (ZMod N1 × ZMod N2 → ℝ) × (ZMod N1 × ZMod N2 → ℝ)).1 j : ℂ)) k = _ from coeff_units (a * l / s) E.1 k,
        (fftPoisson_coeff hE k hk).1, fftfreq_scale, fftfreq_scale, ← key]
      congr 2
      split_ifs
      · simp
      · push_cast; ring
  · by_cases hk : k = 0
    · subst hk
      rw [coeff_zero, coeff_zero, (C21_mean_zero hE').2]
      simp only [← Finset.mul_sum, (C21_mean_zero hE).2, mul_zero]
    · rw [(fftPoisson_coeff hE' k hk).2, coeff_units a rho, show coeff (fun j => (((fun j => a * l / s * E.1 j, fun j => a * l / s * E.2 j) :
          (ZMod N1 × ZMod N2 → ℝ) × (ZMod N1 × ZMod N2 → ℝ)).2 j : ℂ)) k = _ from coeff_units (a * l / s) E.2 k,
        (fftPoisson_coeff hE k hk).2, fftfreq_scale, fftfreq_scale, ← key]
      congr 2
      split_ifs
      · simp
      · push_cast; ring

/-- **C91 (the electrostatic field).** The electrostatic field has the dimension of Gauss' law. -/
theorem C91_electrostatic_field {u : UnitChange ℝ} (hl : u.length ≠ 0) (hG : u.Gauss) (dq1 dq2 eps : ℝ) (rho : S → ZMod N1 × ZMod N2 → ℝ)
    (σ : FieldState (ZMod N1 × ZMod N2) ℝ) :
    electrostaticFFT (u.length * dq1) (u.length * dq2) (u.eps * eps) (fun s q => u.charge * u.momentum ^ 3 * u.dist * rho s q) (σ.inUnits u)
      = (electrostaticFFT dq1 dq2 eps rho σ).inUnits u := by
  have he : u.charge * u.momentum ^ 3 * u.dist * u.length / u.eps = u.fieldE := by rw [hG.gauss, mul_div_cancel_right₀ _ hG.eps]
  have key : fftPoisson 1 (u.length * dq1) (u.length * dq2) (u.eps * eps) (fun j => ∑ s, u.charge * u.momentum ^ 3 * u.dist * rho s j)
      = (fftPoisson 1 dq1 dq2 eps (fun j => ∑ s, rho s j)).map fun E => (fun i => u.fieldE * E.1 i, fun i => u.fieldE * E.2 i) := by
    simp only [← Finset.mul_sum]
    rw [fftPoisson_scale hl, he]
  unfold electrostaticFFT
  rw [key]
  cases fftPoisson 1 dq1 dq2 eps (fun j => ∑ s, rho s j) with
  | error e => rfl
  | ok E =>
    simp only [Except.map, FieldState.inUnits, FieldState.mapEM, FieldState.mk.injEq, and_true]
    funext k
    by_cases hk : k = σ.cc
    · simp only [hk, if_true]
      simp [EM.inUnits]
    · simp only [hk, if_false]

/-- **C91 (electrostatic runs).** -/
theorem C91_electrostatic_run {c : CoupledConfig S P (ZMod N1 × ZMod N2) ℝ} (hc : c.fieldsType = "electrostatic") (hyb : S) {u : UnitChange ℝ}
    (hu : u.Positive) (hG : u.Gauss) (steps steps' : List (ℝ × (Fin 2 → CoupledCallbacks S P (ZMod N1 × ZMod N2) ℝ)))
    (hs : List.Forall₂ (fun x' x => x'.1 = u.time * x.1 ∧ ∀ k, CallbacksInUnits u (x'.2 k) (x.2 k)) steps' steps)
    (f : Dist S P (ZMod N1 × ZMod N2) ℝ) (σ : FieldState (ZMod N1 × ZMod N2) ℝ) :
    runCoupled (c.inUnits u) (electrostaticFFT (c.inUnits u).dq1 (c.inUnits u).dq2 (c.inUnits u).eps) hyb steps' (f.inUnits u, σ.inUnits u)
      = (runCoupled c (electrostaticFFT c.dq1 c.dq2 c.eps) hyb steps (f, σ)).map fun r => (r.1.inUnits u, r.2.inUnits u) :=
  C91_run_in_other_units hyb hu (fun he => absurd (hc.symm.trans he) (by decide)) (fun he => absurd (hc.symm.trans he) (by decide))
    (fun _ => C91_electrostatic_field hu.length.ne' hG c.dq1 c.dq2 c.eps) steps steps' hs f σ

end

/-! ### collisions -/

section
variable {S P Q : Type} [Fintype P]

/-- Two Gaussians centred at 0 that agree at two momenta of different magnitude have the same temperature. -/
theorem gauss_temperature {m k T T' A A' v v' : ℝ} (hm : 0 < m) (hk : 0 < k) (hT : 0 < T) (hT' : 0 < T') (hA : 0 < A) (hA' : 0 < A') (hv : v ^ 2 ≠ v' ^ 2)
    (h : A' * Real.exp (-m * v ^ 2 / (2 * k * T')) = A * Real.exp (-m * v ^ 2 / (2 * k * T)))
    (h' : A' * Real.exp (-m * v' ^ 2 / (2 * k * T')) = A * Real.exp (-m * v' ^ 2 / (2 * k * T))) : T' = T := by
  have l := congrArg Real.log h
  have l' := congrArg Real.log h'
  rw [Real.log_mul hA'.ne' (Real.exp_ne_zero _), Real.log_mul hA.ne' (Real.exp_ne_zero _), Real.log_exp, Real.log_exp] at l l'
  have e : m * (v ^ 2 - v' ^ 2) / (2 * k * T') = m * (v ^ 2 - v' ^ 2) / (2 * k * T) := by
    rw [mul_sub, sub_div, sub_div]
    simp only [neg_mul, neg_div] at l l'
    linarith
  rw [div_eq_div_iff (by positivity) (by positivity)] at e
  have c : m * (v ^ 2 - v' ^ 2) * (2 * k) ≠ 0 := by
    have := sub_ne_zero.2 hv
    have := hm.ne'
    have := hk.ne'
    positivity
  exact (mul_left_cancel₀ c (by linarith)).symm

theorem integralOverV_scale (a : ℝ) (g : Dist S P Q ℝ) (measure : S → ℝ) (s : S) (q : Q) :
    integralOverV (fun s p q => a * g s p q) measure s q = a * integralOverV g measure s q := by
  simp only [integralOverV, ← Finset.mul_sum, mul_assoc]

/-- **C91 (collisions are the exception).** The bundled relaxation operator compares densities and temperatures with the absolute number
`1e-30`: multiplying the distribution function by any factor but 1 changes the shape of the distribution it relaxes to, for every distribution at
rest with some energy on a grid of one momentum dimension (given two momenta of different magnitude). -/
theorem C91_collisions_not_scale_free {pr : BGKParams S P Q} (hd : pr.pdim = 1) (x : PCoords S P ℝ) {measure : S → ℝ} {f : Dist S P Q ℝ} {s : S} {q : Q}
    (hm : 0 < pr.mass s) (hk : 0 < pr.k) (hn : 0 < density x measure f s q) (h1 : momV1 x measure f s q = 0) (h2 : momV2 x measure f s q = 0)
    (h3 : momV3 x measure f s q = 0) (hE : 0 < energy x measure f s q) {p p' : P} (hv : x.p1 s p ^ 2 ≠ x.p1 s p' ^ 2) {a : ℝ} (ha : 0 < a) (ha1 : a ≠ 1) :
    (fun p => bgk pr x measure true (fun s p q => a * f s p q) s p q) ≠ fun p => a * bgk pr x measure true f s p q := by
  intro h
  have d : density x measure (fun s p q => a * f s p q) s q = a * density x measure f s q := integralOverV_scale a f measure s q
  have e : energy x measure (fun s p q => a * f s p q) s q = a * energy x measure f s q := by
    rw [energy, energy, ← integralOverV_scale]
    congr; funext s p q; ring
  have j1 : momV1 x measure (fun s p q => a * f s p q) s q = 0 := by
    rw [← mul_zero a, ← h1, momV1, momV1, ← integralOverV_scale]
    simp only [mul_assoc]
  have j2 : momV2 x measure (fun s p q => a * f s p q) s q = 0 := by
    rw [← mul_zero a, ← h2, momV2, momV2, ← integralOverV_scale]
    simp only [mul_assoc]
  have j3 : momV3 x measure (fun s p q => a * f s p q) s q = 0 := by
    rw [← mul_zero a, ← h3, momV3, momV3, ← integralOverV_scale]
    simp only [mul_assoc]
  have hp := congrFun h p
  have hp' := congrFun h p'
  simp only [bgk, Bool.true_eq_false, if_false, localMaxwellian, d, e, j1, j2, j3, h1, h2, h3, maxwellian, hd, bgkTemperature, bgkBulk, zero_div] at hp hp'
  norm_num at hp hp'
  generalize density x measure f s q = n at *
  generalize energy x measure f s q = E at *
  have he : 0 < bgkEps := by unfold bgkEps; positivity
  generalize bgkEps = ε at *
  rw [← mul_assoc a] at hp hp'
  have hT : 0 < 2 * (E * pr.mass s) / (n + ε) + ε := by positivity
  have hT' : 0 < 2 * (a * E * pr.mass s) / (a * n + ε) + ε := by positivity
  have hpi := Real.pi_pos
  rw [← neg_mul] at hp hp'
  have hA : 0 < a * (n * √(pr.mass s / (2 * Real.pi * pr.k * (2 * (E * pr.mass s) / (n + ε) + ε)))) := by positivity
  have hA' : 0 < a * n * √(pr.mass s / (2 * Real.pi * pr.k * (2 * (a * E * pr.mass s) / (a * n + ε) + ε))) := by positivity
  have := gauss_temperature hm hk hT hT' hA hA' hv hp hp'
  rw [add_left_inj, div_eq_div_iff (by positivity) (by positivity)] at this
  have z : 2 * (E * pr.mass s) * ε * (a - 1) = 0 := by linarith
  have := sub_ne_zero.2 ha1
  have := mul_ne_zero (by positivity : 2 * (E * pr.mass s) * ε ≠ 0) this
  exact this z

end

/-! ### concrete cases -/

/-- Lengths six times, times twice, velocities three times, masses twice as large, and the factors of the fields and constants that follow. -/
def c91Units (K : Type) [Field K] : UnitChange K := ⟨6, 2, 3, 1, 1, 3, 1, 54, 1 / 486, 18⟩

theorem c91Units_positive {K : Type} [Field K] [LinearOrder K] [IsStrictOrderedRing K] : (c91Units K).Positive := ⟨by norm_num [c91Units], by norm_num [c91Units], by norm_num [c91Units]⟩
theorem c91Units_maxwell : (c91Units ℚ).Maxwell := by constructor <;> norm_num [c91Units]
theorem c91Units_ohm : (c91Units ℚ).Ohm := by constructor <;> norm_num [c91Units]
theorem c91Units_gauss : (c91Units ℝ).Gauss := by constructor <;> norm_num [c91Units]

def c91Cb : CoupledCallbacks (Fin 2) (ZMod 2 × ZMod 1 × ZMod 1) (ZMod 3 × ZMod 1) ℚ :=
  nonrelCallbacks (fun s => 1 * if s = 0 then 1 else -1) (fun _ => 2 * 2) (exCoupled.coords.inUnits (c91Units ℚ)) (exCoupled.coords.inUnits (c91Units ℚ))
    (fun g s p => 1 / 2 * g s p)

theorem c91Cb_inUnits : CallbacksInUnits (c91Units ℚ) c91Cb c69Cb :=
  C91_nonrelativistic_callbacks (u := c91Units ℚ) c91Units_positive (by norm_num [c91Units]) (by norm_num [c91Units]) (mass := 2) (by norm_num) (by norm_num [c91Units])
    (fun s => if s = 0 then 1 else -1) (fun _ => 2) exCoupled.coords exCoupled.coords (src := fun f => f) (fun g s p => by norm_num [c91Units])

/-- Two steps of an electrodynamic run of two species in both systems of units. -/
example : ∃ r, runCoupled c89Cfg (fun _ σ => σ) 0 [(1 / 10, fun _ => c69Cb), (1 / 5, fun _ => c69Cb)] (c69F, c69State) = .ok r ∧
    runCoupled (c89Cfg.inUnits (c91Units ℚ)) (fun _ σ => σ) 0 [(1 / 5, fun _ => c91Cb), (2 / 5, fun _ => c91Cb)]
      (c69F.inUnits (c91Units ℚ), c69State.inUnits (c91Units ℚ)) = .ok (r.1.inUnits (c91Units ℚ), r.2.inUnits (c91Units ℚ)) := by
  have hc : ElectrodynamicFVM c89Cfg := ⟨rfl, rfl, rfl, rfl⟩
  obtain ⟨r, h⟩ := C14_run_exists c89Cfg hc rfl ⟨.ppm, rfl⟩ ⟨.minmod, rfl⟩ (fun _ σ => σ) 0
    [(1 / 10, fun _ => c69Cb), (1 / 5, fun _ => c69Cb)] (c69F, c69State)
  refine ⟨r, h, ?_⟩
  rw [C91_electrodynamic_run hc 0 c91Units_positive c91Units_maxwell (fun _ => c91Units_ohm) (fun _ σ => σ) (fun _ σ => σ)
    [(1 / 10, fun _ => c69Cb), (1 / 5, fun _ => c69Cb)] [(1 / 5, fun _ => c91Cb), (2 / 5, fun _ => c91Cb)]
    (.cons ⟨by norm_num [c91Units], fun _ => c91Cb_inUnits⟩ (.cons ⟨by norm_num [c91Units], fun _ => c91Cb_inUnits⟩ .nil)) c69F c69State, h]
  rfl

def c91HybCb : CoupledCallbacks Unit (ZMod 1 × ZMod 1 × ZMod 1) (ZMod 5 × ZMod 1) ℚ :=
  nonrelCallbacks (fun _ => 1 * 1) (fun _ => 2 * 1) (c90Hyb.coords.inUnits (c91Units ℚ)) (c90Hyb.coords.inUnits (c91Units ℚ)) (fun g s p => 1 / 2 * g s p)

theorem c91HybCb_inUnits : CallbacksInUnits (c91Units ℚ) c91HybCb c90HybCb :=
  C91_nonrelativistic_callbacks (u := c91Units ℚ) c91Units_positive (by norm_num [c91Units]) (by norm_num [c91Units]) (mass := 2) (by norm_num) (by norm_num [c91Units])
    (fun _ => 1) (fun _ => 1) c90Hyb.coords c90Hyb.coords (src := fun f => f) (fun g s p => by norm_num [c91Units])

/-- A step of the hybrid model in both systems of units. -/
example (dt : ℚ) : ∃ r, runCoupled c90Hyb (fun _ σ => σ) () [(dt, fun _ => c90HybCb)] (c90HybF, c90HybState) = .ok r ∧
    runCoupled (c90Hyb.inUnits (c91Units ℚ)) (fun _ σ => σ) () [(2 * dt, fun _ => c91HybCb)]
      (c90HybF.inUnits (c91Units ℚ), c90HybState.inUnits (c91Units ℚ)) = .ok (r.1.inUnits (c91Units ℚ), r.2.inUnits (c91Units ℚ)) := by
  have hc : ElectrodynamicFVM c90Hyb := ⟨rfl, rfl, rfl, rfl⟩
  have hi : Implemented c90Hyb := ⟨⟨.minmod, rfl⟩, ⟨.minmod, rfl⟩, fun _ => rfl⟩
  obtain ⟨r, h⟩ := C67_whole_grid_run_exists hi (fun _ σ => σ) () [(dt, fun _ => c90HybCb)] (c90HybF, c90HybState)
  refine ⟨r, h, ?_⟩
  rw [C91_electrodynamic_run hc () c91Units_positive c91Units_maxwell (fun _ => c91Units_ohm) (fun _ σ => σ) (fun _ σ => σ)
    [(dt, fun _ => c90HybCb)] [(2 * dt, fun _ => c91HybCb)] (.cons ⟨rfl, fun _ => c91HybCb_inUnits⟩ .nil) c90HybF c90HybState, h]
  rfl

noncomputable def c91EsCb : CoupledCallbacks Unit (ZMod 2 × ZMod 1 × ZMod 1) (ZMod 3 × ZMod 2) ℝ := nonrelCallbacks (fun _ => -1) (fun _ => 1) c69Es.coords c69Es.coords id
noncomputable def c91EsCb' : CoupledCallbacks Unit (ZMod 2 × ZMod 1 × ZMod 1) (ZMod 3 × ZMod 2) ℝ :=
  nonrelCallbacks (fun _ => 1 * -1) (fun _ => 2 * 1) (c69Es.coords.inUnits (c91Units ℝ)) (c69Es.coords.inUnits (c91Units ℝ)) (fun g s p => 1 / 2 * g s p)
noncomputable def c91EsF : Dist Unit (ZMod 2 × ZMod 1 × ZMod 1) (ZMod 3 × ZMod 2) ℝ := fun _ p i => p.1.val + i.1.val ^ 2
noncomputable def c91EsState : FieldState (ZMod 3 × ZMod 2) ℝ := ⟨fun _ => EM.const 0 0 0 0 0 0, 0, 0, 0, EM.const 0 0 0 0 0 0, true, 0⟩

theorem c91EsCb_inUnits : CallbacksInUnits (c91Units ℝ) c91EsCb' c91EsCb :=
  C91_nonrelativistic_callbacks (u := c91Units ℝ) c91Units_positive (by norm_num [c91Units]) (by norm_num [c91Units]) (mass := 2) (by norm_num) (by norm_num [c91Units])
    (fun _ => -1) (fun _ => 1) c69Es.coords c69Es.coords (src := id) (fun g s p => by norm_num [c91Units])

/-- A step of an electrostatic run in both systems of units. -/
example : ∃ r, runCoupled c69Es (electrostaticFFT c69Es.dq1 c69Es.dq2 c69Es.eps) () [(1 / 10, fun _ => c91EsCb)] (c91EsF, c91EsState) = .ok r ∧
    runCoupled (c69Es.inUnits (c91Units ℝ)) (electrostaticFFT (c69Es.inUnits (c91Units ℝ)).dq1 (c69Es.inUnits (c91Units ℝ)).dq2 (c69Es.inUnits (c91Units ℝ)).eps) ()
      [(1 / 5, fun _ => c91EsCb')] (c91EsF.inUnits (c91Units ℝ), c91EsState.inUnits (c91Units ℝ)) = .ok (r.1.inUnits (c91Units ℝ), r.2.inUnits (c91Units ℝ)) := by
  obtain ⟨r, h⟩ := C67_whole_grid_run_exists (c := c69Es) ⟨⟨.ppm, rfl⟩, ⟨.minmod, rfl⟩, fun _ => rfl⟩ (electrostaticFFT c69Es.dq1 c69Es.dq2 c69Es.eps) ()
    [(1 / 10, fun _ => c91EsCb)] (c91EsF, c91EsState)
  refine ⟨r, h, ?_⟩
  rw [C91_electrostatic_run rfl () c91Units_positive c91Units_gauss [(1 / 10, fun _ => c91EsCb)] [(1 / 5, fun _ => c91EsCb')]
    (.cons ⟨by norm_num [c91Units], fun _ => c91EsCb_inUnits⟩ .nil) c91EsF c91EsState, h]
  rfl

/-- Particles at rest and some that move to the left and to the right, twice as many of each. -/
example : ∃ p, bgk (S := Unit) (P := Fin 3) (Q := Unit) ⟨1, fun _ => 1, 1, fun _ _ _ => 1⟩ ⟨fun _ p => (p.val : ℝ) - 1, fun _ _ => 0, fun _ _ => 0⟩ (fun _ => 1) true
      (fun _ _ _ => 2 * 1) () p () ≠ 2 * bgk (S := Unit) (P := Fin 3) (Q := Unit) ⟨1, fun _ => 1, 1, fun _ _ _ => 1⟩
        ⟨fun _ p => (p.val : ℝ) - 1, fun _ _ => 0, fun _ _ => 0⟩ (fun _ => 1) true (fun _ _ _ => 1) () p () := by
  refine Function.ne_iff.1 (C91_collisions_not_scale_free (pr := ⟨1, fun _ => 1, 1, fun _ _ _ => 1⟩) rfl ⟨fun _ p => ((p : Fin 3).val : ℝ) - 1, fun _ _ => 0, fun _ _ => 0⟩
    (measure := fun _ => 1) (f := fun _ _ _ => 1) (s := ()) (q := ()) one_pos one_pos ?_ ?_ ?_ ?_ ?_ (p := 0) (p' := 1) ?_ two_pos (by norm_num))
  all_goals norm_num [density, momV1, momV2, momV3, energy, integralOverV, Fin.sum_univ_three]

end Bolt
