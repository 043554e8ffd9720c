import Verif.Proofs.Energy

/-!
# C109: the energy particles and fields exchange
-/

set_option linter.unusedSectionVars false

namespace Bolt

open Finset

variable {S Q K : Type} [AddCommGroup Q] [Field K] [LinearOrder K] [IsStrictOrderedRing K] [Fintype S] [Fintype Q]
  {N1 N2 N3 : ℕ} [NeZero N1] [NeZero N2] [NeZero N3]
  {c : CoupledConfig S (PIdx N1 N2 N3) Q K} {m : S → K} {cor : PCoords S (PIdx N1 N2 N3) K}
  {src : (S → PIdx N1 N2 N3 → K) → S → PIdx N1 N2 N3 → K} {poisson : (S → Q → K) → FieldState Q K → FieldState Q K} {hyb : S} {ini : InitFns Q K}
  {dt : ℕ → K} {st : ℕ → Dist S (PIdx N1 N2 N3) Q K × FieldState Q K}

theorem VlasovMaxwellRun.boundary (R : VlasovMaxwellRun c m cor src poisson hyb ini dt st) (n : ℕ) : Boundary c (st n).2 := by
  induction n with
  | zero => exact (boundary_init c ini _ R.start).1
  | succ n ih => exact boundary_step c R.dynamic poisson _ hyb _ _ _ ih (R.step n)

/-- What `get_fields` returns between two steps. -/
theorem VlasovMaxwellRun.seen (R : VlasovMaxwellRun c m cor src poisson hyb ini dt st) (n : ℕ) :
    (getFields c.fieldsSolver "FVM" (st n).2).1 = (st n).2.heap (st n).2.cc := by
  have hb := R.boundary n
  simp only [getFields, hb.flag, if_true]
  split_ifs
  · rfl
  · rw [hb.aliased.1]

theorem kineticEnergy_add (c : CoupledConfig S (PIdx N1 N2 N3) Q K) (m : S → K) (f k : Dist S (PIdx N1 N2 N3) Q K) (a : K) :
    kineticEnergy c m (fun s p q => f s p q + k s p q * a) = kineticEnergy c m f + a * kineticEnergy c m k := by
  simp only [kineticEnergy, mul_sum, ← sum_add_distrib]
  exact sum_congr rfl fun q _ => sum_congr rfl fun s _ => sum_congr rfl fun p _ => by ring

/-- The kinetic energy of a slope of the bundled physics in given fields. -/
theorem kineticEnergy_slope (hax : MomentumAxes c.ax) (hdp : ∀ s, c.dp1 s ≠ 0 ∧ c.dp2 s ≠ 0 ∧ c.dp3 s ≠ 0)
    (hp : c.solverMethodInP = "FVM" ∧ c.fieldsEnabled = true) (hsrc : c.sourceEnabled = false)
    (hr : c.reconstructionInP = "piecewise-constant") (hmass : ∀ s, m s ≠ 0) {s1 s2 s3 : S → K} (hco : c.coords = centres c.toFVMConfig s1 s2 s3)
    (F : EM Q K) (C1 C2 : Dist S (PIdx N1 N2 N3) Q K) (source) {f k : Dist S (PIdx N1 N2 N3) Q K}
    (hk : dfdtFVM c.ax c.toFVMConfig ⟨C1, C2, (nonrelCallbacks c.charge m c.coords cor src).Cp1 F, (nonrelCallbacks c.charge m c.coords cor src).Cp2 F,
      (nonrelCallbacks c.charge m c.coords cor src).Cp3 F, source⟩ f = .ok k) (hf : Confined c 1 f) :
    kineticEnergy c m k = power (currentDensity c fun _ => f) F.electric + numericalHeating c m f F.electric F.magnetic := by
  have hv : ∀ j s p, velocity c j s p = cellVelocity (centres c.toFVMConfig s1 s2 s3) s p j := by
    intro j s p
    rw [← hco]
    fin_cases j <;> rfl
  have hj : ∀ j, if ![N1, N2, N3] j = 1 then ∀ s (p : PIdx N1 N2 N3), cellVelocity (centres c.toFVMConfig s1 s2 s3) s p j = 0 else ClearOfEdges j 1 f := by
    intro j
    have := hf j
    simpa only [hv] using this
  have key := energy_slope (cfg := c.toFVMConfig) (ax := c.ax) s1 s2 s3 c.charge m cor hax hdp hp hsrc hr
    (fun _ => ![F.E1, F.E2, F.E3, F.B1, F.B2, F.B3]) (by rw [hco]; rfl) hk hj
  have hL : ∀ j q, fieldE (fun _ => ![F.E1, F.E2, F.E3, F.B1, F.B2, F.B3]) j q = fun i => F.electric i q := by
    intro j q; funext i; fin_cases i <;> rfl
  have hB : ∀ j q, fieldB (fun _ => ![F.E1, F.E2, F.E3, F.B1, F.B2, F.B3]) j q = fun i => F.magnetic i q := by
    intro j q; funext i; fin_cases i <;> rfl
  have hcv : ∀ s p, cellVelocity (centres c.toFVMConfig s1 s2 s3) s p = fun j => velocity c j s p := by
    intro s p; funext j; rw [hv]
  simp only [hL, hB, hcv] at key
  have e1 : kineticEnergy c m k = ∑ s, m s * (c.dp1 s * c.dp2 s * c.dp3 s) * ∑ q, ∑ p, k s p q * (1 / 2 * ∑ j, velocity c j s p ^ 2) := by
    rw [kineticEnergy, sum_comm]
    refine sum_congr rfl fun s _ => ?_
    rw [mul_sum]
    refine sum_congr rfl fun q _ => ?_
    rw [mul_sum]
    exact sum_congr rfl fun p _ => by ring
  rw [e1]
  simp only [key]
  have e2 : power (currentDensity c fun _ => f) F.electric =
      ∑ s, ∑ q, ∑ p, c.charge s * (∑ j, velocity c j s p * F.electric j q) * (f s p q * (c.dp1 s * c.dp2 s * c.dp3 s)) := by
    rw [power, sum_comm (s := univ (α := S))]
    refine sum_congr rfl fun q _ => ?_
    simp only [currentDensity, sum_mul, mul_sum]
    rw [sum_comm]
    refine sum_congr rfl fun s _ => ?_
    rw [sum_comm]
    exact sum_congr rfl fun p _ => sum_congr rfl fun j _ => by ring
  have e3 : numericalHeating c m f F.electric F.magnetic = ∑ s, ∑ q, ∑ p, 1 / 2 * m s *
    (∑ k, if ![N1, N2, N3] k = 1 then 0 else
      |lorentz (c.charge s) (m s) (fun j => F.electric j q) (fun j => F.magnetic j q) (fun j => velocity c j s p) k| * ![c.dp1 s, c.dp2 s, c.dp3 s] k) *
    (f s p q * (c.dp1 s * c.dp2 s * c.dp3 s)) := by rw [numericalHeating, sum_comm]
  rw [e2, e3]
  simp only [← sum_add_distrib, mul_sum (s := univ (α := Q))]
  refine sum_congr rfl fun s _ => sum_congr rfl fun q _ => ?_
  rw [mul_sum]
  refine sum_congr rfl fun p _ => ?_
  have a : ∑ j, lorentz (c.charge s) (m s) (fun i => F.electric i q) (fun i => F.magnetic i q) (fun j => velocity c j s p) j * velocity c j s p =
      c.charge s / m s * ∑ j, velocity c j s p * F.electric j q := by
    simp only [Fin.sum_univ_three, lorentz, Matrix.cons_val_zero, Matrix.cons_val_one, Matrix.cons_val]
    ring
  have b : ∀ x : Fin 3 → K, ∑ j, (if ![N1, N2, N3] j = 1 then 0 else x j / 2) = 1 / 2 * ∑ j, if ![N1, N2, N3] j = 1 then 0 else x j := by
    intro x
    rw [mul_sum]
    exact sum_congr rfl fun j _ => by split_ifs <;> ring
  rw [sum_add_distrib, a, b]
  have := hmass s
  field_simp

/-- **C109 (the particles).** In a step, the kinetic energy of the particles grows by the step size times the power that the electric field
handed out after the step delivers to the current at the middle of the step, both at the cell centres, plus the numerical heating of the
momentum grid in those fields. -/
theorem C109_particles (R : VlasovMaxwellRun c m cor src poisson hyb ini dt st) (n : ℕ) (hf : Confined c 2 (st n).1) :
    ∃ fh, HalfWay c m cor src poisson hyb (dt n) (st n) fh ∧
      (let out := (getFields c.fieldsSolver "FVM" (st (n + 1)).2).1
       kineticEnergy c m (st (n + 1)).1 = kineticEnergy c m (st n).1 +
        dt n * (power (currentDensity c fun _ => fh) out.electric + numericalHeating c m fh out.electric out.magnetic)) := by
  have hp : c.solverMethodInP = "FVM" ∧ c.fieldsEnabled = true := ⟨R.dynamic.2.1, R.dynamic.2.2.1⟩
  have hdp : ∀ s, c.dp1 s ≠ 0 ∧ c.dp2 s ≠ 0 ∧ c.dp3 s ≠ 0 := fun s => ⟨(R.spacing s).1.ne', (R.spacing s).2.1.ne', (R.spacing s).2.2.ne'⟩
  obtain ⟨r0, r1, h0, h1, e⟩ := stepCoupled_ok (R.step n)
  refine ⟨_, ⟨r0, h0, rfl⟩, ?_⟩
  rw [R.seen]
  obtain ⟨σ1, σ2, -, -, -, d0⟩ := dfdtCoupled_ok hp h0
  obtain ⟨τ1, τ2, -, a', b', d'⟩ := dfdtCoupled_ok hp h1
  have al := aliased_step c R.dynamic poisson _ hyb _ _ _ _ _ h1 (aliased_step c R.dynamic poisson _ hyb _ _ _ _ _ h0 (R.boundary n).aliased)
  rw [b'] at al
  have g : ∀ b, (getFields c.fieldsSolver "FVM" { τ2 with flag := b }).1 = τ2.heap τ2.cc := by
    intro b
    simp only [getFields]
    split_ifs
    · rfl
    · rw [show τ2.cc = τ2.atN from al.1]
    · rw [show τ2.cc = τ2.atHalf from al.2]
  have g' : (getFields c.fieldsSolver "FVM" τ2).1 = τ2.heap τ2.cc := g τ2.flag
  rw [g', g] at d'
  have hs : (st (n + 1)).2.heap (st (n + 1)).2.cc = τ2.heap τ2.cc := by rw [e]; simp only [b']
  have hfh : Confined c 1 (fun s p q => (st n).1 s p q + r0.1 s p q * (dt n / 2)) := by
    intro j
    have hj := hf j
    split_ifs at hj ⊢ with h1
    · exact hj
    · intro s p q hpq
      have z1 := slope_clear R.axes R.collisionless R.firstOrder d0 j hj s p q hpq
      have z2 := hj s p q (by omega)
      simp only [z1, z2]; ring
  obtain ⟨s1, s2, s3, hco⟩ := R.grid
  have key := kineticEnergy_slope R.axes hdp hp R.collisionless R.firstOrder (fun s => (R.mass s).ne') hco (τ2.heap τ2.cc) _ _ _ d' hfh
  simp only [hs]
  rw [← key, e]
  exact kineticEnergy_add c m _ _ _

/-- The current of the distribution `f` where the scheme puts each component: reconstructed to the left faces for the first two, at the centres for the
third. -/
noncomputable def staggeredCurrent (c : CoupledConfig S (PIdx N1 N2 N3) Q K) (r : Recon) (f : Dist S (PIdx N1 N2 N3) Q K) : Fin 3 → Q → K :=
  currentDensity c (ionsAt c r (fun s p _ => velocity c 0 s p) (fun s p _ => velocity c 1 s p) f)

/-- **C109 (the fields).** Between two whole steps, the energy of the staggered fields falls by the step size times the work they do: the power of the mean of
the two electric fields on the staggered current at the middle of the step.  If the step size changes, the energy changes with it by
another term, which involves only the fields. -/
theorem C109_fields (R : VlasovMaxwellRun c m cor src poisson hyb ini dt st) {r : Recon} (hr : reconMethod c.reconstructionInQ = .ok r) (n : ℕ) :
    ∃ fh, HalfWay c m cor src poisson hyb (dt (n + 1)) (st (n + 1)) fh ∧
      (let E := fun n => (st n).2.yee.electric
       let B := fun n => (st n).2.yee.magnetic
       fieldEnergy c.eps c.mu (E (n + 2)) (B (n + 1)) (B (n + 2)) = fieldEnergy c.eps c.mu (E (n + 1)) (B n) (B (n + 1))
        - dt (n + 1) * power (staggeredCurrent c r fh) (fun k i => (E (n + 1) k i + E (n + 2) k i) / 2)
        + (dt (n + 1) - dt n) / (2 * c.mu) * ∑ i, ∑ k, B (n + 1) k i * curlOfE c.ax.q1 c.ax.q2 c.dq1 c.dq2 (E (n + 1)) k i) := by
  obtain ⟨-, -, -, hB⟩ := C71_step ⟨R.dynamic, R.kinetic⟩ hr (R.boundary n).flag (R.step n)
  obtain ⟨r0, h0, hE', hB'⟩ := C71_step ⟨R.dynamic, R.kinetic⟩ hr (R.boundary (n + 1)).flag (R.step (n + 1))
  refine ⟨_, ⟨r0, h0, rfl⟩, ?_⟩
  have := poynting_identity c.ax.q1 c.ax.q2 c.dq1 c.dq2 c.eps c.mu (dt n) (dt (n + 1)) R.eps _ _ _ _ _ _ hE' hB hB'
  rw [sub_eq_iff_eq_add] at this
  refine this.trans ?_
  rw [staggeredCurrent]
  have e : ∀ a b d : K, -a + b + d = d - a + b := fun a b d => by ring
  rw [e]
  rfl

/-- **C109 (vacuum).** Without charges and at a fixed step size, the energy of the fields is conserved exactly, for any number of steps. -/
theorem C109_vacuum (R : VlasovMaxwellRun c m cor src poisson hyb ini dt st) {r : Recon} (hr : reconMethod c.reconstructionInQ = .ok r)
    (h0 : ∀ s, c.charge s = 0) (hdt : ∀ n, dt n = dt 0) (n : ℕ) :
    fieldEnergy c.eps c.mu (st (n + 1)).2.yee.electric (st n).2.yee.magnetic (st (n + 1)).2.yee.magnetic =
      fieldEnergy c.eps c.mu (st 1).2.yee.electric (st 0).2.yee.magnetic (st 1).2.yee.magnetic := by
  induction n with
  | zero => rfl
  | succ n ih =>
    obtain ⟨fh, -, h⟩ := C109_fields R hr n
    have z : power (staggeredCurrent c r fh) (fun k i => ((st (n + 1)).2.yee.electric k i + (st (n + 2)).2.yee.electric k i) / 2) = 0 := by
      simp [power, staggeredCurrent, currentDensity, h0]
    rw [← ih]
    refine h.trans ?_
    simp only [z, hdt (n + 1), hdt n, sub_self, zero_div, zero_mul, mul_zero, sub_zero, add_zero]

/-- **C109 (the balance).** At a fixed step size, the energy of particles and fields together changes in a step by the step size times three terms: the work
the handed-out field does on the particles at the cell centres, less the work the staggered field loses, plus the numerical heating. -/
theorem C109_balance (R : VlasovMaxwellRun c m cor src poisson hyb ini dt st) {r : Recon} (hr : reconMethod c.reconstructionInQ = .ok r) (n : ℕ)
    (hdt : dt (n + 1) = dt n) (hf : Confined c 2 (st (n + 1)).1) :
    ∃ fh, HalfWay c m cor src poisson hyb (dt (n + 1)) (st (n + 1)) fh ∧
      (let E := fun n => (st n).2.yee.electric
       let B := fun n => (st n).2.yee.magnetic
       let out := (getFields c.fieldsSolver "FVM" (st (n + 2)).2).1
       kineticEnergy c m (st (n + 2)).1 + fieldEnergy c.eps c.mu (E (n + 2)) (B (n + 1)) (B (n + 2)) =
        kineticEnergy c m (st (n + 1)).1 + fieldEnergy c.eps c.mu (E (n + 1)) (B n) (B (n + 1)) +
        dt (n + 1) * (power (currentDensity c fun _ => fh) out.electric
          - power (staggeredCurrent c r fh) (fun k i => (E (n + 1) k i + E (n + 2) k i) / 2)
          + numericalHeating c m fh out.electric out.magnetic)) := by
  obtain ⟨fh, ⟨r0, h0, e⟩, h⟩ := C109_particles R (n + 1) hf
  obtain ⟨fh', ⟨r0', h0', e'⟩, h'⟩ := C109_fields R hr n
  have : fh' = fh := by
    rw [h0] at h0'
    cases h0'
    rw [e, e']
  subst this
  refine ⟨fh', ⟨r0, h0, e⟩, ?_⟩
  simp only at h h' ⊢
  rw [h, h', hdt]
  ring

/-- Uniform fields and particles stay uniform. -/
theorem VlasovMaxwellRun.uniform (R : VlasovMaxwellRun c m cor src poisson hyb ini dt st) (hu : ∀ t, InvariantAlong t (st 0).1 (st 0).2) (n : ℕ) (t : Q) :
    InvariantAlong t (st n).1 (st n).2 := by
  induction n with
  | zero => exact hu t
  | succ n ih =>
    have h := R.step n
    have h' : runCoupled c (fun _ σ => σ) hyb [(dt n, fun _ => nonrelCallbacks c.charge m c.coords cor src)] ((st n).1, (st n).2) = .ok ((st (n + 1)).1, (st (n + 1)).2) := by
      simp only [runCoupled, bind, Except.bind]
      have : stepCoupled c (fun _ σ => σ) (fun _ => nonrelCallbacks c.charge m c.coords cor src) hyb (dt n) (st n) = .ok (st (n + 1)) := by
        rw [← h]
        simp only [stepCoupled, dfdtCoupled_poisson R.dynamic poisson]
      rw [this]
    refine C69_invariance_kept t (poisson := fun _ σ => σ) (fun _ _ => rfl) hyb _ ?_ ih h'
    intro x hx k
    rw [List.mem_singleton] at hx
    subst hx
    exact C69_nonrelativistic_callbacks _ _ _ _ _ _

theorem uniform_value {f : Dist S (PIdx N1 N2 N3) Q K} {σ : FieldState Q K} (hu : ∀ t, InvariantAlong t f σ) :
    (∀ s p q, f s p q = f s p 0) ∧ (∀ k i, σ.yee.electric k i = σ.yee.electric k 0) ∧ (∀ k i, σ.yee.magnetic k i = σ.yee.magnetic k 0) ∧
      ∀ o k i, (σ.heap o).electric k i = (σ.heap o).electric k 0 := by
  have c : ∀ j q, σ.yee.comp j q = σ.yee.comp j 0 := fun j q => by
    have := (hu q).2.1 j 0
    rwa [zero_add] at this
  have h : ∀ o j q, (σ.heap o).comp j q = (σ.heap o).comp j 0 := fun o j q => by
    have := (hu q).2.2 o j 0
    rwa [zero_add] at this
  refine ⟨fun s p q => ?_, fun k i => ?_, fun k i => ?_, fun o k i => ?_⟩
  · have := (hu q).1 s p 0
    rwa [zero_add] at this
  · fin_cases k
    exacts [c 0 i, c 1 i, c 2 i]
  · fin_cases k
    exacts [c 3 i, c 4 i, c 5 i]
  · fin_cases k
    exacts [h o 0 i, h o 1 i, h o 2 i]

/-- One step of a uniform plasma: the field on the grid, the field handed out and the magnetic field. -/
theorem uniform_step (R : VlasovMaxwellRun c m cor src poisson hyb ini dt st) {r : Recon} (hr : reconMethod c.reconstructionInQ = .ok r)
    (hu : ∀ t, InvariantAlong t (st 0).1 (st 0).2) (n : ℕ) {fh : Dist S (PIdx N1 N2 N3) Q K} (hh : HalfWay c m cor src poisson hyb (dt n) (st n) fh) :
    (∀ s p q, fh s p q = fh s p 0) ∧ (∀ k i, currentDensity c (fun _ => fh) k i = currentDensity c (fun _ => fh) k 0) ∧
    (∀ k i, (st (n + 1)).2.yee.electric k i = (st n).2.yee.electric k i - dt n / c.eps * currentDensity c (fun _ => fh) k i) ∧
    (∀ k i, ((st (n + 1)).2.heap (st (n + 1)).2.cc).electric k i =
      (((st n).2.heap (st n).2.cc).electric k i + (st (n + 1)).2.yee.electric k i) / 2) ∧
    (∀ k i, (st (n + 1)).2.yee.magnetic k i = (st n).2.yee.magnetic k i) := by
  obtain ⟨r0, h0, hf⟩ := hh
  obtain ⟨uf, uE, uB, -⟩ := uniform_value (R.uniform hu n)
  obtain ⟨-, uE', -, -⟩ := uniform_value (R.uniform hu (n + 1))
  have ufh : ∀ s p q, fh s p q = fh s p 0 := by
    intro s p q
    simp only [hf]
    rw [uf, half_step_uniform R.dynamic (R.uniform hu n) (fun t => C69_nonrelativistic_callbacks _ _ _ _ _ _) h0 s p q]
  have uJ : ∀ k i, currentDensity c (fun _ => fh) k i = currentDensity c (fun _ => fh) k 0 := by
    intro k i
    simp only [currentDensity, ufh]
  refine ⟨ufh, uJ, fun k i => ?_, fun k i => ?_, fun k i => ?_⟩
  · obtain ⟨r0', h0', e⟩ := C71_uniform ⟨R.dynamic, R.kinetic⟩ hr (R.boundary n).flag (R.step n) (R.uniform hu n)
      (fun t _ => C69_nonrelativistic_callbacks _ _ _ _ _ _)
    rw [h0] at h0'
    cases h0'
    rw [e, uE k i, uJ]
    simp only [currentDensity, hf]
  · obtain ⟨a1, a2, a3⟩ := handed_out_step c R.dynamic poisson hyb _ _ _ _ (R.boundary n) (R.step n) i
    fin_cases k
    · have b : ∀ j, (st (n + 1)).2.yee.E1 j = (st (n + 1)).2.yee.E1 0 := uE' 0
      refine a1.trans ?_
      change _ = (((st n).2.heap (st n).2.cc).E1 i + (st (n + 1)).2.yee.E1 i) / 2
      rw [b i, b (i + _)]
      ring
    · have b : ∀ j, (st (n + 1)).2.yee.E2 j = (st (n + 1)).2.yee.E2 0 := uE' 1
      refine a2.trans ?_
      change _ = (((st n).2.heap (st n).2.cc).E2 i + (st (n + 1)).2.yee.E2 i) / 2
      rw [b i, b (i + _)]
      ring
    · exact a3
  · obtain ⟨-, -, -, hB⟩ := C71_step ⟨R.dynamic, R.kinetic⟩ hr (R.boundary n).flag (R.step n)
    rw [hB]
    have : curlOfE c.ax.q1 c.ax.q2 c.dq1 c.dq2 (st (n + 1)).2.yee.electric k i = 0 := by
      fin_cases k <;> simp [curlOfE, uE' _ i, uE' _ (i - _)]
    rw [this, mul_zero, sub_zero]

/-- **C109 (a uniform plasma).** If particles and fields do not depend on the position, then the energy of particles and fields together changes in a step by the
numerical heating and by half the power, on the current of the particles, of the difference between the electric field handed out before the step and that of the grid.
The scheme conserves energy only if these cancel. -/
theorem C109_uniform (R : VlasovMaxwellRun c m cor src poisson hyb ini dt st) {r : Recon} (hr : reconMethod c.reconstructionInQ = .ok r)
    (hu : ∀ t, InvariantAlong t (st 0).1 (st 0).2) (n : ℕ) (hf : Confined c 2 (st n).1) :
    ∃ fh, HalfWay c m cor src poisson hyb (dt n) (st n) fh ∧
      (let energy := fun n => kineticEnergy c m (st n).1 + fieldEnergy c.eps c.mu (st n).2.yee.electric (st n).2.yee.magnetic (st n).2.yee.magnetic
       let seen := fun n => (getFields c.fieldsSolver "FVM" (st n).2).1
       energy (n + 1) = energy n + dt n * (power (currentDensity c fun _ => fh) (fun k i => ((seen n).electric k i - (st n).2.yee.electric k i) / 2)
        + numericalHeating c m fh (seen (n + 1)).electric (seen (n + 1)).magnetic)) := by
  obtain ⟨fh, hh, h⟩ := C109_particles R n hf
  refine ⟨fh, hh, ?_⟩
  obtain ⟨-, -, hE, ho, hB⟩ := uniform_step R hr hu n hh
  simp only [R.seen] at h ⊢
  rw [h]
  have e : fieldEnergy c.eps c.mu (st (n + 1)).2.yee.electric (st (n + 1)).2.yee.magnetic (st (n + 1)).2.yee.magnetic =
      fieldEnergy c.eps c.mu (st n).2.yee.electric (st n).2.yee.magnetic (st n).2.yee.magnetic
      - dt n * power (currentDensity c fun _ => fh) (fun k i => ((st n).2.yee.electric k i + (st (n + 1)).2.yee.electric k i) / 2) := by
    simp only [fieldEnergy, power, mul_sum, ← sum_sub_distrib]
    refine sum_congr rfl fun i _ => sum_congr rfl fun k _ => ?_
    rw [hB, hE]
    have := R.eps
    field_simp
    ring
  have p : power (currentDensity c fun _ => fh) ((st (n + 1)).2.heap (st (n + 1)).2.cc).electric =
      power (currentDensity c fun _ => fh) (fun k i => ((st n).2.yee.electric k i + (st (n + 1)).2.yee.electric k i) / 2) +
      power (currentDensity c fun _ => fh) (fun k i => (((st n).2.heap (st n).2.cc).electric k i - (st n).2.yee.electric k i) / 2) := by
    simp only [power, ← sum_add_distrib]
    refine sum_congr rfl fun i _ => sum_congr rfl fun k _ => ?_
    rw [ho]
    ring
  rw [e, p]
  ring

/-- What is handed out at first in a uniform plasma is the field of the grid. -/
theorem uniform_start (R : VlasovMaxwellRun c m cor src poisson hyb ini dt st) (hu : ∀ t, InvariantAlong t (st 0).1 (st 0).2) (k : Fin 3) (i : Q) :
    ((st 0).2.heap (st 0).2.cc).electric k i = (st 0).2.yee.electric k i := by
  obtain ⟨-, -, e⟩ := boundary_init c ini _ R.start
  obtain ⟨-, uE, -, -⟩ := uniform_value hu
  rw [e]
  fin_cases k
  · have b : ∀ j, (st 0).2.yee.E1 j = (st 0).2.yee.E1 0 := uE 0
    change (toCentre c.ax.q1 c.ax.q2 .both (st 0).2.yee (st 0).2.yee).E1 i = (st 0).2.yee.E1 i
    simp only [toCentre, b]
    simp
    rw [b (i + _)]
    ring
  · have b : ∀ j, (st 0).2.yee.E2 j = (st 0).2.yee.E2 0 := uE 1
    change (toCentre c.ax.q1 c.ax.q2 .both (st 0).2.yee (st 0).2.yee).E2 i = (st 0).2.yee.E2 i
    simp only [toCentre, b]
    simp
    rw [b (i + _)]
    ring
  · change (toCentre c.ax.q1 c.ax.q2 .both (st 0).2.yee (st 0).2.yee).E3 i = (st 0).2.yee.E3 i
    simp [toCentre]

/-- **C109 (the first step of a uniform plasma).** At the beginning of a run the two fields agree, so that the energy of particles and fields grows by the numerical
heating alone: it never falls, and it rises if a populated momentum cell is accelerated along a resolved axis. -/
theorem C109_first_step (R : VlasovMaxwellRun c m cor src poisson hyb ini dt st) {r : Recon} (hr : reconMethod c.reconstructionInQ = .ok r)
    (hu : ∀ t, InvariantAlong t (st 0).1 (st 0).2) (hf : Confined c 2 (st 0).1) :
    ∃ fh, HalfWay c m cor src poisson hyb (dt 0) (st 0) fh ∧
      (let energy := fun n => kineticEnergy c m (st n).1 + fieldEnergy c.eps c.mu (st n).2.yee.electric (st n).2.yee.magnetic (st n).2.yee.magnetic
       let out := (getFields c.fieldsSolver "FVM" (st 1).2).1
       energy 1 = energy 0 + dt 0 * numericalHeating c m fh out.electric out.magnetic ∧
       ((∀ s p q, 0 ≤ fh s p q) → 0 ≤ dt 0 → energy 0 ≤ energy 1) ∧
       ((∀ s p q, 0 ≤ fh s p q) → 0 < dt 0 → ∀ s p q k, 0 < fh s p q → ![N1, N2, N3] k ≠ 1 →
        lorentz (c.charge s) (m s) (fun j => out.electric j q) (fun j => out.magnetic j q) (fun j => velocity c j s p) k ≠ 0 → energy 0 < energy 1)) := by
  obtain ⟨fh, hh, h⟩ := C109_uniform R hr hu 0 hf
  refine ⟨fh, hh, ?_⟩
  have z : power (currentDensity c fun _ => fh) (fun k i => (((st 0).2.heap (st 0).2.cc).electric k i - (st 0).2.yee.electric k i) / 2) = 0 := by
    simp [power, uniform_start R hu]
  simp only [R.seen, zero_add] at h z ⊢
  rw [z, zero_add] at h
  have dp : ∀ s k, 0 < ![c.dp1 s, c.dp2 s, c.dp3 s] k := by
    intro s k
    obtain ⟨a, b, d⟩ := R.spacing s
    fin_cases k
    exacts [a, b, d]
  have vol : ∀ s, 0 < c.dp1 s * c.dp2 s * c.dp3 s := by
    intro s
    obtain ⟨a, b, d⟩ := R.spacing s
    positivity
  have nn : ∀ s p q k, 0 ≤ (if ![N1, N2, N3] k = 1 then 0 else
      |lorentz (c.charge s) (m s) (fun j => ((st 1).2.heap (st 1).2.cc).electric j q) (fun j => ((st 1).2.heap (st 1).2.cc).magnetic j q)
        (fun j => velocity c j s p) k| * ![c.dp1 s, c.dp2 s, c.dp3 s] k) := by
    intro s p q k
    split_ifs
    · rfl
    · exact mul_nonneg (abs_nonneg _) (dp s k).le
  have term : (∀ s p q, 0 ≤ fh s p q) → ∀ q s p, 0 ≤ 1 / 2 * m s * (∑ k, if ![N1, N2, N3] k = 1 then 0 else
      |lorentz (c.charge s) (m s) (fun j => ((st 1).2.heap (st 1).2.cc).electric j q) (fun j => ((st 1).2.heap (st 1).2.cc).magnetic j q)
        (fun j => velocity c j s p) k| * ![c.dp1 s, c.dp2 s, c.dp3 s] k) * (fh s p q * (c.dp1 s * c.dp2 s * c.dp3 s)) := by
    intro hp q s p
    have := R.mass s
    exact mul_nonneg (mul_nonneg (by positivity) (sum_nonneg fun k _ => nn s p q k)) (mul_nonneg (hp s p q) (vol s).le)
  refine ⟨h, fun hp hd => ?_, fun hp hd s p q k hfp hk hl => ?_⟩
  · rw [h, le_add_iff_nonneg_right]
    exact mul_nonneg hd (sum_nonneg fun q _ => sum_nonneg fun s _ => sum_nonneg fun p _ => term hp q s p)
  · rw [h, lt_add_iff_pos_right]
    refine mul_pos hd (sum_pos' (fun q _ => sum_nonneg fun s _ => sum_nonneg fun p _ => term hp q s p) ⟨q, mem_univ _, ?_⟩)
    refine sum_pos' (fun s _ => sum_nonneg fun p _ => term hp q s p) ⟨s, mem_univ _, ?_⟩
    refine sum_pos' (fun p _ => term hp q s p) ⟨p, mem_univ _, ?_⟩
    have := R.mass s
    refine mul_pos (mul_pos (by positivity) (sum_pos' (fun k _ => nn s p q k) ⟨k, mem_univ _, ?_⟩)) (mul_pos hfp (vol s))
    rw [if_neg hk]
    exact mul_pos (abs_pos.mpr hl) (dp s k)

end Bolt
