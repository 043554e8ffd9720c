import Verif.Props.Energy
import Verif.Proofs.Oscillation
import Verif.Spec.Oscillation
import Mathlib.Analysis.Calculus.MeanValue
import Mathlib.Analysis.Calculus.Deriv.Pow
import Mathlib.Analysis.Calculus.Deriv.Add
import Mathlib.Analysis.Calculus.Deriv.Mul

/-!
# C110: oscillations of a uniform plasma
-/

set_option linter.unusedSectionVars false

namespace Bolt

open Finset

section general
variable {S Q K : Type} [AddCommGroup Q] [Field K] [LinearOrder K] [IsStrictOrderedRing K] [Fintype S] [Fintype Q]
  {N1 N2 N3 : ℕ} [NeZero N1] [NeZero N2] [NeZero N3]
  {c : CoupledConfig S (PIdx N1 N2 N3) Q K} {m : S → K} {cor : PCoords S (PIdx N1 N2 N3) K}
  {src : (S → PIdx N1 N2 N3 → K) → S → PIdx N1 N2 N3 → K} {poisson : (S → Q → K) → FieldState Q K → FieldState Q K} {hyb : S} {ini : InitFns Q K}
  {dt : ℕ → K} {st : ℕ → Dist S (PIdx N1 N2 N3) Q K × FieldState Q K}

/-- The rates of change of the number of particles and of the current, in all. -/
theorem slope_totals (hax : MomentumAxes c.ax) (hdp : ∀ s, c.dp1 s ≠ 0 ∧ c.dp2 s ≠ 0 ∧ c.dp3 s ≠ 0)
    (hp : c.solverMethodInP = "FVM" ∧ c.fieldsEnabled = true) (hsrc : c.sourceEnabled = false)
    (hr : c.reconstructionInP = "piecewise-constant") {s1 s2 s3 : S → K} (hco : c.coords = centres c.toFVMConfig s1 s2 s3)
    (F : EM Q K) (hB : ∀ k i, F.magnetic k i = 0) (C1 C2 : Dist S (PIdx N1 N2 N3) Q K) (source) {f k : Dist S (PIdx N1 N2 N3) Q K}
    (hk : dfdtFVM c.ax c.toFVMConfig ⟨C1, C2, (nonrelCallbacks c.charge m c.coords cor src).Cp1 F, (nonrelCallbacks c.charge m c.coords cor src).Cp2 F,
      (nonrelCallbacks c.charge m c.coords cor src).Cp3 F, source⟩ f = .ok k) :
    (∀ s, ∑ q, ∑ p, k s p q = 0) ∧ ∀ j, ClearOfEdges j 1 f → ∑ q, currentDensity c (fun _ => k) j q =
      ∑ q, ∑ s, c.charge s ^ 2 / m s * (∑ p, f s p q * (c.dp1 s * c.dp2 s * c.dp3 s)) * F.electric j q := by
  obtain ⟨a, b, h1, h2, h3⟩ := dfdtFVM_ok hk
  have ha : ∀ s p, ∑ q, a s p q = 0 := by
    intro s p
    rcases h2 with ⟨_, m, _, h⟩ | ⟨_, h⟩
    · simp [h, hsrc, sum_dfdtQ]
    · simp [h]
  have hb : ∀ s p q, b s p q = dfdtP c.ax .piecewiseConstant c.dp1 c.dp2 c.dp3 ((nonrelCallbacks c.charge m c.coords cor src).Cp1 F)
      ((nonrelCallbacks c.charge m c.coords cor src).Cp2 F) ((nonrelCallbacks c.charge m c.coords cor src).Cp3 F) f s p q := by
    intro s p q
    rcases h3 with ⟨_, m, hm', h⟩ | ⟨hn, _⟩
    · rw [hr] at hm'
      cases hm'
      exact h s p q
    · exact absurd hp hn
  have wt : ∀ s (w : PIdx N1 N2 N3 → K), ∑ q, ∑ p, k s p q * w p = ∑ q, ∑ p, b s p q * w p := by
    intro s w
    have : ∑ q, (∑ p, a s p q * w p) = 0 := by
      rw [sum_comm]
      exact sum_eq_zero fun p _ => by rw [← sum_mul, ha, zero_mul]
    simp only [h1, add_mul, sum_add_distrib]
    rw [this, zero_add]
  refine ⟨fun s => ?_, fun j hj => ?_⟩
  · have := wt s (fun _ => 1)
    simp only [mul_one] at this
    rw [this]
    simp only [hb, sum_dfdtP, sum_const_zero]
  · have hv : ∀ s p, velocity c j s p = cellVelocity (centres c.toFVMConfig s1 s2 s3) s p j := by
      intro s p
      rw [← hco]
      fin_cases j <;> rfl
    have e1 : ∑ q, currentDensity c (fun _ => k) j q = ∑ s, c.charge s * (c.dp1 s * c.dp2 s * c.dp3 s) * ∑ q, ∑ p, k s p q * velocity c j s p := by
      simp only [currentDensity]
      rw [sum_comm]
      refine sum_congr rfl fun s _ => ?_
      simp only [mul_sum]
      exact sum_congr rfl fun q _ => sum_congr rfl fun p _ => by ring
    rw [e1]
    simp only [wt, hb]
    have key := fun s q => (moments_dfdtP (cfg := c.toFVMConfig) (ax := c.ax) s1 s2 s3 c.charge m cor
      (fun _ => ![F.E1, F.E2, F.E3, F.B1, F.B2, F.B3]) hax hdp (C1 := (nonrelCallbacks c.charge m c.coords cor src).Cp1 F)
      (C2 := (nonrelCallbacks c.charge m c.coords cor src).Cp2 F) (C3 := (nonrelCallbacks c.charge m c.coords cor src).Cp3 F)
      (by rw [hco]; rfl) f s q j hj).1
    simp only [hv, key]
    rw [sum_comm (s := univ (α := Q))]
    refine sum_congr rfl fun s _ => ?_
    simp only [mul_sum]
    refine sum_congr rfl fun q _ => ?_
    rw [sum_mul]
    refine sum_congr rfl fun p _ => ?_
    have z : ∀ k : Fin 3, F.magnetic k q = 0 := fun k => hB k q
    have z1 : F.B1 q = 0 := z 0
    have z2 : F.B2 q = 0 := z 1
    have z3 : F.B3 q = 0 := z 2
    have : lorentz (c.charge s) (m s) (fieldE (fun _ => ![F.E1, F.E2, F.E3, F.B1, F.B2, F.B3]) j q)
        (fieldB (fun _ => ![F.E1, F.E2, F.E3, F.B1, F.B2, F.B3]) j q) (cellVelocity (centres c.toFVMConfig s1 s2 s3) s p) j =
        c.charge s / m s * F.electric j q := by
      fin_cases j <;> simp [lorentz, fieldE, fieldB, z1, z2, z3] <;> exact Or.inl rfl
    rw [this]
    ring

theorem sum_uniform [CharZero K] {x y : Q → K} (hx : ∀ q, x q = x 0) (hy : ∀ q, y q = y 0) (h : ∑ q, x q = ∑ q, y q) : x 0 = y 0 := by
  rw [sum_congr rfl fun q _ => hx q, sum_congr rfl fun q _ => hy q, sum_const, sum_const, nsmul_eq_mul, nsmul_eq_mul] at h
  refine mul_left_cancel₀ ?_ h
  rw [Nat.cast_ne_zero, Ne, card_eq_zero]
  exact (univ_nonempty_iff.mpr ⟨0⟩).ne_empty

theorem currentDensity_add (c : CoupledConfig S (PIdx N1 N2 N3) Q K) (f k : Dist S (PIdx N1 N2 N3) Q K) (a : K) (j : Fin 3) (i : Q) :
    currentDensity c (fun _ s p q => f s p q + k s p q * a) j i = currentDensity c (fun _ => f) j i + a * currentDensity c (fun _ => k) j i := by
  simp only [currentDensity, mul_sum, ← sum_add_distrib]
  exact sum_congr rfl fun s _ => sum_congr rfl fun p _ => by ring

/-- The two slopes of a step and the fields they see. -/
theorem step_slopes (R : VlasovMaxwellRun c m cor src poisson hyb ini dt st) (n : ℕ) :
    ∃ k0 k1 : Dist S (PIdx N1 N2 N3) Q K,
      (let cb := nonrelCallbacks c.charge m c.coords cor src
       let F0 := (st n).2.heap (st n).2.cc
       let F1 := (st (n + 1)).2.heap (st (n + 1)).2.cc
       dfdtFVM c.ax c.toFVMConfig ⟨cb.Cq1, cb.Cq2, cb.Cp1 F0, cb.Cp2 F0, cb.Cp3 F0, cb.source⟩ (st n).1 = .ok k0 ∧
       dfdtFVM c.ax c.toFVMConfig ⟨cb.Cq1, cb.Cq2, cb.Cp1 F1, cb.Cp2 F1, cb.Cp3 F1, cb.source⟩
        (fun s p q => (st n).1 s p q + k0 s p q * (dt n / 2)) = .ok k1) ∧
      HalfWay c m cor src poisson hyb (dt n) (st n) (fun s p q => (st n).1 s p q + k0 s p q * (dt n / 2)) ∧
      (st (n + 1)).1 = fun s p q => (st n).1 s p q + k1 s p q * dt n := by
  have hp : c.solverMethodInP = "FVM" ∧ c.fieldsEnabled = true := ⟨R.dynamic.2.1, R.dynamic.2.2.1⟩
  obtain ⟨r0, r1, h0, h1, e⟩ := stepCoupled_ok (R.step n)
  have hne : ¬ (c.fieldsType = "electrostatic" ∧ c.fieldsSolver = "fft") := by rw [R.dynamic.2.2.2]; simp
  obtain ⟨σ1, σ2, u, a, b, d⟩ := dfdtCoupled_ok hp h0
  obtain ⟨τ1, τ2, -, a', b', d'⟩ := dfdtCoupled_ok hp h1
  rw [if_neg hne] at a
  subst a
  have eσ : σ2 = (st n).2 := by
    rcases u with ⟨_, hf, _⟩ | ⟨_, e⟩
    · rw [(R.boundary n).flag] at hf; cases hf
    · exact e
  subst eσ
  have al0 := (R.boundary n).aliased
  have al := aliased_step c R.dynamic poisson _ hyb _ _ _ _ _ h1 (aliased_step c R.dynamic poisson _ hyb _ _ _ _ _ h0 al0)
  rw [b'] at al
  have g : ∀ (τ : FieldState Q K), Aliased τ → ∀ b, (getFields c.fieldsSolver "FVM" { τ with flag := b }).1 = τ.heap τ.cc := by
    intro τ al b
    simp only [getFields]
    split_ifs
    · rfl
    · rw [show τ.cc = τ.atN from al.1]
    · rw [show τ.cc = τ.atHalf from al.2]
  have g' : ∀ (τ : FieldState Q K), Aliased τ → (getFields c.fieldsSolver "FVM" τ).1 = τ.heap τ.cc := fun τ al => g τ al τ.flag
  rw [g' _ al0, g _ al0] at d
  rw [g' τ2 al, g τ2 al] at d'
  have hs : (st (n + 1)).2.heap (st (n + 1)).2.cc = τ2.heap τ2.cc := by rw [e]; simp only [b']
  refine ⟨r0.1, r1.1, ⟨d, ?_⟩, ⟨r0, h0, rfl⟩, by rw [e]⟩
  rw [hs]
  exact d'

/-- Without a magnetic field initially, a uniform plasma never has one. -/
theorem no_magnetic (R : VlasovMaxwellRun c m cor src poisson hyb ini dt st) {r : Recon} (hr : reconMethod c.reconstructionInQ = .ok r)
    (hu : ∀ t, InvariantAlong t (st 0).1 (st 0).2) (hB : ∀ k i, (st 0).2.yee.magnetic k i = 0) (n : ℕ) :
    (∀ k i, (st n).2.yee.magnetic k i = 0) ∧ ∀ k i, ((st n).2.heap (st n).2.cc).magnetic k i = 0 := by
  have y : ∀ k i, (st n).2.yee.magnetic k i = 0 := by
    induction n with
    | zero => exact hB
    | succ n ih =>
      obtain ⟨k0, k1, -, hh, -⟩ := step_slopes R n
      intro k i
      rw [(uniform_step R hr hu n hh).2.2.2.2 k i, ih]
  refine ⟨y, fun k i => ?_⟩
  have hb := R.boundary n
  have y1 : ∀ i, (st n).2.yee.B1 i = 0 := y 0
  have y2 : ∀ i, (st n).2.yee.B2 i = 0 := y 1
  have y3 : ∀ i, (st n).2.yee.B3 i = 0 := y 2
  fin_cases k
  · refine (congrFun hb.B1 i).trans ?_
    simp [toCentre, y1]
  · refine (congrFun hb.B2 i).trans ?_
    simp [toCentre, y2]
  · refine (congrFun hb.B3 i).trans ?_
    simp [toCentre, y3]

/-- The number density of each species in a uniform plasma is constant. -/
theorem uniform_density (R : VlasovMaxwellRun c m cor src poisson hyb ini dt st) {r : Recon} (hr : reconMethod c.reconstructionInQ = .ok r)
    (hu : ∀ t, InvariantAlong t (st 0).1 (st 0).2) (hB : ∀ k i, (st 0).2.yee.magnetic k i = 0) (n : ℕ) (s : S) :
    ∑ p, (st n).1 s p 0 = ∑ p, (st 0).1 s p 0 ∧ ∀ fh, HalfWay c m cor src poisson hyb (dt n) (st n) fh → ∑ p, fh s p 0 = ∑ p, (st 0).1 s p 0 := by
  have hp : c.solverMethodInP = "FVM" ∧ c.fieldsEnabled = true := ⟨R.dynamic.2.1, R.dynamic.2.2.1⟩
  have hdp : ∀ s, c.dp1 s ≠ 0 ∧ c.dp2 s ≠ 0 ∧ c.dp3 s ≠ 0 := fun s => ⟨(R.spacing s).1.ne', (R.spacing s).2.1.ne', (R.spacing s).2.2.ne'⟩
  obtain ⟨s1, s2, s3, hco⟩ := R.grid
  have uni : ∀ n, ∀ q, ∑ p, (st n).1 s p q = ∑ p, (st n).1 s p 0 := fun n q =>
    sum_congr rfl fun p _ => (uniform_value (R.uniform hu n)).1 s p q
  have step : ∀ n, ∑ p, (st (n + 1)).1 s p 0 = ∑ p, (st n).1 s p 0 ∧
      ∀ fh, HalfWay c m cor src poisson hyb (dt n) (st n) fh → ∑ p, fh s p 0 = ∑ p, (st n).1 s p 0 := by
    intro n
    obtain ⟨k0, k1, ⟨d0, d1⟩, hh, e⟩ := step_slopes R n
    have t0 := (slope_totals R.axes hdp hp R.collisionless R.firstOrder hco _ (no_magnetic R hr hu hB n).2 _ _ _ d0).1 s
    have t1 := (slope_totals R.axes hdp hp R.collisionless R.firstOrder hco _ (no_magnetic R hr hu hB (n + 1)).2 _ _ _ d1).1 s
    have lin : ∀ (k : Dist S (PIdx N1 N2 N3) Q K) (a : K), ∑ q, ∑ p, k s p q = 0 →
        ∑ q, ∑ p, ((st n).1 s p q + k s p q * a) = ∑ q, ∑ p, (st n).1 s p q := by
      intro k a hk
      simp only [sum_add_distrib, ← sum_mul, hk, zero_mul, add_zero]
    constructor
    · refine sum_uniform (uni (n + 1)) (uni n) ?_
      rw [e]
      exact lin k1 _ t1
    · rintro fh hfh
      have : fh = fun s p q => (st n).1 s p q + k0 s p q * (dt n / 2) := by
        obtain ⟨r, hr, e1⟩ := hfh
        obtain ⟨r', hr', e2⟩ := hh
        rw [hr] at hr'
        cases hr'
        rw [e1, ← e2]
      refine sum_uniform (fun q => sum_congr rfl fun p _ => (uniform_step R hr hu n hfh).1 s p q) (uni n) ?_
      rw [this]
      exact lin k0 _ t0
  have all : ∀ n, ∑ p, (st n).1 s p 0 = ∑ p, (st 0).1 s p 0 := by
    intro n
    induction n with
    | zero => rfl
    | succ n ih => rw [(step n).1, ih]
  exact ⟨all n, fun fh hfh => by rw [(step n).2 fh hfh, all n]⟩

/-- **C110 (the recurrence).** In a uniform plasma without magnetic field, along an axis on which the particles keep clear of the ends of the momentum grid, a step changes the
electric field of the grid by the current at the middle of the step, hands out the mean of what it handed out before and of the new field, and changes
the current by the force of what it hands out; the number density enters by the plasma frequency alone. -/
theorem C110_recurrence (R : VlasovMaxwellRun c m cor src poisson hyb ini dt st) {r : Recon} (hr : reconMethod c.reconstructionInQ = .ok r)
    (hu : ∀ t, InvariantAlong t (st 0).1 (st 0).2) (hB : ∀ k i, (st 0).2.yee.magnetic k i = 0) (n : ℕ) (k : Fin 3) (hk : ClearOfEdges k 2 (st n).1)
    (i : Q) :
    let W := plasmaFrequencySq c m (st 0).1
    let E := fun n => (st n).2.yee.electric k i
    let seen := fun n => (getFields c.fieldsSolver "FVM" (st n).2).1.electric k i
    let J := fun n => currentDensity c (fun _ => (st n).1) k i
    E (n + 1) = E n - dt n / c.eps * (J n + dt n / 2 * (c.eps * W) * seen n) ∧
    seen (n + 1) = (seen n + E (n + 1)) / 2 ∧
    J (n + 1) = J n + dt n * (c.eps * W) * seen (n + 1) := by
  intro W E seen J
  have hp : c.solverMethodInP = "FVM" ∧ c.fieldsEnabled = true := ⟨R.dynamic.2.1, R.dynamic.2.2.1⟩
  have hdp : ∀ s, c.dp1 s ≠ 0 ∧ c.dp2 s ≠ 0 ∧ c.dp3 s ≠ 0 := fun s => ⟨(R.spacing s).1.ne', (R.spacing s).2.1.ne', (R.spacing s).2.2.ne'⟩
  obtain ⟨s1, s2, s3, hco⟩ := R.grid
  obtain ⟨k0, k1, ⟨d0, d1⟩, hh, e⟩ := step_slopes R n
  obtain ⟨ufh, uJ, hE, ho, -⟩ := uniform_step R hr hu n hh
  have t0 := (slope_totals R.axes hdp hp R.collisionless R.firstOrder hco _ (no_magnetic R hr hu hB n).2 _ _ _ d0).2 k
    (fun s p q h => hk s p q (by omega))
  have clear : ClearOfEdges k 1 (fun s p q => (st n).1 s p q + k0 s p q * (dt n / 2)) := by
    intro s p q hpq
    have z1 := slope_clear R.axes R.collisionless R.firstOrder d0 k hk s p q hpq
    have z2 := hk s p q (by omega)
    simp only [z1, z2]; ring
  have t1 := (slope_totals R.axes hdp hp R.collisionless R.firstOrder hco _ (no_magnetic R hr hu hB (n + 1)).2 _ _ _ d1).2 k clear
  have uf := (uniform_value (R.uniform hu n)).1
  have uf' := (uniform_value (R.uniform hu (n + 1))).1
  have uO := fun n => (uniform_value (R.uniform hu n)).2.2.2 ((st n).2.cc) k
  have uJn : ∀ n q, currentDensity c (fun _ => (st n).1) k q = currentDensity c (fun _ => (st n).1) k 0 := by
    intro n q
    simp only [currentDensity, (uniform_value (R.uniform hu n)).1]
  have dens : ∀ (f : Dist S (PIdx N1 N2 N3) Q K) (F : Q → K) (q : Q), (∀ s p q, f s p q = f s p 0) → (∀ s, ∑ p, f s p 0 = ∑ p, (st 0).1 s p 0) →
      ∑ s, c.charge s ^ 2 / m s * (∑ p, f s p q * (c.dp1 s * c.dp2 s * c.dp3 s)) * F q = c.eps * W * F q := by
    intro f F q hf hs
    simp only [W, plasmaFrequencySq, sum_mul, mul_sum]
    refine sum_congr rfl fun s _ => ?_
    have := R.eps
    have hm := (R.mass s).ne'
    have a1 : ∑ p, f s p q = ∑ p, (st 0).1 s p 0 := by
      rw [← hs s]
      exact sum_congr rfl fun p _ => hf s p q
    simp only [← sum_mul, ← mul_sum, a1]
    field_simp
  have nn := fun s => uniform_density R hr hu hB n s
  simp only [dens _ _ _ uf (fun s => (nn s).1)] at t0
  simp only [dens _ _ _ ufh (fun s => (nn s).2 _ hh)] at t1
  -- current of the slopes
  have j0 : ∀ q, currentDensity c (fun _ s p q => (st n).1 s p q + k0 s p q * (dt n / 2)) k q =
      J n + dt n / 2 * (c.eps * W) * ((st n).2.heap (st n).2.cc).electric k i := by
    have : currentDensity c (fun _ s p q => (st n).1 s p q + k0 s p q * (dt n / 2)) k 0 =
        (fun q => currentDensity c (fun _ => (st n).1) k q + dt n / 2 * (c.eps * W * ((st n).2.heap (st n).2.cc).electric k q)) 0 := by
      refine sum_uniform (y := fun q => currentDensity c (fun _ => (st n).1) k q + dt n / 2 * (c.eps * W * ((st n).2.heap (st n).2.cc).electric k q))
        (uJ k) (fun q => ?_) ?_
      · simp only [uJn n q, uO n q]
      · simp only [currentDensity_add, sum_add_distrib, ← mul_sum, t0]
    intro q
    rw [uJ k q, this]
    simp only [J, uJn n i, uO n i]
    ring
  have j1 : J (n + 1) = J n + dt n * (c.eps * W) * ((st (n + 1)).2.heap (st (n + 1)).2.cc).electric k i := by
    have : currentDensity c (fun _ => (st (n + 1)).1) k 0 =
        (fun q => currentDensity c (fun _ => (st n).1) k q + dt n * (c.eps * W * ((st (n + 1)).2.heap (st (n + 1)).2.cc).electric k q)) 0 := by
      refine sum_uniform (y := fun q => currentDensity c (fun _ => (st n).1) k q
        + dt n * (c.eps * W * ((st (n + 1)).2.heap (st (n + 1)).2.cc).electric k q)) (uJn (n + 1)) (fun q => ?_) ?_
      · simp only [uJn n q, uO (n + 1) q]
      · rw [e]
        simp only [currentDensity_add, sum_add_distrib, ← mul_sum, t1]
    simp only [J]
    rw [uJn (n + 1) i, this]
    simp only [uJn n i, uO (n + 1) i]
    ring
  refine ⟨?_, ?_, ?_⟩
  · simp only [E, seen, R.seen]
    rw [hE k i, j0 i]
  · simp only [E, seen, R.seen]
    rw [ho k i]
  · simp only [seen, R.seen]
    exact j1

/-- A step moves particles by at most two momentum cells. -/
theorem step_clear (R : VlasovMaxwellRun c m cor src poisson hyb ini dt st) (n l : ℕ) (k : Fin 3) (hk : ClearOfEdges k (l + 2) (st n).1) :
    ClearOfEdges k l (st (n + 1)).1 := by
  obtain ⟨k0, k1, ⟨d0, d1⟩, -, e⟩ := step_slopes R n
  have c0 := slope_clear_layers R.axes R.collisionless R.firstOrder d0 k (l + 1) hk
  have ch : ClearOfEdges k (l + 1) (fun s p q => (st n).1 s p q + k0 s p q * (dt n / 2)) := by
    intro s p q hpq
    have z1 := c0 s p q hpq
    have z2 := hk s p q (by omega)
    simp only [z1, z2]; ring
  have c1 := slope_clear_layers R.axes R.collisionless R.firstOrder d1 k l ch
  rw [e]
  intro s p q hpq
  have z1 := c1 s p q hpq
  have z2 := hk s p q (by omega)
  simp only [z1, z2]; ring

theorem run_clear (R : VlasovMaxwellRun c m cor src poisson hyb ini dt st) (k : Fin 3) (n l : ℕ) (hk : ClearOfEdges k (2 * n + l) (st 0).1) :
    ClearOfEdges k l (st n).1 := by
  induction n generalizing l with
  | zero => simpa using hk
  | succ n ih => exact step_clear R n l k (ih (l + 2) (by rwa [show 2 * n + (l + 2) = 2 * (n + 1) + l by ring]))

end general

section real
variable {S Q : Type} [AddCommGroup Q] [Fintype S] [Fintype Q] {N1 N2 N3 : ℕ} [NeZero N1] [NeZero N2] [NeZero N3]

/-- **C110 (plasma oscillations grow at every step size).** Let the square of the step size times that of the plasma frequency be any number `w` up to 4, the limit of stability of the
leapfrog scheme.  Then in a uniform plasma without magnetic field the electric field grows geometrically, by a factor `1 + w / 20` or more in the mean square in each step,
from any initial field or current, for as long as the particles keep clear of the ends of the momentum grid. -/
theorem C110_growth (w : ℝ) (h0 : 0 < w) (h4 : w ≤ 4) : ∃ C : ℝ, 0 < C ∧
    ∀ {c : CoupledConfig S (PIdx N1 N2 N3) Q ℝ} {m : S → ℝ} {cor : PCoords S (PIdx N1 N2 N3) ℝ}
      {src : (S → PIdx N1 N2 N3 → ℝ) → S → PIdx N1 N2 N3 → ℝ} {poisson : (S → Q → ℝ) → FieldState Q ℝ → FieldState Q ℝ} {hyb : S} {ini : InitFns Q ℝ}
      {τ : ℝ} {st : ℕ → Dist S (PIdx N1 N2 N3) Q ℝ × FieldState Q ℝ} (_ : VlasovMaxwellRun c m cor src poisson hyb ini (fun _ => τ) st)
      {r : Recon} (_ : reconMethod c.reconstructionInQ = .ok r)
      (_ : ∀ t, InvariantAlong t (st 0).1 (st 0).2) (_ : ∀ k i, (st 0).2.yee.magnetic k i = 0) (_ : plasmaFrequencySq c m (st 0).1 * τ ^ 2 = w)
      (k : Fin 3) (n : ℕ) (_ : ∀ l < n + 2, ClearOfEdges k 2 (st l).1) (i : Q),
      (let E := fun n => (st n).2.yee.electric k i
       C * (1 + w / 20) ^ n * (E 0 ^ 2 + (τ / c.eps * currentDensity c (fun _ => (st 0).1) k i) ^ 2) ≤ E n ^ 2 + E (n + 1) ^ 2 + E (n + 2) ^ 2) := by
  obtain ⟨C, hC, h⟩ := oscillation_growth w h0 h4
  refine ⟨C, hC, ?_⟩
  intro c m cor src poisson hyb ini τ st R r hr hu hB hw k n hk i
  refine h (fun n => (st n).2.yee.electric k i) (fun n => (getFields c.fieldsSolver "FVM" (st n).2).1.electric k i)
    (fun n => τ / c.eps * currentDensity c (fun _ => (st n).1) k i) (n + 2) (fun l hl => ?_) ?_ n le_rfl
  · obtain ⟨a1, a2, a3⟩ := C110_recurrence R hr hu hB l k (hk l hl) i
    simp only at a1 a2 a3 ⊢
    have he := R.eps
    refine ⟨?_, a2, ?_⟩
    · rw [a1, ← hw]
      field_simp
    · rw [a3, ← hw]
      field_simp
  · change (getFields c.fieldsSolver "FVM" (st 0).2).1.electric k i = _
    rw [R.seen]
    exact uniform_start R hu k i

/-- **C110 (in terms of the initial state alone).** It is enough that all particles are initially `2 n + 4` cells away from the ends of the momentum grid: a step moves them by two cells at most. -/
theorem C110_growth_from_start (w : ℝ) (h0 : 0 < w) (h4 : w ≤ 4) : ∃ C : ℝ, 0 < C ∧
    ∀ {c : CoupledConfig S (PIdx N1 N2 N3) Q ℝ} {m : S → ℝ} {cor : PCoords S (PIdx N1 N2 N3) ℝ}
      {src : (S → PIdx N1 N2 N3 → ℝ) → S → PIdx N1 N2 N3 → ℝ} {poisson : (S → Q → ℝ) → FieldState Q ℝ → FieldState Q ℝ} {hyb : S} {ini : InitFns Q ℝ}
      {τ : ℝ} {st : ℕ → Dist S (PIdx N1 N2 N3) Q ℝ × FieldState Q ℝ} (_ : VlasovMaxwellRun c m cor src poisson hyb ini (fun _ => τ) st)
      {r : Recon} (_ : reconMethod c.reconstructionInQ = .ok r)
      (_ : ∀ t, InvariantAlong t (st 0).1 (st 0).2) (_ : ∀ k i, (st 0).2.yee.magnetic k i = 0) (_ : plasmaFrequencySq c m (st 0).1 * τ ^ 2 = w)
      (k : Fin 3) (n : ℕ) (_ : ClearOfEdges k (2 * n + 4) (st 0).1) (i : Q),
      (let E := fun n => (st n).2.yee.electric k i
       C * (1 + w / 20) ^ n * (E 0 ^ 2 + (τ / c.eps * currentDensity c (fun _ => (st 0).1) k i) ^ 2) ≤ E n ^ 2 + E (n + 1) ^ 2 + E (n + 2) ^ 2) := by
  obtain ⟨C, hC, h⟩ := C110_growth (S := S) (Q := Q) (N1 := N1) (N2 := N2) (N3 := N3) w h0 h4
  refine ⟨C, hC, ?_⟩
  intro c m cor src poisson hyb ini τ st R r hr hu hB hw k n hk i
  refine h R hr hu hB hw k n (fun l hl => run_clear R k l 2 fun s p q hpq => hk s p q ?_) i
  rcases hpq with h | h
  · left; omega
  · right; omega

/-- **C110 (what the scheme approximates).** The equations of the uniform plasma, `dE/dt = -J / eps` and `dJ/dt = eps W E`, conserve `E² + (J / eps)² / W`:
the exact oscillation neither grows nor decays. -/
theorem C110_exact_oscillation (eps W : ℝ) (he : eps ≠ 0) (hW : W ≠ 0) (E J : ℝ → ℝ) (hE : ∀ t, HasDerivAt E (-(J t / eps)) t)
    (hJ : ∀ t, HasDerivAt J (eps * W * E t) t) (t : ℝ) : E t ^ 2 + (J t / eps) ^ 2 / W = E 0 ^ 2 + (J 0 / eps) ^ 2 / W := by
  have d : ∀ t, HasDerivAt (fun t => E t ^ 2 + (J t / eps) ^ 2 / W) 0 t := by
    intro t
    have h := ((hE t).pow 2).add ((((hJ t).div_const eps).pow 2).div_const W)
    have e : ((2 : ℕ) : ℝ) * E t ^ (2 - 1) * -(J t / eps) + ((2 : ℕ) : ℝ) * (J t / eps) ^ (2 - 1) * (eps * W * E t / eps) / W = 0 := by
      simp only [Nat.cast_ofNat, Nat.add_one_sub_one, pow_one]
      field_simp
      ring
    rw [e] at h
    exact h
  exact is_const_of_deriv_eq_zero (fun t => (d t).differentiableAt) (fun t => (d t).deriv) t 0

end real

end Bolt
