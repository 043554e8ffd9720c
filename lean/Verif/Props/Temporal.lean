import Verif.Proofs.Temporal
import Mathlib.Analysis.Calculus.Deriv.Inv
import Mathlib.Topology.Algebra.Module.FiniteDimension
import Mathlib.LinearAlgebra.Matrix.ToLin

/-!
# C32-C36: Runge-Kutta steps, operator splitting, time bookkeeping and dispatch
-/

namespace Bolt

set_option linter.unusedSectionVars false

open Asymptotics Topology

/-! ## C32 -/

/-- **C32.** On every smooth autonomous system, in any normed space, one step of `RK2`, `RK4`, `RK5`
started on a solution stays on it up to `O(dt^3)`, `O(dt^5)`, `O(dt^6)`: the methods have orders 2, 4, 5. -/
theorem C32_order_of_accuracy :
    HasOrder 2 (fun {E} _ _ F x dt => integratorRK2 (K := ℝ) (V := E) F x dt) ∧
    HasOrder 4 (fun {E} _ _ F x dt => integratorRK4 (K := ℝ) (V := E) F x dt) ∧
    HasOrder 5 (fun {E} _ _ F x dt => integratorRK5 (K := ℝ) (V := E) F x dt) :=
  ⟨rk2_order, rk4_order, rk5_order⟩

/-- A nonlinear system and a solution meeting the hypotheses of `HasOrder`: `y' = y^2`, `y t = 1/(1-t)`. -/
example : ContDiffAt ℝ 5 (fun x : ℝ => x ^ 2) ((fun t : ℝ => (1 - t)⁻¹) 0) ∧
    ∀ᶠ t in 𝓝 (0 : ℝ), HasDerivAt (fun t : ℝ => (1 - t)⁻¹) ((fun x : ℝ => x ^ 2) ((1 - t)⁻¹)) t := by
  refine ⟨by fun_prop, ?_⟩
  have h : ∀ᶠ t in 𝓝 (0 : ℝ), (1 : ℝ) - t ≠ 0 := by
    have : Continuous fun t : ℝ => (1 : ℝ) - t := by fun_prop
    exact this.continuousAt.eventually_ne (by norm_num)
  filter_upwards [h] with t ht
  have h1 : HasDerivAt (fun t : ℝ => 1 - t) (-1) t := by
    simpa using (hasDerivAt_id t).const_sub 1
  have h2 := h1.inv ht
  exact h2.congr_deriv (by rw [neg_neg, inv_pow, one_div])

/-- **C32.** On a linear problem `x' = A x` one step multiplies by the Taylor polynomial of the
exponential: exactly of degree 2 and 4 for `RK2` and `RK4`; for `RK5` of degree 5 plus a multiple of the
sixth power. -/
theorem C32_linear_amplification {K V : Type} [Field K] [CharZero K] [AddCommGroup V] [Module K V]
    (A : V →ₗ[K] V) (x : V) (dt : K) :
    integratorRK2 A x dt = ∑ k ∈ Finset.range 3, (dt ^ k / (k.factorial : K)) • (A ^ k) x ∧
    integratorRK4 A x dt = ∑ k ∈ Finset.range 5, (dt ^ k / (k.factorial : K)) • (A ^ k) x ∧
    integratorRK5 A x dt = ∑ k ∈ Finset.range 6, (dt ^ k / (k.factorial : K)) • (A ^ k) x
      + (dt ^ 6 / 2080) • (A ^ 6) x := by
  refine ⟨?_, ?_, ?_⟩
  · rw [rk2_linear]
    simp [Finset.sum_range_succ, Nat.factorial, pow_succ', Module.End.mul_apply]
  · rw [rk4_linear]
    simp [Finset.sum_range_succ, Nat.factorial, pow_succ', Module.End.mul_apply]
  · rw [rk5_linear]
    simp [Finset.sum_range_succ, Nat.factorial, pow_succ', Module.End.mul_apply]

/-- A steady state is left unchanged and a constant slope is integrated exactly, whatever the step. -/
theorem C32_constant_slope {K V : Type} [Field K] [CharZero K] [AddCommGroup V] [Module K V] (c x : V)
    (dt : K) :
    integratorRK2 (fun _ => c) x dt = x + dt • c ∧ integratorRK4 (fun _ => c) x dt = x + dt • c ∧
      integratorRK5 (fun _ => c) x dt = x + dt • c := by
  refine ⟨?_, ?_, ?_⟩
  · simp only [integratorRK2]
  · simp only [integratorRK4]
    module
  · simp only [integratorRK5]
    module

/-- Linear invariants of the slope are kept: if `ℓ (F x) = 0` for all `x` (e.g. a conserved total), a step
of any of the three methods keeps `ℓ`. -/
theorem C32_linear_invariants {K V M : Type} [Field K] [CharZero K] [AddCommGroup V] [Module K V]
    [AddCommGroup M] [Module K M] (F : V → V) (l : V →ₗ[K] M) (hl : ∀ x, l (F x) = 0) (x : V) (dt : K) :
    l (integratorRK2 F x dt) = l x ∧ l (integratorRK4 F x dt) = l x ∧ l (integratorRK5 F x dt) = l x := by
  refine ⟨?_, ?_, ?_⟩ <;>
    simp only [integratorRK2, integratorRK4, integratorRK5, map_add, map_sub, map_smul, hl, smul_zero,
      add_zero, sub_zero]

/-! ## C33 -/

section Split

variable {K V W R : Type} [Field K] [CharZero K] [AddCommGroup V] [Module K V] [AddCommGroup W] [Module K W]

/-- The operator always succeeds and changes the distribution function by `φ`, whatever the rest of the
solver object holds. -/
def ActsOnF (op : SplitOp K V W R) (φ : K → V → V) : Prop :=
  ∀ dt s, ∃ s', op dt s = .ok s' ∧ s'.f = φ dt s.f

/-- The operator always succeeds and changes distribution function and fields together by `φ`, whatever the
rest of the solver object holds. -/
def ActsOnFEM (op : SplitOp K V W R) (φ : K → V × W → V × W) : Prop :=
  ∀ dt s, ∃ s', op dt s = .ok s' ∧ (s'.f, s'.em) = φ dt (s.f, s.em)

omit [CharZero K] in
/-- **C33.** Without fields: each scheme applies the two operators in the advertised combination. -/
theorem C33_composition (op1 op2 : SplitOp K V W R) (φ ψ : K → V → V) (h1 : ActsOnF op1 φ)
    (h2 : ActsOnF op2 ψ) :
    ActsOnF (splitLie false op1 op2) (lieAdvertised φ ψ) ∧
    ActsOnF (splitStrang false op1 op2) (strangAdvertised φ ψ) ∧
    ActsOnF (splitSwss false op1 op2) (swssAdvertised φ ψ) ∧
    ActsOnF (splitJia false op1 op2) (jiaAdvertised φ ψ) := by
  have lie : ∀ (o1 o2 : SplitOp K V W R) (φ ψ : K → V → V), ActsOnF o1 φ → ActsOnF o2 ψ →
      ActsOnF (splitLie false o1 o2) (lieAdvertised φ ψ) := by
    intro o1 o2 φ ψ h1 h2 dt s
    obtain ⟨s1, e1, f1⟩ := h1 dt s
    obtain ⟨s2, e2, f2⟩ := h2 dt s1
    exact ⟨s2, by simp [splitLie, e1, e2, bind, Except.bind], by rw [f2, f1]; rfl⟩
  have strang : ∀ (o1 o2 : SplitOp K V W R) (φ ψ : K → V → V), ActsOnF o1 φ → ActsOnF o2 ψ →
      ActsOnF (splitStrang false o1 o2) (strangAdvertised φ ψ) := by
    intro o1 o2 φ ψ h1 h2 dt s
    obtain ⟨s1, e1, f1⟩ := h1 (dt / 2) s
    obtain ⟨s2, e2, f2⟩ := h2 dt s1
    obtain ⟨s3, e3, f3⟩ := h1 (dt / 2) s2
    exact ⟨s3, by simp [splitStrang, e1, e2, e3, bind, Except.bind], by rw [f3, f2, f1]; rfl⟩
  have swss : ActsOnF (splitSwss false op1 op2) (swssAdvertised φ ψ) := by
    intro dt s
    obtain ⟨s1, e1, f1⟩ := h1 dt s
    obtain ⟨s2, e2, f2⟩ := h2 dt s1
    obtain ⟨s3, e3, f3⟩ := h2 dt (restoreStart false s s2)
    obtain ⟨s4, e4, f4⟩ := h1 dt s3
    refine ⟨{ f := (1 / 2 : K) • (s4.f + s2.f), em := s4.em, rest := s4.rest }, ?_, ?_⟩
    · simp [splitSwss, e1, e2, e3, e4, bind, Except.bind, pure, Except.pure]
    · show (1 / 2 : K) • (s4.f + s2.f) = _
      rw [f4, f3, f2, f1, add_comm]
      rfl
  refine ⟨lie _ _ _ _ h1 h2, strang _ _ _ _ h1 h2, swss, ?_⟩
  intro dt s
  obtain ⟨i1, e1, f1⟩ := strang _ _ _ _ h1 h2 dt s
  obtain ⟨i2, e2, f2⟩ := strang _ _ _ _ h2 h1 dt (restoreStart false s i1)
  obtain ⟨r, e3, f3⟩ := swss dt (restoreStart false s i2)
  refine ⟨{ r with f := (2 / 3 : K) • (i1.f + i2.f) - (1 / 3 : K) • r.f }, ?_, ?_⟩
  · simp [splitJia, e1, e2, e3, bind, Except.bind, pure, Except.pure]
  · show (2 / 3 : K) • (i1.f + i2.f) - (1 / 3 : K) • r.f = _
    rw [f1, f2, f3]
    rfl

omit [CharZero K] in
/-- **C33.** With fields: the Lie, Strang and symmetrically weighted schemes apply the advertised
combination to distribution function and fields together; Jia's scheme raises `AttributeError`. -/
theorem C33_composition_fields (op1 op2 : SplitOp K V W R) (φ ψ : K → V × W → V × W)
    (h1 : ActsOnFEM op1 φ) (h2 : ActsOnFEM op2 ψ) :
    ActsOnFEM (splitLie true op1 op2) (lieAdvertised φ ψ) ∧
    ActsOnFEM (splitStrang true op1 op2) (strangAdvertised φ ψ) ∧
    ActsOnFEM (splitSwss true op1 op2) (swssAdvertised φ ψ) ∧
    ∀ dt s, splitJia true op1 op2 dt s = .error .attributeError := by
  have lie : ActsOnFEM (splitLie true op1 op2) (lieAdvertised φ ψ) := by
    intro dt s
    obtain ⟨s1, e1, f1⟩ := h1 dt s
    obtain ⟨s2, e2, f2⟩ := h2 dt s1
    exact ⟨s2, by simp [splitLie, e1, e2, bind, Except.bind], by rw [f2, f1]; rfl⟩
  have strang : ∀ (o1 o2 : SplitOp K V W R) (φ ψ : K → V × W → V × W), ActsOnFEM o1 φ → ActsOnFEM o2 ψ →
      ActsOnFEM (splitStrang true o1 o2) (strangAdvertised φ ψ) := by
    intro o1 o2 φ ψ h1 h2 dt s
    obtain ⟨s1, e1, f1⟩ := h1 (dt / 2) s
    obtain ⟨s2, e2, f2⟩ := h2 dt s1
    obtain ⟨s3, e3, f3⟩ := h1 (dt / 2) s2
    exact ⟨s3, by simp [splitStrang, e1, e2, e3, bind, Except.bind], by rw [f3, f2, f1]; rfl⟩
  have swss : ActsOnFEM (splitSwss true op1 op2) (swssAdvertised φ ψ) := by
    intro dt s
    obtain ⟨s1, e1, f1⟩ := h1 dt s
    obtain ⟨s2, e2, f2⟩ := h2 dt s1
    obtain ⟨s3, e3, f3⟩ := h2 dt (restoreStart true s s2)
    obtain ⟨s4, e4, f4⟩ := h1 dt s3
    refine ⟨{ f := (1 / 2 : K) • (s4.f + s2.f), em := (1 / 2 : K) • (s4.em + s2.em), rest := s4.rest },
      ?_, ?_⟩
    · simp [splitSwss, e1, e2, e3, e4, bind, Except.bind, pure, Except.pure]
    · have : ((1 / 2 : K) • (s4.f + s2.f), (1 / 2 : K) • (s4.em + s2.em))
          = (1 / 2 : K) • ((s2.f, s2.em) + (s4.f, s4.em)) := by
        simp [add_comm]
      show ((1 / 2 : K) • (s4.f + s2.f), (1 / 2 : K) • (s4.em + s2.em)) = _
      rw [this, f4, f3, f2, f1]
      rfl
  refine ⟨lie, strang _ _ _ _ h1 h2, swss, ?_⟩
  intro dt s
  obtain ⟨i1, e1, f1⟩ := strang _ _ _ _ h1 h2 dt s
  obtain ⟨i2, e2, f2⟩ := strang _ _ _ _ h2 h1 dt (restoreStart true s i1)
  obtain ⟨r, e3, f3⟩ := swss dt (restoreStart true s i2)
  simp [splitJia, e1, e2, e3, bind, Except.bind, throw, throwThe, MonadExceptOf.throw]

/-- One step of any scheme with commuting flows is the combined flow. -/
theorem advertised_of_commute {φ ψ : K → V → V} (hφ : IsFlow φ) (hψ : IsFlow ψ) (hc : FlowsCommute φ ψ)
    (dt : K) (x : V) :
    lieAdvertised φ ψ dt x = φ dt (ψ dt x) ∧ strangAdvertised φ ψ dt x = φ dt (ψ dt x) ∧
    swssAdvertised φ ψ dt x = φ dt (ψ dt x) ∧ jiaAdvertised φ ψ dt x = φ dt (ψ dt x) := by
  have half : dt / 2 + dt / 2 = dt := add_halves dt
  have l1 : lieAdvertised φ ψ dt x = φ dt (ψ dt x) := (hc _ _ _).symm
  have l2 : lieAdvertised ψ φ dt x = φ dt (ψ dt x) := rfl
  have s1 : strangAdvertised φ ψ dt x = φ dt (ψ dt x) := by
    unfold strangAdvertised
    rw [← hc, ← hφ.add, half]
  have s2 : strangAdvertised ψ φ dt x = φ dt (ψ dt x) := by
    unfold strangAdvertised
    rw [← hc, ← hψ.add, half]
  have w : swssAdvertised φ ψ dt x = φ dt (ψ dt x) := by
    unfold swssAdvertised
    rw [l1, l2]
    module
  refine ⟨l1, s1, w, ?_⟩
  unfold jiaAdvertised
  rw [s1, s2, w]
  module

/-- **C33.** Semi-Lagrangian runs without fields: when advection and source are exact commuting flows, any
sequence of steps of any of the four schemes that finishes returns the exact combined flow over the total
time. -/
theorem C33_exact_for_commuting_flows (cfg : StepCfg) (hq : cfg.methodQ = "ASL")
    (hf : cfg.fieldsEnabled = false) (ops : K → K → StepOps K V W R) (φ ψ : K → V → V)
    (h1 : ∀ t d, ActsOnF (ops t d).opAdvectQ φ) (h2 : ∀ t d, ActsOnF (ops t d).opSolveSrc ψ)
    (hφ : IsFlow φ) (hψ : IsFlow ψ) (hc : FlowsCommute φ ψ) (blowup : V → Bool)
    (l : List (Scheme × K)) (c : Clocked K (SolverState V W R))
    (hrun : (runSteps cfg ops blowup l c).exc = none) :
    ∃ s, (runSteps cfg ops blowup l c).state = some s ∧
      s.f = φ (l.map Prod.snd).sum (ψ (l.map Prod.snd).sum c.state.f) := by
  induction l generalizing c with
  | nil => exact ⟨c.state, rfl, by simp [hφ.zero, hψ.zero]⟩
  | cons a l ih =>
    obtain ⟨m, dt⟩ := a
    have hstep : ∃ s1, stepDispatch m.splitting cfg (ops c.time dt) dt c.state = .ok s1 ∧
        s1.f = φ dt (ψ dt c.state.f) := by
      have hadv := advertised_of_commute hφ hψ hc dt c.state.f
      obtain ⟨a1, a2, a3, a4⟩ := C33_composition _ _ _ _ (h1 c.time dt) (h2 c.time dt)
      cases m
      · obtain ⟨s1, e1, f1⟩ := a1 dt c.state
        exact ⟨s1, by simp [stepDispatch, hq, hf, Scheme.splitting, e1], f1.trans hadv.1⟩
      · obtain ⟨s1, e1, f1⟩ := a2 dt c.state
        exact ⟨s1, by simp [stepDispatch, hq, hf, Scheme.splitting, e1], f1.trans hadv.2.1⟩
      · obtain ⟨s1, e1, f1⟩ := a3 dt c.state
        exact ⟨s1, by simp [stepDispatch, hq, hf, Scheme.splitting, e1], f1.trans hadv.2.2.1⟩
      · obtain ⟨s1, e1, f1⟩ := a4 dt c.state
        exact ⟨s1, by simp [stepDispatch, hq, hf, Scheme.splitting, e1], f1.trans hadv.2.2.2⟩
    obtain ⟨s1, e1, f1⟩ := hstep
    by_cases hb : blowup s1.f = true
    · simp [runSteps, solverStep, timeStep, e1, hb] at hrun
    · simp only [runSteps, solverStep, timeStep, e1, hb] at hrun ⊢
      obtain ⟨s, hs, hsf⟩ := ih _ hrun
      refine ⟨s, hs, ?_⟩
      rw [hsf, f1]
      simp only [List.map_cons, List.sum_cons]
      rw [add_comm dt, hφ.add, hψ.add, ← hc dt]

end Split

/-- Commuting flows that meet the hypotheses: decay at two rates on pairs of numbers; the run finishes. -/
example : ∃ (φ ψ : ℝ → ℝ → ℝ), IsFlow φ ∧ IsFlow ψ ∧ FlowsCommute φ ψ ∧ φ 1 0 ≠ 0 ∧
    (runSteps (K := ℝ) (V := ℝ) (W := ℝ) (R := Unit) ⟨"ASL", "ASL", false⟩
      (fun _ _ => ⟨fun _ s => .ok s, fun dt s => .ok { s with f := φ dt s.f },
        fun dt s => .ok { s with f := ψ dt s.f }, fun _ s => .ok s⟩) (fun _ => false)
      [(.strang, 1), (.jia, 2)] ⟨⟨0, 0, ()⟩, 0, 0⟩).exc = none := by
  refine ⟨fun t x => x + t, fun t x => x + 3 * t, ⟨by simp, fun s t x => by ring⟩,
    ⟨by simp, fun s t x => by ring⟩, fun s t x => by ring, by norm_num, ?_⟩
  simp [runSteps, solverStep, timeStep, stepDispatch, Scheme.splitting, splitStrang, splitJia, splitSwss,
    bind, Except.bind, pure, Except.pure]

/-! ## C34 -/

section Order

variable {V W R : Type} [NormedAddCommGroup V] [NormedSpace ℝ V] [CompleteSpace V] [AddCommGroup W]
  [Module ℝ W]

/-- **C34.** Two bounded linear generators `A`, `B`, commuting or not, on any Banach space; the operators
are their exact exponentials.  One step of size `h` from any state differs from the exact combined
exponential by `O(h^2)` for Lie, `O(h^3)` for Strang and the symmetrically weighted scheme, and `O(h^4)`
for Jia's scheme. -/
theorem C34_order_of_splitting (A B : V →L[ℝ] V) (op1 op2 : SplitOp ℝ V W R)
    (h1 : ActsOnF op1 fun dt f => NormedSpace.exp (dt • A) f)
    (h2 : ActsOnF op2 fun dt f => NormedSpace.exp (dt • B) f) (s : SolverState V W R)
    (m : Scheme) :
    ∃ r : ℝ → SolverState V W R, (∀ h, m.splitting false op1 op2 h s = .ok (r h)) ∧
      (fun h => (r h).f - NormedSpace.exp (h • (A + B)) s.f) =O[𝓝 0]
        fun h : ℝ => h ^ (match m with | .lie => 2 | .strang => 3 | .swss => 3 | .jia => 4) := by
  obtain ⟨a1, a2, a3, a4⟩ := C33_composition _ _ _ _ h1 h2
  have fin : ∀ (n : ℕ) (S : ℝ → V →L[ℝ] V) (r : ℝ → SolverState V W R),
      (fun h => S h - NormedSpace.exp (h • (A + B))) =O[𝓝 0] (fun h : ℝ => h ^ n) →
      (∀ h, (r h).f = S h s.f) →
      (fun h => (r h).f - NormedSpace.exp (h • (A + B)) s.f) =O[𝓝 0] fun h : ℝ => h ^ n := by
    intro n S r hS hr
    have := ((ContinuousLinearMap.apply ℝ V s.f).isBigO_comp
      (fun h => S h - NormedSpace.exp (h • (A + B))) (𝓝 0)).trans hS
    refine this.congr_left fun h => ?_
    simp [hr]
  cases m
  · choose r e f using fun h => a1 h s
    exact ⟨r, e, fin 2 (lieE A B) r (lie_isBigO A B) f⟩
  · choose r e f using fun h => a2 h s
    exact ⟨r, e, fin 3 (strangE A B) r (strang_isBigO A B) f⟩
  · choose r e f using fun h => a3 h s
    refine ⟨r, e, fin 3 _ r (swss_isBigO A B) fun h => ?_⟩
    rw [f, swssAdvertised, add_comm]
    rfl
  · choose r e f using fun h => a4 h s
    refine ⟨r, e, fin 4 _ r (jia_isBigO A B) fun h => ?_⟩
    rw [f, jiaAdvertised, swssAdvertised, add_comm (lieAdvertised _ _ _ _)]
    rfl

end Order

/-- Operators that meet the hypotheses of C34 (exact exponentials of two shears of the plane which do not
commute). -/
example : ∃ (A B : (Fin 2 → ℝ) →L[ℝ] (Fin 2 → ℝ)) (op1 op2 : SplitOp ℝ (Fin 2 → ℝ) Unit Unit),
    A * B ≠ B * A ∧ (ActsOnF op1 fun dt f => NormedSpace.exp (dt • A) f) ∧
    (ActsOnF op2 fun dt f => NormedSpace.exp (dt • B) f) := by
  let A : (Fin 2 → ℝ) →L[ℝ] (Fin 2 → ℝ) := LinearMap.toContinuousLinearMap
    (Matrix.toLin' !![0, 1; 0, 0])
  let B : (Fin 2 → ℝ) →L[ℝ] (Fin 2 → ℝ) := LinearMap.toContinuousLinearMap
    (Matrix.toLin' !![0, 0; 1, 0])
  refine ⟨A, B, fun dt s => .ok { s with f := NormedSpace.exp (dt • A) s.f },
    fun dt s => .ok { s with f := NormedSpace.exp (dt • B) s.f }, ?_, fun dt s => ⟨_, rfl, rfl⟩,
    fun dt s => ⟨_, rfl, rfl⟩⟩
  intro h
  have := congrFun (congrArg (fun L => L (Pi.single 0 1)) h) 0
  simp [A, B, Matrix.toLin'_apply, Matrix.mulVec, Matrix.vecHead, Matrix.vecTail] at this

/-! ## C35 -/

section Clock

variable {K V W R : Type} [Field K] [AddCommGroup V] [Module K V] [AddCommGroup W] [Module K W]

/-- **C35.** For every configuration, every sequence of calls of the four step functions and every
behaviour of the operators: some number `k` of calls completes, the elapsed time is the start time plus
the step sizes of exactly those `k` calls, and the run was left by an exception exactly when not all calls
completed (the call that raised did not advance the time). -/
theorem C35_time_bookkeeping (cfg : StepCfg) (ops : K → K → StepOps K V W R) (blowup : V → Bool)
    (l : List (Scheme × K)) (c : Clocked K (SolverState V W R)) :
    ∃ k ≤ l.length, (runSteps cfg ops blowup l c).time = c.time + ((l.take k).map Prod.snd).sum ∧
      (runSteps cfg ops blowup (l.take k) c).exc = none ∧
      ((runSteps cfg ops blowup l c).exc = none ↔ k = l.length) := by
  induction l generalizing c with
  | nil => exact ⟨0, le_rfl, by simp [runSteps], rfl, by simp [runSteps]⟩
  | cons a l ih =>
    obtain ⟨m, dt⟩ := a
    cases hd : stepDispatch m.splitting cfg (ops c.time dt) dt c.state with
    | error e =>
      refine ⟨0, Nat.zero_le _, ?_, rfl, ?_⟩ <;> simp [runSteps, solverStep, timeStep, hd]
    | ok s =>
      by_cases hb : blowup s.f = true
      · refine ⟨0, Nat.zero_le _, ?_, rfl, ?_⟩ <;> simp [runSteps, solverStep, timeStep, hd, hb]
      · obtain ⟨k, hk, ht, hx, he⟩ := ih ⟨s, c.time + dt, dt⟩
        refine ⟨k + 1, by simpa using hk, ?_, ?_, ?_⟩
        · have e : (runSteps cfg ops blowup ((m, dt) :: l) c)
              = runSteps cfg ops blowup l ⟨s, c.time + dt, dt⟩ := by
            simp [runSteps, solverStep, timeStep, hd, hb]
          rw [e, ht]
          simp [add_assoc]
        · simpa [runSteps, solverStep, timeStep, hd, hb] using hx
        · simpa [runSteps, solverStep, timeStep, hd, hb] using he

/-- **C35.** When all calls return, the elapsed time is the start time plus the sum of the step sizes. -/
theorem C35_elapsed_time (cfg : StepCfg) (ops : K → K → StepOps K V W R) (blowup : V → Bool)
    (l : List (Scheme × K)) (c : Clocked K (SolverState V W R))
    (h : (runSteps cfg ops blowup l c).exc = none) :
    (runSteps cfg ops blowup l c).time = c.time + (l.map Prod.snd).sum := by
  obtain ⟨k, hk, ht, -, he⟩ := C35_time_bookkeeping cfg ops blowup l c
  rw [ht, he.1 h, List.take_length]

/-- **C35.** A call whose updated distribution contains an infinity or a NaN raises `SystemExit` and leaves
the elapsed time unchanged. -/
theorem C35_divergence_raises (m : Scheme) (cfg : StepCfg) (ops : K → K → StepOps K V W R)
    (blowup : V → Bool) (dt : K) (c : Clocked K (SolverState V W R)) (s : SolverState V W R)
    (hs : stepDispatch m.splitting cfg (ops c.time dt) dt c.state = .ok s) (hb : blowup s.f = true) :
    (solverStep m cfg ops blowup dt c).exc = some .systemExit ∧
      (solverStep m cfg ops blowup dt c).time = c.time := by
  simp [solverStep, timeStep, hs, hb]

/-! ## C36 -/

/-- **C36.** Finite volumes in q with either finite volumes in p or no fields: all four step functions
perform one call of the finite-volume operator with the full step size, and nothing else. -/
theorem C36_fvm_single_update (m : Scheme) (cfg : StepCfg) (hq : cfg.methodQ = "FVM")
    (hp : cfg.methodP ≠ "ASL" ∨ cfg.fieldsEnabled = false) (ops : StepOps K V W R) (dt : K)
    (s : SolverState V W R) : stepDispatch m.splitting cfg ops dt s = ops.opFvm dt s := by
  have : ¬ (cfg.methodP = "ASL" ∧ cfg.fieldsEnabled = true) := by
    rcases hp with h | h
    · exact fun h' => h h'.1
    · exact fun h' => by simp [h] at h'
  simp [stepDispatch, hq, this]

/-- **C36.** A `solver_method_in_q` other than `FVM` and `ASL` is not rejected: the step performs no update
but advances the time. -/
theorem C36_unknown_method (m : Scheme) (cfg : StepCfg) (hq : cfg.methodQ ≠ "FVM") (hq' : cfg.methodQ ≠ "ASL")
    (ops : K → K → StepOps K V W R) (blowup : V → Bool) (dt : K) (c : Clocked K (SolverState V W R))
    (hb : blowup c.state.f = false) :
    solverStep m cfg ops blowup dt c = ⟨none, some c.state, c.time + dt, dt⟩ := by
  simp [solverStep, timeStep, stepDispatch, hq, hq', hb]

/-- The name of an operator, for recording calls. -/
inductive OpName
  | fvm | advectQ | source | fields
  deriving DecidableEq, Repr

/-- Operators that record their calls (in the part of the object the splitting code does not touch) and
leave the rest alone. -/
def recording : StepOps K V W (List (OpName × K)) where
  opFvm dt s := .ok { s with rest := s.rest ++ [(.fvm, dt)] }
  opAdvectQ dt s := .ok { s with rest := s.rest ++ [(.advectQ, dt)] }
  opSolveSrc dt s := .ok { s with rest := s.rest ++ [(.source, dt)] }
  opFields dt s := .ok { s with rest := s.rest ++ [(.fields, dt)] }

/-- The calls one step makes. -/
def calls (m : Scheme) (cfg : StepCfg) (dt : K) (s : SolverState V W (List (OpName × K))) :
    Option (List (OpName × K)) :=
  match stepDispatch m.splitting cfg recording dt { s with rest := [] } with
  | .ok s' => some s'.rest
  | .error _ => none

/-- **C36.** Semi-Lagrangian advection in q: the operators are called in the order and with the step sizes
of the chosen splitting. Without fields, advection and source are split. -/
theorem C36_calls_without_fields (p : String) (dt : K) (s : SolverState V W (List (OpName × K))) :
    calls .lie ⟨"ASL", p, false⟩ dt s = some [(.advectQ, dt), (.source, dt)] ∧
    calls .strang ⟨"ASL", p, false⟩ dt s = some [(.advectQ, dt / 2), (.source, dt), (.advectQ, dt / 2)] ∧
    calls .swss ⟨"ASL", p, false⟩ dt s
      = some [(.advectQ, dt), (.source, dt), (.source, dt), (.advectQ, dt)] ∧
    calls .jia ⟨"ASL", p, false⟩ dt s
      = some [(.advectQ, dt / 2), (.source, dt), (.advectQ, dt / 2),
        (.source, dt / 2), (.advectQ, dt), (.source, dt / 2),
        (.advectQ, dt), (.source, dt), (.source, dt), (.advectQ, dt)] := by
  refine ⟨?_, ?_, ?_, ?_⟩ <;>
  simp [calls, stepDispatch, Scheme.splitting, splitLie, splitStrang, splitSwss, splitJia, recording, bind,
    Except.bind, pure, Except.pure, restoreStart]

/-- **C36.** Semi-Lagrangian advection in q and p with fields: advection-and-source, itself split by the
chosen scheme, is split against the field solve. -/
theorem C36_calls_with_fields (dt : K) (s : SolverState V W (List (OpName × K))) :
    calls .lie ⟨"ASL", "ASL", true⟩ dt s = some [(.advectQ, dt), (.source, dt), (.fields, dt)] ∧
    calls .strang ⟨"ASL", "ASL", true⟩ dt s
      = some [(.advectQ, dt / 2 / 2), (.source, dt / 2), (.advectQ, dt / 2 / 2), (.fields, dt),
        (.advectQ, dt / 2 / 2), (.source, dt / 2), (.advectQ, dt / 2 / 2)] ∧
    calls .swss ⟨"ASL", "ASL", true⟩ dt s
      = some [(.advectQ, dt), (.source, dt), (.source, dt), (.advectQ, dt), (.fields, dt), (.fields, dt),
        (.advectQ, dt), (.source, dt), (.source, dt), (.advectQ, dt)] ∧
    calls .jia ⟨"ASL", "ASL", true⟩ dt s = none := by
  refine ⟨?_, ?_, ?_, ?_⟩ <;>
  simp [calls, stepDispatch, Scheme.splitting, splitLie, splitStrang, splitSwss, splitJia, recording, bind,
    Except.bind, pure, Except.pure, restoreStart, throw, throwThe, MonadExceptOf.throw]

/-- **C36.** Finite volumes in q, semi-Lagrangian in p, with fields: the finite-volume update is split
against the field solve; and semi-Lagrangian in q with finite volumes in p splits against the finite-volume
update. -/
theorem C36_calls_mixed (dt : K) (s : SolverState V W (List (OpName × K))) (p : String) (hp : p ≠ "ASL") :
    calls .lie ⟨"FVM", "ASL", true⟩ dt s = some [(.fvm, dt), (.fields, dt)] ∧
    calls .strang ⟨"FVM", "ASL", true⟩ dt s = some [(.fvm, dt / 2), (.fields, dt), (.fvm, dt / 2)] ∧
    calls .swss ⟨"FVM", "ASL", true⟩ dt s = some [(.fvm, dt), (.fields, dt), (.fields, dt), (.fvm, dt)] ∧
    calls .lie ⟨"ASL", p, true⟩ dt s = some [(.advectQ, dt), (.source, dt), (.fvm, dt)] ∧
    calls .strang ⟨"ASL", p, true⟩ dt s
      = some [(.advectQ, dt / 2 / 2), (.source, dt / 2), (.advectQ, dt / 2 / 2), (.fvm, dt),
        (.advectQ, dt / 2 / 2), (.source, dt / 2), (.advectQ, dt / 2 / 2)] := by
  refine ⟨?_, ?_, ?_, ?_, ?_⟩ <;>
  simp [calls, stepDispatch, Scheme.splitting, splitLie, splitStrang, splitSwss, recording, bind,
    Except.bind, pure, Except.pure, restoreStart, hp]

end Clock

/-- A run with a divergence in the third call: two calls complete, the clock shows their sum. -/
example : (runSteps (K := ℚ) (V := ℚ) (W := ℚ) (R := Unit) ⟨"FVM", "FVM", false⟩
    (fun _ _ => ⟨fun dt s => .ok { s with f := s.f + dt }, fun _ s => .ok s, fun _ s => .ok s,
      fun _ s => .ok s⟩) (fun x => decide (x = 6)) [(.lie, 1), (.strang, 2), (.jia, 3)]
      ⟨⟨0, 0, ()⟩, 10, 0⟩).time = 13 := by
  norm_num [runSteps, solverStep, timeStep, stepDispatch]

end Bolt
