import Verif.Proofs.Force
import Verif.Proofs.FVM
import Verif.Props.FVM

/-!
# C75: balance of momentum and energy under the Lorentz force
-/

set_option linter.unusedSectionVars false

namespace Bolt

open Finset

variable {S Q K : Type} [AddCommGroup Q] [Field K] [LinearOrder K] [IsStrictOrderedRing K] {N1 N2 N3 : ℕ} [NeZero N1] [NeZero N2] [NeZero N3]

theorem val_sub_one {N : ℕ} [NeZero N] (a : ZMod N) (h : a ≠ 0) : (a - 1).val + 1 = a.val := by
  have hpos : a.val ≠ 0 := by rwa [Ne, ZMod.val_eq_zero]
  have : a - 1 = ((a.val - 1 : ℕ) : ZMod N) := by
    rw [Nat.cast_sub (by omega)]; simp
  rw [this, ZMod.val_cast_of_lt (by have := a.val_lt; omega)]
  omega

theorem val_neg_one' {N : ℕ} [NeZero N] : (-1 : ZMod N).val + 1 = N := by
  obtain ⟨n, rfl⟩ : ∃ n, N = n + 1 := ⟨N - 1, by have := NeZero.pos N; omega⟩
  rw [ZMod.val_neg_one]

/-- The momentum-space part of a slope: what changes when the fields are switched on. -/
theorem slope_difference {P : Type} [AddCommGroup P] {ax : Axes P Q} {cfg : FVMConfig S K} (hp : cfg.solverMethodInP = "FVM" ∧ cfg.fieldsEnabled = true)
    (hm : cfg.reconstructionInP = "piecewise-constant") {cb : Callbacks S P Q K} {f k k0 : Dist S P Q K} (hk : dfdtFVM ax cfg cb f = .ok k)
    (hk0 : dfdtFVM ax { cfg with fieldsEnabled := false } cb f = .ok k0) (s : S) (p : P) (q : Q) :
    k s p q - k0 s p q = dfdtP ax .piecewiseConstant cfg.dp1 cfg.dp2 cfg.dp3 cb.Cp1 cb.Cp2 cb.Cp3 f s p q := by
  obtain ⟨a, b, h1, h2, h3⟩ := dfdtFVM_ok hk
  obtain ⟨a', b', h1', h2', h3'⟩ := dfdtFVM_ok hk0
  have hb' : b' s p q = 0 := by
    rcases h3' with ⟨⟨_, h⟩, _⟩ | ⟨_, h⟩
    · simp at h
    · exact h s p q
  have ha : a s p q = a' s p q := by
    rcases h2 with ⟨hq, m, hmq, h⟩ | ⟨hq, h⟩ <;> rcases h2' with ⟨hq', m', hmq', h'⟩ | ⟨hq', h'⟩
    · simp only at hmq'
      rw [hmq] at hmq'
      cases hmq'
      rw [h, h']
    · exact absurd hq hq'
    · exact absurd hq' hq
    · rw [h, h']
  have hb : b s p q = dfdtP ax .piecewiseConstant cfg.dp1 cfg.dp2 cfg.dp3 cb.Cp1 cb.Cp2 cb.Cp3 f s p q := by
    rcases h3 with ⟨_, m, hm', h⟩ | ⟨hn, _⟩
    · rw [hm] at hm'
      cases hm'
      exact h s p q
    · exact absurd hp hn
  rw [h1, h1', ha, hb, hb']
  ring

section
variable {cfg : FVMConfig S K} {ax : Axes (PIdx N1 N2 N3) Q} (s1 s2 s3 : S → K) (e m : S → K)
  (cor : PCoords S (PIdx N1 N2 N3) K) (F : Fin 3 → Fin 6 → Q → K)

/-- Coordinates of the centres of the momentum cells. -/
abbrev centres (cfg : FVMConfig S K) (s1 s2 s3 : S → K) : PCoords S (PIdx N1 N2 N3) K :=
  gridCoords N1 N2 N3 (1 / 2) s1 s2 s3 cfg.dp1 cfg.dp2 cfg.dp3

/-- The electric and the magnetic field that call `j` of `get_fields` returned at position `q`. -/
def fieldE (F : Fin 3 → Fin 6 → Q → K) (j : Fin 3) (q : Q) : Fin 3 → K := ![F j 0 q, F j 1 q, F j 2 q]
@[inherit_doc fieldE]
def fieldB (F : Fin 3 → Fin 6 → Q → K) (j : Fin 3) (q : Q) : Fin 3 → K := ![F j 3 q, F j 4 q, F j 5 q]

/-- The three velocity components of a momentum cell. -/
def cellVelocity (c : PCoords S (PIdx N1 N2 N3) K) (s : S) (p : PIdx N1 N2 N3) : Fin 3 → K := ![c.p1 s p, c.p2 s p, c.p3 s p]

theorem sum_dfdtP_weight (hax : MomentumAxes ax) (dp1 dp2 dp3 : S → K) (C1 C2 C3 f : Dist S (PIdx N1 N2 N3) Q K) (s : S) (q : Q)
    (w : PIdx N1 N2 N3 → K) :
    ∑ p, dfdtP ax .piecewiseConstant dp1 dp2 dp3 C1 C2 C3 f s p q * w p =
      -((∑ p, (leftFlux .piecewiseConstant (1, 0, 0) (fun p => C1 s p q) (fun p => f s p q) (p + (1, 0, 0)) -
          leftFlux .piecewiseConstant (1, 0, 0) (fun p => C1 s p q) (fun p => f s p q) p) * (1 / dp1 s) * w p) +
        (∑ p, (leftFlux .piecewiseConstant (0, 1, 0) (fun p => C2 s p q) (fun p => f s p q) (p + (0, 1, 0)) -
          leftFlux .piecewiseConstant (0, 1, 0) (fun p => C2 s p q) (fun p => f s p q) p) * (1 / dp2 s) * w p) +
        (∑ p, (leftFlux .piecewiseConstant (0, 0, 1) (fun p => C3 s p q) (fun p => f s p q) (p + (0, 0, 1)) -
          leftFlux .piecewiseConstant (0, 0, 1) (fun p => C3 s p q) (fun p => f s p q) p) * (1 / dp3 s) * w p)) := by
  simp only [dfdtP, dFluxP, afShift_neg_one, hax.p1, hax.p2, hax.p3, ← sum_add_distrib, ← sum_neg_distrib]
  exact sum_congr rfl fun p _ => by ring

/-- The first and second moments of the momentum-space part of the slope. -/
theorem moments_dfdtP (hax : MomentumAxes ax) (hdp : ∀ s, cfg.dp1 s ≠ 0 ∧ cfg.dp2 s ≠ 0 ∧ cfg.dp3 s ≠ 0) {C1 C2 C3 : Dist S (PIdx N1 N2 N3) Q K}
    (hC : (C1, C2, C3) = nonrelCallbacksP e m (centres cfg s1 s2 s3) cor F) (f : Dist S (PIdx N1 N2 N3) Q K) (s : S) (q : Q) (j : Fin 3)
    (hj : ClearOfEdges j 1 f) :
    (∑ p, dfdtP ax .piecewiseConstant cfg.dp1 cfg.dp2 cfg.dp3 C1 C2 C3 f s p q * cellVelocity (centres cfg s1 s2 s3) s p j =
      ∑ p, lorentz (e s) (m s) (fieldE F j q) (fieldB F j q) (cellVelocity (centres cfg s1 s2 s3) s p) j * f s p q) ∧
    (∑ p, dfdtP ax .piecewiseConstant cfg.dp1 cfg.dp2 cfg.dp3 C1 C2 C3 f s p q * (1 / 2 * cellVelocity (centres cfg s1 s2 s3) s p j ^ 2) =
      ∑ p, (lorentz (e s) (m s) (fieldE F j q) (fieldB F j q) (cellVelocity (centres cfg s1 s2 s3) s p) j *
          cellVelocity (centres cfg s1 s2 s3) s p j +
        |lorentz (e s) (m s) (fieldE F j q) (fieldB F j q) (cellVelocity (centres cfg s1 s2 s3) s p) j| *
          ![cfg.dp1 s, cfg.dp2 s, cfg.dp3 s] j / 2) * f s p q) := by
  have e1 : C1 = _ := congrArg Prod.fst hC
  have e2 : C2 = _ := congrArg (fun x => x.2.1) hC
  have e3 : C3 = _ := congrArg (fun x => x.2.2) hC
  have c1 : ∀ p, C1 s p q = lorentz (e s) (m s) (fieldE F 0 q) (fieldB F 0 q) (cellVelocity (centres cfg s1 s2 s3) s p) 0 := fun p => by
    rw [e1]
    change e s / m s * (F 0 0 q + _ * F 0 5 q - _ * F 0 4 q) = e s / m s * (F 0 0 q + (_ * F 0 5 q - _ * F 0 4 q))
    rw [add_sub_assoc]
    rfl
  have c2 : ∀ p, C2 s p q = lorentz (e s) (m s) (fieldE F 1 q) (fieldB F 1 q) (cellVelocity (centres cfg s1 s2 s3) s p) 1 := fun p => by
    rw [e2]
    change e s / m s * (F 1 1 q + _ * F 1 3 q - _ * F 1 5 q) = e s / m s * (F 1 1 q + (_ * F 1 3 q - _ * F 1 5 q))
    rw [add_sub_assoc]
    rfl
  have c3 : ∀ p, C3 s p q = lorentz (e s) (m s) (fieldE F 2 q) (fieldB F 2 q) (cellVelocity (centres cfg s1 s2 s3) s p) 2 := fun p => by
    rw [e3]
    change e s / m s * (F 2 2 q + _ * F 2 4 q - _ * F 2 3 q) = e s / m s * (F 2 2 q + (_ * F 2 4 q - _ * F 2 3 q))
    rw [add_sub_assoc]
    rfl
  have i1 : ∀ p, C1 s (p + (1, 0, 0)) q = C1 s p q := fun p => by rw [e1]; simp [nonrelCallbacksP, nonrelCp, gridCoords]
  have i2 : ∀ p, C2 s (p + (0, 1, 0)) q = C2 s p q := fun p => by rw [e2]; simp [nonrelCallbacksP, nonrelCp, gridCoords]
  have i3 : ∀ p, C3 s (p + (0, 0, 1)) q = C3 s p q := fun p => by rw [e3]; simp [nonrelCallbacksP, nonrelCp, gridCoords]
  obtain ⟨d1, d2, d3⟩ := hdp s
  have split := sum_dfdtP_weight hax cfg.dp1 cfg.dp2 cfg.dp3 C1 C2 C3 f s q
  match j, hj with
  | 0, hj =>
    have hw : ∀ p : PIdx N1 N2 N3, ¬ p.1 = 0 → (centres cfg s1 s2 s3).p1 s (p - (1, 0, 0)) = (centres cfg s1 s2 s3).p1 s p - cfg.dp1 s := by
      intro p hp
      have : (p.1.val : K) = (p.1 - 1).val + 1 := by rw [← val_sub_one p.1 hp]; push_cast; ring
      simp only [gridCoords, Prod.fst_sub, this]; ring
    have hz : ∀ p : PIdx N1 N2 N3, p.1 = 0 → f s p q = 0 ∧ f s (p - (1, 0, 0)) q = 0 := by
      intro p hp
      refine ⟨hj s p q (Or.inl ?_), hj s _ q (Or.inr ?_)⟩
      · simp [momentumIndex, hp]
      · simp [momentumIndex, hp, val_neg_one']
    have x2 : ∀ p : PIdx N1 N2 N3, (centres cfg s1 s2 s3).p1 s (p + (0, 1, 0)) = (centres cfg s1 s2 s3).p1 s p := fun p => by simp [gridCoords]
    have x3 : ∀ p : PIdx N1 N2 N3, (centres cfg s1 s2 s3).p1 s (p + (0, 0, 1)) = (centres cfg s1 s2 s3).p1 s p := fun p => by simp [gridCoords]
    constructor
    · have fm := first_moment (1, 0, 0) (cfg.dp1 s) ((centres cfg s1 s2 s3).p1 s) (fun p => C1 s p q) (fun p => f s p q) (fun p => p.1 = 0) d1 i1 hw hz
      have sp := split ((centres cfg s1 s2 s3).p1 s)
      rw [fm, cross_moment _ _ ((centres cfg s1 s2 s3).p1 s) _ x2, cross_moment _ _ ((centres cfg s1 s2 s3).p1 s) _ x3] at sp
      refine sp.trans ?_
      simp only [add_zero, zero_add, neg_neg, c1]
    · have sm := second_moment (1, 0, 0) (cfg.dp1 s) ((centres cfg s1 s2 s3).p1 s) (fun p => C1 s p q) (fun p => f s p q) (fun p => p.1 = 0) d1 i1 hw hz
      have sp := split (fun p : PIdx N1 N2 N3 => 1 / 2 * (centres cfg s1 s2 s3).p1 s p ^ 2)
      rw [sm, cross_moment _ _ (fun p : PIdx N1 N2 N3 => 1 / 2 * (centres cfg s1 s2 s3).p1 s p ^ 2) _ (fun p => by rw [x2]),
        cross_moment _ _ (fun p : PIdx N1 N2 N3 => 1 / 2 * (centres cfg s1 s2 s3).p1 s p ^ 2) _ (fun p => by rw [x3])] at sp
      refine sp.trans ?_
      simp only [add_zero, zero_add, neg_neg, c1]
      rfl
  | 1, hj =>
    have hw : ∀ p : PIdx N1 N2 N3, ¬ p.2.1 = 0 → (centres cfg s1 s2 s3).p2 s (p - (0, 1, 0)) = (centres cfg s1 s2 s3).p2 s p - cfg.dp2 s := by
      intro p hp
      have : (p.2.1.val : K) = (p.2.1 - 1).val + 1 := by rw [← val_sub_one p.2.1 hp]; push_cast; ring
      simp only [gridCoords, Prod.fst_sub, Prod.snd_sub, this]; ring
    have hz : ∀ p : PIdx N1 N2 N3, p.2.1 = 0 → f s p q = 0 ∧ f s (p - (0, 1, 0)) q = 0 := by
      intro p hp
      refine ⟨hj s p q (Or.inl ?_), hj s _ q (Or.inr ?_)⟩
      · simp [momentumIndex, hp]
      · simp [momentumIndex, hp, val_neg_one']
    have x1 : ∀ p : PIdx N1 N2 N3, (centres cfg s1 s2 s3).p2 s (p + (1, 0, 0)) = (centres cfg s1 s2 s3).p2 s p := fun p => by simp [gridCoords]
    have x3 : ∀ p : PIdx N1 N2 N3, (centres cfg s1 s2 s3).p2 s (p + (0, 0, 1)) = (centres cfg s1 s2 s3).p2 s p := fun p => by simp [gridCoords]
    constructor
    · have fm := first_moment (0, 1, 0) (cfg.dp2 s) ((centres cfg s1 s2 s3).p2 s) (fun p => C2 s p q) (fun p => f s p q) (fun p => p.2.1 = 0) d2 i2 hw hz
      have sp := split ((centres cfg s1 s2 s3).p2 s)
      rw [fm, cross_moment _ _ ((centres cfg s1 s2 s3).p2 s) _ x1, cross_moment _ _ ((centres cfg s1 s2 s3).p2 s) _ x3] at sp
      refine sp.trans ?_
      simp only [add_zero, zero_add, neg_neg, c2]
    · have sm := second_moment (0, 1, 0) (cfg.dp2 s) ((centres cfg s1 s2 s3).p2 s) (fun p => C2 s p q) (fun p => f s p q) (fun p => p.2.1 = 0) d2 i2 hw hz
      have sp := split (fun p : PIdx N1 N2 N3 => 1 / 2 * (centres cfg s1 s2 s3).p2 s p ^ 2)
      rw [sm, cross_moment _ _ (fun p : PIdx N1 N2 N3 => 1 / 2 * (centres cfg s1 s2 s3).p2 s p ^ 2) _ (fun p => by rw [x1]),
        cross_moment _ _ (fun p : PIdx N1 N2 N3 => 1 / 2 * (centres cfg s1 s2 s3).p2 s p ^ 2) _ (fun p => by rw [x3])] at sp
      refine sp.trans ?_
      simp only [add_zero, zero_add, neg_neg, c2]
      rfl
  | 2, hj =>
    have hw : ∀ p : PIdx N1 N2 N3, ¬ p.2.2 = 0 → (centres cfg s1 s2 s3).p3 s (p - (0, 0, 1)) = (centres cfg s1 s2 s3).p3 s p - cfg.dp3 s := by
      intro p hp
      have : (p.2.2.val : K) = (p.2.2 - 1).val + 1 := by rw [← val_sub_one p.2.2 hp]; push_cast; ring
      simp only [gridCoords, Prod.snd_sub, this]; ring
    have hz : ∀ p : PIdx N1 N2 N3, p.2.2 = 0 → f s p q = 0 ∧ f s (p - (0, 0, 1)) q = 0 := by
      intro p hp
      refine ⟨hj s p q (Or.inl ?_), hj s _ q (Or.inr ?_)⟩
      · simp [momentumIndex, hp]
      · simp [momentumIndex, hp, val_neg_one']
    have x1 : ∀ p : PIdx N1 N2 N3, (centres cfg s1 s2 s3).p3 s (p + (1, 0, 0)) = (centres cfg s1 s2 s3).p3 s p := fun p => by simp [gridCoords]
    have x2 : ∀ p : PIdx N1 N2 N3, (centres cfg s1 s2 s3).p3 s (p + (0, 1, 0)) = (centres cfg s1 s2 s3).p3 s p := fun p => by simp [gridCoords]
    constructor
    · have fm := first_moment (0, 0, 1) (cfg.dp3 s) ((centres cfg s1 s2 s3).p3 s) (fun p => C3 s p q) (fun p => f s p q) (fun p => p.2.2 = 0) d3 i3 hw hz
      have sp := split ((centres cfg s1 s2 s3).p3 s)
      rw [fm, cross_moment _ _ ((centres cfg s1 s2 s3).p3 s) _ x1, cross_moment _ _ ((centres cfg s1 s2 s3).p3 s) _ x2] at sp
      refine sp.trans ?_
      simp only [add_zero, zero_add, neg_neg, c3]
    · have sm := second_moment (0, 0, 1) (cfg.dp3 s) ((centres cfg s1 s2 s3).p3 s) (fun p => C3 s p q) (fun p => f s p q) (fun p => p.2.2 = 0) d3 i3 hw hz
      have sp := split (fun p : PIdx N1 N2 N3 => 1 / 2 * (centres cfg s1 s2 s3).p3 s p ^ 2)
      rw [sm, cross_moment _ _ (fun p : PIdx N1 N2 N3 => 1 / 2 * (centres cfg s1 s2 s3).p3 s p ^ 2) _ (fun p => by rw [x1]),
        cross_moment _ _ (fun p : PIdx N1 N2 N3 => 1 / 2 * (centres cfg s1 s2 s3).p3 s p ^ 2) _ (fun p => by rw [x2])] at sp
      refine sp.trans ?_
      simp only [add_zero, zero_add, neg_neg, c3]
      rfl

/-- The momentum density (per unit mass) as computed from the moments `mom_v1_bulk`, `mom_v2_bulk`, `mom_v3_bulk`. -/
def momentumDensity (c : PCoords S (PIdx N1 N2 N3) K) (measure : S → K) (f : Dist S (PIdx N1 N2 N3) Q K) (s : S) (q : Q) : Fin 3 → K :=
  ![momV1 c measure f s q, momV2 c measure f s q, momV3 c measure f s q]

theorem momentumDensity_eq (c : PCoords S (PIdx N1 N2 N3) K) (measure : S → K) (f : Dist S (PIdx N1 N2 N3) Q K) (s : S) (q : Q) (j : Fin 3) :
    momentumDensity c measure f s q j = (∑ p, f s p q * cellVelocity c s p j) * measure s := by
  fin_cases j <;> rfl

/-- C75: **the momentum equation.**  With the first-order scheme in momentum space and the bundled nonrelativistic force, switching the fields on
changes the rate of change of each component of the momentum density, of every species in every cell, by exactly the Lorentz force density
`(e/m) (n E + P × B)`, as long as no particles have reached the ends of that momentum axis.  (`E`, `B`: the fields handed out for that
component.) -/
theorem C75_momentum (hax : MomentumAxes ax) (hdp : ∀ s, cfg.dp1 s ≠ 0 ∧ cfg.dp2 s ≠ 0 ∧ cfg.dp3 s ≠ 0)
    (hp : cfg.solverMethodInP = "FVM" ∧ cfg.fieldsEnabled = true) (hm : cfg.reconstructionInP = "piecewise-constant")
    {cb : Callbacks S (PIdx N1 N2 N3) Q K} (hC : (cb.Cp1, cb.Cp2, cb.Cp3) = nonrelCallbacksP e m (centres cfg s1 s2 s3) cor F)
    {f k k0 : Dist S (PIdx N1 N2 N3) Q K} (hk : dfdtFVM ax cfg cb f = .ok k) (hk0 : dfdtFVM ax { cfg with fieldsEnabled := false } cb f = .ok k0)
    (j : Fin 3) (hj : ClearOfEdges j 1 f) (s : S) (q : Q) :
    momentumDensity (centres cfg s1 s2 s3) cfg.measure k s q j - momentumDensity (centres cfg s1 s2 s3) cfg.measure k0 s q j =
      forceDensity (e s) (m s) (fieldE F j q) (fieldB F j q) (density (centres cfg s1 s2 s3) cfg.measure f s q)
        (momentumDensity (centres cfg s1 s2 s3) cfg.measure f s q) j := by
  have key := (moments_dfdtP s1 s2 s3 e m cor F hax hdp hC f s q j hj).1
  rw [momentumDensity_eq, momentumDensity_eq, ← sub_mul, ← sum_sub_distrib]
  simp only [← sub_mul, slope_difference hp hm hk hk0, key]
  fin_cases j <;>
  · simp only [lorentz, forceDensity, momentumDensity, density, momV1, momV2, momV3, integralOverV, cellVelocity, Fin.zero_eta, Fin.mk_one,
      Fin.reduceFinMk, Matrix.cons_val_zero, Matrix.cons_val_one, Matrix.cons_val]
    simp only [sum_mul, mul_sum, ← sum_add_distrib, ← sum_sub_distrib]
    exact sum_congr rfl fun p _ => by ring

/-- C75: **the energy equation, and numerical heating.**  If the three calls of `get_fields` returned the same fields, and no particles have
reached the ends of the momentum grid, switching the fields on changes the rate of change of the energy density by the work of the electric field,
`(e/m) E · P`, plus half the sum over momentum cells of `f` times `|a₁| dp₁ + |a₂| dp₂ + |a₃| dp₃`, where `a` is the acceleration in the cell. -/
theorem C75_energy (hax : MomentumAxes ax) (hdp : ∀ s, cfg.dp1 s ≠ 0 ∧ cfg.dp2 s ≠ 0 ∧ cfg.dp3 s ≠ 0)
    (hp : cfg.solverMethodInP = "FVM" ∧ cfg.fieldsEnabled = true) (hm : cfg.reconstructionInP = "piecewise-constant") (F0 : Fin 6 → Q → K)
    {cb : Callbacks S (PIdx N1 N2 N3) Q K} (hC : (cb.Cp1, cb.Cp2, cb.Cp3) = nonrelCallbacksP e m (centres cfg s1 s2 s3) cor (fun _ => F0))
    {f k k0 : Dist S (PIdx N1 N2 N3) Q K} (hk : dfdtFVM ax cfg cb f = .ok k) (hk0 : dfdtFVM ax { cfg with fieldsEnabled := false } cb f = .ok k0)
    (hj : ∀ j, ClearOfEdges j 1 f) (s : S) (q : Q) :
    energy (centres cfg s1 s2 s3) cfg.measure k s q - energy (centres cfg s1 s2 s3) cfg.measure k0 s q =
      e s / m s * ∑ j, ![F0 0 q, F0 1 q, F0 2 q] j * momentumDensity (centres cfg s1 s2 s3) cfg.measure f s q j +
      1 / 2 * (∑ p, (∑ j, |lorentz (e s) (m s) ![F0 0 q, F0 1 q, F0 2 q] ![F0 3 q, F0 4 q, F0 5 q] (cellVelocity (centres cfg s1 s2 s3) s p) j| *
        ![cfg.dp1 s, cfg.dp2 s, cfg.dp3 s] j) * f s p q) * cfg.measure s := by
  have key := fun j => (moments_dfdtP s1 s2 s3 e m cor (fun _ => F0) hax hdp hC f s q j (hj j)).2
  have tot : energy (centres cfg s1 s2 s3) cfg.measure k s q - energy (centres cfg s1 s2 s3) cfg.measure k0 s q =
      (∑ j, ∑ p, dfdtP ax .piecewiseConstant cfg.dp1 cfg.dp2 cfg.dp3 cb.Cp1 cb.Cp2 cb.Cp3 f s p q *
        (1 / 2 * cellVelocity (centres cfg s1 s2 s3) s p j ^ 2)) * cfg.measure s := by
    simp only [energy, integralOverV, ← sub_mul, ← sum_sub_distrib, Fin.sum_univ_three, ← sum_add_distrib]
    congr 1
    refine sum_congr rfl fun p _ => ?_
    rw [← slope_difference hp hm hk hk0]
    simp only [cellVelocity, Matrix.cons_val_zero, Matrix.cons_val_one, Matrix.cons_val]
    ring
  rw [tot]
  simp only [key, Fin.sum_univ_three, momentumDensity_eq]
  simp only [fieldE, fieldB]
  generalize cellVelocity (centres cfg s1 s2 s3) s = v
  generalize cfg.measure s = M
  simp only [sum_mul, mul_sum, ← sum_add_distrib]
  refine sum_congr rfl fun p _ => ?_
  generalize hA : lorentz (e s) (m s) ![F0 0 q, F0 1 q, F0 2 q] ![F0 3 q, F0 4 q, F0 5 q] (v p) = A
  have work : A 0 * v p 0 + A 1 * v p 1 + A 2 * v p 2 = e s / m s * (F0 0 q * v p 0 + F0 1 q * v p 1 + F0 2 q * v p 2) := by
    rw [← hA]
    simp only [lorentz, Matrix.cons_val_zero, Matrix.cons_val_one, Matrix.cons_val]
    ring
  simp only [Matrix.cons_val_zero, Matrix.cons_val_one, Matrix.cons_val]
  linear_combination f s p q * M * work

/-- C75: the energy of the motion along one momentum axis, on any grid: work of the force along that axis plus numerical heating.  Only that axis has
to be resolved. -/
theorem C75_energy_axis (hax : MomentumAxes ax) (hdp : ∀ s, cfg.dp1 s ≠ 0 ∧ cfg.dp2 s ≠ 0 ∧ cfg.dp3 s ≠ 0)
    (hp : cfg.solverMethodInP = "FVM" ∧ cfg.fieldsEnabled = true) (hm : cfg.reconstructionInP = "piecewise-constant")
    {cb : Callbacks S (PIdx N1 N2 N3) Q K} (hC : (cb.Cp1, cb.Cp2, cb.Cp3) = nonrelCallbacksP e m (centres cfg s1 s2 s3) cor F)
    {f k k0 : Dist S (PIdx N1 N2 N3) Q K} (hk : dfdtFVM ax cfg cb f = .ok k) (hk0 : dfdtFVM ax { cfg with fieldsEnabled := false } cb f = .ok k0)
    (j : Fin 3) (hj : ClearOfEdges j 1 f) (s : S) (q : Q) :
    ![energyQ1 (centres cfg s1 s2 s3) cfg.measure k s q, energyQ2 (centres cfg s1 s2 s3) cfg.measure k s q,
        energyQ3 (centres cfg s1 s2 s3) cfg.measure k s q] j -
      ![energyQ1 (centres cfg s1 s2 s3) cfg.measure k0 s q, energyQ2 (centres cfg s1 s2 s3) cfg.measure k0 s q,
        energyQ3 (centres cfg s1 s2 s3) cfg.measure k0 s q] j =
      (∑ p, (lorentz (e s) (m s) (fieldE F j q) (fieldB F j q) (cellVelocity (centres cfg s1 s2 s3) s p) j *
          cellVelocity (centres cfg s1 s2 s3) s p j +
        |lorentz (e s) (m s) (fieldE F j q) (fieldB F j q) (cellVelocity (centres cfg s1 s2 s3) s p) j| *
          ![cfg.dp1 s, cfg.dp2 s, cfg.dp3 s] j / 2) * f s p q) * cfg.measure s := by
  rw [← (moments_dfdtP s1 s2 s3 e m cor F hax hdp hC f s q j hj).2]
  simp only [← slope_difference hp hm hk hk0]
  fin_cases j <;>
  · simp only [energyQ1, energyQ2, energyQ3, integralOverV, cellVelocity, Fin.zero_eta, Fin.mk_one,
      Fin.reduceFinMk, Matrix.cons_val_zero, Matrix.cons_val_one, Matrix.cons_val]
    rw [← sub_mul, ← sum_sub_distrib]
    congr 1
    exact sum_congr rfl fun p _ => by ring

/-- C75 (negative): **a magnetic field heats the plasma.**  In the equations a magnetic field does no work (C41).  In the first-order scheme the
energy density of a nonnegative distribution that is clear of the ends of the momentum grid never falls because of a magnetic field, and it rises
unless every populated momentum cell is free of acceleration. -/
theorem C75_magnetic_heating (hax : MomentumAxes ax) (hdp : ∀ s, 0 < cfg.dp1 s ∧ 0 < cfg.dp2 s ∧ 0 < cfg.dp3 s)
    (hp : cfg.solverMethodInP = "FVM" ∧ cfg.fieldsEnabled = true) (hm : cfg.reconstructionInP = "piecewise-constant") (F0 : Fin 6 → Q → K)
    {cb : Callbacks S (PIdx N1 N2 N3) Q K} (hC : (cb.Cp1, cb.Cp2, cb.Cp3) = nonrelCallbacksP e m (centres cfg s1 s2 s3) cor (fun _ => F0))
    {f k k0 : Dist S (PIdx N1 N2 N3) Q K} (hk : dfdtFVM ax cfg cb f = .ok k) (hk0 : dfdtFVM ax { cfg with fieldsEnabled := false } cb f = .ok k0)
    (hj : ∀ j, ClearOfEdges j 1 f) (s : S) (q : Q) (hE : F0 0 q = 0 ∧ F0 1 q = 0 ∧ F0 2 q = 0) (hf : ∀ p, 0 ≤ f s p q) :
    energy (centres cfg s1 s2 s3) cfg.measure k0 s q ≤ energy (centres cfg s1 s2 s3) cfg.measure k s q ∧
    (energy (centres cfg s1 s2 s3) cfg.measure k0 s q = energy (centres cfg s1 s2 s3) cfg.measure k s q ↔
      ∀ p, f s p q ≠ 0 → lorentz (e s) (m s) 0 ![F0 3 q, F0 4 q, F0 5 q] (cellVelocity (centres cfg s1 s2 s3) s p) = 0) := by
  obtain ⟨d1, d2, d3⟩ := hdp s
  have key := C75_energy s1 s2 s3 e m cor hax (fun s => ⟨(hdp s).1.ne', (hdp s).2.1.ne', (hdp s).2.2.ne'⟩) hp hm F0 hC hk hk0 hj s q
  have z : (![F0 0 q, F0 1 q, F0 2 q] : Fin 3 → K) = 0 := by
    rw [hE.1, hE.2.1, hE.2.2]; funext j; fin_cases j <;> rfl
  simp only [z, Pi.zero_apply, zero_mul, sum_const_zero, mul_zero, zero_add] at key
  generalize hA : (fun p : PIdx N1 N2 N3 => lorentz (e s) (m s) 0 ![F0 3 q, F0 4 q, F0 5 q] (cellVelocity (centres cfg s1 s2 s3) s p)) = A at key
  have hA' : ∀ p : PIdx N1 N2 N3, lorentz (e s) (m s) 0 ![F0 3 q, F0 4 q, F0 5 q] (cellVelocity (centres cfg s1 s2 s3) s p) = A p := fun p => congrFun hA p
  simp only [hA'] at key ⊢
  simp only [Fin.sum_univ_three, Matrix.cons_val_zero, Matrix.cons_val_one, Matrix.cons_val] at key
  have hM : 0 < cfg.measure s := by unfold FVMConfig.measure; positivity
  have nn : ∀ p ∈ univ, 0 ≤ (|A p 0| * cfg.dp1 s + |A p 1| * cfg.dp2 s + |A p 2| * cfg.dp3 s) * f s p q := fun p _ =>
    mul_nonneg (by positivity) (hf p)
  have hS := sum_nonneg nn
  constructor
  · have : 0 ≤ 1 / 2 * (∑ p, (|A p 0| * cfg.dp1 s + |A p 1| * cfg.dp2 s + |A p 2| * cfg.dp3 s) * f s p q) * cfg.measure s := by positivity
    linarith
  · have iff0 : energy (centres cfg s1 s2 s3) cfg.measure k0 s q = energy (centres cfg s1 s2 s3) cfg.measure k s q ↔
        ∑ p, (|A p 0| * cfg.dp1 s + |A p 1| * cfg.dp2 s + |A p 2| * cfg.dp3 s) * f s p q = 0 := by
      rw [eq_comm, ← sub_eq_zero, key]
      simp [hM.ne']
    rw [iff0, sum_eq_zero_iff_of_nonneg nn]
    constructor
    · intro h p hfp
      have := (mul_eq_zero.mp (h p (mem_univ p))).resolve_right hfp
      have a0 : 0 ≤ |A p 0| * cfg.dp1 s := by positivity
      have a1 : 0 ≤ |A p 1| * cfg.dp2 s := by positivity
      have a2 : 0 ≤ |A p 2| * cfg.dp3 s := by positivity
      have b0 : |A p 0| * cfg.dp1 s = 0 := by linarith
      have b1 : |A p 1| * cfg.dp2 s = 0 := by linarith
      have b2 : |A p 2| * cfg.dp3 s = 0 := by linarith
      funext j
      fin_cases j
      · simpa [d1.ne'] using b0
      · simpa [d2.ne'] using b1
      · simpa [d3.ne'] using b2
    · intro h p _
      by_cases hfp : f s p q = 0
      · rw [hfp, mul_zero]
      · rw [h p hfp]; simp

/-- The end layers of an axis and their neighbours. -/
theorem near_edge {N : ℕ} [NeZero N] {a : ZMod N} (h : a.val < 1 ∨ N ≤ a.val + 1) :
    (a.val < 2 ∨ N ≤ a.val + 2) ∧ ((a + 1).val < 2 ∨ N ≤ (a + 1).val + 2) ∧ ((a - 1).val < 2 ∨ N ≤ (a - 1).val + 2) := by
  have c := val_neg_one' (N := N)
  refine ⟨by omega, ?_, ?_⟩
  · rcases h with h | h
    · have h0 : a = 0 := by rw [← ZMod.val_eq_zero]; omega
      left
      rw [h0, zero_add]
      have : (1 : ZMod N).val ≤ 1 := by
        have := ZMod.val_natCast (n := N) 1
        rw [Nat.cast_one] at this
        rw [this]; exact Nat.mod_le _ _
      omega
    · have : a = -1 := by
        apply ZMod.val_injective
        have := a.val_lt
        omega
      left
      simp [this]
  · by_cases h0 : a = 0
    · right
      rw [h0, zero_sub]; omega
    · have := val_sub_one a h0
      have h1 : a.val ≠ 0 := by rwa [Ne, ZMod.val_eq_zero]
      omega

/-- One slope moves particles by at most one momentum cell. -/
theorem slope_clear (hax : MomentumAxes ax) (hsrc : cfg.sourceEnabled = false) (hm : cfg.reconstructionInP = "piecewise-constant")
    {cb : Callbacks S (PIdx N1 N2 N3) Q K} {f k : Dist S (PIdx N1 N2 N3) Q K} (hk : dfdtFVM ax cfg cb f = .ok k) (j : Fin 3)
    (hj : ClearOfEdges j 2 f) : ClearOfEdges j 1 k := by
  obtain ⟨a, b, h1, h2, h3⟩ := dfdtFVM_ok hk
  intro s p q hp
  have zero : ∀ e : PIdx N1 N2 N3, e = (1, 0, 0) ∨ e = (0, 1, 0) ∨ e = (0, 0, 1) →
      (∀ q, f s p q = 0) ∧ f s (p + e) q = 0 ∧ f s (p - e) q = 0 := by
    intro e he
    match j, hj, hp with
    | 0, hj, hp =>
      obtain ⟨n1, n2, n3⟩ := near_edge (a := p.1) hp
      rcases he with rfl | rfl | rfl <;> refine ⟨fun q => hj s p q n1, hj s _ q ?_, hj s _ q ?_⟩ <;>
        simp_all [momentumIndex]
    | 1, hj, hp =>
      obtain ⟨n1, n2, n3⟩ := near_edge (a := p.2.1) hp
      rcases he with rfl | rfl | rfl <;> refine ⟨fun q => hj s p q n1, hj s _ q ?_, hj s _ q ?_⟩ <;>
        simp_all [momentumIndex]
    | 2, hj, hp =>
      obtain ⟨n1, n2, n3⟩ := near_edge (a := p.2.2) hp
      rcases he with rfl | rfl | rfl <;> refine ⟨fun q => hj s p q n1, hj s _ q ?_, hj s _ q ?_⟩ <;>
        simp_all [momentumIndex]
  have hfp : f s p = fun _ => (0 : K) := funext fun q => (zero (1, 0, 0) (Or.inl rfl)).1 q
  have ha : a s p q = 0 := by
    rcases h2 with ⟨_, m, _, h⟩ | ⟨_, h⟩
    · rw [h, if_neg (by simp [hsrc])]
      simp [dfdtQ, hfp, fluxDiv_eq, leftState_const]
    · exact h s p q
  have flux : ∀ (e : PIdx N1 N2 N3) (dp : S → K) (C : Dist S (PIdx N1 N2 N3) Q K), e = (1, 0, 0) ∨ e = (0, 1, 0) ∨ e = (0, 0, 1) →
      dFluxP .piecewiseConstant e dp C f s p q = 0 := by
    intro e dp C he
    obtain ⟨z0, z1, z2⟩ := zero e he
    simp [dFluxP, leftFlux, leftState_eq, reconFaces, z0 q, z1, z2]
  have hb : b s p q = 0 := by
    rcases h3 with ⟨_, m, hm', h⟩ | ⟨_, h⟩
    · rw [hm] at hm'
      cases hm'
      rw [h, dfdtP, hax.p1, hax.p2, hax.p3, flux _ _ _ (Or.inl rfl), flux _ _ _ (Or.inr (Or.inl rfl)), flux _ _ _ (Or.inr (Or.inr rfl))]
      simp
    · exact h s p q
  rw [h1, ha, hb, add_zero]

/-- Total momentum and number of particles of a species over the whole domain. -/
def totalMomentum [Fintype Q] (c : PCoords S (PIdx N1 N2 N3) K) (measure : S → K) (f : Dist S (PIdx N1 N2 N3) Q K) (s : S) (j : Fin 3) : K :=
  ∑ q, momentumDensity c measure f s q j
@[inherit_doc totalMomentum]
def totalNumber [Fintype Q] (c : PCoords S (PIdx N1 N2 N3) K) (measure : S → K) (f : Dist S (PIdx N1 N2 N3) Q K) (s : S) : K :=
  ∑ q, density c measure f s q

theorem total_slope [Fintype Q] (hax : MomentumAxes ax) (hdp : ∀ s, cfg.dp1 s ≠ 0 ∧ cfg.dp2 s ≠ 0 ∧ cfg.dp3 s ≠ 0)
    (hp : cfg.solverMethodInP = "FVM" ∧ cfg.fieldsEnabled = true) (hsrc : cfg.sourceEnabled = false)
    (hm : cfg.reconstructionInP = "piecewise-constant") (F0 : Fin 6 → K)
    {cb : Callbacks S (PIdx N1 N2 N3) Q K} (hC : (cb.Cp1, cb.Cp2, cb.Cp3) = nonrelCallbacksP e m (centres cfg s1 s2 s3) cor (fun _ i _ => F0 i))
    {f k : Dist S (PIdx N1 N2 N3) Q K} (hk : dfdtFVM ax cfg cb f = .ok k) (hj : ∀ j, ![N1, N2, N3] j = 1 ∨ ClearOfEdges j 1 f) (s : S) :
    (∀ j, totalMomentum (centres cfg s1 s2 s3) cfg.measure k s j =
      resolvedForce N1 N2 N3 (e s) (m s) ![F0 0, F0 1, F0 2] ![F0 3, F0 4, F0 5] (totalNumber (centres cfg s1 s2 s3) cfg.measure f s)
        (totalMomentum (centres cfg s1 s2 s3) cfg.measure f s) j) ∧
    totalNumber (centres cfg s1 s2 s3) cfg.measure k s = 0 := by
  obtain ⟨a, b, h1, h2, h3⟩ := dfdtFVM_ok hk
  have ha : ∀ p, ∑ q, a s p q = 0 := by
    intro p
    rcases h2 with ⟨_, m, _, h⟩ | ⟨_, h⟩
    · simp [h, hsrc, sum_dfdtQ]
    · simp [h]
  have hb : ∀ p q, b s p q = dfdtP ax .piecewiseConstant cfg.dp1 cfg.dp2 cfg.dp3 cb.Cp1 cb.Cp2 cb.Cp3 f s p q := by
    intro p q
    rcases h3 with ⟨_, m, hm', h⟩ | ⟨hn, _⟩
    · rw [hm] at hm'
      cases hm'
      exact h s p q
    · exact absurd hp hn
  have wt : ∀ w : PIdx N1 N2 N3 → K, ∑ q, (∑ p, k s p q * w p) * cfg.measure s = ∑ q, (∑ p, b s p q * w p) * cfg.measure s := by
    intro w
    have : ∑ q, (∑ p, a s p q * w p) = 0 := by
      rw [sum_comm]
      exact sum_eq_zero fun p _ => by rw [← sum_mul, ha, zero_mul]
    simp only [h1, add_mul, sum_add_distrib]
    rw [← sum_mul, this, zero_mul, zero_add]
  constructor
  · intro j
    have e0 : totalMomentum (centres cfg s1 s2 s3) cfg.measure k s j =
        ∑ q, (∑ p, b s p q * cellVelocity (centres cfg s1 s2 s3) s p j) * cfg.measure s := by
      rw [← wt]
      exact sum_congr rfl fun q _ => momentumDensity_eq _ _ _ _ _ _
    rw [e0]
    by_cases hN : ![N1, N2, N3] j = 1
    · rw [resolvedForce, if_pos hN]
      refine sum_eq_zero fun q _ => ?_
      have cst : ∃ v, ∀ p : PIdx N1 N2 N3, cellVelocity (centres cfg s1 s2 s3) s p j = v := by
        have v0 : ∀ {N : ℕ} (x : ZMod N), N = 1 → x.val = 0 := by
          rintro N x rfl
          exact (ZMod.val_eq_zero x).mpr (Subsingleton.elim _ _)
        match j, hN with
        | 0, hN => exact ⟨cellVelocity (N1 := N1) (N2 := N2) (N3 := N3) (centres cfg s1 s2 s3) s 0 0, fun p => by simp [-ZMod.natCast_val, cellVelocity, gridCoords, v0 p.1 hN, v0 (0 : ZMod N1) hN]⟩
        | 1, hN => exact ⟨cellVelocity (N1 := N1) (N2 := N2) (N3 := N3) (centres cfg s1 s2 s3) s 0 1, fun p => by simp [-ZMod.natCast_val, cellVelocity, gridCoords, v0 p.2.1 hN, v0 (0 : ZMod N2) hN]⟩
        | 2, hN => exact ⟨cellVelocity (N1 := N1) (N2 := N2) (N3 := N3) (centres cfg s1 s2 s3) s 0 2, fun p => by simp [-ZMod.natCast_val, cellVelocity, gridCoords, v0 p.2.2 hN, v0 (0 : ZMod N3) hN]⟩
      obtain ⟨v, hv⟩ := cst
      simp only [hv, hb]
      rw [← sum_mul, sum_dfdtP]; simp
    · rw [resolvedForce, if_neg hN]
      have hj' := (hj j).resolve_left hN
      simp only [hb, fun q => (moments_dfdtP s1 s2 s3 e m cor (fun _ i _ => F0 i) hax hdp hC f s q j hj').1]
      fin_cases j <;>
      · simp only [lorentz, forceDensity, totalMomentum, totalNumber, fieldE, fieldB, momentumDensity, density, momV1, momV2, momV3,
          integralOverV, cellVelocity, Fin.zero_eta, Fin.mk_one, Fin.reduceFinMk, Matrix.cons_val_zero, Matrix.cons_val_one, Matrix.cons_val]
        simp only [sum_mul, mul_sum, ← sum_add_distrib, ← sum_sub_distrib]
        exact sum_congr rfl fun q _ => sum_congr rfl fun p _ => by ring
  · have e0 := wt (fun _ => 1)
    simp only [mul_one, hb, sum_dfdtP, zero_mul, sum_const_zero] at e0
    exact e0

/-- C75: **the momentum of a plasma in uniform fields follows the midpoint rule.**  In a periodic domain, without collisions, with the first-order
scheme in momentum space, whatever scheme is used in position space: if the fields handed out are uniform (they may differ between the two halves of
the step) and no particles are in the two outermost layers of any resolved momentum axis, then one step takes the total momentum of every species
through exactly one step of the explicit midpoint rule for `dP/dt = (e/m) (N E + P × B)`. -/
theorem C75_midpoint [Fintype Q] (hax : MomentumAxes ax) (hdp : ∀ s, cfg.dp1 s ≠ 0 ∧ cfg.dp2 s ≠ 0 ∧ cfg.dp3 s ≠ 0)
    (hp : cfg.solverMethodInP = "FVM" ∧ cfg.fieldsEnabled = true) (hsrc : cfg.sourceEnabled = false)
    (hm : cfg.reconstructionInP = "piecewise-constant") (F0 : Fin 2 → Fin 6 → K)
    {cb : Fin 2 → Callbacks S (PIdx N1 N2 N3) Q K}
    (hC : ∀ t, ((cb t).Cp1, (cb t).Cp2, (cb t).Cp3) = nonrelCallbacksP e m (centres cfg s1 s2 s3) cor (fun _ i _ => F0 t i))
    (dt : K) {f f' : Dist S (PIdx N1 N2 N3) Q K} (h : runFVM ax cfg [(dt, cb)] f = .ok f')
    (hj : ∀ j, ![N1, N2, N3] j = 1 ∨ ClearOfEdges j 2 f) (s : S) :
    ∃ half : Fin 3 → K,
      (∀ j, half j = totalMomentum (centres cfg s1 s2 s3) cfg.measure f s j + dt / 2 *
        resolvedForce N1 N2 N3 (e s) (m s) ![F0 0 0, F0 0 1, F0 0 2] ![F0 0 3, F0 0 4, F0 0 5]
          (totalNumber (centres cfg s1 s2 s3) cfg.measure f s) (totalMomentum (centres cfg s1 s2 s3) cfg.measure f s) j) ∧
      (∀ j, totalMomentum (centres cfg s1 s2 s3) cfg.measure f' s j = totalMomentum (centres cfg s1 s2 s3) cfg.measure f s j + dt *
        resolvedForce N1 N2 N3 (e s) (m s) ![F0 1 0, F0 1 1, F0 1 2] ![F0 1 3, F0 1 4, F0 1 5]
          (totalNumber (centres cfg s1 s2 s3) cfg.measure f s) half j) := by
  have h' : timestepFVM (fun f => .ok f) (fun k => dfdtFVM ax cfg (cb k)) dt f = .ok f' := by
    simp only [runFVM, bind, Except.bind] at h
    split at h
    · cases h
    · rw [← h]; assumption
  obtain ⟨f0, k0, fh, k1, a1, a2, a3, a4, a5⟩ := timestepFVM_ok h'
  cases a1
  cases a3
  have lin : ∀ (g k : Dist S (PIdx N1 N2 N3) Q K) (c : K) (g' : Dist S (PIdx N1 N2 N3) Q K), (∀ s p q, g' s p q = g s p q + k s p q * c) →
      (∀ j, totalMomentum (centres cfg s1 s2 s3) cfg.measure g' s j = totalMomentum (centres cfg s1 s2 s3) cfg.measure g s j +
        c * totalMomentum (centres cfg s1 s2 s3) cfg.measure k s j) ∧
      totalNumber (centres cfg s1 s2 s3) cfg.measure g' s = totalNumber (centres cfg s1 s2 s3) cfg.measure g s +
        c * totalNumber (centres cfg s1 s2 s3) cfg.measure k s := by
    intro g k c g' hg
    constructor
    · intro j
      simp only [totalMomentum, momentumDensity_eq, hg, sum_mul, mul_sum, ← sum_add_distrib]
      exact sum_congr rfl fun q _ => sum_congr rfl fun p _ => by ring
    · simp only [totalNumber, density, integralOverV, hg, sum_mul, mul_sum, ← sum_add_distrib]
      exact sum_congr rfl fun q _ => sum_congr rfl fun p _ => by ring
  have weaken : ∀ j, ![N1, N2, N3] j = 1 ∨ ClearOfEdges j 1 f := fun j =>
    (hj j).imp_right fun c s p q hpq => c s p q (by omega)
  obtain ⟨m0, n0⟩ := total_slope s1 s2 s3 e m cor hax hdp hp hsrc hm (F0 0) (hC 0) a2 weaken s
  have clear1 : ∀ j, ![N1, N2, N3] j = 1 ∨ ClearOfEdges j 1 (fun s p q => f s p q + k0 s p q * (dt / 2)) := fun j =>
    (hj j).imp_right fun c s p q hpq => by
      have z1 := slope_clear hax hsrc hm a2 j c s p q hpq
      have z2 := c s p q (by omega)
      simp only [z1, z2]; ring
  obtain ⟨m1, n1⟩ := total_slope s1 s2 s3 e m cor hax hdp hp hsrc hm (F0 1) (hC 1) a4 clear1 s
  obtain ⟨l1, l2⟩ := lin f k0 (dt / 2) (fun s p q => f s p q + k0 s p q * (dt / 2)) (fun _ _ _ => rfl)
  obtain ⟨l3, -⟩ := lin f k1 dt f' a5
  refine ⟨totalMomentum (centres cfg s1 s2 s3) cfg.measure (fun s p q => f s p q + k0 s p q * (dt / 2)) s, fun j => ?_, fun j => ?_⟩
  · rw [l1, m0]
  · rw [l3, m1, l2, n0, mul_zero, add_zero]

end

/-! ## A concrete case: a cold beam in the middle of a 5 × 5 × 5 momentum grid, two positions, all six field components non-zero -/

def c75Cfg : FVMConfig Unit ℚ :=
  ⟨"FVM", "FVM", "ppm", "piecewise-constant", "upwind-flux", "upwind-flux", false, true, 1, 1, fun _ => 1, fun _ => 1, fun _ => 1⟩

def c75F : Dist Unit (PIdx 5 5 5) (ZMod 2 × ZMod 1) ℚ := fun _ p q => if p = (2, 2, 2) then 1 + q.1.val else 0

/-- The grid runs from 0 to 5 along each axis; charge -1, mass 2. -/
def c75Cb (F0 : Fin 6 → ℚ) : Callbacks Unit (PIdx 5 5 5) (ZMod 2 × ZMod 1) ℚ :=
  let C := nonrelCallbacksP (fun _ : Unit => -1) (fun _ => 2) (centres c75Cfg 0 0 0) (centres c75Cfg 0 0 0) (fun _ i _ => F0 i)
  ⟨fun _ p _ => (p.1.val : ℚ) + 1 / 2, fun _ p _ => (p.2.1.val : ℚ) + 1 / 2, C.1, C.2.1, C.2.2, id⟩

def c75Ax : Axes (PIdx 5 5 5) (ZMod 2 × ZMod 1) := ⟨(1, 0, 0), (0, 1, 0), (0, 0, 1), (1, 0), (0, 1)⟩

theorem c75_clear : ∀ j, ClearOfEdges j 2 c75F := by
  intro j s p q h
  refine if_neg ?_
  rintro rfl
  revert h
  fin_cases j <;> decide

/-- The beam has momentum (15/2, 15/2, 15/2) in all; the step exists and the theorem gives the momentum after it: with a magnetic field along q3 alone,
the momentum turns about q3. -/
example (dt : ℚ) : ∃ f', runFVM c75Ax c75Cfg [(dt, fun _ => c75Cb ![0, 0, 0, 0, 0, 2])] c75F = .ok f' ∧
    totalMomentum (centres c75Cfg 0 0 0) c75Cfg.measure f' () = ![15 / 2 * (1 - dt - dt ^ 2 / 2), 15 / 2 * (1 + dt - dt ^ 2 / 2), 15 / 2] := by
  obtain ⟨f', h⟩ := C09_run_succeeds c75Ax c75Cfg (by simp [c75Cfg]) (by simp [c75Cfg]) [(dt, fun _ => c75Cb ![0, 0, 0, 0, 0, 2])] c75F
  refine ⟨f', h, ?_⟩
  obtain ⟨half, h1, h2⟩ := C75_midpoint (ax := c75Ax) 0 0 0 (fun _ => -1) (fun _ => 2) (centres c75Cfg 0 0 0) ⟨rfl, rfl, rfl⟩ (by simp [c75Cfg]) ⟨rfl, rfl⟩ rfl rfl
    (fun _ => ![0, 0, 0, 0, 0, 2]) (fun _ => rfl) dt h (fun j => Or.inr (c75_clear j)) ()
  have P0 : ∀ j, totalMomentum (centres c75Cfg 0 0 0) c75Cfg.measure c75F () j = 15 / 2 := by
    intro j
    have q2 : ∀ g : ZMod 2 × ZMod 1 → ℚ, ∑ q, g q = g (0, 0) + g (1, 0) := by
      intro g
      rw [Fintype.sum_prod_type]
      change ∑ x : Fin 2, ∑ y : Fin 1, g (x, y) = _
      simp [Fin.sum_univ_two]
      rfl
    simp only [totalMomentum, momentumDensity_eq, c75F, ite_mul, zero_mul, sum_ite_eq', mem_univ, if_true, q2]
    have v2 : ((2 : ZMod 5).val : ℚ) = 2 := by norm_cast
    have v1 : ((1 : ZMod 2).val : ℚ) = 1 := by norm_cast
    fin_cases j <;> simp [-ZMod.natCast_val, cellVelocity, gridCoords, c75Cfg, FVMConfig.measure, v2, v1] <;> norm_num
  funext j
  simp only [resolvedForce, forceDensity, P0] at h1 h2
  have e0 := h1 0
  have e1 := h1 1
  have e2 := h1 2
  have d0 := h2 0
  have d1 := h2 1
  have d2 := h2 2
  simp at e0 e1 e2 d0 d1 d2
  fin_cases j
  · simp [d0, e0, e1, e2]; ring
  · simp [d1, e0, e1, e2]; ring
  · simp [d2, e0, e1, e2]


/-- In the same case the energy density of the beam rises, although only a magnetic field acts. -/
example : ∃ k k0, dfdtFVM c75Ax c75Cfg (c75Cb ![0, 0, 0, 0, 0, 2]) c75F = .ok k ∧
    dfdtFVM c75Ax { c75Cfg with fieldsEnabled := false } (c75Cb ![0, 0, 0, 0, 0, 2]) c75F = .ok k0 ∧
    energy (centres c75Cfg 0 0 0) c75Cfg.measure k0 () (0, 0) < energy (centres c75Cfg 0 0 0) c75Cfg.measure k () (0, 0) := by
  refine ⟨_, _, rfl, rfl, ?_⟩
  obtain ⟨h1, h2⟩ := C75_magnetic_heating (ax := c75Ax) (cfg := c75Cfg) (f := c75F) (cb := c75Cb ![0, 0, 0, 0, 0, 2]) 0 0 0 (fun _ => -1) (fun _ => 2) (centres c75Cfg 0 0 0)
    ⟨rfl, rfl, rfl⟩ (by simp [c75Cfg]) ⟨rfl, rfl⟩ rfl (fun i _ => ![0, 0, 0, 0, 0, 2] i) rfl rfl rfl
    (fun j s p q h => c75_clear j s p q (by omega)) () (0, 0) ⟨rfl, rfl, rfl⟩ (fun p => by unfold c75F; split_ifs <;> positivity)
  refine lt_of_le_of_ne h1 fun h => ?_
  have := congrFun (h2.mp h (2, 2, 2) (by simp [c75F])) 0
  have v2 : ((2 : ZMod 5).val : ℚ) = 2 := by norm_cast
  simp [-ZMod.natCast_val, lorentz, cellVelocity, gridCoords, c75Cfg, v2] at this
  norm_num at this

end Bolt
