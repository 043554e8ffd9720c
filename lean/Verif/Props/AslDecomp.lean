import Verif.Model.AslDecomp
import Verif.Spec.AslDecomp
import Verif.Props.ASL
import Verif.Props.AslError
import Mathlib.Tactic.Linarith

/-!
# C105: semi-Lagrangian runs on many processes
-/

set_option linter.unusedSectionVars false

namespace Bolt

section Sim
variable {K V W R : Type} [Field K] [AddCommGroup V] [Module K V] [AddCommGroup W] [Module K W]

/-- The operator `op` does on the solver object what `A` does on the values it stands for. -/
def Simulates (H : V → W → Prop) (op : SplitOp K V Unit R) (A : K → W → W) (dt : K) : Prop :=
  ∀ s w, H s.f w → ∃ s', op dt s = .ok s' ∧ H s'.f (A dt w)

/-- The four splitting methods compute their textbook formulas, on whatever the state stands for. -/
theorem split_simulates (H : V → W → Prop) (hadd : ∀ x x' y y', H x x' → H y y' → H (x + y) (x' + y')) (hsmul : ∀ (a : K) x x', H x x' → H (a • x) (a • x'))
    (op1 op2 : SplitOp K V Unit R) (A C : K → W → W) (dt : K) (h1 : Simulates H op1 A dt) (h1' : Simulates H op1 A (dt / 2))
    (h2 : Simulates H op2 C dt) (h2' : Simulates H op2 C (dt / 2)) (m : Scheme) :
    Simulates H (m.splitting false op1 op2) (splitFormula A C m) dt := by
  have st : ∀ (o1 o2 : SplitOp K V Unit R) (B E : K → W → W), Simulates H o1 B (dt / 2) → Simulates H o2 E dt →
      Simulates H (splitStrang false o1 o2) (fun dt w => B (dt / 2) (E dt (B (dt / 2) w))) dt := by
    intro o1 o2 B E b e s w h
    obtain ⟨s1, e1, k1⟩ := b s w h
    obtain ⟨s2, e2, k2⟩ := e s1 _ k1
    obtain ⟨s3, e3, k3⟩ := b s2 _ k2
    exact ⟨s3, by simp only [splitStrang, e1, e2, e3, bind, Except.bind], k3⟩
  have sw : Simulates H (splitSwss false op1 op2) (fun dt w => (1 / 2 : K) • (C dt (A dt w) + A dt (C dt w))) dt := by
    intro s w h
    obtain ⟨s1, e1, k1⟩ := h1 s w h
    obtain ⟨s2, e2, k2⟩ := h2 s1 _ k1
    obtain ⟨s3, e3, k3⟩ := h2 (restoreStart false s s2) w h
    obtain ⟨s4, e4, k4⟩ := h1 s3 _ k3
    refine ⟨{ f := (1 / 2 : K) • (s4.f + s2.f), em := s4.em, rest := s4.rest }, ?_, ?_⟩
    · simp only [splitSwss, e1, e2, e3, e4, bind, Except.bind, pure, Except.pure, Bool.false_eq_true, if_false]
    have := hsmul (1 / 2) _ _ (hadd _ _ _ _ k4 k2)
    rwa [add_comm (A dt (C dt w))] at this
  cases m with
  | lie =>
      intro s w h
      obtain ⟨s1, e1, k1⟩ := h1 s w h
      obtain ⟨s2, e2, k2⟩ := h2 s1 _ k1
      exact ⟨s2, by simp only [Scheme.splitting, splitLie, e1, e2, bind, Except.bind], k2⟩
  | strang => exact st op1 op2 A C h1' h2
  | swss => exact sw
  | jia =>
      intro s w h
      obtain ⟨i1, e1, k1⟩ := st op1 op2 A C h1' h2 s w h
      obtain ⟨i2, e2, k2⟩ := st op2 op1 C A h2' h1 (restoreStart false s i1) w h
      obtain ⟨r, e3, k3⟩ := sw (restoreStart false s i2) w h
      refine ⟨{ r with f := (2 / 3 : K) • (i1.f + i2.f) - (1 / 3 : K) • r.f }, ?_, ?_⟩
      · simp only [Scheme.splitting, splitJia, e1, e2, e3, bind, Except.bind, pure, Except.pure, Bool.false_eq_true, if_false]
      have := hadd _ _ _ _ (hsmul (2 / 3) _ _ (hadd _ _ _ _ k1 k2)) (hsmul (-(1 / 3)) _ _ k3)
      rw [neg_smul, neg_smul, ← sub_eq_add_neg, ← sub_eq_add_neg] at this
      exact this

end Sim

variable {K : Type} [Field K] [LinearOrder K] [IsStrictOrderedRing K] [FloorRing K] {S P : Type} {N1 N2 : ℕ} [NeZero N1] [NeZero N2]

section
variable {R : Type} (D : Decomp N1 N2 R) (g1 g2 : ℕ) (q1Start q2Start dq1 dq2 : K)

/-- C105: a semi-Lagrangian run without fields on many processes — any sequence of the four splitting steps, with any step sizes and a
source that reads the distribution at its own position only — ends without an exception, and every process then holds its part of the run of
the whole grid, provided no particle moves further in a step than the ghost width less one cell. -/
theorem C105_whole_run (hd1 : dq1 ≠ 0) (hd2 : dq2 ≠ 0) (A1 A2 : K → ∀ r, S → P → D.Loc g1 g2 r → K) (a1 a2 : K → S → P → ZMod N1 × ZMod N2 → K)
    (hA1 : ∀ t, D.VelocityAgrees g1 g2 (A1 t) (a1 t)) (hA2 : ∀ t, D.VelocityAgrees g1 g2 (A2 t) (a2 t)) (inst en : Bool)
    (src : K → ∀ r, Dist S P (D.Loc g1 g2 r) K → Bool → Dist S P (D.Loc g1 g2 r) K)
    (c : K → ZMod N1 × ZMod N2 → (S → P → K) → Bool → S → P → K) (hsrc : D.SourceAgrees g1 g2 src c)
    (opFvm opFields : SplitOp K (∀ r, Dist S P (D.Loc g1 g2 r) K) Unit (∀ r, Dist S P (D.Loc g1 g2 r) K)) (methodP : String)
    (steps : List (Scheme × K)) (hb1 : ∀ m ∈ steps, ∀ t s p i, |a1 t s p i * m.2 / dq1| ≤ g1 - 1)
    (hb2 : ∀ m ∈ steps, ∀ t s p i, |a2 t s p i * m.2 / dq2| ≤ g2 - 1)
    (x : Clocked K (SolverState (∀ r, Dist S P (D.Loc g1 g2 r) K) Unit (∀ r, Dist S P (D.Loc g1 g2 r) K)))
    (f : Dist S P (ZMod N1 × ZMod N2) K) (hF : D.Holds g1 g2 x.state.f f) :
    let out := runSteps ⟨"ASL", methodP, false⟩ (fun t _ => D.aslOps g1 g2 q1Start q2Start dq1 dq2 A1 A2 inst en src opFvm opFields t)
      (fun _ => false) steps x
    out.exc = none ∧ out.time = x.time + (steps.map Prod.snd).sum ∧
      ∃ s, out.state = some s ∧ D.Holds g1 g2 s.f (wholeAslRun a1 a2 dq1 dq2 inst en c steps x.time f) := by
  induction steps generalizing x f with
  | nil => exact ⟨rfl, by simp [runSteps], _, rfl, hF⟩
  | cons st steps ih =>
      obtain ⟨m, dt⟩ := st
      have hadd : ∀ x x' y y', D.Holds g1 g2 (K := K) (S := S) (P := P) x x' → D.Holds g1 g2 y y' → D.Holds g1 g2 (x + y) (x' + y') := by
        intro x x' y y' h h' r s p l hl
        simp only [Pi.add_apply, h r s p l hl, h' r s p l hl]
      have hsmul : ∀ (a : K) x x', D.Holds g1 g2 (K := K) (S := S) (P := P) x x' → D.Holds g1 g2 (a • x) (a • x') := by
        intro a x x' h r s p l hl
        simp only [Pi.smul_apply, h r s p l hl]
      have adv : ∀ dt', |dt'| ≤ |dt| → Simulates (D.Holds g1 g2)
          (D.aslOps g1 g2 q1Start q2Start dq1 dq2 A1 A2 inst en src opFvm opFields x.time).opAdvectQ
          (fun dt' => advected (fun s p i => a1 x.time s p i * dt' / dq1) (fun s p i => a2 x.time s p i * dt' / dq2)) dt' := by
        intro dt' hdt s w h
        refine ⟨_, rfl, C51_interpolates_at_foot D g1 g2 q1Start q2Start dq1 dq2 _ _ _ _ dt' hd1 hd2 (hA1 _) (hA2 _) ?_ ?_ _ _ _ h⟩
        · intro s p i
          refine le_trans ?_ (hb1 _ (List.mem_cons_self) x.time s p i)
          simp only [abs_div, abs_mul]
          gcongr
        · intro s p i
          refine le_trans ?_ (hb2 _ (List.mem_cons_self) x.time s p i)
          simp only [abs_div, abs_mul]
          gcongr
      have sol : ∀ dt', Simulates (D.Holds g1 g2)
          (D.aslOps g1 g2 q1Start q2Start dq1 dq2 A1 A2 inst en src opFvm opFields x.time).opSolveSrc
          (sourceFormula inst en c x.time) dt' := by
        intro dt' s w h
        refine ⟨_, rfl, ?_⟩
        intro r sp p l hl
        have e : (fun s' p' => s.f r s' p' l) = fun s' p' => w s' p' (D.toGlob g1 g2 r l) := by
          funext s' p'
          exact h r s' p' l hl
        simp only [Bolt.opSolveSrc, sourceFormula, integratorRK2]
        cases inst <;> cases en <;> simp [hsrc x.time r _ _ _ _ l hl, e, h r _ _ l hl]
      have hstep := split_simulates (D.Holds g1 g2) hadd hsmul _ _ _ _ dt (adv dt le_rfl)
        (adv (dt / 2) (by rw [abs_div, abs_two]; have := abs_nonneg dt; linarith)) (sol dt) (sol (dt / 2)) m
      obtain ⟨s', e', k'⟩ := hstep x.state f hF
      have e : solverStep m ⟨"ASL", methodP, false⟩ (fun t _ => D.aslOps g1 g2 q1Start q2Start dq1 dq2 A1 A2 inst en src opFvm opFields t)
          (fun _ => false) dt x = ⟨none, some s', x.time + dt, dt⟩ := by
        have : stepDispatch m.splitting ⟨"ASL", methodP, false⟩ (D.aslOps g1 g2 q1Start q2Start dq1 dq2 A1 A2 inst en src opFvm opFields x.time) dt
            x.state = .ok s' := by
          simp [stepDispatch, e']
        simp [solverStep, timeStep, this]
      have := ih (fun m' hm => hb1 m' (List.mem_cons_of_mem _ hm)) (fun m' hm => hb2 m' (List.mem_cons_of_mem _ hm)) ⟨s', x.time + dt, dt⟩ _ k'
      simp only [runSteps, e] at this ⊢
      refine ⟨this.1, ?_, this.2.2⟩
      rw [this.2.1, List.map_cons, List.sum_cons]; ring

end

/-- C105 (decomposition): so two such runs on different process grids, with different ghost widths and stale ghost cells, end at the same
time with the same global distribution. -/
theorem C105_decomposition_independence {R R' : Type} (D : Decomp N1 N2 R) (D' : Decomp N1 N2 R') (g1 g2 g1' g2' : ℕ)
    (q1Start q2Start dq1 dq2 : K) (hd1 : dq1 ≠ 0) (hd2 : dq2 ≠ 0)
    (A1 A2 : K → ∀ r, S → P → D.Loc g1 g2 r → K) (A1' A2' : K → ∀ r, S → P → D'.Loc g1' g2' r → K) (a1 a2 : K → S → P → ZMod N1 × ZMod N2 → K)
    (hA1 : ∀ t, D.VelocityAgrees g1 g2 (A1 t) (a1 t)) (hA2 : ∀ t, D.VelocityAgrees g1 g2 (A2 t) (a2 t))
    (hA1' : ∀ t, D'.VelocityAgrees g1' g2' (A1' t) (a1 t)) (hA2' : ∀ t, D'.VelocityAgrees g1' g2' (A2' t) (a2 t)) (inst en : Bool)
    (src : K → ∀ r, Dist S P (D.Loc g1 g2 r) K → Bool → Dist S P (D.Loc g1 g2 r) K)
    (src' : K → ∀ r, Dist S P (D'.Loc g1' g2' r) K → Bool → Dist S P (D'.Loc g1' g2' r) K)
    (c : K → ZMod N1 × ZMod N2 → (S → P → K) → Bool → S → P → K) (hsrc : D.SourceAgrees g1 g2 src c) (hsrc' : D'.SourceAgrees g1' g2' src' c)
    (opFvm opFields : SplitOp K (∀ r, Dist S P (D.Loc g1 g2 r) K) Unit (∀ r, Dist S P (D.Loc g1 g2 r) K))
    (opFvm' opFields' : SplitOp K (∀ r, Dist S P (D'.Loc g1' g2' r) K) Unit (∀ r, Dist S P (D'.Loc g1' g2' r) K)) (methodP : String)
    (steps : List (Scheme × K)) (hb1 : ∀ m ∈ steps, ∀ t s p i, |a1 t s p i * m.2 / dq1| ≤ min g1 g1' - 1)
    (hb2 : ∀ m ∈ steps, ∀ t s p i, |a2 t s p i * m.2 / dq2| ≤ min g2 g2' - 1)
    (x : Clocked K (SolverState (∀ r, Dist S P (D.Loc g1 g2 r) K) Unit (∀ r, Dist S P (D.Loc g1 g2 r) K)))
    (x' : Clocked K (SolverState (∀ r, Dist S P (D'.Loc g1' g2' r) K) Unit (∀ r, Dist S P (D'.Loc g1' g2' r) K)))
    (ht : x.time = x'.time) (f : Dist S P (ZMod N1 × ZMod N2) K) (hF : D.Holds g1 g2 x.state.f f) (hF' : D'.Holds g1' g2' x'.state.f f) :
    let out := runSteps ⟨"ASL", methodP, false⟩ (fun t _ => D.aslOps g1 g2 q1Start q2Start dq1 dq2 A1 A2 inst en src opFvm opFields t)
      (fun _ => false) steps x
    let out' := runSteps ⟨"ASL", methodP, false⟩ (fun t _ => D'.aslOps g1' g2' q1Start q2Start dq1 dq2 A1' A2' inst en src' opFvm' opFields' t)
      (fun _ => false) steps x'
    out.exc = none ∧ out'.exc = none ∧ out.time = out'.time ∧
      ∃ s s' f', out.state = some s ∧ out'.state = some s' ∧ D.Holds g1 g2 s.f f' ∧ D'.Holds g1' g2' s'.f f' := by
  have l1 : ((min g1 g1' : ℕ) : K) - 1 ≤ g1 - 1 := by gcongr; exact min_le_left _ _
  have l1' : ((min g1 g1' : ℕ) : K) - 1 ≤ g1' - 1 := by gcongr; exact min_le_right _ _
  have l2 : ((min g2 g2' : ℕ) : K) - 1 ≤ g2 - 1 := by gcongr; exact min_le_left _ _
  have l2' : ((min g2 g2' : ℕ) : K) - 1 ≤ g2' - 1 := by gcongr; exact min_le_right _ _
  obtain ⟨e, et, s, es, hs⟩ := C105_whole_run D g1 g2 q1Start q2Start dq1 dq2 hd1 hd2 A1 A2 a1 a2 hA1 hA2 inst en src c hsrc opFvm opFields methodP
    steps (fun m hm t s p i => (hb1 m hm t s p i).trans l1) (fun m hm t s p i => (hb2 m hm t s p i).trans l2) x f hF
  obtain ⟨e', et', s', es', hs'⟩ := C105_whole_run D' g1' g2' q1Start q2Start dq1 dq2 hd1 hd2 A1' A2' a1 a2 hA1' hA2' inst en src' c hsrc' opFvm'
    opFields' methodP steps (fun m hm t s p i => (hb1 m hm t s p i).trans l1') (fun m hm t s p i => (hb2 m hm t s p i).trans l2') x' f hF'
  refine ⟨e, e', by rw [et, et', ht], s, s', _, es, es', hs, ?_⟩
  rw [ht]; exact hs'

/-- C105 (conservation): on the whole grid, and so by the above on any number of processes, a run with velocities that do not depend on
position keeps the total of every moment the source keeps at each position. -/
theorem C105_conserves [Fintype S] [Fintype P] (dq1 dq2 : K) (a1 a2 : K → S → P → K) (inst en : Bool) (c : K → ZMod N1 × ZMod N2 → (S → P → K) → Bool → S → P → K)
    (w : S → P → K) (hrate : ∀ t i x, ∑ s, ∑ p, w s p * c t i x false s p = 0)
    (hinst : ∀ t i x, ∑ s, ∑ p, w s p * c t i x true s p = ∑ s, ∑ p, w s p * x s p)
    (steps : List (Scheme × K)) (t : K) (f : Dist S P (ZMod N1 × ZMod N2) K) :
    ∑ i, ∑ s, ∑ p, w s p * wholeAslRun (fun t s p _ => a1 t s p) (fun t s p _ => a2 t s p) dq1 dq2 inst en c steps t f s p i =
      ∑ i, ∑ s, ∑ p, w s p * f s p i := by
  induction steps generalizing t f with
  | nil => rfl
  | cons st steps ih =>
      obtain ⟨m, dt⟩ := st
      rw [wholeAslRun, ih]
      set φ : Dist S P (ZMod N1 × ZMod N2) K → K := fun f => ∑ i, ∑ s, ∑ p, w s p * f s p i with hφ
      change φ _ = φ f
      have hadd : ∀ x y, φ (x + y) = φ x + φ y := by
        intro x y
        simp only [hφ, Pi.add_apply, mul_add, Finset.sum_add_distrib]
      have hsmul : ∀ (a : K) x, φ (a • x) = a * φ x := by
        intro a x
        simp only [hφ, Pi.smul_apply, smul_eq_mul, Finset.mul_sum, mul_left_comm]
      have hsub : ∀ x y, φ (x - y) = φ x - φ y := by
        intro x y
        simp only [hφ, Pi.sub_apply, mul_sub, Finset.sum_sub_distrib]
      have hA : ∀ dt' g, φ (advected (fun s p _ => a1 t s p * dt' / dq1) (fun s p _ => a2 t s p * dt' / dq2) g) = φ g := by
        intro dt' g
        have sw : ∀ g : Dist S P (ZMod N1 × ZMod N2) K, φ g = ∑ s, ∑ p, w s p * ∑ i, g s p i := by
          intro g
          simp only [hφ, Finset.mul_sum]
          rw [Finset.sum_comm]
          exact Finset.sum_congr rfl fun s _ => Finset.sum_comm
        rw [sw, sw]
        exact Finset.sum_congr rfl fun s _ => Finset.sum_congr rfl fun p _ => by rw [C51_conserves (fun s p => a1 t s p * dt' / dq1) (fun s p => a2 t s p * dt' / dq2)]
      have hC : ∀ dt' g, φ (sourceFormula inst en c t dt' g) = φ g := by
        intro dt' g
        refine Finset.sum_congr rfl fun i _ => ?_
        simp only [sourceFormula]
        cases inst
        · cases en
          · simp
          · have := hrate t i (fun s p => g s p i + dt' / 2 * c t i (fun s p => g s p i) false s p)
            simp only [Bool.false_eq_true, if_false, if_true, mul_add, Finset.sum_add_distrib, mul_left_comm _ dt', ← Finset.mul_sum, this, mul_zero, add_zero]
        · simpa using hinst t i (fun s p => g s p i)
      cases m <;> simp only [splitFormula, hadd, hsub, hsmul, hA, hC] <;> ring

/-- C105 (stability): without a source, whatever mixture of the four schemes is used, the sum of squares of the distribution at each momentum
never grows.  The negative weight in the last scheme does no harm. -/
theorem C105_never_amplifies (dq1 dq2 : K) (a1 a2 : K → S → P → K) (c : K → ZMod N1 × ZMod N2 → (S → P → K) → Bool → S → P → K)
    (steps : List (Scheme × K)) (t : K) (f : Dist S P (ZMod N1 × ZMod N2) K) (s : S) (p : P) :
    ∑ i, wholeAslRun (fun t s p _ => a1 t s p) (fun t s p _ => a2 t s p) dq1 dq2 false false c steps t f s p i ^ 2 ≤ ∑ i, f s p i ^ 2 := by
  induction steps generalizing t f with
  | nil => exact le_rfl
  | cons st steps ih =>
      obtain ⟨m, dt⟩ := st
      rw [wholeAslRun]
      refine (ih _ _).trans ?_
      have hC : ∀ (dt' : K) (g : Dist S P (ZMod N1 × ZMod N2) K), sourceFormula false false c t dt' g = g := fun dt' g => rfl
      have hA : ∀ (dt' : K) (g : Dist S P (ZMod N1 × ZMod N2) K),
          ∑ i, advected (fun s p _ => a1 t s p * dt' / dq1) (fun s p _ => a2 t s p * dt' / dq2) g s p i ^ 2 ≤ ∑ i, g s p i ^ 2 := fun dt' g =>
        C92_never_amplifies (fun s p => a1 t s p * dt' / dq1) (fun s p => a2 t s p * dt' / dq2) g s p
      cases m with
      | lie => simpa only [splitFormula, hC] using hA dt f
      | strang => simpa only [splitFormula, hC] using (hA _ _).trans (hA (dt / 2) f)
      | swss =>
          simp only [splitFormula, hC]
          refine le_trans (le_of_eq ?_) (hA dt f)
          refine Finset.sum_congr rfl fun i _ => ?_
          simp only [Pi.smul_apply, Pi.add_apply, smul_eq_mul]
          ring
      | jia =>
          simp only [splitFormula, hC]
          have h1 := (hA (dt / 2) _).trans (hA (dt / 2) f)
          have h2 := hA dt f
          generalize advected (fun s p _ => a1 t s p * (dt / 2) / dq1) (fun s p _ => a2 t s p * (dt / 2) / dq2)
            (advected (fun s p _ => a1 t s p * (dt / 2) / dq1) (fun s p _ => a2 t s p * (dt / 2) / dq2) f) = x at h1 ⊢
          generalize advected (fun s p _ => a1 t s p * dt / dq1) (fun s p _ => a2 t s p * dt / dq2) f = y at h2 ⊢
          have : ∀ i, ((2 / 3 : K) • (x + y) - (1 / 3 : K) • ((1 / 2 : K) • (y + y))) s p i ^ 2 ≤ 2 / 3 * x s p i ^ 2 + 1 / 3 * y s p i ^ 2 := by
            intro i
            simp only [Pi.smul_apply, Pi.add_apply, Pi.sub_apply, smul_eq_mul]
            nlinarith [sq_nonneg (x s p i - y s p i)]
          refine (Finset.sum_le_sum fun i _ => this i).trans ?_
          rw [Finset.sum_add_distrib, ← Finset.mul_sum, ← Finset.mul_sum]
          linarith

/-- Two processes, three cells each, moving by half a cell per step, relaxing towards the mean over two momenta: the hypotheses of
`C105_whole_run` and `C105_conserves` hold, with steps of all four kinds. -/
example : exD.VelocityAgrees 2 1 (fun _ (_ : Unit) (_ : Fin 2) _ => (1 : ℚ)) (fun _ _ _ => 1) ∧
    exD.SourceAgrees 2 1 (fun (_ : ℚ) _ (F : Dist Unit (Fin 2) _ ℚ) b s _p l => if b then (F s 0 l + F s 1 l) / 2 else (F s 0 l + F s 1 l) / 2 - F s _p l)
      (fun _ _ x b s p => if b then (x s 0 + x s 1) / 2 else (x s 0 + x s 1) / 2 - x s p) ∧
    (∀ m ∈ [(Scheme.lie, (1 / 2 : ℚ)), (.strang, 1 / 2), (.swss, 1), (.jia, 1 / 2)], |(1 : ℚ) * m.2 / 1| ≤ ((2 : ℕ) : ℚ) - 1) ∧
    (∀ x : Unit → Fin 2 → ℚ, ∑ s, ∑ p, (1 : ℚ) * ((x s 0 + x s 1) / 2 - x s p) = 0) := by
  refine ⟨fun r s p l _ => rfl, ?_, ?_, ?_⟩
  · intro t r F b s p l _; rfl
  · intro m hm
    simp only [List.mem_cons, List.not_mem_nil, or_false] at hm
    rcases hm with rfl | rfl | rfl | rfl <;> norm_num [abs_le]
  · intro x
    simp [Fin.sum_univ_two]; ring

end Bolt
