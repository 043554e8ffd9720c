import Verif.Proofs.Taylor
import Mathlib.Tactic.IntervalCases

/-!
# Expansions of compositions with a smooth vector field (truncated B-series)
-/

namespace Bolt

set_option synthInstance.maxHeartbeats 400000
set_option maxSynthPendingDepth 10
set_option linter.unusedSectionVars false

open Asymptotics Filter Topology Finset

variable {E : Type} [NormedAddCommGroup E] [NormedSpace ℝ E]

/-- The derivatives of `F` at `x0` through the fourth, symmetric, with the Taylor bound. -/
structure Derivs (F : E → E) (x0 : E) where
  D1 : E →L[ℝ] E
  D2 : E →L[ℝ] E →L[ℝ] E
  D3 : E →L[ℝ] E →L[ℝ] E →L[ℝ] E
  D4 : E →L[ℝ] E →L[ℝ] E →L[ℝ] E →L[ℝ] E
  s2 : ∀ u v, D2 u v = D2 v u
  s3 : ∀ u v, D3 u v = D3 v u
  s3' : ∀ u v w, D3 u v w = D3 u w v
  s4 : ∀ u v, D4 u v = D4 v u
  s4' : ∀ u v w, D4 u v w = D4 u w v
  s4'' : ∀ u v w z, D4 u v w z = D4 u v z w
  tay : (fun d => F (x0 + d) - F x0 - D1 d - (1 / 2 : ℝ) • D2 d d - (1 / 6 : ℝ) • D3 d d d
      - (1 / 24 : ℝ) • D4 d d d d) =O[𝓝 0] fun d => ‖d‖ ^ 5

theorem symm_of_eventually {G : Type} [NormedAddCommGroup G] [NormedSpace ℝ G]
    {F : E → G} {x0 : E} (h : ContDiffAt ℝ 2 F x0) (u v : E) :
    fderiv ℝ (fderiv ℝ F) x0 u v = fderiv ℝ (fderiv ℝ F) x0 v u :=
  (h.isSymmSndFDerivAt (by simp)) u v

/-- A pointwise symmetry of a linear-map-valued function passes to its derivative. -/
theorem symm_deriv {G H : Type} [NormedAddCommGroup G] [NormedSpace ℝ G] [NormedAddCommGroup H]
    [NormedSpace ℝ H] {A : E → G} {x0 : E} (hA : DifferentiableAt ℝ A x0) (p q : G →L[ℝ] H)
    (h : ∀ᶠ x in 𝓝 x0, p (A x) = q (A x)) (u : E) : p (fderiv ℝ A x0 u) = q (fderiv ℝ A x0 u) := by
  have h1 := (p.hasFDerivAt (x := A x0)).comp x0 hA.hasFDerivAt
  have h2 := (q.hasFDerivAt (x := A x0)).comp x0 hA.hasFDerivAt
  have h3 : HasFDerivAt (p ∘ A) (q.comp (fderiv ℝ A x0)) x0 := h2.congr_of_eventuallyEq h
  have := h1.unique h3
  exact congrArg (fun L => L u) this

theorem exists_derivs {F : E → E} {x0 : E} (h : ContDiffAt ℝ 5 F x0) : Nonempty (Derivs F x0) := by
  have hev : ∀ᶠ x in 𝓝 x0, ContDiffAt ℝ 5 F x := h.eventually (by simp)
  have c1 : ∀ x, ContDiffAt ℝ 5 F x → ContDiffAt ℝ 4 (fderiv ℝ F) x := fun x hx =>
    hx.fderiv_right (by norm_num)
  have c2 : ∀ x, ContDiffAt ℝ 5 F x → ContDiffAt ℝ 3 (fderiv ℝ (fderiv ℝ F)) x := fun x hx =>
    (c1 x hx).fderiv_right (by norm_num)
  have c3 : ∀ x, ContDiffAt ℝ 5 F x → ContDiffAt ℝ 2 (fderiv ℝ (fderiv ℝ (fderiv ℝ F))) x := fun x hx =>
    (c2 x hx).fderiv_right (by norm_num)
  have c4 : ∀ x, ContDiffAt ℝ 5 F x → ContDiffAt ℝ 1 (fderiv ℝ (fderiv ℝ (fderiv ℝ (fderiv ℝ F)))) x :=
    fun x hx => (c3 x hx).fderiv_right (by norm_num)
  have d0 : ∀ᶠ x in 𝓝 x0, HasFDerivAt F (fderiv ℝ F x) x :=
    hev.mono fun x hx => (hx.differentiableAt (by norm_num)).hasFDerivAt
  have d1 : ∀ᶠ x in 𝓝 x0, HasFDerivAt (fderiv ℝ F) (fderiv ℝ (fderiv ℝ F) x) x :=
    hev.mono fun x hx => ((c1 x hx).differentiableAt (by norm_num)).hasFDerivAt
  have d2 : ∀ᶠ x in 𝓝 x0, HasFDerivAt (fderiv ℝ (fderiv ℝ F)) (fderiv ℝ (fderiv ℝ (fderiv ℝ F)) x) x :=
    hev.mono fun x hx => ((c2 x hx).differentiableAt (by norm_num)).hasFDerivAt
  have d3 : ∀ᶠ x in 𝓝 x0, HasFDerivAt (fderiv ℝ (fderiv ℝ (fderiv ℝ F)))
      (fderiv ℝ (fderiv ℝ (fderiv ℝ (fderiv ℝ F))) x) x :=
    hev.mono fun x hx => ((c3 x hx).differentiableAt (by norm_num)).hasFDerivAt
  have d4 := taylor1 ((c4 x0 h).differentiableAt (by norm_num)).hasFDerivAt
  have s2e : ∀ᶠ x in 𝓝 x0, ∀ u v, fderiv ℝ (fderiv ℝ F) x u v = fderiv ℝ (fderiv ℝ F) x v u :=
    hev.mono fun x hx u v => symm_of_eventually (hx.of_le (by norm_num)) u v
  have s3e : ∀ᶠ x in 𝓝 x0, ∀ u v, fderiv ℝ (fderiv ℝ (fderiv ℝ F)) x u v
      = fderiv ℝ (fderiv ℝ (fderiv ℝ F)) x v u :=
    hev.mono fun x hx u v => symm_of_eventually ((c1 x hx).of_le (by norm_num)) u v
  -- second and third arguments of the third derivative
  have s3e' : ∀ᶠ x in 𝓝 x0, ∀ u v w, fderiv ℝ (fderiv ℝ (fderiv ℝ F)) x u v w
      = fderiv ℝ (fderiv ℝ (fderiv ℝ F)) x u w v := by
    filter_upwards [hev, s2e.eventually_nhds] with x hx hs u v w
    have := symm_deriv (A := fderiv ℝ (fderiv ℝ F)) ((c2 x hx).differentiableAt (by norm_num))
      ((ContinuousLinearMap.apply ℝ E w).comp (ContinuousLinearMap.apply ℝ (E →L[ℝ] E) v))
      ((ContinuousLinearMap.apply ℝ E v).comp (ContinuousLinearMap.apply ℝ (E →L[ℝ] E) w))
      (hs.mono fun y hy => hy v w) u
    exact this
  have s4e : ∀ u v, fderiv ℝ (fderiv ℝ (fderiv ℝ (fderiv ℝ F))) x0 u v
      = fderiv ℝ (fderiv ℝ (fderiv ℝ (fderiv ℝ F))) x0 v u := fun u v =>
    symm_of_eventually ((c2 x0 h).of_le (by norm_num)) u v
  have s4e' : ∀ u v w, fderiv ℝ (fderiv ℝ (fderiv ℝ (fderiv ℝ F))) x0 u v w
      = fderiv ℝ (fderiv ℝ (fderiv ℝ (fderiv ℝ F))) x0 u w v := by
    intro u v w
    have := symm_deriv (A := fderiv ℝ (fderiv ℝ (fderiv ℝ F))) ((c3 x0 h).differentiableAt (by norm_num))
      ((ContinuousLinearMap.apply ℝ (E →L[ℝ] E) w).comp (ContinuousLinearMap.apply ℝ (E →L[ℝ] E →L[ℝ] E) v))
      ((ContinuousLinearMap.apply ℝ (E →L[ℝ] E) v).comp (ContinuousLinearMap.apply ℝ (E →L[ℝ] E →L[ℝ] E) w))
      (s3e.mono fun y hy => hy v w) u
    exact this
  have s4e'' : ∀ u v w z, fderiv ℝ (fderiv ℝ (fderiv ℝ (fderiv ℝ F))) x0 u v w z
      = fderiv ℝ (fderiv ℝ (fderiv ℝ (fderiv ℝ F))) x0 u v z w := by
    intro u v w z
    have := symm_deriv (A := fderiv ℝ (fderiv ℝ (fderiv ℝ F))) ((c3 x0 h).differentiableAt (by norm_num))
      ((ContinuousLinearMap.apply ℝ E z).comp
        ((ContinuousLinearMap.apply ℝ (E →L[ℝ] E) w).comp
          (ContinuousLinearMap.apply ℝ (E →L[ℝ] E →L[ℝ] E) v)))
      ((ContinuousLinearMap.apply ℝ E w).comp
        ((ContinuousLinearMap.apply ℝ (E →L[ℝ] E) z).comp
          (ContinuousLinearMap.apply ℝ (E →L[ℝ] E →L[ℝ] E) v)))
      (s3e'.mono fun y hy => hy v w z) u
    exact this
  exact ⟨⟨fderiv ℝ F x0, fderiv ℝ (fderiv ℝ F) x0, fderiv ℝ (fderiv ℝ (fderiv ℝ F)) x0,
    fderiv ℝ (fderiv ℝ (fderiv ℝ (fderiv ℝ F))) x0, s2e.self_of_nhds, s3e.self_of_nhds, s3e'.self_of_nhds,
    s4e, s4e', s4e'', taylor5 d0 d1 d2 d3 d4 s2e.self_of_nhds s3e.self_of_nhds s3e'.self_of_nhds
    s4e s4e' s4e''⟩⟩

namespace Derivs

variable {F : E → E} {x0 : E} (D : Derivs F x0)

/-- The elementary differentials through order five, with coefficients `b`. -/
noncomputable def B (b : ℕ → ℝ) : ℕ → E
  | 0 => b 0 • F x0
  | 1 => b 1 • D.D1 (F x0)
  | 2 => b 2 • D.D2 (F x0) (F x0) + b 3 • D.D1 (D.D1 (F x0))
  | 3 => b 4 • D.D3 (F x0) (F x0) (F x0) + b 5 • D.D2 (F x0) (D.D1 (F x0))
      + b 6 • D.D1 (D.D2 (F x0) (F x0)) + b 7 • D.D1 (D.D1 (D.D1 (F x0)))
  | 4 => b 8 • D.D4 (F x0) (F x0) (F x0) (F x0) + b 9 • D.D3 (F x0) (F x0) (D.D1 (F x0))
      + b 10 • D.D2 (F x0) (D.D2 (F x0) (F x0)) + b 11 • D.D2 (F x0) (D.D1 (D.D1 (F x0)))
      + b 12 • D.D2 (D.D1 (F x0)) (D.D1 (F x0)) + b 13 • D.D1 (D.D3 (F x0) (F x0) (F x0))
      + b 14 • D.D1 (D.D2 (F x0) (D.D1 (F x0))) + b 15 • D.D1 (D.D1 (D.D2 (F x0) (F x0)))
      + b 16 • D.D1 (D.D1 (D.D1 (D.D1 (F x0))))
  | _ => 0

/-- The coefficients of `F (x0 + h g)` when `g` has coefficients `b`. -/
noncomputable def stageB (b : ℕ → ℝ) : ℕ → ℝ
  | 0 => 1
  | 1 => b 0
  | 2 => b 0 ^ 2 / 2
  | 3 => b 1
  | 4 => b 0 ^ 3 / 6
  | 5 => b 0 * b 1
  | 6 => b 2
  | 7 => b 3
  | 8 => b 0 ^ 4 / 24
  | 9 => b 0 ^ 2 * b 1 / 2
  | 10 => b 0 * b 2
  | 11 => b 0 * b 3
  | 12 => b 1 ^ 2 / 2
  | 13 => b 4
  | 14 => b 5
  | 15 => b 6
  | 16 => b 7
  | _ => 0

theorem jet_comp {n : ℕ} {u : ℝ → E} {b : ℕ → ℝ} (hn1 : 1 ≤ n) (hn : n ≤ 5)
    (hu : Jet n u (shiftCoeff (D.B b))) : Jet n (fun h => F (x0 + u h)) (D.B (stageB b)) := by
  have hO : u =O[𝓝 0] fun h : ℝ => h := hu.isBigO_id hn1 rfl
  have ht : Tendsto u (𝓝 0) (𝓝 0) := hO.trans_tendsto tendsto_id
  have hR : (fun h => F (x0 + u h) - F x0 - D.D1 (u h) - (1 / 2 : ℝ) • D.D2 (u h) (u h)
      - (1 / 6 : ℝ) • D.D3 (u h) (u h) (u h) - (1 / 24 : ℝ) • D.D4 (u h) (u h) (u h) (u h))
      =O[𝓝 0] fun h : ℝ => h ^ n := by
    have h1 := D.tay.comp_tendsto ht
    have h2 : (fun h : ℝ => ‖u h‖ ^ 5) =O[𝓝 0] fun h : ℝ => h ^ 5 := (hO.norm_left).pow 5
    exact (h1.trans h2).trans (isBigO_pow_le hn)
  have hR' : Jet n (fun h => F (x0 + u h) - F x0 - D.D1 (u h) - (1 / 2 : ℝ) • D.D2 (u h) (u h)
      - (1 / 6 : ℝ) • D.D3 (u h) (u h) (u h) - (1 / 24 : ℝ) • D.D4 (u h) (u h) (u h) (u h)) (fun _ => 0) := by
    unfold Jet
    simpa using hR
  have j0 := Jet.const n (F x0)
  have j1 := hu.clm D.D1
  have j2 := ((hu.clm D.D2).apply hu).const_smul (1 / 2)
  have j3 := (((hu.clm D.D3).apply hu).apply hu).const_smul (1 / 6)
  have j4 := ((((hu.clm D.D4).apply hu).apply hu).apply hu).const_smul (1 / 24)
  have j := ((((hR'.add j0).add j1).add j2).add j3).add j4
  refine (j.congr ?_).congr_fun (Eventually.of_forall fun h => by abel)
  intro k hk
  have hk5 : k < 5 := by omega
  simp only [Nat.sum_antidiagonal_eq_sum_range_succ_mk]
  interval_cases k
  all_goals
    simp only [sum_range_succ, sum_range_zero, Nat.sub_zero, Nat.reduceSub, Nat.sub_self,
      shiftCoeff, B, stageB, map_zero, zero_apply, zero_add, add_zero, smul_zero, Nat.succ_eq_add_one,
      map_add, map_smul, add_apply, smul_apply, if_true, if_false,
      OfNat.ofNat_ne_zero, one_ne_zero, Nat.reduceAdd, one_smul]
  · module
  · rw [D.s2 (D.D1 (F x0)) (F x0)]
    module
  · rw [D.s2 (D.D2 (F x0) (F x0)) (F x0), D.s2 (D.D1 (D.D1 (F x0))) (F x0),
      D.s3 (D.D1 (F x0)) (F x0), D.s3' (F x0) (D.D1 (F x0)) (F x0)]
    module

/-- The coefficients of the exact solution: `y h = y 0 + h g`, `g` with these coefficients (the
reciprocals of order times density times symmetry of the rooted trees). -/
noncomputable def exactB : ℕ → ℝ
  | 0 => 1
  | 1 => 1 / 2
  | 2 => 1 / 6
  | 3 => 1 / 6
  | 4 => 1 / 24
  | 5 => 1 / 8
  | 6 => 1 / 24
  | 7 => 1 / 24
  | 8 => 1 / 120
  | 9 => 1 / 20
  | 10 => 1 / 30
  | 11 => 1 / 30
  | 12 => 1 / 40
  | 13 => 1 / 120
  | 14 => 1 / 40
  | 15 => 1 / 120
  | 16 => 1 / 120
  | _ => 0

theorem jet_exact {y : ℝ → E} (hy : ∀ᶠ t in 𝓝 0, HasDerivAt y (F (y t)) t) (h0 : y 0 = x0) :
    ∀ n ≤ 5, Jet (n + 1) (fun h => y h - x0) (shiftCoeff (D.B exactB)) := by
  intro n
  induction n with
  | zero =>
    intro _
    have h1 : HasDerivAt y (F (y 0)) 0 := hy.self_of_nhds
    have h2 := h1.hasFDerivAt.isBigO_sub
    unfold Jet
    simp only [zero_add, sum_range_one, shiftCoeff, smul_zero, sub_zero, pow_one]
    rw [h0] at h2
    simpa using h2
  | succ n ih =>
    intro hn
    have h1 := D.jet_comp (by omega) (by omega) (ih (by omega))
    have h2 := Jet.integrate hy (h1.congr_fun (Eventually.of_forall fun h => by rw [add_sub_cancel]))
    rw [h0] at h2
    refine h2.congr ?_
    intro k hk
    rcases k with _ | k
    · rfl
    · have hk5 : k < 5 := by omega
      simp only [shiftCoeff]
      interval_cases k <;> simp only [B, stageB, exactB] <;> norm_num <;> module

theorem B_add (b c : ℕ → ℝ) (k : ℕ) : D.B b k + D.B c k = D.B (fun n => b n + c n) k := by
  match k with
  | 0 | 1 | 2 | 3 | 4 => simp only [B]; module
  | _ + 5 => simp [B]

theorem B_sub (b c : ℕ → ℝ) (k : ℕ) : D.B b k - D.B c k = D.B (fun n => b n - c n) k := by
  match k with
  | 0 | 1 | 2 | 3 | 4 => simp only [B]; module
  | _ + 5 => simp [B]

theorem B_smul (b : ℕ → ℝ) (c : ℝ) (k : ℕ) : c • D.B b k = D.B (fun n => c * b n) k := by
  match k with
  | 0 | 1 | 2 | 3 | 4 => simp only [B]; module
  | _ + 5 => simp [B]

/-- The stage value `g` has B-series coefficients `b`. -/
def IsB (g : ℝ → E) (b : ℕ → ℝ) : Prop := Jet 5 g (D.B b)

variable {D}

theorem IsB.add {g k : ℝ → E} {b c : ℕ → ℝ} (hg : D.IsB g b) (hk : D.IsB k c) :
    D.IsB (fun h => g h + k h) (fun n => b n + c n) :=
  (Jet.add hg hk).congr fun _ _ => D.B_add b c _

theorem IsB.sub {g k : ℝ → E} {b c : ℕ → ℝ} (hg : D.IsB g b) (hk : D.IsB k c) :
    D.IsB (fun h => g h - k h) (fun n => b n - c n) :=
  (Jet.sub hg hk).congr fun _ _ => D.B_sub b c _

theorem IsB.smul {g : ℝ → E} {b : ℕ → ℝ} (hg : D.IsB g b) (c : ℝ) :
    D.IsB (fun h => c • g h) (fun n => c * b n) :=
  (Jet.const_smul hg c).congr fun _ _ => D.B_smul b c _

theorem IsB.stage {g : ℝ → E} {b : ℕ → ℝ} (hg : D.IsB g b) :
    D.IsB (fun h => F (x0 + h • g h)) (stageB b) :=
  D.jet_comp (by norm_num) le_rfl ((Jet.smul_h hg).mono (by norm_num))

theorem IsB.first : D.IsB (fun _ => F x0) (stageB fun _ => 0) := by
  have h : D.IsB (fun _ => (0 : E)) (fun _ => 0) := by
    unfold IsB
    refine (Jet.const 5 (0 : E)).congr fun k hk => ?_
    interval_cases k <;> simp [B]
  have := h.stage
  simpa using this

theorem IsB.order {g : ℝ → E} {b : ℕ → ℝ} (hg : D.IsB g b) {y : ℝ → E}
    (hy : ∀ᶠ t in 𝓝 0, HasDerivAt y (F (y t)) t) (h0 : y 0 = x0) {p : ℕ} (hp : p ≤ 5)
    (hb : ∀ k < p, D.B b k = D.B exactB k) :
    (fun h => x0 + h • g h - y h) =O[𝓝 0] fun h : ℝ => h ^ (p + 1) := by
  have h1 := D.jet_exact hy h0 5 le_rfl
  have h2 := (Jet.smul_h hg).sub h1
  have h3 := h2.of_coeff_zero (m := p + 1) (by omega) (fun k hk => by
    rcases k with _ | k
    · simp [shiftCoeff]
    · simp only [shiftCoeff]
      rw [hb k (by omega), sub_self])
  refine h3.congr_left fun h => by abel

end Derivs

end Bolt
