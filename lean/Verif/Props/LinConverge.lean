import Verif.Proofs.LinConverge
import Verif.Spec.LinConverge
import Verif.Props.LinearPhysics
import Mathlib.Topology.Algebra.Module.FiniteDimension
import Mathlib.Analysis.Calculus.Deriv.Prod

/-!
# C124: runs of the linear solver with self-consistent fields converge — electrostatic at the order of the scheme, electrodynamic at first order only
-/

set_option linter.unusedSectionVars false

namespace Bolt

open Complex Matrix

variable {M1 M2 M3 ns N1 N2 : ℕ} [NeZero M1] [NeZero M2] [NeZero M3] [NeZero N1] [NeZero N2]

/-! ## The right-hand sides are linear -/

theorem vlasovRate_add (cfg : LinCfg M1 M2 M3 ns N1 N2) (B0 : Fin 3 → ℂ) (em em' : LinEM N1 N2) (x x' : LinF M1 M2 M3 ns N1 N2 ℂ) :
    vlasovRate cfg (em + em') B0 (x + x') = vlasovRate cfg em B0 x + vlasovRate cfg em' B0 x' := by
  funext p s q
  simp only [vlasovRate, Pi.add_apply, waveVec, velVec, EVec, BVec, momGrad, centralDiff4, afShift, cross_apply, vec3_dotProduct, cons_val_zero, cons_val_one,
    Matrix.cons_val]
  ring

theorem vlasovRate_smul (cfg : LinCfg M1 M2 M3 ns N1 N2) (B0 : Fin 3 → ℂ) (c : ℝ) (em : LinEM N1 N2) (x : LinF M1 M2 M3 ns N1 N2 ℂ) :
    vlasovRate cfg (c • em) B0 (c • x) = c • vlasovRate cfg em B0 x := by
  funext p s q
  simp only [vlasovRate, Pi.add_apply, Pi.smul_apply, real_smul, waveVec, velVec, EVec, BVec, momGrad, centralDiff4, afShift, cross_apply, vec3_dotProduct,
    cons_val_zero, cons_val_one, Matrix.cons_val]
  ring

theorem currentVec_add (cfg : LinCfg M1 M2 M3 ns N1 N2) (x x' : LinF M1 M2 M3 ns N1 N2 ℂ) (q : ZMod N1 × ZMod N2) :
    currentVec cfg (x + x') q = currentVec cfg x q + currentVec cfg x' q := by
  simp only [currentVec, Pi.add_apply, add_smul, smul_add, Finset.sum_add_distrib]

theorem currentVec_smul (cfg : LinCfg M1 M2 M3 ns N1 N2) (c : ℝ) (x : LinF M1 M2 M3 ns N1 N2 ℂ) (q : ZMod N1 × ZMod N2) :
    currentVec cfg (c • x) q = c • currentVec cfg x q := by
  funext i
  simp only [currentVec, Pi.smul_apply, real_smul, Finset.smul_sum, Finset.sum_apply, smul_eq_mul]
  exact Finset.sum_congr rfl fun s _ => Finset.sum_congr rfl fun p _ => by ring

theorem maxwellRate_add (cfg : LinCfg M1 M2 M3 ns N1 N2) (em em' : LinEM N1 N2) (x x' : LinF M1 M2 M3 ns N1 N2 ℂ) :
    maxwellRate cfg (x + x') (em + em') = maxwellRate cfg x em + maxwellRate cfg x' em' := by
  funext j q
  fin_cases j <;>
    simp [maxwellRate, emOf, currentVec_add, waveVec, EVec, BVec, cross_apply] <;> ring

theorem maxwellRate_smul (cfg : LinCfg M1 M2 M3 ns N1 N2) (c : ℝ) (em : LinEM N1 N2) (x : LinF M1 M2 M3 ns N1 N2 ℂ) :
    maxwellRate cfg (c • x) (c • em) = c • maxwellRate cfg x em := by
  funext j q
  fin_cases j <;>
    simp [maxwellRate, emOf, currentVec_smul, waveVec, EVec, BVec, cross_apply] <;> ring

theorem linRho_add (cfg : LinCfg M1 M2 M3 ns N1 N2) (x x' : LinF M1 M2 M3 ns N1 N2 ℂ) : linRho cfg (x + x') = linRho cfg x + linRho cfg x' := by
  funext s q
  simp only [linRho, linMoment, density, integralOverV, Pi.add_apply, Finset.sum_add_distrib]
  ring

theorem linRho_smul (cfg : LinCfg M1 M2 M3 ns N1 N2) (c : ℝ) (x : LinF M1 M2 M3 ns N1 N2 ℂ) : linRho cfg (c • x) = c • linRho cfg x := by
  funext s q
  simp only [linRho, linMoment, density, integralOverV, Pi.smul_apply, real_smul, ← Finset.mul_sum]
  ring

theorem linElectrostatic_add (dq1 dq2 eps : ℝ) (r r' : Fin ns → ZMod N1 × ZMod N2 → ℂ) :
    linElectrostatic dq1 dq2 eps (r + r') = linElectrostatic dq1 dq2 eps r + linElectrostatic dq1 dq2 eps r' := by
  funext j q
  fin_cases j <;> simp [linElectrostatic, Finset.sum_add_distrib] <;> split_ifs <;> ring

theorem linElectrostatic_smul (dq1 dq2 eps : ℝ) (c : ℝ) (r : Fin ns → ZMod N1 × ZMod N2 → ℂ) :
    linElectrostatic dq1 dq2 eps (c • r) = c • linElectrostatic dq1 dq2 eps r := by
  funext j q
  fin_cases j <;> simp [linElectrostatic, ← Finset.mul_sum] <;> split_ifs <;> ring

/-- The right-hand side of the electrostatic problem. -/
noncomputable def esOp (cfg : LinCfg M1 M2 M3 ns N1 N2) (B0 : Fin 3 → ℂ) : LinF M1 M2 M3 ns N1 N2 ℂ →L[ℝ] LinF M1 M2 M3 ns N1 N2 ℂ :=
  LinearMap.toContinuousLinearMap
    { toFun := fun x => vlasovRate cfg (linElectrostatic cfg.dq1 cfg.dq2 cfg.eps (linRho cfg x)) B0 x
      map_add' := fun x x' => by rw [linRho_add, linElectrostatic_add, vlasovRate_add]
      map_smul' := fun c x => by rw [linRho_smul, linElectrostatic_smul, vlasovRate_smul]; rfl }

/-- The right-hand side of the electrodynamic problem. -/
noncomputable def edOp (cfg : LinCfg M1 M2 M3 ns N1 N2) (B0 : Fin 3 → ℂ) :
    (LinF M1 M2 M3 ns N1 N2 ℂ × LinEM N1 N2) →L[ℝ] (LinF M1 M2 M3 ns N1 N2 ℂ × LinEM N1 N2) :=
  LinearMap.toContinuousLinearMap
    { toFun := fun z => (vlasovRate cfg z.2 B0 z.1, maxwellRate cfg z.1 z.2)
      map_add' := fun z z' => by rw [Prod.fst_add, Prod.snd_add, vlasovRate_add, maxwellRate_add]; rfl
      map_smul' := fun c z => by rw [Prod.smul_fst, Prod.smul_snd, vlasovRate_smul, maxwellRate_smul]; rfl }

/-- The part of it that the solver evaluates at the beginning of a step. -/
noncomputable def frozenOp (cfg : LinCfg M1 M2 M3 ns N1 N2) (B0 : Fin 3 → ℂ) :
    (LinF M1 M2 M3 ns N1 N2 ℂ × LinEM N1 N2) →L[ℝ] (LinF M1 M2 M3 ns N1 N2 ℂ × LinEM N1 N2) :=
  LinearMap.toContinuousLinearMap
    { toFun := fun z => (vlasovRate cfg z.2 B0 0, 0)
      map_add' := fun z z' => by
        have := vlasovRate_add cfg B0 z.2 z'.2 0 0
        rw [add_zero] at this
        rw [Prod.snd_add, this, Prod.mk_add_mk, add_zero]
      map_smul' := fun c z => by
        have := vlasovRate_smul cfg B0 c z.2 0
        rw [smul_zero] at this
        rw [Prod.smul_snd, this, RingHom.id_apply, Prod.smul_mk, smul_zero] }

theorem edOp_sub_frozen (cfg : LinCfg M1 M2 M3 ns N1 N2) (B0 : Fin 3 → ℂ) (z : LinF M1 M2 M3 ns N1 N2 ℂ × LinEM N1 N2) :
    (edOp cfg B0 - frozenOp cfg B0) z = (vlasovRate cfg 0 B0 z.1, maxwellRate cfg z.1 z.2) := by
  have := vlasovRate_add cfg B0 0 z.2 z.1 0
  rw [zero_add, add_zero] at this
  rw [_root_.sub_apply]
  change (vlasovRate cfg z.2 B0 z.1 - vlasovRate cfg z.2 B0 0, maxwellRate cfg z.1 z.2 - 0) = _
  rw [this, add_sub_cancel_right, sub_zero]

/-! ## The electrostatic field is determined by the charge -/

theorem waveVec_ne_zero (dq1 dq2 : ℝ) (h1 : dq1 ≠ 0) (h2 : dq2 ≠ 0) (q : ZMod N1 × ZMod N2) (hq : q ≠ 0) :
    ((calculateK dq1 dq2 q).1 : ℂ) ^ 2 + ((calculateK dq1 dq2 q).2 : ℂ) ^ 2 ≠ 0 := by
  have hne := freqSum_ne_zero h1 h2 q hq
  have hk : ((calculateK dq1 dq2 q).1 ^ 2 + (calculateK dq1 dq2 q).2 ^ 2 : ℝ) ≠ 0 := by
    have : (calculateK dq1 dq2 q).1 ^ 2 + (calculateK dq1 dq2 q).2 ^ 2 = 4 * Real.pi ^ 2 * (fftfreq N1 dq1 q.1 ^ 2 + fftfreq N2 dq2 q.2 ^ 2) := by
      simp only [calculateK]; ring
    rw [this]; exact hne
  exact_mod_cast hk

theorem sum_linRho (cfg : LinCfg M1 M2 M3 ns N1 N2) (x : LinF M1 M2 M3 ns N1 N2 ℂ) (q : ZMod N1 × ZMod N2) :
    ∑ s, linRho cfg x s q = chargeHat cfg.charge cfg.dp1 cfg.dp2 cfg.dp3 x q := by
  refine Finset.sum_congr rfl fun s _ => ?_
  simp only [linRho, linMoment, density, integralOverV]
  push_cast
  ring

theorem poissonField_iff (cfg : LinCfg M1 M2 M3 ns N1 N2) (h1 : cfg.dq1 ≠ 0) (h2 : cfg.dq2 ≠ 0) (he : cfg.eps ≠ 0) (x : LinF M1 M2 M3 ns N1 N2 ℂ)
    (em : LinEM N1 N2) : PoissonField cfg x em ↔ em = linElectrostatic cfg.dq1 cfg.dq2 cfg.eps (linRho cfg x) := by
  have hec : (cfg.eps : ℂ) ≠ 0 := by exact_mod_cast he
  constructor
  · rintro ⟨hg, hc, hm, hB⟩
    have hB3 : ∀ q, em 3 q = 0 := fun q => congrFun (hB q) 0
    have hB4 : ∀ q, em 4 q = 0 := fun q => congrFun (hB q) 1
    have hB5 : ∀ q, em 5 q = 0 := fun q => congrFun (hB q) 2
    have hm0 : em 0 0 = 0 := congrFun hm 0
    have hm1 : em 1 0 = 0 := congrFun hm 1
    have hm2 : em 2 0 = 0 := congrFun hm 2
    have key : ∀ q, q ≠ 0 → em 0 q = -((∑ s, linRho cfg x s q) * ((1 / ((calculateK cfg.dq1 cfg.dq2 q).1 ^ 2 + (calculateK cfg.dq1 cfg.dq2 q).2 ^ 2) : ℝ) : ℂ)) * I
          * (calculateK cfg.dq1 cfg.dq2 q).1 / cfg.eps ∧
        em 1 q = -((∑ s, linRho cfg x s q) * ((1 / ((calculateK cfg.dq1 cfg.dq2 q).1 ^ 2 + (calculateK cfg.dq1 cfg.dq2 q).2 ^ 2) : ℝ) : ℂ)) * I
          * (calculateK cfg.dq1 cfg.dq2 q).2 / cfg.eps ∧ em 2 q = 0 := by
      intro q hq
      have hk := waveVec_ne_zero cfg.dq1 cfg.dq2 h1 h2 q hq
      have g := hg q hq
      rw [← sum_linRho, divEHat] at g
      have c := hc q
      have c0 := congrFun c 0
      have c1 := congrFun c 1
      have c2 := congrFun c 2
      simp only [waveVec, EVec, cross_apply, cons_val_zero, cons_val_one, Matrix.cons_val, Pi.zero_apply, zero_mul, sub_zero, zero_sub] at c0 c1 c2
      push_cast
      refine ⟨?_, ?_, ?_⟩
      · rw [← g]
        field_simp
        linear_combination ((calculateK cfg.dq1 cfg.dq2 q).1 : ℂ) * ((calculateK cfg.dq1 cfg.dq2 q).1 * em 0 q + (calculateK cfg.dq1 cfg.dq2 q).2 * em 1 q) * I_sq
          - ((calculateK cfg.dq1 cfg.dq2 q).2 : ℂ) * c2
      · rw [← g]
        field_simp
        linear_combination ((calculateK cfg.dq1 cfg.dq2 q).2 : ℂ) * ((calculateK cfg.dq1 cfg.dq2 q).1 * em 0 q + (calculateK cfg.dq1 cfg.dq2 q).2 * em 1 q) * I_sq
          + ((calculateK cfg.dq1 cfg.dq2 q).1 : ℂ) * c2
      · refine (mul_eq_zero.mp ?_).resolve_left hk
        linear_combination ((calculateK cfg.dq1 cfg.dq2 q).2 : ℂ) * c0 - ((calculateK cfg.dq1 cfg.dq2 q).1 : ℂ) * c1
    funext j q
    by_cases hq : q = 0
    · subst hq
      fin_cases j <;> simp [linElectrostatic, hm0, hm1, hm2, hB3, hB4, hB5]
    · obtain ⟨k0, k1, k2⟩ := key q hq
      fin_cases j
      · change em 0 q = -(if q = 0 then (0 : ℂ) else _) * I * _ / _
        rw [if_neg hq]; exact k0
      · change em 1 q = -(if q = 0 then (0 : ℂ) else _) * I * _ / _
        rw [if_neg hq]; exact k1
      · exact k2
      · exact hB3 q
      · exact hB4 q
      · exact hB5 q
  · rintro rfl
    obtain ⟨hg, hc, hm, hz⟩ := C47_electrostatic cfg.dq1 cfg.dq2 cfg.eps h1 h2 he (linRho cfg x)
    refine ⟨fun q hq => (hg q hq).trans (sum_linRho cfg x q), fun q => ?_, ?_, fun q => ?_⟩
    · funext i
      fin_cases i
      · simp [waveVec, EVec, cross_apply, hz 2 le_rfl]
      · simp [waveVec, EVec, cross_apply, hz 2 le_rfl]
      · have := hc q
        simp [waveVec, EVec, cross_apply, this]
    · funext i
      fin_cases i <;> simp [EVec, hm]
    · funext i
      fin_cases i
      · exact hz 3 (by decide) q
      · exact hz 4 (by decide) q
      · exact hz 5 (by decide) q

/-! ## Runs as iterations -/

theorem linRun_iterate (m : LinScheme) (cfg : LinCfg M1 M2 M3 ns N1 N2) (dt : ℝ) (S : LinState M1 M2 M3 ns N1 N2 → LinState M1 M2 M3 ns N1 N2)
    (hS : ∀ s, linStep m cfg dt s = .ok ((), S s)) : ∀ (n : ℕ) (s : LinState M1 M2 M3 ns N1 N2),
    linRun cfg (List.replicate n (m, dt)) s = .ok ((), S^[n] s)
  | 0, _ => rfl
  | n + 1, s => by
    rw [List.replicate_succ, linRun_cons, hS]
    exact linRun_iterate m cfg dt S hS n (S s)

theorem run_time (m : LinScheme) (cfg : LinCfg M1 M2 M3 ns N1 N2) (T : ℝ) (n : ℕ) (hn : 0 < n) (s t : LinState M1 M2 M3 ns N1 N2)
    (h : linRun cfg (List.replicate n (m, T / n)) s = .ok ((), t)) : t.time = s.time + T := by
  rw [C46_clock_run cfg _ s t h, List.map_replicate, List.sum_replicate, nsmul_eq_mul]
  have : (n : ℝ) ≠ 0 := by exact_mod_cast hn.ne'
  field_simp

/-! ## C124: electrostatic runs -/

/-- C124: an electrostatic run of `n` steps of size `T / n` with any of the schemes ends near the solution of the linearised Vlasov–Poisson equations: the
error is at most a constant times `n ^ -order`.  `Λ` is any bound on the rate of change. -/
theorem C124_electrostatic_order (m : LinScheme) (cfg : LinCfg M1 M2 M3 ns N1 N2) (hns : ns = 1) (hf : cfg.fieldsEnabled = true)
    (hs : cfg.sourceEnabled = false) (hi : cfg.instantaneous = false) (ht : cfg.fieldsType = "electrostatic")
    (h1 : cfg.dq1 ≠ 0) (h2 : cfg.dq2 ≠ 0) (he : cfg.eps ≠ 0) (s : LinState M1 M2 M3 ns N1 N2) (Λ : ℝ) (hΛ : 0 ≤ Λ)
    (hrate : ∀ x em, PoissonField cfg x em → ‖vlasovRate cfg em (meanB s) x‖ ≤ Λ * ‖x‖)
    (f : ℝ → LinF M1 M2 M3 ns N1 N2 ℂ) (em : ℝ → LinEM N1 N2) (sol : VlasovPoisson cfg (meanB s) f em) (h0 : f 0 = s.fHat)
    (T : ℝ) (n : ℕ) (hn : 0 < n) :
    ∃ t, linRun cfg.nonrel (List.replicate n (m, T / n)) s = .ok ((), t) ∧ t.time = s.time + T ∧
      ‖t.fHat - f T‖ ≤ 2 * (Λ * |T|) ^ (m.order + 1) * Real.exp (3 * (Λ * |T|)) / n ^ m.order * ‖s.fHat‖ := by
  choose S hS using C65_electrostatic_step m cfg hns hf hs hi ht (T / n)
  have hrun := linRun_iterate m cfg.nonrel (T / n) S (fun s => (hS s).1) n s
  refine ⟨_, hrun, run_time m cfg.nonrel T n hn s _ hrun, ?_⟩
  have hB : ∀ k, (S^[k] s).fieldsHat = s.fieldsHat := by
    intro k
    induction k with
    | zero => rfl
    | succ k ih => rw [Function.iterate_succ_apply', (hS _).2.2.1, ih]
  have hsol : ∀ t, HasDerivAt f (esOp cfg (meanB s) (f t)) t := by
    intro t
    have h := sol.vlasov t
    rw [(poissonField_iff cfg h1 h2 he _ _).mp (sol.field t)] at h
    exact h
  have hL : ‖esOp cfg (meanB s)‖ ≤ Λ :=
    ContinuousLinearMap.opNorm_le_bound _ hΛ fun x => hrate x _ ((poissonField_iff cfg h1 h2 he x _).mpr rfl)
  rw [← h0]
  refine lin_iterate_error m (esOp cfg (meanB s)) 0 Λ hL (by rwa [sub_zero]) m.order (.inr ⟨rfl, rfl⟩) f hsol T n hn (fun k => (S^[k] s).time)
    (fun k => (S^[k] s).fHat) h0.symm fun k => ?_
  have hb : meanB (S^[k] s) = meanB s := by unfold meanB; rw [hB]
  change (S^[k + 1] s).fHat = _
  rw [Function.iterate_succ_apply', (hS _).2.2.2, hb]
  simp only [sub_zero, _root_.zero_apply, add_zero]
  rfl

/-- C124: for every initial state there is a solution of the Vlasov–Poisson equations, and the runs converge to it at the order of the scheme. -/
theorem C124_electrostatic_converges (m : LinScheme) (cfg : LinCfg M1 M2 M3 ns N1 N2) (hns : ns = 1) (hf : cfg.fieldsEnabled = true)
    (hs : cfg.sourceEnabled = false) (hi : cfg.instantaneous = false) (ht : cfg.fieldsType = "electrostatic")
    (h1 : cfg.dq1 ≠ 0) (h2 : cfg.dq2 ≠ 0) (he : cfg.eps ≠ 0) (s : LinState M1 M2 M3 ns N1 N2) :
    ∃ f em, VlasovPoisson cfg (meanB s) f em ∧ f 0 = s.fHat ∧ ∀ T : ℝ, ∃ C : ℝ, ∀ n : ℕ, 0 < n →
      ∃ t, linRun cfg.nonrel (List.replicate n (m, T / n)) s = .ok ((), t) ∧ ‖t.fHat - f T‖ ≤ C / n ^ m.order := by
  set f : ℝ → LinF M1 M2 M3 ns N1 N2 ℂ := fun t => NormedSpace.exp (t • esOp cfg (meanB s)) s.fHat with hfdef
  have h0 : f 0 = s.fHat := exp_at_zero _ _
  have sol : VlasovPoisson cfg (meanB s) f fun t => linElectrostatic cfg.dq1 cfg.dq2 cfg.eps (linRho cfg (f t)) :=
    ⟨fun t => (poissonField_iff cfg h1 h2 he _ _).mpr rfl, fun t => exp_solves (esOp cfg (meanB s)) s.fHat t⟩
  refine ⟨f, _, sol, h0, fun T => ⟨2 * (‖esOp cfg (meanB s)‖ * |T|) ^ (m.order + 1) * Real.exp (3 * (‖esOp cfg (meanB s)‖ * |T|)) * ‖s.fHat‖, fun n hn => ?_⟩⟩
  obtain ⟨t, a, -, b⟩ := C124_electrostatic_order m cfg hns hf hs hi ht h1 h2 he s ‖esOp cfg (meanB s)‖ (norm_nonneg _)
    (fun x em hx => by rw [(poissonField_iff cfg h1 h2 he x em).mp hx]; exact (esOp cfg (meanB s)).le_opNorm x) f _ sol h0 T n hn
  refine ⟨t, a, b.trans (le_of_eq ?_)⟩
  rw [div_mul_eq_mul_div]

/-! ## C124: electrodynamic runs -/

theorem maxwellRate_meanB (cfg : LinCfg M1 M2 M3 ns N1 N2) (x : LinF M1 M2 M3 ns N1 N2 ℂ) (em : LinEM N1 N2) : BVec (maxwellRate cfg x em) 0 = 0 := by
  funext i
  fin_cases i <;> simp [BVec, maxwellRate, emOf, waveVec, calculateK_zero, cross_apply]

/-- The mean magnetic field of the amplitudes, as a linear map. -/
def meanBMap : (LinF M1 M2 M3 ns N1 N2 ℂ × LinEM N1 N2) →ₗ[ℝ] (Fin 3 → ℂ) where
  toFun z := BVec z.2 0
  map_add' z z' := by funext i; fin_cases i <;> simp [BVec]
  map_smul' c z := by funext i; fin_cases i <;> simp [BVec]

theorem meanB_step (m : LinScheme) (cfg : LinCfg M1 M2 M3 ns N1 N2) (em : LinEM N1 N2) (B0 : Fin 3 → ℂ) (t : ℝ)
    (z : LinF M1 M2 M3 ns N1 N2 ℂ × LinEM N1 N2) (dt : ℝ) :
    BVec (m.tableau.step (fun _ z => (vlasovRate cfg em B0 z.1, maxwellRate cfg z.1 z.2)) t z dt).2 0 = BVec z.2 0 := by
  rw [← rkPure_eq_tableau]
  have := rkPure_map meanBMap m (fun _ z => (vlasovRate cfg em B0 z.1, maxwellRate cfg z.1 z.2)) (fun _ _ => 0)
    (fun _ z => maxwellRate_meanB cfg z.1 z.2) t z dt
  refine this.trans ?_
  cases m <;> simp [rkPure] <;> rfl

/-- C124: an electrodynamic run of `n` steps of size `T / n` with any of the schemes ends near the solution of the linearised Vlasov–Maxwell equations: the
error is at most a constant times `1 / n`, whichever scheme is used.  `Λ` is any bound on the rate of change, with and without the electric force. -/
theorem C124_electrodynamic_first_order (m : LinScheme) (cfg : LinCfg M1 M2 M3 ns N1 N2) (hns : ns = 1) (hf : cfg.fieldsEnabled = true)
    (hs : cfg.sourceEnabled = false) (hi : cfg.instantaneous = false) (hh : cfg.hybrid = false) (ht : cfg.fieldsType = "electrodynamic")
    (s : LinState M1 M2 M3 ns N1 N2) (Λ : ℝ) (hΛ : 0 ≤ Λ)
    (hrate : ∀ x em, ‖(vlasovRate cfg em (meanB s) x, maxwellRate cfg x em)‖ ≤ Λ * ‖(x, em)‖)
    (hrate0 : ∀ x em, ‖(vlasovRate cfg 0 (meanB s) x, maxwellRate cfg x em)‖ ≤ Λ * ‖(x, em)‖)
    (f : ℝ → LinF M1 M2 M3 ns N1 N2 ℂ) (em : ℝ → LinEM N1 N2) (sol : VlasovMaxwell cfg (meanB s) f em) (h0 : f 0 = s.fHat) (h0' : em 0 = s.fieldsHat)
    (T : ℝ) (n : ℕ) (hn : 0 < n) :
    ∃ t, linRun cfg.nonrel (List.replicate n (m, T / n)) s = .ok ((), t) ∧ t.time = s.time + T ∧
      ‖(t.fHat, t.fieldsHat) - (f T, em T)‖ ≤ 2 * (Λ * |T|) ^ 2 * Real.exp (3 * (Λ * |T|)) / n * ‖(s.fHat, s.fieldsHat)‖ := by
  choose S hS using C65_electrodynamic_step m cfg hns hf hs hi hh ht (T / n)
  have hrun := linRun_iterate m cfg.nonrel (T / n) S (fun s => (hS s).1) n s
  refine ⟨_, hrun, run_time m cfg.nonrel T n hn s _ hrun, ?_⟩
  have hB : ∀ k, meanB (S^[k] s) = meanB s := by
    intro k
    induction k with
    | zero => rfl
    | succ k ih =>
      rw [Function.iterate_succ_apply', ← ih]
      have h := congrArg Prod.snd (hS (S^[k] s)).2.2
      have h2 : BVec (S (S^[k] s)).fieldsHat 0 = BVec (S^[k] s).fieldsHat 0 := by
        rw [show (S (S^[k] s)).fieldsHat = _ from h]
        exact meanB_step m cfg _ _ _ _ _
      unfold meanB
      rw [h2]
  have hL : ‖edOp cfg (meanB s)‖ ≤ Λ := ContinuousLinearMap.opNorm_le_bound _ hΛ fun z => hrate z.1 z.2
  have hL0 : ‖edOp cfg (meanB s) - frozenOp cfg (meanB s)‖ ≤ Λ :=
    ContinuousLinearMap.opNorm_le_bound _ hΛ fun z => by rw [edOp_sub_frozen]; exact hrate0 z.1 z.2
  have h00 : (s.fHat, s.fieldsHat) = (f 0, em 0) := by rw [h0, h0']
  have e := lin_iterate_error m (edOp cfg (meanB s)) (frozenOp cfg (meanB s)) Λ hL hL0 1 (.inl rfl) (fun t => (f t, em t))
    (fun t => (sol.vlasov t).prodMk (sol.maxwell t)) T n hn (fun k => (S^[k] s).time) (fun k => ((S^[k] s).fHat, (S^[k] s).fieldsHat)) h00 fun k => by
      change ((S^[k + 1] s).fHat, (S^[k + 1] s).fieldsHat) = _
      rw [Function.iterate_succ_apply', (hS _).2.2, hB]
      congr 1
      funext _ z
      rw [edOp_sub_frozen]
      change _ = (vlasovRate cfg 0 (meanB s) z.1 + vlasovRate cfg (S^[k] s).fieldsHat (meanB s) 0, maxwellRate cfg z.1 z.2 + 0)
      rw [← vlasovRate_add, zero_add, add_zero, add_zero]
  rw [h00]
  simpa using e

/-- C124: for every initial state there is a solution of the Vlasov–Maxwell equations, and the runs converge to it. -/
theorem C124_electrodynamic_converges (m : LinScheme) (cfg : LinCfg M1 M2 M3 ns N1 N2) (hns : ns = 1) (hf : cfg.fieldsEnabled = true)
    (hs : cfg.sourceEnabled = false) (hi : cfg.instantaneous = false) (hh : cfg.hybrid = false) (ht : cfg.fieldsType = "electrodynamic")
    (s : LinState M1 M2 M3 ns N1 N2) :
    ∃ f em, VlasovMaxwell cfg (meanB s) f em ∧ f 0 = s.fHat ∧ em 0 = s.fieldsHat ∧ ∀ T : ℝ, ∃ C : ℝ, ∀ n : ℕ, 0 < n →
      ∃ t, linRun cfg.nonrel (List.replicate n (m, T / n)) s = .ok ((), t) ∧ ‖(t.fHat, t.fieldsHat) - (f T, em T)‖ ≤ C / n := by
  set y : ℝ → LinF M1 M2 M3 ns N1 N2 ℂ × LinEM N1 N2 := fun t => NormedSpace.exp (t • edOp cfg (meanB s)) (s.fHat, s.fieldsHat) with hydef
  have hy0 : y 0 = (s.fHat, s.fieldsHat) := exp_at_zero _ _
  have hy : ∀ t, HasDerivAt y (edOp cfg (meanB s) (y t)) t := fun t => exp_solves (edOp cfg (meanB s)) _ t
  have sol : VlasovMaxwell cfg (meanB s) (fun t => (y t).1) fun t => (y t).2 := ⟨fun t => (hy t).fst, fun t => (hy t).snd⟩
  set Λ := max ‖edOp cfg (meanB s)‖ ‖edOp cfg (meanB s) - frozenOp cfg (meanB s)‖ with hΛ
  refine ⟨_, _, sol, congrArg Prod.fst hy0, congrArg Prod.snd hy0,
    fun T => ⟨2 * (Λ * |T|) ^ 2 * Real.exp (3 * (Λ * |T|)) * ‖(s.fHat, s.fieldsHat)‖, fun n hn => ?_⟩⟩
  obtain ⟨t, a, -, b⟩ := C124_electrodynamic_first_order m cfg hns hf hs hi hh ht s
    Λ (le_max_of_le_left (norm_nonneg _))
    (fun x em => ((edOp cfg (meanB s)).le_opNorm (x, em)).trans (mul_le_mul_of_nonneg_right (le_max_left _ _) (norm_nonneg _)))
    (fun x em => by
      have := (edOp cfg (meanB s) - frozenOp cfg (meanB s)).le_opNorm (x, em)
      rw [edOp_sub_frozen] at this
      exact this.trans (mul_le_mul_of_nonneg_right (le_max_right _ _) (norm_nonneg _)))
    _ _ sol (congrArg Prod.fst hy0) (congrArg Prod.snd hy0) T n hn
  refine ⟨t, a, b.trans (le_of_eq ?_)⟩
  rw [div_mul_eq_mul_div]

/-! ## C124: the uniform plasma oscillation grows -/

/-- The current and the electric field of the mean mode along one axis. -/
noncomputable def oscMap (cfg : LinCfg M1 M2 M3 ns N1 N2) (i : Fin 3) : (LinF M1 M2 M3 ns N1 N2 ℂ × LinEM N1 N2) →ₗ[ℝ] (ℂ × ℂ) where
  toFun z := (currentVec cfg z.1 0 i, EVec z.2 0 i)
  map_add' z z' := by
    rw [Prod.fst_add, currentVec_add]
    refine Prod.ext rfl ?_
    fin_cases i <;> simp [EVec]
  map_smul' c z := by
    rw [Prod.smul_fst, currentVec_smul]
    refine Prod.ext rfl ?_
    fin_cases i <;> simp [EVec]

/-- In the mean mode, without mean magnetic field, the current changes with the electric field only. -/
theorem currentVec_vlasovRate (cfg : LinCfg M1 M2 M3 ns N1 N2) (w : ℝ) (i : Fin 3)
    (hR : ∀ j, plasmaResponse cfg i j = if j = i then -((cfg.eps * w ^ 2 : ℝ) : ℂ) else 0) (em : LinEM N1 N2) (hB : BVec em 0 = 0)
    (x : LinF M1 M2 M3 ns N1 N2 ℂ) : currentVec cfg (vlasovRate cfg em 0 x) 0 i = (cfg.eps * w ^ 2 : ℝ) * EVec em 0 i := by
  have h : currentVec cfg (vlasovRate cfg em 0 x) 0 i = -∑ j, EVec em 0 j * plasmaResponse cfg i j := by
    simp only [currentVec, plasmaResponse, Fin.sum_univ_three, Finset.mul_sum, ← Finset.sum_add_distrib, ← Finset.sum_neg_distrib, Finset.sum_apply,
      Pi.smul_apply, smul_eq_mul]
    refine Finset.sum_congr rfl fun s _ => Finset.sum_congr rfl fun p _ => ?_
    simp only [vlasovRate, waveVec, calculateK_zero, hB, map_zero, add_zero, vec3_dotProduct, cons_val_zero, cons_val_one, Matrix.cons_val, Pi.zero_apply,
      ofReal_zero]
    push_cast
    ring
  rw [h]
  simp only [hR, mul_ite, mul_zero, Finset.sum_ite_eq', Finset.mem_univ, if_true]
  ring

theorem EVec_maxwell_mean (cfg : LinCfg M1 M2 M3 ns N1 N2) (x : LinF M1 M2 M3 ns N1 N2 ℂ) (em : LinEM N1 N2) (i : Fin 3) :
    EVec (maxwellRate cfg x em) 0 i = -(((cfg.eps⁻¹ : ℝ) : ℂ) * currentVec cfg x 0 i) := by
  fin_cases i <;> simp [EVec, maxwellRate, emOf, waveVec, calculateK_zero, cross_apply]

/-- One step of any of the schemes for the current and the field of the mean mode, the force frozen. -/
theorem osc_tableau (m : LinScheme) (a b : ℝ) (E0 : ℂ) (t : ℝ) (z : ℂ × ℂ) (h : ℝ) :
    m.tableau.step (fun (_ : ℝ) (z : ℂ × ℂ) => ((a : ℂ) * E0, -((b : ℂ) * z.1))) t z h
      = (z.1 + h * (a * E0), z.2 - h * (b * z.1) - (h ^ 2 / 2 : ℝ) * (b * (a * E0))) := by
  cases m <;>
    (simp only [LinScheme.tableau, Tableau.step, slopes, combine, List.nil_append, List.cons_append]
     refine Prod.ext ?_ ?_ <;>
       simp only [Prod.fst_add, Prod.snd_add, Prod.smul_fst, Prod.smul_snd, Prod.fst_zero, Prod.snd_zero, real_smul] <;> push_cast <;> ring)

/-- What a step of the solver does to the uniform oscillation. -/
theorem osc_step (m : LinScheme) (cfg : LinCfg M1 M2 M3 ns N1 N2) (w : ℝ) (i : Fin 3)
    (hR : ∀ j, plasmaResponse cfg i j = if j = i then -((cfg.eps * w ^ 2 : ℝ) : ℂ) else 0) (em : LinEM N1 N2) (hB : BVec em 0 = 0) (t : ℝ)
    (z : LinF M1 M2 M3 ns N1 N2 ℂ × LinEM N1 N2) (h : ℝ) :
    oscMap cfg i (m.tableau.step (fun _ z => (vlasovRate cfg em 0 z.1, maxwellRate cfg z.1 z.2)) t z h)
      = (currentVec cfg z.1 0 i + h * ((cfg.eps * w ^ 2 : ℝ) * EVec em 0 i),
         EVec z.2 0 i - h * ((cfg.eps⁻¹ : ℝ) * currentVec cfg z.1 0 i) - (h ^ 2 / 2 : ℝ) * ((cfg.eps⁻¹ : ℝ) * ((cfg.eps * w ^ 2 : ℝ) * EVec em 0 i))) := by
  rw [← rkPure_eq_tableau, rkPure_map (oscMap cfg i) m _ (fun (_ : ℝ) (z : ℂ × ℂ) => (((cfg.eps * w ^ 2 : ℝ) : ℂ) * EVec em 0 i, -(((cfg.eps⁻¹ : ℝ) : ℂ) * z.1))),
    rkPure_eq_tableau, osc_tableau]
  · rfl
  · intro _ z
    refine Prod.ext (currentVec_vlasovRate cfg w i hR em hB z.1) ?_
    exact EVec_maxwell_mean cfg z.1 z.2 i

/-- The quadratic form that every step multiplies: the energy of the oscillation and a mixed term proportional to the step size. -/
noncomputable def oscForm (eps w h : ℝ) (J E : ℂ) : ℝ :=
  ‖J‖ ^ 2 + h / 2 * eps * w ^ 2 * (J.re * E.re + J.im * E.im) + (eps * w) ^ 2 * ‖E‖ ^ 2

theorem oscForm_step (eps w h : ℝ) (he : eps ≠ 0) (J E : ℂ) :
    oscForm eps w h (J + h * ((eps * w ^ 2 : ℝ) * E)) (E - h * ((eps⁻¹ : ℝ) * J) - (h ^ 2 / 2 : ℝ) * ((eps⁻¹ : ℝ) * ((eps * w ^ 2 : ℝ) * E)))
      = (1 + (w * h) ^ 2 / 2) * oscForm eps w h J E := by
  simp only [oscForm, ← normSq_eq_norm_sq, normSq_apply]
  simp only [add_re, add_im, sub_re, sub_im, re_ofReal_mul, im_ofReal_mul]
  field_simp
  ring

theorem oscForm_bounds (eps w h : ℝ) (hwh : 0 ≤ w * h) (J E : ℂ) :
    (1 - w * h / 4) * (‖J‖ ^ 2 + (eps * w) ^ 2 * ‖E‖ ^ 2) ≤ oscForm eps w h J E ∧
    oscForm eps w h J E ≤ (1 + w * h / 4) * (‖J‖ ^ 2 + (eps * w) ^ 2 * ‖E‖ ^ 2) := by
  simp only [oscForm, ← normSq_eq_norm_sq, normSq_apply]
  constructor
  · nlinarith [mul_nonneg hwh (sq_nonneg (J.re + eps * w * E.re)), mul_nonneg hwh (sq_nonneg (J.im + eps * w * E.im))]
  · nlinarith [mul_nonneg hwh (sq_nonneg (J.re - eps * w * E.re)), mul_nonneg hwh (sq_nonneg (J.im - eps * w * E.im))]

/-- C124: the exact equations conserve the energy of the uniform plasma oscillation. -/
theorem C124_exact_oscillation_energy (cfg : LinCfg M1 M2 M3 ns N1 N2) (he : cfg.eps ≠ 0) (w : ℝ) (i : Fin 3)
    (hR : ∀ j, plasmaResponse cfg i j = if j = i then -((cfg.eps * w ^ 2 : ℝ) : ℂ) else 0)
    (f : ℝ → LinF M1 M2 M3 ns N1 N2 ℂ) (em : ℝ → LinEM N1 N2) (sol : VlasovMaxwell cfg 0 f em) (hB : BVec (em 0) 0 = 0) (T : ℝ) :
    oscEnergy cfg w i (f T) (em T) = oscEnergy cfg w i (f 0) (em 0) := by
  have hy : ∀ t, HasDerivAt (fun t => (f t, em t)) (vlasovRate cfg (em t) 0 (f t), maxwellRate cfg (f t) (em t)) t :=
    fun t => (sol.vlasov t).prodMk (sol.maxwell t)
  have hBt : ∀ t, BVec (em t) 0 = 0 := by
    intro t
    have hd : ∀ t, HasDerivAt (fun t => BVec (em t) 0) 0 t := fun t => by
      have h := (LinearMap.toContinuousLinearMap (meanBMap (M1 := M1) (M2 := M2) (M3 := M3) (ns := ns) (N1 := N1) (N2 := N2))).hasFDerivAt.comp_hasDerivAt t (hy t)
      exact h.congr_deriv (maxwellRate_meanB cfg (f t) (em t))
    rw [is_const_of_deriv_eq_zero (fun t => (hd t).differentiableAt) (fun t => (hd t).deriv) t 0, hB]
  have ho : ∀ t, HasDerivAt (fun t => oscMap cfg i (f t, em t))
      (((cfg.eps * w ^ 2 : ℝ) : ℂ) * EVec (em t) 0 i, -(((cfg.eps⁻¹ : ℝ) : ℂ) * currentVec cfg (f t) 0 i)) t := fun t => by
    have h := (LinearMap.toContinuousLinearMap (oscMap cfg i)).hasFDerivAt.comp_hasDerivAt t (hy t)
    refine h.congr_deriv (Prod.ext (currentVec_vlasovRate cfg w i hR (em t) (hBt t) (f t)) ?_)
    exact EVec_maxwell_mean cfg (f t) (em t) i
  have hJ : ∀ t, HasDerivAt (fun t => currentVec cfg (f t) 0 i) (((cfg.eps * w ^ 2 : ℝ) : ℂ) * EVec (em t) 0 i) t := fun t => (ho t).fst
  have hE : ∀ t, HasDerivAt (fun t => EVec (em t) 0 i) (-(((cfg.eps⁻¹ : ℝ) : ℂ) * currentVec cfg (f t) 0 i)) t := fun t => (ho t).snd
  have hd : ∀ t, HasDerivAt (fun t => oscEnergy cfg w i (f t) (em t)) 0 t := fun t => by
    have r1 : HasDerivAt (fun t => (currentVec cfg (f t) 0 i).re) _ t := reCLM.hasFDerivAt.comp_hasDerivAt t (hJ t)
    have r2 : HasDerivAt (fun t => (currentVec cfg (f t) 0 i).im) _ t := imCLM.hasFDerivAt.comp_hasDerivAt t (hJ t)
    have r3 : HasDerivAt (fun t => (EVec (em t) 0 i).re) _ t := reCLM.hasFDerivAt.comp_hasDerivAt t (hE t)
    have r4 : HasDerivAt (fun t => (EVec (em t) 0 i).im) _ t := imCLM.hasFDerivAt.comp_hasDerivAt t (hE t)
    have e : (fun t => oscEnergy cfg w i (f t) (em t)) = fun t => ((currentVec cfg (f t) 0 i).re * (currentVec cfg (f t) 0 i).re
        + (currentVec cfg (f t) 0 i).im * (currentVec cfg (f t) 0 i).im)
        + (cfg.eps * w) ^ 2 * ((EVec (em t) 0 i).re * (EVec (em t) 0 i).re + (EVec (em t) 0 i).im * (EVec (em t) 0 i).im) := by
      funext t
      simp only [oscEnergy, ← normSq_eq_norm_sq, normSq_apply]
    rw [e]
    refine (((r1.mul r1).add (r2.mul r2)).add (((r3.mul r3).add (r4.mul r4)).const_mul _)).congr_deriv ?_
    simp only [reCLM_apply, imCLM_apply, re_ofReal_mul, im_ofReal_mul, neg_re, neg_im]
    field_simp
    ring
  exact is_const_of_deriv_eq_zero (fun t => (hd t).differentiableAt) (fun t => (hd t).deriv) T 0

/-- C124 (negative): the uniform plasma oscillation of the solver.  In an electrodynamic run with any of the schemes and step size `h`, without mean magnetic
field, the energy of the oscillation is, up to the factor `(1 - w h/4)/(1 + w h/4)`, multiplied by `1 + (w h)²/2` in every step. -/
theorem C124_oscillation_grows (m : LinScheme) (cfg : LinCfg M1 M2 M3 ns N1 N2) (hns : ns = 1) (hf : cfg.fieldsEnabled = true)
    (hs : cfg.sourceEnabled = false) (hi : cfg.instantaneous = false) (hh : cfg.hybrid = false) (ht : cfg.fieldsType = "electrodynamic")
    (he : 0 < cfg.eps) (w : ℝ) (hw : 0 < w) (i : Fin 3)
    (hR : ∀ j, plasmaResponse cfg i j = if j = i then -((cfg.eps * w ^ 2 : ℝ) : ℂ) else 0) (h : ℝ) (hh0 : 0 ≤ h)
    (s : LinState M1 M2 M3 ns N1 N2) (hB : BVec s.fieldsHat 0 = 0) (n : ℕ) :
    ∃ t, linRun cfg.nonrel (List.replicate n (m, h)) s = .ok ((), t) ∧
      (1 - w * h / 4) * (1 + (w * h) ^ 2 / 2) ^ n * oscEnergy cfg w i s.fHat s.fieldsHat ≤ (1 + w * h / 4) * oscEnergy cfg w i t.fHat t.fieldsHat ∧
      (1 - w * h / 4) * oscEnergy cfg w i t.fHat t.fieldsHat ≤ (1 + w * h / 4) * (1 + (w * h) ^ 2 / 2) ^ n * oscEnergy cfg w i s.fHat s.fieldsHat ∧
      (currentVec cfg s.fHat 0 i = 0 →
        (1 + (w * h) ^ 2 / 2) ^ n * oscEnergy cfg w i s.fHat s.fieldsHat ≤ (1 + w * h / 4) * oscEnergy cfg w i t.fHat t.fieldsHat) := by
  choose S hS using C65_electrodynamic_step m cfg hns hf hs hi hh ht h
  refine ⟨_, linRun_iterate m cfg.nonrel h S (fun s => (hS s).1) n s, ?_⟩
  have hB' : ∀ k, BVec (S^[k] s).fieldsHat 0 = 0 := by
    intro k
    induction k with
    | zero => exact hB
    | succ k ih =>
      rw [Function.iterate_succ_apply', show (S (S^[k] s)).fieldsHat = _ from congrArg Prod.snd (hS (S^[k] s)).2.2]
      exact (meanB_step m cfg _ _ _ _ _).trans ih
  set Q := fun t : LinState M1 M2 M3 ns N1 N2 => oscForm cfg.eps w h (currentVec cfg t.fHat 0 i) (EVec t.fieldsHat 0 i) with hQ
  have key : Q (S^[n] s) = (1 + (w * h) ^ 2 / 2) ^ n * Q s := by
    induction n with
    | zero => simp
    | succ k ih =>
      rw [Function.iterate_succ_apply', pow_succ, mul_comm (_ ^ k), mul_assoc, ← ih]
      have e := (hS (S^[k] s)).2.2
      have hm : meanB (S^[k] s) = 0 := by funext j; simp [meanB, hB' k]
      rw [hm] at e
      have o := osc_step m cfg w i hR (S^[k] s).fieldsHat (hB' k) (S^[k] s).time ((S^[k] s).fHat, (S^[k] s).fieldsHat) h
      rw [← e] at o
      have o1 : currentVec cfg (S (S^[k] s)).fHat 0 i = _ := congrArg Prod.fst o
      have o2 : EVec (S (S^[k] s)).fieldsHat 0 i = _ := congrArg Prod.snd o
      simp only [hQ]
      rw [o1, o2]
      exact oscForm_step cfg.eps w h he.ne' _ _
  have b0 := oscForm_bounds cfg.eps w h (mul_nonneg hw.le hh0) (currentVec cfg s.fHat 0 i) (EVec s.fieldsHat 0 i)
  have bn := oscForm_bounds cfg.eps w h (mul_nonneg hw.le hh0) (currentVec cfg (S^[n] s).fHat 0 i) (EVec (S^[n] s).fieldsHat 0 i)
  have P : 0 ≤ (1 + (w * h) ^ 2 / 2) ^ n := by positivity
  refine ⟨?_, ?_, fun hJ => ?_⟩
  · calc (1 - w * h / 4) * (1 + (w * h) ^ 2 / 2) ^ n * oscEnergy cfg w i s.fHat s.fieldsHat
        = (1 + (w * h) ^ 2 / 2) ^ n * ((1 - w * h / 4) * oscEnergy cfg w i s.fHat s.fieldsHat) := by ring
      _ ≤ (1 + (w * h) ^ 2 / 2) ^ n * Q s := mul_le_mul_of_nonneg_left b0.1 P
      _ = Q (S^[n] s) := key.symm
      _ ≤ _ := bn.2
  · calc (1 - w * h / 4) * oscEnergy cfg w i (S^[n] s).fHat (S^[n] s).fieldsHat ≤ Q (S^[n] s) := bn.1
      _ = (1 + (w * h) ^ 2 / 2) ^ n * Q s := key
      _ ≤ (1 + (w * h) ^ 2 / 2) ^ n * ((1 + w * h / 4) * oscEnergy cfg w i s.fHat s.fieldsHat) := mul_le_mul_of_nonneg_left b0.2 P
      _ = _ := by ring
  · have : Q s = oscEnergy cfg w i s.fHat s.fieldsHat := by simp [hQ, oscForm, oscEnergy, hJ]
    rw [← this, ← key]
    exact bn.2

/-- C124 (negative): no scheme is of second order with electrodynamic fields.  After `n` steps of size `T / n` of a uniform plasma oscillation that starts
without current, the energy differs from that of the exact solution by at least `(w T)²/(8 n)` of itself. -/
theorem C124_electrodynamic_not_second_order (m : LinScheme) (cfg : LinCfg M1 M2 M3 ns N1 N2) (hns : ns = 1) (hf : cfg.fieldsEnabled = true)
    (hs : cfg.sourceEnabled = false) (hi : cfg.instantaneous = false) (hh : cfg.hybrid = false) (ht : cfg.fieldsType = "electrodynamic")
    (he : 0 < cfg.eps) (w : ℝ) (hw : 0 < w) (i : Fin 3)
    (hR : ∀ j, plasmaResponse cfg i j = if j = i then -((cfg.eps * w ^ 2 : ℝ) : ℂ) else 0)
    (s : LinState M1 M2 M3 ns N1 N2) (hB : BVec s.fieldsHat 0 = 0) (hJ : currentVec cfg s.fHat 0 i = 0)
    (f : ℝ → LinF M1 M2 M3 ns N1 N2 ℂ) (em : ℝ → LinEM N1 N2) (sol : VlasovMaxwell cfg 0 f em) (h0 : f 0 = s.fHat) (h0' : em 0 = s.fieldsHat)
    (T : ℝ) (n : ℕ) (hn : 0 < n) (hT : 1 ≤ w * T) (hT' : w * T ≤ 4 * n) :
    ∃ t, linRun cfg.nonrel (List.replicate n (m, T / n)) s = .ok ((), t) ∧
      (w * T) ^ 2 / (8 * n) * oscEnergy cfg w i s.fHat s.fieldsHat ≤ oscEnergy cfg w i t.fHat t.fieldsHat - oscEnergy cfg w i (f T) (em T) := by
  have hn' : (0 : ℝ) < n := by exact_mod_cast hn
  have hT0 : 0 ≤ T := by
    by_contra h
    nlinarith
  obtain ⟨t, e, -, -, h⟩ := C124_oscillation_grows m cfg hns hf hs hi hh ht he w hw i hR (T / n) (by positivity) s hB n
  refine ⟨t, e, ?_⟩
  have hex := C124_exact_oscillation_energy cfg he.ne' w i hR f em sol (by rw [h0', hB]) T
  rw [h0, h0'] at hex
  rw [hex]
  have h3 := h hJ
  have H0 : 0 ≤ oscEnergy cfg w i s.fHat s.fieldsHat := by unfold oscEnergy; positivity
  generalize oscEnergy cfg w i s.fHat s.fieldsHat = H at *
  generalize oscEnergy cfg w i t.fHat t.fieldsHat = G at *
  have bern : 1 + n * ((w * (T / n)) ^ 2 / 2) ≤ (1 + (w * (T / n)) ^ 2 / 2) ^ n :=
    one_add_mul_le_pow (le_trans (by norm_num) (div_nonneg (sq_nonneg _) (by norm_num))) n
  set x := w * T with hx
  have e1 : w * (T / n) = x / n := by rw [hx]; ring
  rw [e1] at bern h3
  have e2 : (n : ℝ) * ((x / n) ^ 2 / 2) = x ^ 2 / (2 * n) := by field_simp
  rw [e2] at bern
  have h4 : (1 + x ^ 2 / (2 * n)) * H ≤ (1 + x / n / 4) * G := (mul_le_mul_of_nonneg_right bern H0).trans h3
  have hq : 0 < 1 + x / n / 4 := by positivity
  have h5 : (1 + x / n / 4) * (x ^ 2 / (8 * n) + 1) ≤ 1 + x ^ 2 / (2 * n) := by
    have a1 : x / n / 4 ≤ 1 := by rw [div_div, div_le_one (by positivity)]; linarith
    have a2 : 0 ≤ x ^ 2 / (8 * n) := by positivity
    have a3 : x ^ 2 / (2 * n) = 4 * (x ^ 2 / (8 * n)) := by field_simp; norm_num
    have a4 : x / n / 4 ≤ 2 * (x ^ 2 / (8 * n)) := by
      have : 2 * (x ^ 2 / (8 * n)) = x / n / 4 * x := by field_simp; norm_num
      rw [this]
      exact le_mul_of_one_le_right (by positivity) hT
    rw [a3]
    nlinarith
  have h6 : (1 + x / n / 4) * ((x ^ 2 / (8 * n) + 1) * H) ≤ (1 + x / n / 4) * G := by
    rw [← mul_assoc]
    exact (mul_le_mul_of_nonneg_right h5 H0).trans h4
  have h7 := le_of_mul_le_mul_left h6 hq
  linarith

/-! ## Examples -/

/-- Five momentum cells, a background with one filled cell, and plasma frequency one. -/
noncomputable def exOsc (ty : String) : LinCfg 5 1 1 1 3 3 where
  dq1 := 1
  dq2 := 1 / 2
  dp1 := fun _ => 1
  dp2 := fun _ => 1
  dp3 := fun _ => 1
  coords := ⟨fun _ p => p.1.val - 2, fun _ _ => 0, fun _ _ => 0⟩
  charge := fun _ => -1
  mass := fun _ => 2
  eps := 1 / 2
  mu := 5
  Te := 1
  fieldsEnabled := true
  sourceEnabled := false
  instantaneous := false
  hybrid := false
  fieldsType := ty
  Aq := fun _ => 0
  Ap := fun _ _ => 0
  source := fun _ _ f => -f
  dfdp1 := (dfdpBackground (fun _ => (1 : ℝ)) (fun _ => 1) (fun _ => 1) fun (p : MomIx 5 1 1) (_ : Fin 1) => if p.1 = 2 then 1 else 0).1
  dfdp2 := (dfdpBackground (fun _ => (1 : ℝ)) (fun _ => 1) (fun _ => 1) fun (p : MomIx 5 1 1) (_ : Fin 1) => if p.1 = 2 then 1 else 0).2.1
  dfdp3 := (dfdpBackground (fun _ => (1 : ℝ)) (fun _ => 1) (fun _ => 1) fun (p : MomIx 5 1 1) (_ : Fin 1) => if p.1 = 2 then 1 else 0).2.2

/-- Its response is that of a plasma of frequency one along the first axis. -/
theorem exOsc_response (ty : String) (j : Fin 3) : plasmaResponse (exOsc ty) 0 j = if j = 0 then -(((exOsc ty).eps * 1 ^ 2 : ℝ) : ℂ) else 0 := by
  have d1 : ∀ a : ZMod 5, (exOsc ty).dfdp1 (a, 0, 0) 0 = (-(if a - -2 • 1 = 2 then (1 : ℝ) else 0) + 8 * (if a - -1 • 1 = 2 then (1 : ℝ) else 0)
      + (if a - 2 • 1 = 2 then (1 : ℝ) else 0) - 8 * (if a - 1 • 1 = 2 then (1 : ℝ) else 0)) * (1 / (12 * 1)) := fun a => rfl
  have a0 : (exOsc ty).dfdp1 (0, 0, 0) 0 = -1 / 12 := by
    rw [d1, if_pos (by decide), if_neg (by decide), if_neg (by decide), if_neg (by decide)]; norm_num
  have a1 : (exOsc ty).dfdp1 (1, 0, 0) 0 = 8 / 12 := by
    rw [d1, if_neg (by decide), if_pos (by decide), if_neg (by decide), if_neg (by decide)]; norm_num
  have a2 : (exOsc ty).dfdp1 (2, 0, 0) 0 = 0 := by
    rw [d1, if_neg (by decide), if_neg (by decide), if_neg (by decide), if_neg (by decide)]; norm_num
  have a3 : (exOsc ty).dfdp1 (3, 0, 0) 0 = -8 / 12 := by
    rw [d1, if_neg (by decide), if_neg (by decide), if_neg (by decide), if_pos (by decide)]; norm_num
  have a4 : (exOsc ty).dfdp1 (4, 0, 0) 0 = 1 / 12 := by
    rw [d1, if_neg (by decide), if_neg (by decide), if_pos (by decide), if_neg (by decide)]; norm_num
  have d2 : ∀ p : MomIx 5 1 1, (exOsc ty).dfdp2 p 0 = 0 := by
    rintro ⟨a, b, c⟩
    change (-(if a - -2 • 0 = 2 then (1 : ℝ) else 0) + 8 * (if a - -1 • 0 = 2 then (1 : ℝ) else 0) + (if a - 2 • 0 = 2 then (1 : ℝ) else 0)
      - 8 * (if a - 1 • 0 = 2 then (1 : ℝ) else 0)) * (1 / (12 * 1)) = _
    simp only [smul_zero]
    ring
  have d3 : ∀ p : MomIx 5 1 1, (exOsc ty).dfdp3 p 0 = 0 := d2
  have sum5 : ∀ g : MomIx 5 1 1 → ℂ, ∑ p, g p = g (0, 0, 0) + g (1, 0, 0) + g (2, 0, 0) + g (3, 0, 0) + g (4, 0, 0) := by
    intro g
    rw [Fintype.sum_prod_type]
    have : ∀ a : ZMod 5, ∑ y : ZMod 1 × ZMod 1, g (a, y) = g (a, 0, 0) := fun a => by
      rw [Fintype.sum_prod_type]
      exact (Fin.sum_univ_one fun b : Fin 1 => ∑ c : Fin 1, g (a, b, c)).trans (Fin.sum_univ_one _)
    simp only [this]
    exact Fin.sum_univ_five fun a : Fin 5 => g (a, 0, 0)
  simp only [plasmaResponse, Finset.univ_unique, Finset.sum_singleton, Fin.default_eq_zero, d2, d3, sum5, a0, a1, a2, a3, a4]
  have v : ∀ a : ZMod 5, velVec (exOsc ty).coords 0 (a, 0, 0) 0 = (a.val : ℂ) - 2 := fun a => by
    change (((a.val : ℝ) - 2 : ℝ) : ℂ) = _
    push_cast
    rfl
  simp only [v, show (0 : ZMod 5).val = 0 from rfl, show (1 : ZMod 5).val = 1 from rfl, show (2 : ZMod 5).val = 2 from rfl, show (3 : ZMod 5).val = 3 from rfl,
    show (4 : ZMod 5).val = 4 from rfl]
  fin_cases j
  · simp [exOsc]
    norm_num
  · simp
  · simp

/-- A uniform electric field in this plasma at rest: all hypotheses of `C124_electrodynamic_not_second_order` are met, and the energy is not zero. -/
example (m : LinScheme) (n : ℕ) (hn : 0 < n) : ∃ s t : LinState 5 1 1 1 3 3, ∃ f em,
    linRun (exOsc "electrodynamic").nonrel (List.replicate n (m, 2 / n)) s = .ok ((), t) ∧ VlasovMaxwell (exOsc "electrodynamic") 0 f em ∧ f 0 = s.fHat ∧
      em 0 = s.fieldsHat ∧ 1 / (8 * n) ≤ oscEnergy (exOsc "electrodynamic") 1 0 t.fHat t.fieldsHat - oscEnergy (exOsc "electrodynamic") 1 0 (f 2) (em 2) := by
  let s : LinState 5 1 1 1 3 3 := ⟨0, 0, 0, fun j _ => if j = 0 then 1 else 0⟩
  have hB : BVec s.fieldsHat 0 = 0 := by funext i; fin_cases i <;> rfl
  have hm : meanB s = 0 := by funext i; simp [meanB, hB]
  obtain ⟨f, em, sol, h0, h0', -⟩ := C124_electrodynamic_converges m (exOsc "electrodynamic") rfl rfl rfl rfl rfl rfl s
  rw [hm] at sol
  have hn' : (1 : ℝ) ≤ n := by exact_mod_cast hn
  obtain ⟨t, e, h⟩ := C124_electrodynamic_not_second_order m (exOsc "electrodynamic") rfl rfl rfl rfl rfl rfl (by norm_num [exOsc]) 1 one_pos 0
    (exOsc_response _) s hB (by simp [currentVec, s]) f em sol h0 h0' 2 n hn (by norm_num) (by linarith)
  refine ⟨s, t, f, em, e, sol, h0, h0', le_trans (le_of_eq ?_) h⟩
  have : oscEnergy (exOsc "electrodynamic") 1 0 s.fHat s.fieldsHat = 1 / 4 := by
    simp [oscEnergy, currentVec, EVec, s, exOsc]
    norm_num
  rw [this]
  have : (n : ℝ) ≠ 0 := by positivity
  field_simp
  norm_num

/-- The hypotheses of the convergence theorems are met by the same plasma. -/
example (m : LinScheme) (s : LinState 5 1 1 1 3 3) : ∃ f em, VlasovPoisson (exOsc "electrostatic") (meanB s) f em ∧ f 0 = s.fHat ∧ ∀ T : ℝ, ∃ C : ℝ, ∀ n : ℕ, 0 < n →
    ∃ t, linRun (exOsc "electrostatic").nonrel (List.replicate n (m, T / n)) s = .ok ((), t) ∧ ‖t.fHat - f T‖ ≤ C / n ^ m.order :=
  C124_electrostatic_converges m (exOsc "electrostatic") rfl rfl rfl rfl rfl (by simp [exOsc]) (by simp [exOsc]) (by simp [exOsc]) s

end Bolt
