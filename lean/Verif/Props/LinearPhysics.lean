import Verif.Proofs.LinRK
import Verif.Props.LinearFields
import Mathlib.Analysis.Calculus.Deriv.Prod

/-!
# C62–C65: what the linear solver integrates, and with which method
-/

set_option linter.unusedSectionVars false

namespace Bolt

open Complex Finset Matrix

variable {M1 M2 M3 ns N1 N2 : ℕ} [NeZero M1] [NeZero M2] [NeZero M3] [NeZero N1] [NeZero N2]

/-! ## C62: sources and collisions act on the distribution in real space -/

/-- The distribution in real space, as a linear map of the amplitudes. -/
noncomputable def distMap : LinF M1 M2 M3 ns N1 N2 ℂ →ₗ[ℝ] LinF M1 M2 M3 ns N1 N2 ℝ where
  toFun x := fun p s q => 0.5 * N2 * N1 * (afIfft2 (x p s) q / ((N1 : ℂ) * N2)).re
  map_add' x y := by
    funext p s q
    have : afIfft2 ((x + y) p s) q = afIfft2 (x p s) q + afIfft2 (y p s) q := by
      simp only [afIfft2_eq, Pi.add_apply, add_mul, sum_add_distrib]
    change 0.5 * (N2 : ℝ) * N1 * (afIfft2 ((x + y) p s) q / ((N1 : ℂ) * N2)).re
      = 0.5 * (N2 : ℝ) * N1 * (afIfft2 (x p s) q / ((N1 : ℂ) * N2)).re + 0.5 * (N2 : ℝ) * N1 * (afIfft2 (y p s) q / ((N1 : ℂ) * N2)).re
    rw [this, add_div, add_re]
    ring
  map_smul' c x := by
    funext p s q
    have : afIfft2 ((c • x) p s) q = c * afIfft2 (x p s) q := by
      simp only [afIfft2_eq, Pi.smul_apply, real_smul, mul_sum, mul_assoc]
    change 0.5 * (N2 : ℝ) * N1 * (afIfft2 ((c • x) p s) q / ((N1 : ℂ) * N2)).re
      = c * (0.5 * (N2 : ℝ) * N1 * (afIfft2 (x p s) q / ((N1 : ℂ) * N2)).re)
    rw [this, mul_div_assoc, re_ofReal_mul]
    ring

theorem getDistFunc_eq (hd : ¬ (N2 = 1 ∧ M1 * M2 * M3 = 1 ∧ ns = 1)) (st : LinState M1 M2 M3 ns N1 N2) :
    getDistFunc st = .ok (distMap st.fHat) := by
  rw [getDistFunc, ifft2, if_neg hd]
  rfl

theorem distMap_transform (f : LinF M1 M2 M3 ns N1 N2 ℝ) :
    distMap (fun p s q => 2 * fft2 (fun p s q => ((f p s q : ℝ) : ℂ)) p s q / ((N1 : ℂ) * N2)) = f := by
  funext p s q
  have hN := cardN (N1 := N1) (N2 := N2)
  have e : afIfft2 (fun k => 2 * fft2 (fun p s q => ((f p s q : ℝ) : ℂ)) p s k / ((N1 : ℂ) * N2)) q = 2 * f p s q := by
    have : ∀ k, 2 * fft2 (fun p s q => ((f p s q : ℝ) : ℂ)) p s k / ((N1 : ℂ) * N2)
        = 2 / ((N1 : ℂ) * N2) * afFft2 (fun j => ((f p s j : ℝ) : ℂ)) k := fun k => by
      change 2 * afFft2 (fun j => ((f p s j : ℝ) : ℂ)) k / _ = _; ring
    simp only [this]
    rw [afIfft2_eq]
    simp only [mul_assoc, ← mul_sum]
    rw [← afIfft2_eq, afIfft2_afFft2, ← mul_assoc, div_mul_cancel₀ _ hN]
  change 0.5 * (N2 : ℝ) * N1 * (afIfft2 _ q / ((N1 : ℂ) * N2)).re = _
  rw [e]
  have h1 : (N1 : ℝ) ≠ 0 := Nat.cast_ne_zero.mpr (NeZero.ne N1)
  have h2 : (N2 : ℝ) ≠ 0 := Nat.cast_ne_zero.mpr (NeZero.ne N2)
  have : (2 * (f p s q : ℂ) / ((N1 : ℂ) * N2)) = ((2 * f p s q / (N1 * N2) : ℝ) : ℂ) := by push_cast; ring
  rw [this, ofReal_re]
  field_simp
  norm_num

theorem linSourceTerm_eq (cfg : LinCfg M1 M2 M3 ns N1 N2) (hd : ¬ (N2 = 1 ∧ M1 * M2 * M3 = 1 ∧ ns = 1)) (t : ℝ)
    (x : LinF M1 M2 M3 ns N1 N2 ℂ) : ∃ z, linSourceTerm cfg t x = .ok z ∧ distMap z = cfg.source false t (distMap x) := by
  rw [linSourceTerm, ifft2, if_neg hd]
  refine ⟨_, rfl, ?_⟩
  have e : (fun p s q => (afIfft2 (fun k => 0.5 * (N2 : ℂ) * N1 * x p s k) q / ((N1 : ℂ) * N2)).re) = distMap x := by
    funext p s q
    change _ = 0.5 * (N2 : ℝ) * N1 * (afIfft2 (x p s) q / ((N1 : ℂ) * N2)).re
    have : afIfft2 (fun k => 0.5 * (N2 : ℂ) * N1 * x p s k) q = ((0.5 * N2 * N1 : ℝ) : ℂ) * afIfft2 (x p s) q := by
      simp only [afIfft2_eq, mul_sum]
      refine sum_congr rfl fun k _ => ?_
      push_cast
      ring
    rw [this, mul_div_assoc, re_ofReal_mul]
  have := distMap_transform (cfg.source false t (distMap x))
  rw [← this]
  congr 1
  funext p s q
  rw [← e, mul_comm (N1 : ℂ) N2]
  rfl

/-- C62: in every configuration (with or without fields), switching the source on adds to the rate of change of the distribution in real space
exactly what the user's source function returns for that distribution. -/
theorem C62_source_adds_to_the_rate (cfg : LinCfg M1 M2 M3 ns N1 N2) (hd : ¬ (N2 = 1 ∧ M1 * M2 * M3 = 1 ∧ ns = 1))
    (x : LinF M1 M2 M3 ns N1 N2 ℂ) (y : LinEM N1 N2) (s : LinState M1 M2 M3 ns N1 N2)
    (k0 : LinF M1 M2 M3 ns N1 N2 ℂ) (s0 : LinState M1 M2 M3 ns N1 N2)
    (h0 : dfHatDt { cfg with sourceEnabled := false } x y s = .ok (k0, s0)) :
    ∃ k, dfHatDt { cfg with sourceEnabled := true } x y s = .ok (k, s0) ∧
      ∀ f g0, getDistFunc { s with fHat := x } = .ok f → getDistFunc { s with fHat := k0 } = .ok g0 →
        getDistFunc { s with fHat := k } = .ok (g0 + cfg.source false s.time f) := by
  obtain ⟨z, hz, hm⟩ := linSourceTerm_eq cfg hd s.time x
  have key : ∀ frc s1, (if cfg.fieldsEnabled then linForceTerm cfg s.time x else pure 0) s = .ok (frc, s1) →
      dfHatDt { cfg with sourceEnabled := false } x y s = .ok (linStreaming cfg s.time x + 0 - frc, s1) ∧
      dfHatDt { cfg with sourceEnabled := true } x y s = .ok (linStreaming cfg s.time x + z - frc, s1) := by
    intro frc s1 h
    constructor
    · change (((if cfg.fieldsEnabled then linForceTerm cfg s.time x else pure 0) s) >>= fun r =>
        Except.ok (linStreaming cfg s.time x + 0 - r.1, r.2)) = _
      rw [h]; rfl
    · have : dfHatDt { cfg with sourceEnabled := true } x y s = (linSourceTerm cfg s.time x >>= fun src =>
        (((if cfg.fieldsEnabled then linForceTerm cfg s.time x else pure 0) s) >>= fun r =>
          Except.ok (linStreaming cfg s.time x + src - r.1, r.2))) := by
        change ((liftM (linSourceTerm cfg s.time x) : LinSM M1 M2 M3 ns N1 N2 _) s >>= _) = _
        rw [hz]; rfl
      rw [this, hz, h]; rfl
  cases hr : (if cfg.fieldsEnabled then linForceTerm cfg s.time x else pure 0) s with
  | error e =>
      have : dfHatDt { cfg with sourceEnabled := false } x y s = .error e := by
        change (((if cfg.fieldsEnabled then linForceTerm cfg s.time x else pure 0) s) >>= fun r =>
          Except.ok (linStreaming cfg s.time x + 0 - r.1, r.2)) = _
        rw [hr]; rfl
      rw [this] at h0; cases h0
  | ok r =>
      obtain ⟨h1, h2⟩ := key r.1 r.2 hr
      rw [h1] at h0
      obtain ⟨rfl, rfl⟩ := Prod.mk.inj (Except.ok.inj h0)
      refine ⟨_, h2, fun f g0 hf hg => ?_⟩
      rw [getDistFunc_eq hd] at hf hg ⊢
      obtain rfl := Except.ok.inj hf
      obtain rfl := Except.ok.inj hg
      congr 1
      change distMap (linStreaming cfg s.time x + z - r.1) = distMap (linStreaming cfg s.time x + 0 - r.1) + cfg.source false s.time (distMap x)
      rw [← hm, ← map_add]
      congr 1
      abel

/-- C62: a homogeneous problem (no motion in space, no fields) is integrated in real space: a step advances `df/dt = source(f)`, cell by
cell, by the chosen Runge–Kutta method.  It does not raise. -/
theorem C62_source_step (m : LinScheme) (cfg : LinCfg M1 M2 M3 ns N1 N2) (hd : ¬ (N2 = 1 ∧ M1 * M2 * M3 = 1 ∧ ns = 1))
    (hf : cfg.fieldsEnabled = false) (hs : cfg.sourceEnabled = true) (hi : cfg.instantaneous = false) (hA : ∀ t, cfg.Aq t = (0, 0)) (dt : ℝ)
    (s : LinState M1 M2 M3 ns N1 N2) (f : LinF M1 M2 M3 ns N1 N2 ℝ) (h : getDistFunc s = .ok f) :
    ∃ t, linStep m cfg dt s = .ok ((), t) ∧ getDistFunc t = .ok (m.tableau.step (cfg.source false) s.time f dt) := by
  have hz := fun t x => linSourceTerm_eq cfg hd t x
  choose Z hZ hZ' using hz
  have hF : ∀ x em s', dfHatDt cfg x em s' = .ok (Z s'.time x, s') := by
    intro x em s'
    have : dfHatDt cfg x em s' = (linSourceTerm cfg s'.time x >>= fun src => Except.ok (linStreaming cfg s'.time x + src - 0, s')) := by
      simp only [dfHatDt, hs, hf]
      change ((liftM (linSourceTerm cfg s'.time x) : LinSM M1 M2 M3 ns N1 N2 _) s' >>= _) = _
      rw [hZ]; rfl
    rw [this, hZ]
    have e : linStreaming cfg s'.time x = 0 := by
      funext p i q; simp [linStreaming, hA]
    change Except.ok _ = _
    rw [e, zero_add, sub_zero]
  have key : Det (linStep m cfg dt) s () fun t => t.fHat = rkPure m Z s.time s.fHat dt := by
    refine .bind (a := ()) ?_
    rw [if_neg (by simp [hi])]
    refine .pure (.bind (.get ?_))
    rw [if_neg (by simp [hf])]
    refine .bind (.bind (.get (.pure (.bind (a := rkPure m Z s.time s.fHat dt) ?_))))
    refine (single_det m (fun _ => True) (fun s => s.time) Z (fun c s _ => ⟨{ s with time := s.time + c }, rfl, trivial, rfl⟩)
      (fun x s' _ => ⟨s', hF x _ s', trivial, rfl⟩) _ dt s trivial).mono fun s1 _ => ?_
    exact .modify rfl
  obtain ⟨t, h1, h2⟩ := key
  refine ⟨t, h1, ?_⟩
  rw [getDistFunc_eq hd] at h ⊢
  obtain rfl := Except.ok.inj h
  rw [h2, rkPure_map distMap m Z (cfg.source false) (fun t x => hZ' t x), rkPure_eq_tableau]

/-- C62: instantaneous collisions replace the distribution in real space by what the user's source function returns for it (called with its
last argument true), before the step proper; nothing else changes. -/
theorem C62_instantaneous_collisions (m : LinScheme) (cfg : LinCfg M1 M2 M3 ns N1 N2) (hd : ¬ (N2 = 1 ∧ M1 * M2 * M3 = 1 ∧ ns = 1))
    (hi : cfg.instantaneous = true) (dt : ℝ) (s : LinState M1 M2 M3 ns N1 N2) (f : LinF M1 M2 M3 ns N1 N2 ℝ) (h : getDistFunc s = .ok f) :
    ∃ s1, getDistFunc s1 = .ok (cfg.source true s.time f) ∧ s1.time = s.time ∧ s1.fieldsHat = s.fieldsHat ∧ s1.attrs = s.attrs ∧
      linStep m cfg dt s = linStep m { cfg with instantaneous := false } dt s1 := by
  rw [getDistFunc_eq hd] at h
  obtain rfl := Except.ok.inj h
  refine ⟨{ s with fHat := fun p i q => 2 * fft2 (fun p i q => ((cfg.source true s.time (distMap s.fHat) p i q : ℝ) : ℂ)) p i q / ((N1 : ℂ) * N2) },
    ?_, rfl, rfl, rfl, ?_⟩
  · rw [getDistFunc_eq hd, distMap_transform]
  · have e : Det (linCollide cfg) s () fun s' => s' = { s with fHat := fun p i q => 2 * fft2 (fun p i q => ((cfg.source true s.time (distMap s.fHat) p i q : ℝ) : ℂ)) p i q / ((N1 : ℂ) * N2) } := by
      have h1 : ifft2 (M1 * M2 * M3) ns s.fHat = .ok fun p i q => afIfft2 (s.fHat p i) q / ((N1 : ℂ) * N2) := by rw [ifft2, if_neg hd]; rfl
      refine .bind (.get (.bind (.lift h1 ⟨_, rfl, ?_⟩)))
      have h2 : (fun p i q => 0.5 * (N1 : ℝ) * N2 * (afIfft2 (s.fHat p i) q / ((N1 : ℂ) * N2)).re) = distMap s.fHat := by
        funext p i q
        change _ = 0.5 * (N2 : ℝ) * N1 * (afIfft2 (s.fHat p i) q / ((N1 : ℂ) * N2)).re
        ring
      rw [h2]
    obtain ⟨s1, h1, rfl⟩ := e
    have hL : linStep m cfg dt = (linCollide cfg >>= fun _ => linStep m { cfg with instantaneous := false } dt) := by
      simp only [linStep, hi]
      rfl
    rw [hL]
    change (linCollide cfg s >>= fun r => linStep m { cfg with instantaneous := false } dt r.2) = _
    rw [h1]
    rfl

/-! ## C63: the linearised Vlasov equation -/

/-- The mean magnetic field held by the solver (amplitudes carry a factor two). -/
noncomputable def meanB (st : LinState M1 M2 M3 ns N1 N2) : Fin 3 → ℂ := fun i => BVec st.fieldsHat 0 i / 2

theorem linForce_nonrel (cfg : LinCfg M1 M2 M3 ns N1 N2) (t : ℝ) (em : LinEM N1 N2) (fh : LinEM N1 N2) (x : LinF M1 M2 M3 ns N1 N2 ℂ) :
    linStreaming cfg.nonrel t x + 0 - linForce cfg.nonrel t em ![fh 3 0 / 2, fh 4 0 / 2, fh 5 0 / 2] (fun _ s => cfg.dp1 s) (fun _ s => cfg.dp2 s)
      (fun _ s => cfg.dp3 s) x = vlasovRate cfg em (fun i => BVec fh 0 i / 2) x := by
  funext p s q
  simp only [Pi.sub_apply, Pi.add_apply, Pi.zero_apply, linStreaming, linForce, LinCfg.nonrel, nonrelCq, nonrelAp, vlasovRate, waveVec, velVec,
    EVec, BVec, momGrad, cross_apply, vec3_dotProduct, cons_val_zero, cons_val_one, Matrix.cons_val]
  push_cast
  ring

theorem dfHatDt_nonrel (cfg : LinCfg M1 M2 M3 ns N1 N2) (hns : ns = 1) (hf : cfg.fieldsEnabled = true) (hs : cfg.sourceEnabled = false)
    (x : LinF M1 M2 M3 ns N1 N2 ℂ) (y : LinEM N1 N2) (s : LinState M1 M2 M3 ns N1 N2) (em : LinEM N1 N2)
    (s1 : LinState M1 M2 M3 ns N1 N2) (h1 : s1.fieldsHat = s.fieldsHat)
    (h : Det (do linUpdateFields cfg.nonrel x; linGetFields cfg.fieldsType) s em (· = s1)) :
    dfHatDt cfg.nonrel x y s = .ok (vlasovRate cfg em (meanB s) x, s1) := by
  have hdp : ∀ dp : Fin ns → ℝ, dpBroadcast (M1 := M1) (M2 := M2) (M3 := M3) dp = .ok fun _ i => dp i := fun dp => by
    rw [dpBroadcast, if_pos hns]
  have key : Det (linForceTerm cfg.nonrel s.time x) s (linForce cfg.nonrel s.time em ![s.fieldsHat 3 0 / 2, s.fieldsHat 4 0 / 2, s.fieldsHat 5 0 / 2]
      (fun _ s => cfg.dp1 s) (fun _ s => cfg.dp2 s) (fun _ s => cfg.dp3 s) x) (· = s1) := by
    obtain ⟨s', h2, rfl⟩ := h
    have e : linForceTerm cfg.nonrel s.time x = ((do linUpdateFields cfg.nonrel x; linGetFields cfg.fieldsType) >>= fun em => do
        let fh := (← get).fieldsHat
        let d1 ← liftM (dpBroadcast (M1 := M1) (M2 := M2) (M3 := M3) cfg.dp1)
        let d2 ← liftM (dpBroadcast (M1 := M1) (M2 := M2) (M3 := M3) cfg.dp2)
        let d3 ← liftM (dpBroadcast (M1 := M1) (M2 := M2) (M3 := M3) cfg.dp3)
        pure (linForce cfg.nonrel s.time em ![fh 3 0 / 2, fh 4 0 / 2, fh 5 0 / 2] d1 d2 d3 x)) := by
      rw [bind_assoc]; rfl
    rw [e]
    refine .bind ⟨s', h2, .bind (.get (.bind (.lift (hdp _) (.bind (.lift (hdp _) (.bind (.lift (hdp _) ?_)))))))⟩
    rw [h1]
    exact .pure rfl
  obtain ⟨s', h2, rfl⟩ := key
  have : Det (dfHatDt cfg.nonrel x y) s (vlasovRate cfg em (meanB s) x) (· = s') := by
    refine .bind (.get (.bind (a := 0) ?_))
    rw [if_neg (by simp [LinCfg.nonrel, hs])]
    refine .pure ?_
    rw [if_pos (by simp [LinCfg.nonrel, hf])]
    refine .bind ⟨s', h2, ?_⟩
    rw [linForce_nonrel]
    exact .pure rfl
  obtain ⟨s'', h3, rfl⟩ := this
  exact h3

/-- C63: with the nonrelativistic equations and self-consistent electrodynamic fields (one species), the rate of change of every mode is the
linearised Vlasov equation in the solver's fields, with the mean magnetic field acting on the perturbation. -/
theorem C63_electrodynamic (cfg : LinCfg M1 M2 M3 ns N1 N2) (hns : ns = 1) (hf : cfg.fieldsEnabled = true) (hs : cfg.sourceEnabled = false)
    (ht : cfg.fieldsType = "electrodynamic") (x : LinF M1 M2 M3 ns N1 N2 ℂ) (y : LinEM N1 N2) (s : LinState M1 M2 M3 ns N1 N2) :
    dfHatDt cfg.nonrel x y s = .ok (vlasovRate cfg s.fieldsHat (meanB s) x, { s with attrs := s.fieldsHat }) := by
  refine dfHatDt_nonrel cfg hns hf hs x y s _ _ rfl ?_
  refine .bind (a := ()) ?_
  rw [linUpdateFields, if_neg (by simp [LinCfg.nonrel, ht]), if_pos (by simp [LinCfg.nonrel, ht])]
  refine .pure (.bind (.modify (.bind (.get ?_))))
  simp only [ht, if_true]
  exact .pure rfl

/-- C63: with electrostatic fields the electric field is that of the very amplitudes being differentiated. -/
theorem C63_electrostatic (cfg : LinCfg M1 M2 M3 ns N1 N2) (hns : ns = 1) (hf : cfg.fieldsEnabled = true) (hs : cfg.sourceEnabled = false)
    (ht : cfg.fieldsType = "electrostatic") (x : LinF M1 M2 M3 ns N1 N2 ℂ) (y : LinEM N1 N2) (s : LinState M1 M2 M3 ns N1 N2) :
    let em := linElectrostatic cfg.dq1 cfg.dq2 cfg.eps (linRho cfg x)
    dfHatDt cfg.nonrel x y s = .ok (vlasovRate cfg em (meanB s) x, { s with attrs := em }) := by
  refine dfHatDt_nonrel cfg hns hf hs x y s _ _ rfl ?_
  refine .bind (a := ()) ?_
  rw [linUpdateFields, if_pos (by simp [LinCfg.nonrel, ht])]
  refine .modify (.bind (.modify (.bind (.get ?_))))
  simp only [ht, if_false, show ("electrostatic" = "electrodynamic") = False by simp]
  exact .pure rfl

/-- C63: with fields of type `None` the fields are those set at the start. -/
theorem C63_fixed_fields (cfg : LinCfg M1 M2 M3 ns N1 N2) (hns : ns = 1) (hf : cfg.fieldsEnabled = true) (hs : cfg.sourceEnabled = false)
    (ht : cfg.fieldsType = "None") (x : LinF M1 M2 M3 ns N1 N2 ℂ) (y : LinEM N1 N2) (s : LinState M1 M2 M3 ns N1 N2) :
    dfHatDt cfg.nonrel x y s = .ok (vlasovRate cfg s.attrs (meanB s) x, s) := by
  refine dfHatDt_nonrel cfg hns hf hs x y s _ _ rfl ?_
  refine .bind (a := ()) ?_
  rw [linUpdateFields, if_neg (by simp [LinCfg.nonrel, ht]), if_neg (by simp [LinCfg.nonrel, ht]), if_pos (by simp [LinCfg.nonrel, ht])]
  refine .pure (.bind (.modify (.bind (.get ?_))))
  simp only [ht, show ("None" = "electrodynamic") = False by simp, if_false]
  exact .pure rfl

/-- C63 (negative): the mean magnetic force is counted twice in the mean mode.  For a uniform plasma (mean mode twice the background, as the
constructor sets it) in a uniform magnetic field `B0`, without electric field, the rate of the mean mode is twice the Vlasov force
`-(e/m) (v × B0)·∂f/∂v`. -/
theorem C63_mean_magnetic_force_counted_twice (cfg : LinCfg M1 M2 M3 ns N1 N2) (hns : ns = 1) (hf : cfg.fieldsEnabled = true)
    (hs : cfg.sourceEnabled = false) (ht : cfg.fieldsType = "electrodynamic") (fb : MomIx M1 M2 M3 → Fin ns → ℝ)
    (hb : (cfg.dfdp1, cfg.dfdp2, cfg.dfdp3) = dfdpBackground cfg.dp1 cfg.dp2 cfg.dp3 fb)
    (x : LinF M1 M2 M3 ns N1 N2 ℂ) (hx : ∀ p i, x p i 0 = 2 * fb p i) (y : LinEM N1 N2) (s : LinState M1 M2 M3 ns N1 N2)
    (hE : EVec s.fieldsHat 0 = 0) (p : MomIx M1 M2 M3) (i : Fin ns) :
    ∃ k s', dfHatDt cfg.nonrel x y s = .ok (k, s') ∧
      k p i 0 = 2 * (-(cfg.charge i / cfg.mass i : ℂ) * ((velVec cfg.coords i p ⨯₃ meanB s) ⬝ᵥ momGrad cfg.dp1 cfg.dp2 cfg.dp3 x p i 0)) := by
  refine ⟨_, _, C63_electrodynamic cfg hns hf hs ht x y s, ?_⟩
  simp only [dfdpBackground, Prod.mk.injEq] at hb
  obtain ⟨b1, b2, b3⟩ := hb
  have c : ∀ (ax : MomIx M1 M2 M3) (d : ℝ), centralDiff4 ax (d : ℂ) (fun p => x p i 0) p = 2 * ((centralDiff4 ax d (fun p => fb p i) p : ℝ) : ℂ) := by
    intro ax d; simp only [centralDiff4, afShift, hx]; push_cast; ring
  have hB : BVec s.fieldsHat 0 = (2 : ℂ) • meanB s := by
    funext j; simp [meanB]; ring
  simp only [vlasovRate, waveVec, calculateK_zero, hE, zero_add, hB, momGrad, c, b1, b2, b3, cross_apply, vec3_dotProduct, cons_val_zero, cons_val_one, Matrix.cons_val,
    Pi.smul_apply, smul_eq_mul, ofReal_zero]
  ring

/-! ## C64: Maxwell's equations -/

/-- C64: outside the hybrid model the fields of every mode change according to Maxwell's equations with the current of the plasma. -/
theorem C64_maxwell (cfg : LinCfg M1 M2 M3 ns N1 N2) (hh : cfg.hybrid = false) (x : LinF M1 M2 M3 ns N1 N2 ℂ) (y : LinEM N1 N2)
    (s : LinState M1 M2 M3 ns N1 N2) : dfieldsHatDt cfg x y s = .ok (maxwellRate cfg x y, s) := by
  rw [dfieldsHatDt_eq cfg hh]
  congr 2
  have hJ : ∀ q, currentVec cfg x q = ![∑ i, (cfg.charge i : ℂ) * linMoment cfg momV1 x i q, ∑ i, (cfg.charge i : ℂ) * linMoment cfg momV2 x i q,
      ∑ i, (cfg.charge i : ℂ) * linMoment cfg momV3 x i q] := by
    intro q
    funext j
    simp only [currentVec, Finset.sum_apply, Pi.smul_apply, smul_eq_mul, velVec, linMoment, momV1, momV2, momV3, integralOverV]
    fin_cases j <;> simp only [Fin.zero_eta, Fin.mk_one, Fin.reduceFinMk, cons_val_zero, cons_val_one, Matrix.cons_val, mul_sum, sum_mul] <;>
      refine sum_congr rfl fun i _ => sum_congr rfl fun p _ => ?_ <;> push_cast <;> ring
  funext j q
  simp only [maxwellRate, hJ, emOf]
  fin_cases j <;> simp [waveVec, BVec, EVec, cross_apply] <;> ring

/-- C64 (Poynting): the electromagnetic energy of every mode decreases at the rate at which the field does work on the current. -/
theorem C64_poynting (cfg : LinCfg M1 M2 M3 ns N1 N2) (he : cfg.eps ≠ 0) (hm : cfg.mu ≠ 0) (x : LinF M1 M2 M3 ns N1 N2 ℂ)
    (y : LinEM N1 N2) (q : ZMod N1 × ZMod N2) :
    HasDerivAt (fun τ : ℝ => emEnergy cfg.eps cfg.mu (y + τ • maxwellRate cfg x y) q)
      (-2 * (star (EVec y q) ⬝ᵥ currentVec cfg x q).re) 0 := by
  have hd : ∀ (a b : Fin 3 → ℂ), HasDerivAt (fun τ : ℝ => ∑ i, ‖a i + τ • b i‖ ^ 2) (2 * (star a ⬝ᵥ b).re) 0 := by
    intro a b
    have e : (fun τ : ℝ => ∑ i, ‖a i + τ • b i‖ ^ 2)
        = fun τ => (∑ i, ‖a i‖ ^ 2) + τ * (2 * (star a ⬝ᵥ b).re) + τ ^ 2 * ∑ i, ‖b i‖ ^ 2 := by
      funext τ
      simp only [dotProduct, Fin.sum_univ_three, Pi.star_apply, star_def, Complex.sq_norm, normSq_apply, add_re, add_im, real_smul, mul_re, mul_im,
        ofReal_re, ofReal_im, conj_re, conj_im]
      ring
    rw [e]
    have h := (((hasDerivAt_id (0 : ℝ)).mul_const (2 * (star a ⬝ᵥ b).re)).const_add (∑ i, ‖a i‖ ^ 2)).add
      ((hasDerivAt_pow 2 (0 : ℝ)).mul_const (∑ i, ‖b i‖ ^ 2))
    exact h.congr_deriv (by simp)
  have hE : ∀ τ : ℝ, ∀ i, EVec (y + τ • maxwellRate cfg x y) q i = EVec y q i + τ • EVec (maxwellRate cfg x y) q i := by
    intro τ i; fin_cases i <;> rfl
  have hB : ∀ τ : ℝ, ∀ i, BVec (y + τ • maxwellRate cfg x y) q i = BVec y q i + τ • BVec (maxwellRate cfg x y) q i := by
    intro τ i; fin_cases i <;> rfl
  simp only [emEnergy, hE, hB]
  refine (((hd (EVec y q) (EVec (maxwellRate cfg x y) q)).const_mul cfg.eps).add ((hd (BVec y q) (BVec (maxwellRate cfg x y) q)).div_const cfg.mu)).congr_deriv ?_
  have e1 : EVec (maxwellRate cfg x y) q = ((cfg.mu * cfg.eps : ℝ) : ℂ)⁻¹ • I • (waveVec cfg.dq1 cfg.dq2 q ⨯₃ BVec y q) - (cfg.eps : ℂ)⁻¹ • currentVec cfg x q := by
    funext i; fin_cases i <;> rfl
  have e2 : BVec (maxwellRate cfg x y) q = -(I • (waveVec cfg.dq1 cfg.dq2 q ⨯₃ EVec y q)) := by
    funext i; fin_cases i <;> rfl
  rw [e1, e2]
  generalize currentVec cfg x q = J
  generalize EVec y q = E
  generalize BVec y q = B
  have r1 : (((cfg.mu * cfg.eps : ℝ) : ℂ)⁻¹) = (((cfg.mu * cfg.eps)⁻¹ : ℝ) : ℂ) := by push_cast; rfl
  have r2 : ((cfg.eps : ℂ)⁻¹) = ((cfg.eps⁻¹ : ℝ) : ℂ) := by push_cast; rfl
  rw [r1, r2]
  simp only [dotProduct, Fin.sum_univ_three, Pi.star_apply, star_def, Pi.sub_apply, Pi.neg_apply, Pi.smul_apply, smul_eq_mul, cross_apply, waveVec,
    Matrix.cons_val_zero, Matrix.cons_val_one, Matrix.cons_val, add_re, mul_re, mul_im, sub_re, sub_im, neg_re, neg_im, ofReal_re, ofReal_im, conj_re, conj_im, I_re, I_im,
    zero_re, zero_im]
  field_simp
  ring

/-! ## C65: the integrators -/

/-- C65: each integrator, given any slope function that may read the clock, is the textbook method of its tableau, and leaves the clock one
step later. -/
theorem C65_single {V : Type} [AddCommGroup V] [Module ℝ V] (m : LinScheme) (A : ℝ → V → V) (x0 : V) (dt t : ℝ) :
    m.single (fun c => modify (· + c)) (fun x => do pure (A (← get) x)) x0 dt t = .ok (m.tableau.step A t x0 dt, t + dt) := by
  rw [← rkPure_eq_tableau]
  cases m
  · change Except.ok (_, t + 0.5 * dt + 0.5 * dt) = _
    rw [show t + 0.5 * dt + 0.5 * dt = t + dt by ring]; rfl
  · change Except.ok (_, t + 0.5 * dt + 0.5 * dt) = _
    rw [show t + 0.5 * dt + 0.5 * dt = t + dt by ring]; rfl
  · change Except.ok (_, t + 0.25 * dt + 0.25 * dt + 0.25 * dt + 0.25 * dt) = _
    rw [show t + 0.25 * dt + 0.25 * dt + 0.25 * dt + 0.25 * dt = t + dt by ring]; rfl

/-- C65: each integrator for a coupled pair is the same method applied to the pair: every stage of either unknown uses the stage values of
both. -/
theorem C65_coupled {V W : Type} [AddCommGroup V] [Module ℝ V] [AddCommGroup W] [Module ℝ W] (m : LinScheme) (A : ℝ → V → W → V)
    (B : ℝ → V → W → W) (x0 : V) (y0 : W) (dt t : ℝ) :
    m.coupled (fun c => modify (· + c)) (fun x y => do pure (A (← get) x y)) x0 (fun x y => do pure (B (← get) x y)) (pure y0) dt t
      = .ok (m.tableau.step (fun t z => (A t z.1 z.2, B t z.1 z.2)) t (x0, y0) dt, t + dt) := by
  rw [← rkPure_eq_tableau]
  cases m
  · change Except.ok (_, t + 0.5 * dt + 0.5 * dt) = _
    rw [show t + 0.5 * dt + 0.5 * dt = t + dt by ring]; rfl
  · change Except.ok (_, t + 0.5 * dt + 0.5 * dt) = _
    rw [show t + 0.5 * dt + 0.5 * dt = t + dt by ring]; rfl
  · change Except.ok (_, t + 0.25 * dt + 0.25 * dt + 0.25 * dt + 0.25 * dt) = _
    rw [show t + 0.25 * dt + 0.25 * dt + 0.25 * dt + 0.25 * dt = t + dt by ring]; rfl

/-- C65: the methods have order two, four and five for every smooth autonomous system. -/
theorem C65_order (m : LinScheme) : HasOrder m.order (fun {E} _ _ F x dt => m.tableau.step (V := E) (fun _ => F) 0 x dt) := by
  simpa only [rkPure_eq_tableau] using rkPure_order m

/-- C65: the same orders for slopes that depend on time (a time-dependent source, for instance). -/
theorem C65_order_time_dependent (m : LinScheme) (E : Type) [NormedAddCommGroup E] [NormedSpace ℝ E] (A : ℝ → E → E) (t0 : ℝ) (y : ℝ → E)
    (hA : ContDiffAt ℝ 5 (fun z : ℝ × E => A z.1 z.2) (t0, y t0)) (hy : ∀ᶠ t in nhds t0, HasDerivAt y (A t (y t)) t) :
    (fun h => m.tableau.step A t0 (y t0) h - y (t0 + h)) =O[nhds 0] fun h : ℝ => h ^ (m.order + 1) := by
  have key := C65_order m (ℝ × E) (fun z => (1, A z.1 z.2)) (fun h => (t0 + h, y (t0 + h))) (by
      simp only [add_zero]
      exact contDiffAt_const.prodMk hA) (by
      have hc : Filter.Tendsto (fun h : ℝ => t0 + h) (nhds 0) (nhds t0) := by
        have : Continuous fun h : ℝ => t0 + h := by fun_prop
        simpa using this.tendsto 0
      filter_upwards [hc.eventually hy] with h hh
      exact HasDerivAt.prodMk ((hasDerivAt_id h).const_add t0) (hh.comp_const_add t0 h))
  have e : ∀ h, (m.tableau.step (fun _ (z : ℝ × E) => ((1 : ℝ), A z.1 z.2)) 0 (t0 + 0, y (t0 + 0)) h).2 = m.tableau.step A t0 (y t0) h := by
    intro h
    simp only [add_zero, ← rkPure_eq_tableau]
    cases m
    · simp only [rkPure, Prod.smul_mk, Prod.mk_add_mk, smul_eq_mul]
      norm_num
      ring_nf
    · simp only [rkPure, Prod.smul_mk, Prod.mk_add_mk, smul_eq_mul]
      norm_num
      ring_nf
    · simp only [rkPure, Prod.smul_mk, Prod.mk_add_mk, Prod.mk_sub_mk, smul_eq_mul]
      norm_num
      ring_nf
  have := Asymptotics.IsBigO.trans (Asymptotics.isBigO_of_le (nhds (0 : ℝ)) (f := fun h => m.tableau.step A t0 (y t0) h - y (t0 + h))
    (fun h => ?_)) key
  · exact this
  · rw [← e h]
    exact norm_snd_le ((m.tableau.step (fun _ (z : ℝ × E) => ((1 : ℝ), A z.1 z.2)) 0 (t0 + 0, y (t0 + 0)) h) - (t0 + h, y (t0 + h)))

/-- C65: one step of the self-consistent electrodynamic solver (nonrelativistic, one species, no source) is one step of the scheme's method on
the pair of the linearised Vlasov equation *in the fields at the start of the step* and Maxwell's equations with the current of each stage. -/
theorem C65_electrodynamic_step (m : LinScheme) (cfg : LinCfg M1 M2 M3 ns N1 N2) (hns : ns = 1) (hf : cfg.fieldsEnabled = true)
    (hs : cfg.sourceEnabled = false) (hi : cfg.instantaneous = false) (hh : cfg.hybrid = false) (ht : cfg.fieldsType = "electrodynamic")
    (dt : ℝ) (s : LinState M1 M2 M3 ns N1 N2) :
    ∃ t, linStep m cfg.nonrel dt s = .ok ((), t) ∧ t.time = s.time + dt ∧
      (t.fHat, t.fieldsHat) = m.tableau.step (fun _ z => (vlasovRate cfg s.fieldsHat (meanB s) z.1, maxwellRate cfg z.1 z.2))
        s.time (s.fHat, s.fieldsHat) dt := by
  have key : Det (linStep m cfg.nonrel dt) s () fun t => (t.fHat, t.fieldsHat)
      = m.tableau.step (fun _ z => (vlasovRate cfg s.fieldsHat (meanB s) z.1, maxwellRate cfg z.1 z.2)) s.time (s.fHat, s.fieldsHat) dt := by
    refine .bind (a := ()) ?_
    rw [if_neg (by simp [LinCfg.nonrel, hi])]
    refine .pure (.bind (.get ?_))
    rw [if_pos ⟨hf, ht⟩]
    refine .bind ((coupled_det m (fun s' : LinState M1 M2 M3 ns N1 N2 => s'.fieldsHat = s.fieldsHat) LinState.time
      (fun _ x _ => vlasovRate cfg s.fieldsHat (meanB s) x) (fun _ x y => maxwellRate cfg x y) s.fieldsHat
      (fun c s' h => ⟨{ s' with time := s'.time + c }, rfl, h, rfl⟩)
      (fun x y s' h => ?_) (fun x y s' h => ?_) (fun s' h => ?_) s.fHat dt s rfl).mono fun s' h => ?_)
    · refine ⟨_, C63_electrodynamic cfg hns hf hs ht x y s', h, rfl⟩ |> Det.of_eq <| ?_
      have hb : meanB s' = meanB s := by unfold meanB; rw [h]
      rw [hb, h]
    · exact ⟨s', C64_maxwell cfg.nonrel hh x y s', h, rfl⟩
    · exact ⟨s', by rw [← h]; rfl, h, rfl⟩
    · rw [rkPure_eq_tableau]
      exact .modify rfl
  obtain ⟨t, h1, h2⟩ := key
  exact ⟨t, h1, C46_clock m cfg.nonrel dt s t h1, h2⟩

/-- C65: one step with electrostatic fields is one step of the scheme's method on the linearised Vlasov equation with the electric field of each
stage's own charge density; the stored field amplitudes are untouched. -/
theorem C65_electrostatic_step (m : LinScheme) (cfg : LinCfg M1 M2 M3 ns N1 N2) (hns : ns = 1) (hf : cfg.fieldsEnabled = true)
    (hs : cfg.sourceEnabled = false) (hi : cfg.instantaneous = false) (ht : cfg.fieldsType = "electrostatic")
    (dt : ℝ) (s : LinState M1 M2 M3 ns N1 N2) :
    ∃ t, linStep m cfg.nonrel dt s = .ok ((), t) ∧ t.time = s.time + dt ∧ t.fieldsHat = s.fieldsHat ∧
      t.fHat = m.tableau.step (fun _ x => vlasovRate cfg (linElectrostatic cfg.dq1 cfg.dq2 cfg.eps (linRho cfg x)) (meanB s) x) s.time s.fHat dt := by
  have key : Det (linStep m cfg.nonrel dt) s () fun t => t.fieldsHat = s.fieldsHat ∧
      t.fHat = m.tableau.step (fun _ x => vlasovRate cfg (linElectrostatic cfg.dq1 cfg.dq2 cfg.eps (linRho cfg x)) (meanB s) x) s.time s.fHat dt := by
    refine .bind (a := ()) ?_
    rw [if_neg (by simp [LinCfg.nonrel, hi])]
    refine .pure (.bind (.get ?_))
    rw [if_neg (by simp [LinCfg.nonrel, ht])]
    refine .bind (a := s.fieldsHat) ⟨s, rfl, ?_⟩
    refine .bind ((single_det m (fun s' : LinState M1 M2 M3 ns N1 N2 => s'.fieldsHat = s.fieldsHat) LinState.time
      (fun _ x => vlasovRate cfg (linElectrostatic cfg.dq1 cfg.dq2 cfg.eps (linRho cfg x)) (meanB s) x)
      (fun c s' h => ⟨{ s' with time := s'.time + c }, rfl, h, rfl⟩) (fun x s' h => ?_) s.fHat dt s rfl).mono fun s' h => ?_)
    · refine ⟨_, C63_electrostatic cfg hns hf hs ht x s.fieldsHat s', h, rfl⟩ |> Det.of_eq <| ?_
      have hb : meanB s' = meanB s := by unfold meanB; rw [h]
      rw [hb]
    · rw [rkPure_eq_tableau]
      exact .modify ⟨h, rfl⟩
  obtain ⟨t, h1, h2⟩ := key
  exact ⟨t, h1, C46_clock m cfg.nonrel dt s t h1, h2⟩

/-! ## C64: light waves -/

/-- The fields of one mode, as a linear map. -/
def modeOf (q : ZMod N1 × ZMod N2) : (LinF M1 M2 M3 ns N1 N2 ℂ × LinEM N1 N2) →ₗ[ℝ] (Fin 6 → ℂ) where
  toFun z := fun j => z.2 j q
  map_add' _ _ := rfl
  map_smul' _ _ := rfl

theorem current_uncharged (cfg : LinCfg M1 M2 M3 ns N1 N2) (hc : ∀ i, cfg.charge i = 0) (x : LinF M1 M2 M3 ns N1 N2 ℂ) (q : ZMod N1 × ZMod N2) :
    currentVec cfg x q = 0 := by simp [currentVec, hc]

/-- A light wave is an eigenvector of Maxwell's equations. -/
theorem maxwell_eigen (cfg : LinCfg M1 M2 M3 ns N1 N2) (hc : ∀ i, cfg.charge i = 0) (he : cfg.eps ≠ 0) (hm : cfg.mu ≠ 0) (q : ZMod N1 × ZMod N2)
    (w : ℝ) (hw0 : w ≠ 0) (hw : cfg.mu * cfg.eps * w ^ 2 = (calculateK cfg.dq1 cfg.dq2 q).1 ^ 2 + (calculateK cfg.dq1 cfg.dq2 q).2 ^ 2)
    (x : LinF M1 M2 M3 ns N1 N2 ℂ) (y : LinEM N1 N2) (h1 : waveVec cfg.dq1 cfg.dq2 q ⬝ᵥ EVec y q = 0)
    (h2 : BVec y q = (w : ℂ)⁻¹ • (waveVec cfg.dq1 cfg.dq2 q ⨯₃ EVec y q)) (j : Fin 6) : maxwellRate cfg x y j q = -I * w * y j q := by
  have hwc : (w : ℂ) ≠ 0 := by exact_mod_cast hw0
  have hec : (cfg.eps : ℂ) ≠ 0 := by exact_mod_cast he
  have hmc : (cfg.mu : ℂ) ≠ 0 := by exact_mod_cast hm
  have hwk : (cfg.mu : ℂ) * cfg.eps * w ^ 2 = ((calculateK cfg.dq1 cfg.dq2 q).1 : ℂ) ^ 2 + ((calculateK cfg.dq1 cfg.dq2 q).2 : ℂ) ^ 2 := by
    exact_mod_cast hw
  have hJ := current_uncharged cfg hc
  simp only [maxwellRate, hJ]
  have c0 := congrFun h2 0
  have c1 := congrFun h2 1
  have c2 := congrFun h2 2
  simp only [waveVec, EVec, BVec, cross_apply, vec3_dotProduct, Matrix.cons_val_zero, Matrix.cons_val_one, Matrix.cons_val, Pi.smul_apply,
    smul_eq_mul] at h1 c0 c1 c2
  fin_cases j <;>
    simp only [emOf, waveVec, EVec, BVec, cross_apply, Fin.zero_eta, Fin.mk_one, Fin.reduceFinMk, Matrix.cons_val_zero, Matrix.cons_val_one,
      Matrix.cons_val, Pi.smul_apply, Pi.sub_apply, Pi.neg_apply, Pi.zero_apply, smul_eq_mul, c0, c1, c2] <;> push_cast <;> field_simp
  · linear_combination (I * y 0 q) * hwk + I * ((calculateK cfg.dq1 cfg.dq2 q).1 : ℂ) * h1
  · linear_combination (I * y 1 q) * hwk + I * ((calculateK cfg.dq1 cfg.dq2 q).2 : ℂ) * h1
  · linear_combination (I * y 2 q) * hwk

theorem maxwell_mode (cfg : LinCfg M1 M2 M3 ns N1 N2) (hc : ∀ i, cfg.charge i = 0) (q : ZMod N1 × ZMod N2)
    (x : LinF M1 M2 M3 ns N1 N2 ℂ) (y : LinEM N1 N2) (j : Fin 6) : maxwellRate cfg x y j q = maxwellRate cfg 0 (fun j _ => y j q) j q := by
  simp only [maxwellRate, current_uncharged cfg hc]
  fin_cases j <;> simp [emOf, EVec, BVec]

/-- C64: a transverse electromagnetic wave of a plasma without charge.  If in some mode with wave vector `k ≠ 0` the field is a light wave
(`k·E = 0`, `B = k × E / w`, with `w` either root of `mu eps w² = k²`), then after any sequence of steps of any of the schemes it is the same wave
multiplied by the schemes' polynomials of `-i w dt`. -/
theorem C64_light_wave (cfg : LinCfg M1 M2 M3 ns N1 N2) (hns : ns = 1) (hf : cfg.fieldsEnabled = true)
    (hs : cfg.sourceEnabled = false) (hi : cfg.instantaneous = false) (hh : cfg.hybrid = false) (ht : cfg.fieldsType = "electrodynamic")
    (hc : ∀ i, cfg.charge i = 0) (he : cfg.eps ≠ 0) (hm : cfg.mu ≠ 0) (q : ZMod N1 × ZMod N2) (w : ℝ) (hw0 : w ≠ 0)
    (hw : cfg.mu * cfg.eps * w ^ 2 = (calculateK cfg.dq1 cfg.dq2 q).1 ^ 2 + (calculateK cfg.dq1 cfg.dq2 q).2 ^ 2)
    (l : List (LinScheme × ℝ)) (s : LinState M1 M2 M3 ns N1 N2)
    (hE : waveVec cfg.dq1 cfg.dq2 q ⬝ᵥ EVec s.fieldsHat q = 0)
    (hB : BVec s.fieldsHat q = (w : ℂ)⁻¹ • (waveVec cfg.dq1 cfg.dq2 q ⨯₃ EVec s.fieldsHat q)) :
    ∃ t, linRun cfg.nonrel l s = .ok ((), t) ∧
      EVec t.fieldsHat q = (l.map fun a => a.1.poly (-I * w * a.2)).prod • EVec s.fieldsHat q ∧
      BVec t.fieldsHat q = (l.map fun a => a.1.poly (-I * w * a.2)).prod • BVec s.fieldsHat q := by
  have eig := maxwell_eigen cfg hc he hm q w hw0 hw
  have step : ∀ (m : LinScheme) (dt : ℝ) (s : LinState M1 M2 M3 ns N1 N2), waveVec cfg.dq1 cfg.dq2 q ⬝ᵥ EVec s.fieldsHat q = 0 →
      BVec s.fieldsHat q = (w : ℂ)⁻¹ • (waveVec cfg.dq1 cfg.dq2 q ⨯₃ EVec s.fieldsHat q) →
      ∃ t, linStep m cfg.nonrel dt s = .ok ((), t) ∧ ∀ j, t.fieldsHat j q = m.poly (-I * w * dt) * s.fieldsHat j q := by
    intro m dt s h1 h2
    obtain ⟨t, e1, -, e2⟩ := C65_electrodynamic_step m cfg hns hf hs hi hh ht dt s
    refine ⟨t, e1, fun j => ?_⟩
    let Bq : (Fin 6 → ℂ) → Fin 6 → ℂ := fun v j => maxwellRate cfg 0 (fun j _ => v j) j q
    let L : ℂ →ₗ[ℝ] (Fin 6 → ℂ) :=
      { toFun := fun z j => z * s.fieldsHat j q
        map_add' := fun _ _ => by funext j; simp [add_mul]
        map_smul' := fun _ _ => by funext j; simp [mul_assoc] }
    have m1 := rkPure_map (modeOf q) m (fun _ z => (vlasovRate cfg s.fieldsHat (meanB s) z.1, maxwellRate cfg z.1 z.2)) (fun _ => Bq)
      (fun _ z => by
        funext j
        exact maxwell_mode cfg hc q z.1 z.2 j) s.time (s.fHat, s.fieldsHat) dt
    have m2 := rkPure_map L m (fun _ z => -I * w * z) (fun _ => Bq) (fun _ z => by
        funext j
        refine Eq.trans ?_ (eig 0 (fun j _ => z * s.fieldsHat j q) ?_ ?_ j).symm
        · change -I * w * z * s.fieldsHat j q = _; ring
        · have : EVec (fun j (_ : ZMod N1 × ZMod N2) => z * s.fieldsHat j q) q = z • EVec s.fieldsHat q := by funext i; fin_cases i <;> rfl
          rw [this, dotProduct_smul, h1, smul_zero]
        · have a1 : EVec (fun j (_ : ZMod N1 × ZMod N2) => z * s.fieldsHat j q) q = z • EVec s.fieldsHat q := by funext i; fin_cases i <;> rfl
          have a2 : BVec (fun j (_ : ZMod N1 × ZMod N2) => z * s.fieldsHat j q) q = z • BVec s.fieldsHat q := by funext i; fin_cases i <;> rfl
          rw [a1, a2, h2, map_smul, smul_comm]) s.time 1 dt
    rw [rkPure_const] at m2
    have e3 : L 1 = modeOf q (s.fHat, s.fieldsHat) := by funext j; exact one_mul _
    rw [e3, ← m1, rkPure_eq_tableau, ← e2] at m2
    have := congrFun m2 j
    exact this.symm.trans (by rw [mul_one]; rfl)
  have lin : ∀ (t s : LinState M1 M2 M3 ns N1 N2) (c : ℂ), (∀ j, t.fieldsHat j q = c * s.fieldsHat j q) →
      EVec t.fieldsHat q = c • EVec s.fieldsHat q ∧ BVec t.fieldsHat q = c • BVec s.fieldsHat q := by
    intro t s c h
    constructor <;> funext i <;> fin_cases i <;> simp [EVec, BVec, h]
  induction l generalizing s with
  | nil => exact ⟨s, rfl, by simp, by simp⟩
  | cons a l ih =>
      obtain ⟨s1, e1, h1⟩ := step a.1 a.2 s hE hB
      obtain ⟨f1, f2⟩ := lin s1 s _ h1
      obtain ⟨t, e2, g1, g2⟩ := ih s1 (by rw [f1, dotProduct_smul, hE, smul_zero]) (by rw [f1, f2, hB, map_smul, smul_comm])
      refine ⟨t, ?_, ?_, ?_⟩
      · obtain ⟨m, dt⟩ := a
        rw [linRun_cons, e1]; exact e2
      · rw [g1, f1, smul_smul, List.map_cons, List.prod_cons, mul_comm]
      · rw [g2, f2, smul_smul, List.map_cons, List.prod_cons, mul_comm]

/-! ## Concrete cases -/

/-- The relaxation source `-f` of a homogeneous plasma: one step of the midpoint rule of size 1 halves every value. -/
example (s : LinState 5 3 1 1 3 3) (f : LinF 5 3 1 1 3 3 ℝ) (h : getDistFunc s = .ok f) :
    ∃ t, linStep .rk2 { exLin false true false false "None" with Aq := fun _ => (0, 0) } 1 s = .ok ((), t) ∧
      getDistFunc t = .ok ((1 / 2 : ℝ) • f) := by
  obtain ⟨t, h1, h2⟩ := C62_source_step .rk2 { exLin false true false false "None" with Aq := fun _ => (0, 0) } (by decide) rfl rfl rfl
    (fun _ => rfl) 1 s f h
  refine ⟨t, h1, h2.trans ?_⟩
  congr 1
  simp only [Tableau.step, LinScheme.tableau, slopes, combine, exLin, List.nil_append, List.cons_append]
  module

/-- Every state has a distribution to start from, and instantaneous collisions can be enabled. -/
example (s : LinState 5 3 1 1 3 3) : (∃ f, getDistFunc s = .ok f) ∧ (exLin false false true false "None").instantaneous = true :=
  ⟨⟨_, getDistFunc_eq (by decide) s⟩, rfl⟩

/-- The hypotheses of `C63_mean_magnetic_force_counted_twice` are met by a uniform plasma in a uniform field. -/
example : ∃ (s : LinState 5 3 1 1 3 3) (x : LinF 5 3 1 1 3 3 ℂ), (∀ p i, x p i 0 = 2 * ((p.1.val : ℝ) : ℂ)) ∧ EVec s.fieldsHat 0 = 0 ∧
    meanB s = ![0, 0, 1] ∧
    ((exLin true false false false "electrodynamic").dfdp1, (exLin true false false false "electrodynamic").dfdp2,
      (exLin true false false false "electrodynamic").dfdp3)
      = dfdpBackground (exLin true false false false "electrodynamic").dp1 (exLin true false false false "electrodynamic").dp2
        (exLin true false false false "electrodynamic").dp3 fun (p : MomIx 5 3 1) _ => (p.1.val : ℝ) := by
  refine ⟨⟨0, 0, 0, fun j _ => if j = 5 then 2 else 0⟩, fun p _ _ => 2 * ((p.1.val : ℝ) : ℂ), fun _ _ => rfl, ?_, ?_, rfl⟩
  · funext i; fin_cases i <;> simp [EVec]
  · funext i; fin_cases i <;> simp [meanB, BVec]

/-- A light wave to which `C64_light_wave` applies: mode (1, 0), field along the third axis. -/
example : ∃ (s : LinState 5 3 1 1 3 3) (w : ℝ), w ≠ 0 ∧
    (5 : ℝ) * 3 * w ^ 2 = (calculateK 1 (1 / 2) ((1, 0) : ZMod 3 × ZMod 3)).1 ^ 2 + (calculateK 1 (1 / 2) ((1, 0) : ZMod 3 × ZMod 3)).2 ^ 2 ∧
    EVec s.fieldsHat (1, 0) = ![0, 0, 1] ∧ waveVec 1 (1 / 2) ((1, 0) : ZMod 3 × ZMod 3) ⬝ᵥ EVec s.fieldsHat (1, 0) = 0 ∧
    BVec s.fieldsHat (1, 0) = (w : ℂ)⁻¹ • (waveVec 1 (1 / 2) ((1, 0) : ZMod 3 × ZMod 3) ⨯₃ EVec s.fieldsHat (1, 0)) := by
  have hk : calculateK (N1 := 3) (N2 := 3) 1 (1 / 2) (1, 0) = (2 * Real.pi * (1 / 3), 0) := by
    simp [calculateK, fftfreq, show (1 : ZMod 3).val = 1 from rfl]
  have hp := Real.pi_pos
  have hs : (0 : ℝ) < √15 := Real.sqrt_pos.mpr (by norm_num)
  set w := 2 * Real.pi * (1 / 3) / √15 with hw
  have w0 : w ≠ 0 := by positivity
  refine ⟨⟨0, 0, 0, fun j _ => ![0, 0, 1, 0, -(w : ℂ)⁻¹ * (2 * Real.pi * (1 / 3) : ℝ), 0] j⟩, w, w0, ?_, ?_, ?_, ?_⟩
  · rw [hk, hw, div_pow, Real.sq_sqrt (by norm_num)]; ring
  · funext i; fin_cases i <;> simp [EVec]
  · simp [EVec, waveVec]
  · rw [waveVec, hk]
    funext i; fin_cases i <;> simp [EVec, BVec, cross_apply]

end Bolt
