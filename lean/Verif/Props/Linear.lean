import Verif.Proofs.LinFields
import Mathlib.Topology.Algebra.Order.Field
import Mathlib.Analysis.SpecificLimits.Basic
import Mathlib.Tactic.IntervalCases

/-!
# C46, C47, C48, C59: the linear solver
-/

set_option linter.unusedSectionVars false

namespace Bolt

open Complex Finset Filter Topology

variable {M1 M2 M3 ns N1 N2 : ℕ} [NeZero M1] [NeZero M2] [NeZero M3] [NeZero N1] [NeZero N2]

/-! ## C46: evolution of the modes -/

/-- C46: the solver starts from the distribution function it was given: `get_dist_func()` right after construction returns it. -/
theorem C46_initial_state (cfg : LinCfg M1 M2 M3 ns N1 N2) (option : String) (E : Fin 3 → ZMod N1 × ZMod N2 → ℝ) (b : BInit N1 N2)
    (hd : ¬ (N2 = 1 ∧ M1 * M2 * M3 = 1 ∧ ns = 1)) (f : LinF M1 M2 M3 ns N1 N2 ℝ) (st : LinState M1 M2 M3 ns N1 N2)
    (h : linInit cfg option E b f = .ok st) : getDistFunc st = .ok f ∧ st.time = 0 := by
  rw [linInit] at h
  cases hem : linInitFields cfg option E b (linInitF f) with
  | error e => rw [hem] at h; cases h
  | ok em =>
      rw [hem] at h
      cases h
      refine ⟨?_, rfl⟩
      rw [getDistFunc, ifft2, if_neg hd]
      change Except.ok _ = _
      congr 1
      funext p s q
      have e : ∀ k, linInitF f p s k = afFft2 (fun j => (f p s j : ℂ)) k * (2 / (N1 * N2)) := by
        intro k; simp only [linInitF, fft2, reorder2301]; ring
      simp only [reorder2301, e]
      have lin : ∀ (y : ZMod N1 × ZMod N2 → ℂ) (c : ℂ), afIfft2 (fun j => y j * c) q = afIfft2 y q * c := by
        intro y c
        simp only [afIfft2_eq, sum_mul]
        exact sum_congr rfl fun j _ => by ring
      rw [lin, afIfft2_afFft2]
      have hN := cardN (N1 := N1) (N2 := N2)
      have : (N1 : ℂ) * N2 * (f p s q : ℂ) * (2 / (N1 * N2)) / ((N1 : ℂ) * N2) = ((2 * f p s q / (N1 * N2) : ℝ) : ℂ) := by
        push_cast; field_simp
      rw [this, ofReal_re]
      have hN1 : (N1 : ℝ) ≠ 0 := Nat.cast_ne_zero.mpr (NeZero.ne N1)
      have hN2 : (N2 : ℝ) ≠ 0 := Nat.cast_ne_zero.mpr (NeZero.ne N2)
      field_simp
      norm_num

/-- The streaming-only configuration: no source, no instantaneous collisions, no fields. -/
structure LinCfg.Free (cfg : LinCfg M1 M2 M3 ns N1 N2) : Prop where
  source : cfg.sourceEnabled = false
  fields : cfg.fieldsEnabled = false
  collisions : cfg.instantaneous = false

/-- C46: without source and fields a run never raises and each mode evolves on its own: its final amplitude depends on its own initial
amplitude only, whatever the other modes (and the advection velocities may depend on time, momentum and species). -/
theorem C46_modes_independent (cfg : LinCfg M1 M2 M3 ns N1 N2) (hf : cfg.Free) (q : ZMod N1 × ZMod N2) (p : MomIx M1 M2 M3) (i : Fin ns) :
    ∀ (l : List (LinScheme × ℝ)) (s s' : LinState M1 M2 M3 ns N1 N2), s.time = s'.time → s.fHat p i q = s'.fHat p i q →
      ∃ t t', linRun cfg l s = .ok ((), t) ∧ linRun cfg l s' = .ok ((), t') ∧ t.fHat p i q = t'.fHat p i q
  | [], s, s', _, h => ⟨s, s', rfl, rfl, h⟩
  | (m, dt) :: l, s, s', ht, h => by
      rw [linRun_cons, linRun_cons, linStep_free m cfg hf.source hf.fields hf.collisions, linStep_free m cfg hf.source hf.fields hf.collisions]
      refine C46_modes_independent cfg hf q p i l _ _ (by simp only [ht]) ?_
      simp only [rkPure_entry, ht, h]

/-- C46: with velocities `a1, a2` of momentum and species only, a run multiplies each amplitude by the product over the steps of the
Runge-Kutta polynomial of `-i (k1 a1 + k2 a2) dt`, and the clock advances by the sum of the step sizes. -/
theorem C46_amplitude (cfg : LinCfg M1 M2 M3 ns N1 N2) (hf : cfg.Free) (a1 a2 : MomIx M1 M2 M3 → Fin ns → ℝ)
    (ha : ∀ t, cfg.Aq t = (fun p i _ => a1 p i, fun p i _ => a2 p i)) :
    ∀ (l : List (LinScheme × ℝ)) (s : LinState M1 M2 M3 ns N1 N2), ∃ t, linRun cfg l s = .ok ((), t) ∧
      t.time = s.time + (l.map Prod.snd).sum ∧
      ∀ p i q, t.fHat p i q = (l.map fun st => st.1.poly (-I * ((calculateK cfg.dq1 cfg.dq2 q).1 * a1 p i
        + (calculateK cfg.dq1 cfg.dq2 q).2 * a2 p i) * st.2)).prod * s.fHat p i q
  | [], s => ⟨s, rfl, by simp, by simp⟩
  | (m, dt) :: l, s => by
      rw [linRun_cons, linStep_free m cfg hf.source hf.fields hf.collisions]
      obtain ⟨t, h1, h2, h3⟩ := C46_amplitude cfg hf a1 a2 ha l
        { s with fHat := rkPure m (linStreaming cfg) s.time s.fHat dt, time := s.time + dt }
      refine ⟨t, h1, by rw [h2]; simp [add_assoc], fun p i q => ?_⟩
      rw [h3]
      simp only [rkPure_entry, ha]
      rw [rkPure_const, List.map_cons, List.prod_cons]
      push_cast
      ring

/-- Sum over the grid of what `get_dist_func` returns: the mean mode. -/
theorem sum_getDistFunc (st : LinState M1 M2 M3 ns N1 N2) (f : LinF M1 M2 M3 ns N1 N2 ℝ) (h : getDistFunc st = .ok f)
    (p : MomIx M1 M2 M3) (i : Fin ns) : ∑ q, f p i q = 0.5 * N2 * N1 * (st.fHat p i 0).re := by
  rw [getDistFunc, ifft2] at h
  split_ifs at h with hd
  · cases h
  · cases h
    simp only [reorder2301]
    rw [← mul_sum, ← Complex.re_sum, ← sum_div]
    congr 2
    have : ∑ j, afIfft2 (fun k => st.fHat p i k) j = (N1 : ℂ) * N2 * st.fHat p i 0 := by
      simp only [afIfft2_eq]
      rw [sum_comm]
      simp only [← mul_sum, fun k => sum_congr rfl fun (j : ZMod N1 × ZMod N2) (_ : j ∈ univ) => chi_comm j k, sum_chi]
      simp [mul_comm]
    rw [this]
    exact mul_div_cancel_left₀ _ cardN

/-- C46: without source and fields the mean mode of every momentum cell and species never changes (the velocities may be anything),
so neither does the number of particles per momentum cell and species that `get_dist_func` reports. -/
theorem C46_mean_mode_constant (cfg : LinCfg M1 M2 M3 ns N1 N2) (hf : cfg.Free) :
    ∀ (l : List (LinScheme × ℝ)) (s t : LinState M1 M2 M3 ns N1 N2), linRun cfg l s = .ok ((), t) →
      (∀ p i, t.fHat p i 0 = s.fHat p i 0) ∧
      ∀ f g, getDistFunc s = .ok f → getDistFunc t = .ok g → ∀ p i, ∑ q, g p i q = ∑ q, f p i q := by
  have key : ∀ (l : List (LinScheme × ℝ)) (s t : LinState M1 M2 M3 ns N1 N2), linRun cfg l s = .ok ((), t) →
      ∀ p i, t.fHat p i 0 = s.fHat p i 0 := by
    intro l
    induction l with
    | nil => intro s t h p i; cases h; rfl
    | cons a l ih =>
        intro s t h p i
        rw [linRun_cons, linStep_free _ cfg hf.source hf.fields hf.collisions] at h
        rw [ih _ _ h]
        have e := rkPure_map (evalAt p i (0 : ZMod N1 × ZMod N2)) a.1 (linStreaming cfg) (fun _ z => 0 * z)
          (fun t x => by simp [evalAt, linStreaming, calculateK, fftfreq]) s.time s.fHat a.2
        have e2 := rkPure_const a.1 0 s.time a.2 (s.fHat p i 0)
        refine e.trans (e2.trans ?_)
        cases a.1 <;> simp [LinScheme.poly]
  intro l s t h
  refine ⟨key l s t h, fun f g hs ht p i => ?_⟩
  rw [sum_getDistFunc s f hs, sum_getDistFunc t g ht, key l s t h]

theorem linTick_clock (c : ℝ) (s : LinState M1 M2 M3 ns N1 N2) : Post (linTick c) s fun _ s' => s'.time = s.time + c := .modify rfl

/-- C46: in every configuration, a call of a step method that returns has advanced the elapsed time by exactly `dt`. -/
theorem C46_clock (m : LinScheme) (cfg : LinCfg M1 M2 M3 ns N1 N2) (dt : ℝ) (s t : LinState M1 M2 M3 ns N1 N2)
    (h : linStep m cfg dt s = .ok ((), t)) : t.time = s.time + dt := by
  have : Post (linStep m cfg dt) s fun _ s' => s'.time = s.time + dt := by
    refine .bind (Post.mono (Q := fun _ s' => s'.time = s.time) ?_ fun _ s1 h1 => ?_)
    · split_ifs
      · exact (linCollide_frame cfg s).mono fun _ _ h => h.1
      · exact .pure rfl
    refine .bind (.get ?_)
    split_ifs
    · refine .bind ((coupled_clock m LinState.time linTick_clock (fun x y s => (dfHatDt_frame cfg x y s).mono fun _ _ h => h.1)
        (fun x y s => (dfieldsHatDt_divB cfg x y s 0).mono fun _ _ h => h.1) (fun s => .bind (.get (.pure rfl))) _ _ _).mono fun _ s2 h2 => ?_)
      exact .modify (by change s2.time = _; rw [h2, h1])
    · refine .bind (.bind (.get (.pure ?_)))
      refine .bind ((single_clock m LinState.time linTick_clock (fun x s => (dfHatDt_frame cfg x _ s).mono fun _ _ h => h.1) _ _ _).mono
        fun _ s2 h2 => ?_)
      exact .modify (by change s2.time = _; rw [h2, h1])
  exact this _ _ h

/-- C46: over any run the elapsed time advances by the sum of the step sizes. -/
theorem C46_clock_run (cfg : LinCfg M1 M2 M3 ns N1 N2) :
    ∀ (l : List (LinScheme × ℝ)) (s t : LinState M1 M2 M3 ns N1 N2), linRun cfg l s = .ok ((), t) →
      t.time = s.time + (l.map Prod.snd).sum
  | [], s, t, h => by cases h; simp
  | (m, dt) :: l, s, t, h => by
      rw [linRun_cons] at h
      cases hs : linStep m cfg dt s with
      | error e => rw [hs] at h; cases h
      | ok r =>
          rw [hs] at h
          rw [C46_clock_run cfg l r.2 t h, C46_clock m cfg dt s r.2 hs]
          simp [add_assoc]

/-- C46: convergence at the advertised order.  Advancing from time 0 to `T` in `n` equal steps leaves in every mode a relative error of at most
`C / n ^ order` with respect to the exact solution `exp(-i k·a T)` of the mode equation, with an explicit `C`. -/
theorem C46_order (cfg : LinCfg M1 M2 M3 ns N1 N2) (hf : cfg.Free) (a1 a2 : MomIx M1 M2 M3 → Fin ns → ℝ)
    (ha : ∀ t, cfg.Aq t = (fun p i _ => a1 p i, fun p i _ => a2 p i)) (m : LinScheme) (T : ℝ) (n : ℕ) (hn : 0 < n)
    (s : LinState M1 M2 M3 ns N1 N2) (p : MomIx M1 M2 M3) (i : Fin ns) (q : ZMod N1 × ZMod N2) (z : ℂ)
    (hz : z = -I * ((calculateK cfg.dq1 cfg.dq2 q).1 * a1 p i + (calculateK cfg.dq1 cfg.dq2 q).2 * a2 p i) * T) (hzn : ‖z‖ ≤ n) :
    ∃ t, linRun cfg (List.replicate n (m, T / n)) s = .ok ((), t) ∧
      ‖t.fHat p i q - exp z * s.fHat p i q‖ ≤ ‖z‖ ^ (m.order + 1) * Real.exp (2 * ‖z‖) / (n : ℝ) ^ m.order * ‖s.fHat p i q‖ := by
  obtain ⟨t, h1, -, h3⟩ := C46_amplitude cfg hf a1 a2 ha (List.replicate n (m, T / n)) s
  refine ⟨t, h1, ?_⟩
  rw [h3, List.map_replicate, List.prod_replicate, ← sub_mul, norm_mul]
  gcongr
  have e : -I * ((calculateK cfg.dq1 cfg.dq2 q).1 * a1 p i + (calculateK cfg.dq1 cfg.dq2 q).2 * a2 p i) * ((T / n : ℝ) : ℂ) = z / n := by
    rw [hz]; push_cast; ring
  simp only [e]
  exact poly_pow_error m z n hn hzn

theorem exp_waveNumber {N : ℕ} [NeZero N] {d : ℝ} (hd : d ≠ 0) (a k : ZMod N) :
    exp (I * (waveNumber d k * (a.val * d : ℝ))) = ZMod.stdAddChar (a * k) := by
  have hN : (N : ℂ) ≠ 0 := Nat.cast_ne_zero.mpr (NeZero.ne N)
  have hd' : (d : ℂ) ≠ 0 := by exact_mod_cast hd
  have h := ZMod.stdAddChar_coe (N := N) (a.val * k.valMinAbs : ℤ)
  have e : ((a.val * k.valMinAbs : ℤ) : ZMod N) = a * k := by simp
  rw [e] at h
  rw [h, waveNumber]
  congr 1
  push_cast
  field_simp

/-- C46: free streaming is recovered.  From an initial distribution resolved by the grid, as the number of steps to time `T` grows, what
`get_dist_func` returns converges at every grid point to the initial distribution (its trigonometric interpolant) transported along the
characteristics: its value at `(q1 - a1 T, q2 - a2 T)`. -/
theorem C46_converges_to_free_streaming (cfg : LinCfg M1 M2 M3 ns N1 N2) (hf : cfg.Free) (a1 a2 : MomIx M1 M2 M3 → Fin ns → ℝ)
    (ha : ∀ t, cfg.Aq t = (fun p i _ => a1 p i, fun p i _ => a2 p i)) (hq1 : cfg.dq1 ≠ 0) (hq2 : cfg.dq2 ≠ 0) (m : LinScheme) (T : ℝ)
    (hd : ¬ (N2 = 1 ∧ M1 * M2 * M3 = 1 ∧ ns = 1)) (f : LinF M1 M2 M3 ns N1 N2 ℝ) (hr : ∀ p i, Resolved (f p i))
    (s : LinState M1 M2 M3 ns N1 N2) (hs : s.fHat = linInitF f) :
    ∃ g : ℕ → LinF M1 M2 M3 ns N1 N2 ℝ,
      (∀ n, ∃ t, linRun cfg (List.replicate n (m, T / n)) s = .ok ((), t) ∧ getDistFunc t = .ok (g n)) ∧
      ∀ p i q, Tendsto (fun n => g n p i q) atTop
        (𝓝 (trigInterp cfg.dq1 cfg.dq2 (f p i) (q.1.val * cfg.dq1 - a1 p i * T) (q.2.val * cfg.dq2 - a2 p i * T)).re) := by
  choose t h1 _ h3 using fun n : ℕ => C46_amplitude cfg hf a1 a2 ha (List.replicate n (m, T / n)) s
  have hg : ∀ n, getDistFunc (t n) = .ok fun p i q => 0.5 * N2 * N1 * (afIfft2 (fun k => (t n).fHat p i k) q / ((N1 : ℂ) * N2)).re := by
    intro n; rw [getDistFunc, ifft2, if_neg hd]; rfl
  refine ⟨_, fun n => ⟨t n, h1 n, hg n⟩, fun p i q => ?_⟩
  set Z : ZMod N1 × ZMod N2 → ℂ := fun k =>
    -I * ((calculateK cfg.dq1 cfg.dq2 k).1 * a1 p i + (calculateK cfg.dq1 cfg.dq2 k).2 * a2 p i) * T with hZ
  -- the amplitudes converge
  have hlim : ∀ k, Tendsto (fun n => (t n).fHat p i k) atTop (𝓝 (exp (Z k) * s.fHat p i k)) := by
    intro k
    have e : ∀ n : ℕ, (t n).fHat p i k = m.poly (Z k / n) ^ n * s.fHat p i k := by
      intro n
      rw [h3, List.map_replicate, List.prod_replicate]
      congr 3
      rw [hZ]; push_cast; ring
    simp only [e]
    refine Tendsto.mul_const _ ?_
    rw [tendsto_iff_norm_sub_tendsto_zero]
    have hC : Tendsto (fun n : ℕ => ‖Z k‖ ^ (m.order + 1) * Real.exp (2 * ‖Z k‖) / (n : ℝ) ^ m.order) atTop (𝓝 0) := by
      have : Tendsto (fun n : ℕ => ((n : ℝ) ^ m.order)) atTop atTop :=
        (tendsto_pow_atTop (by cases m <;> simp [LinScheme.order])).comp tendsto_natCast_atTop_atTop
      exact this.const_div_atTop _
    refine squeeze_zero' (Eventually.of_forall fun n => norm_nonneg _) ?_ hC
    filter_upwards [eventually_ge_atTop (max 1 ⌈‖Z k‖⌉₊)] with n hn
    refine poly_pow_error m (Z k) n (lt_of_lt_of_le one_pos ((le_max_left _ _).trans hn)) ?_
    exact (Nat.le_ceil _).trans (by exact_mod_cast (le_max_right _ _).trans hn)
  have hsum : Tendsto (fun n => 0.5 * (N2 : ℝ) * N1 * (afIfft2 (fun k => (t n).fHat p i k) q / ((N1 : ℂ) * N2)).re) atTop
      (𝓝 (0.5 * N2 * N1 * ((∑ k, exp (Z k) * s.fHat p i k * chi q k) / ((N1 : ℂ) * N2)).re)) := by
    refine Tendsto.const_mul _ ?_
    refine (continuous_re.tendsto _).comp ?_
    refine Tendsto.div_const ?_ _
    simp only [afIfft2_eq]
    exact tendsto_finsetSum _ fun k _ => (hlim k).mul_const _
  convert hsum using 2
  -- the limit is the translated interpolant
  have hN := cardN (N1 := N1) (N2 := N2)
  have hN1 : (N1 : ℝ) ≠ 0 := Nat.cast_ne_zero.mpr (NeZero.ne N1)
  have hN2 : (N2 : ℝ) ≠ 0 := Nat.cast_ne_zero.mpr (NeZero.ne N2)
  have key : ∀ k, exp (Z k) * s.fHat p i k * chi q k
      = 2 * (coeff (fun j => (f p i j : ℂ)) k * exp (I * (waveNumber cfg.dq1 k.1 * (q.1.val * cfg.dq1 - a1 p i * T : ℝ)
        + waveNumber cfg.dq2 k.2 * (q.2.val * cfg.dq2 - a2 p i * T : ℝ)))) := by
    intro k
    have hsk : s.fHat p i k = 2 * coeff (fun j => (f p i j : ℂ)) k := by
      rw [hs, coeff_eq]
      simp only [linInitF, fft2, reorder2301]
      ring
    rw [hsk]
    by_cases hn : Nyquist k.1 ∨ Nyquist k.2
    · rw [hr p i k hn]; simp
    · push Not at hn
      have hc : chi q k = exp (I * (waveNumber cfg.dq1 k.1 * (q.1.val * cfg.dq1 : ℝ))) * exp (I * (waveNumber cfg.dq2 k.2 * (q.2.val * cfg.dq2 : ℝ))) := by
        rw [exp_waveNumber hq1, exp_waveNumber hq2, chi]
      have hk1 : (calculateK cfg.dq1 cfg.dq2 k).1 = waveNumber cfg.dq1 k.1 := fftfreq_eq _ _ hn.1
      have hk2 : (calculateK cfg.dq1 cfg.dq2 k).2 = waveNumber cfg.dq2 k.2 := fftfreq_eq _ _ hn.2
      rw [hc, hZ]
      simp only [hk1, hk2]
      have : exp (I * (waveNumber cfg.dq1 k.1 * (q.1.val * cfg.dq1 - a1 p i * T : ℝ) + waveNumber cfg.dq2 k.2 * (q.2.val * cfg.dq2 - a2 p i * T : ℝ)))
          = exp (-I * (waveNumber cfg.dq1 k.1 * a1 p i + waveNumber cfg.dq2 k.2 * a2 p i) * T)
            * (exp (I * (waveNumber cfg.dq1 k.1 * (q.1.val * cfg.dq1 : ℝ))) * exp (I * (waveNumber cfg.dq2 k.2 * (q.2.val * cfg.dq2 : ℝ)))) := by
        rw [← exp_add, ← exp_add]
        congr 1
        push_cast
        ring
      rw [this]
      ring
  simp only [key, ← mul_sum]
  rw [trigInterp]
  set W := ∑ k : ZMod N1 × ZMod N2, coeff (fun j => (f p i j : ℂ)) k * exp (I * (waveNumber cfg.dq1 k.1 * (q.1.val * cfg.dq1 - a1 p i * T : ℝ)
        + waveNumber cfg.dq2 k.2 * (q.2.val * cfg.dq2 - a2 p i * T : ℝ))) with hW
  have : (2 * W / ((N1 : ℂ) * N2)) = ((2 / ((N1 : ℝ) * N2) : ℝ) : ℂ) * W := by push_cast; ring
  rw [this, re_ofReal_mul]
  field_simp
  norm_num
  ring

/-! ## C59: growth of the modes -/

/-- C59: amplification of a streaming mode by one step, `y = (k·a) dt`: for the fourth-order scheme the amplitude does not grow exactly when
`y² ≤ 8`. -/
theorem C59_rk4_stable_iff (y : ℝ) : ‖LinScheme.poly .rk4 (-I * y)‖ ≤ 1 ↔ y ^ 2 ≤ 8 := by
  have e : LinScheme.poly .rk4 (-I * y) = ((1 - y ^ 2 / 2 + y ^ 4 / 24 : ℝ) : ℂ) + ((-(y - y ^ 3 / 6) : ℝ) : ℂ) * I := by
    simp only [LinScheme.poly]
    push_cast
    linear_combination ((y : ℂ) ^ 2 / 2 - I * (y : ℂ) ^ 3 / 6 + (y : ℂ) ^ 4 / 24 * (I ^ 2 - 1)) * I_sq
  rw [← sq_le_one_iff₀ (norm_nonneg _), ← Complex.normSq_eq_norm_sq, e, Complex.normSq_add_mul_I]
  have : (1 - y ^ 2 / 2 + y ^ 4 / 24) ^ 2 + (-(y - y ^ 3 / 6)) ^ 2 = 1 + y ^ 6 * (y ^ 2 - 8) / 576 := by ring
  rw [this]
  constructor
  · intro h
    by_contra hc
    push Not at hc
    have h6 : 0 < y ^ 6 := by
      have h0 : 0 < y ^ 2 := by linarith
      have : y ^ 6 = (y ^ 2) ^ 3 := by ring
      rw [this]; positivity
    nlinarith [mul_pos h6 (sub_pos.mpr hc)]
  · intro h
    have h6 : 0 ≤ y ^ 6 := by have : y ^ 6 = (y ^ 3) ^ 2 := by ring
                              rw [this]; positivity
    nlinarith [mul_nonneg h6 (sub_nonneg.mpr h)]

/-- C59 (negative): the second-order scheme amplifies every streaming mode, however small the step. -/
theorem C59_rk2_always_grows (y : ℝ) : ‖LinScheme.poly .rk2 (-I * y)‖ ^ 2 = 1 + y ^ 4 / 4 := by
  have e : LinScheme.poly .rk2 (-I * y) = ((1 - y ^ 2 / 2 : ℝ) : ℂ) + ((-y : ℝ) : ℂ) * I := by
    simp only [LinScheme.poly]
    push_cast
    linear_combination ((y : ℂ) ^ 2 / 2) * I_sq
  rw [← Complex.normSq_eq_norm_sq, e, Complex.normSq_add_mul_I]
  ring

/-- C59: for the fifth-order scheme a step with `y² ≤ 7/10` does not amplify a mode; one with `3/4 ≤ y²` does. -/
theorem C59_rk5_stable (y : ℝ) :
    (y ^ 2 ≤ 7 / 10 → ‖LinScheme.poly .rk5 (-I * y)‖ ≤ 1) ∧ (3 / 4 ≤ y ^ 2 → 1 < ‖LinScheme.poly .rk5 (-I * y)‖) := by
  have e : LinScheme.poly .rk5 (-I * y)
      = ((1 - y ^ 2 / 2 + y ^ 4 / 24 - y ^ 6 / 640 : ℝ) : ℂ) + ((-(y - y ^ 3 / 6 + y ^ 5 / 120) : ℝ) : ℂ) * I := by
    simp only [LinScheme.poly]
    push_cast
    linear_combination ((y : ℂ) ^ 2 / 2 - I * (y : ℂ) ^ 3 / 6 + (y : ℂ) ^ 4 / 24 * (I ^ 2 - 1) - (y : ℂ) ^ 5 / 120 * I * (I ^ 2 - 1)
      + (y : ℂ) ^ 6 / 640 * (I ^ 4 - I ^ 2 + 1)) * I_sq
  have hn : ‖LinScheme.poly .rk5 (-I * y)‖ ^ 2 = 1 + (y ^ 2) ^ 3 * (-1 / 2880 + y ^ 2 / 1920 - 7 * (y ^ 2) ^ 2 / 115200 + (y ^ 2) ^ 3 / 409600) := by
    rw [← Complex.normSq_eq_norm_sq, e, Complex.normSq_add_mul_I]
    ring
  have hu : 0 ≤ y ^ 2 := sq_nonneg y
  constructor
  · intro h
    rw [← sq_le_one_iff₀ (norm_nonneg _), hn]
    set u := y ^ 2
    have : -1 / 2880 + u / 1920 - 7 * u ^ 2 / 115200 + u ^ 3 / 409600 ≤ 0 := by nlinarith [mul_nonneg hu hu, mul_nonneg hu (mul_nonneg hu hu)]
    nlinarith [mul_nonneg (pow_nonneg hu 3) (neg_nonneg.mpr this)]
  · intro h
    rw [← one_lt_sq_iff₀ (norm_nonneg _), hn]
    set u := y ^ 2
    have : 0 < -1 / 2880 + u / 1920 - 7 * u ^ 2 / 115200 + u ^ 3 / 409600 := by
      nlinarith [mul_nonneg hu (sq_nonneg (u - 12)), mul_nonneg (sub_nonneg.mpr h) (sq_nonneg (u - 12)), sq_nonneg (u - 12)]
    have h3 : 0 < u ^ 3 := by have : 0 < u := by linarith
                              positivity
    nlinarith [mul_pos h3 this]

/-- C59: consequence for a run: with the fourth-order scheme and steps with `((k·a) dt)² ≤ 8` no mode of a freely streaming distribution
ever exceeds its initial amplitude. -/
theorem C59_rk4_bounded (cfg : LinCfg M1 M2 M3 ns N1 N2) (hf : cfg.Free) (a1 a2 : MomIx M1 M2 M3 → Fin ns → ℝ)
    (ha : ∀ t, cfg.Aq t = (fun p i _ => a1 p i, fun p i _ => a2 p i)) (dts : List ℝ) (s : LinState M1 M2 M3 ns N1 N2)
    (p : MomIx M1 M2 M3) (i : Fin ns) (q : ZMod N1 × ZMod N2)
    (hdt : ∀ dt ∈ dts, (((calculateK cfg.dq1 cfg.dq2 q).1 * a1 p i + (calculateK cfg.dq1 cfg.dq2 q).2 * a2 p i) * dt) ^ 2 ≤ 8) :
    ∃ t, linRun cfg (dts.map fun dt => (.rk4, dt)) s = .ok ((), t) ∧ ‖t.fHat p i q‖ ≤ ‖s.fHat p i q‖ := by
  obtain ⟨t, h1, -, h3⟩ := C46_amplitude cfg hf a1 a2 ha (dts.map fun dt => (.rk4, dt)) s
  refine ⟨t, h1, ?_⟩
  rw [h3, norm_mul, List.map_map]
  refine mul_le_of_le_one_left (norm_nonneg _) ?_
  clear h1 h3
  induction dts with
  | nil => simp
  | cons dt l ih =>
      rw [List.map_cons, List.prod_cons, norm_mul]
      refine mul_le_one₀ ?_ (norm_nonneg _) (ih fun d hd => hdt d (List.mem_cons_of_mem _ hd))
      have := (C59_rk4_stable_iff _).mpr (hdt dt List.mem_cons_self)
      have e : -I * (((calculateK cfg.dq1 cfg.dq2 q).1 * a1 p i + (calculateK cfg.dq1 cfg.dq2 q).2 * a2 p i) * dt : ℝ)
          = -I * ((calculateK cfg.dq1 cfg.dq2 q).1 * a1 p i + (calculateK cfg.dq1 cfg.dq2 q).2 * a2 p i) * (dt : ℂ) := by
        push_cast; ring
      rwa [e] at this

/-- C59 (negative): with the second-order scheme every mode that moves grows without bound under repeated equal steps. -/
theorem C59_rk2_unbounded (cfg : LinCfg M1 M2 M3 ns N1 N2) (hf : cfg.Free) (a1 a2 : MomIx M1 M2 M3 → Fin ns → ℝ)
    (ha : ∀ t, cfg.Aq t = (fun p i _ => a1 p i, fun p i _ => a2 p i)) (dt : ℝ) (s : LinState M1 M2 M3 ns N1 N2)
    (p : MomIx M1 M2 M3) (i : Fin ns) (q : ZMod N1 × ZMod N2) (h0 : s.fHat p i q ≠ 0)
    (hk : ((calculateK cfg.dq1 cfg.dq2 q).1 * a1 p i + (calculateK cfg.dq1 cfg.dq2 q).2 * a2 p i) * dt ≠ 0) (C : ℝ) :
    ∃ n t, linRun cfg (List.replicate n (.rk2, dt)) s = .ok ((), t) ∧ C < ‖t.fHat p i q‖ := by
  set y := ((calculateK cfg.dq1 cfg.dq2 q).1 * a1 p i + (calculateK cfg.dq1 cfg.dq2 q).2 * a2 p i) * dt with hy
  have hg : 1 < ‖LinScheme.poly .rk2 (-I * y)‖ := by
    rw [← one_lt_sq_iff₀ (norm_nonneg _), C59_rk2_always_grows]
    have : 0 < y ^ 4 := by positivity
    linarith
  have hs := norm_pos_iff.mpr h0
  obtain ⟨n, hn⟩ := pow_unbounded_of_one_lt (C / ‖s.fHat p i q‖) hg
  obtain ⟨t, h1, -, h3⟩ := C46_amplitude cfg hf a1 a2 ha (List.replicate n (.rk2, dt)) s
  refine ⟨n, t, h1, ?_⟩
  rw [h3, List.map_replicate, List.prod_replicate, norm_mul, norm_pow]
  have e : -I * ((calculateK cfg.dq1 cfg.dq2 q).1 * a1 p i + (calculateK cfg.dq1 cfg.dq2 q).2 * a2 p i) * (dt : ℂ) = -I * (y : ℂ) := by
    rw [hy]; push_cast; ring
  simp only [e]
  rwa [div_lt_iff₀ hs] at hn

/-! ## C48: derivatives of the background -/

/-- C48: in the interior of the momentum grid (two cells from either end along the axis) the derivative of the background is exact for
every polynomial of degree at most four in the momentum coordinate. -/
theorem C48_exact_on_quartics (p0 dp : ℝ) (hdp : dp ≠ 0) (c : Fin 5 → ℝ) (g : ZMod M1 → ℝ)
    (hg : ∀ j, g j = ∑ n : Fin 5, c n * (p0 + (j.val + 0.5) * dp) ^ (n : ℕ)) (j : ZMod M1) (h1 : 2 ≤ j.val) (h2 : j.val + 2 < M1) :
    centralDiff4 1 dp g j = ∑ n : Fin 5, c n * (n * (p0 + (j.val + 0.5) * dp) ^ ((n : ℕ) - 1)) := by
  have hp : ∀ n : ℕ, n ≤ 2 → (j + (n : ZMod M1)).val = j.val + n := by
    intro n hn
    rw [ZMod.val_add, ZMod.val_natCast, Nat.mod_eq_of_lt (a := n) (by omega), Nat.mod_eq_of_lt (by omega)]
  have hm : ∀ n : ℕ, n ≤ 2 → (j - (n : ZMod M1)).val = j.val - n := by
    intro n hn
    rw [ZMod.val_sub] <;> rw [ZMod.val_natCast, Nat.mod_eq_of_lt (by omega)]
    omega
  have e1 : afShift 1 (-2) g j = g (j + (2 : ℕ)) := by simp [afShift]
  have e2 : afShift 1 (-1) g j = g (j + (1 : ℕ)) := by simp [afShift]
  have e3 : afShift 1 2 g j = g (j - (2 : ℕ)) := by simp [afShift]
  have e4 : afShift 1 1 g j = g (j - (1 : ℕ)) := by simp [afShift]
  rw [centralDiff4, e1, e2, e3, e4, hg, hg, hg, hg, hp 2 le_rfl, hp 1 (by norm_num), hm 2 le_rfl, hm 1 (by norm_num)]
  push_cast [Nat.cast_sub h1, Nat.cast_sub (show 1 ≤ j.val by omega)]
  simp only [Fin.sum_univ_five]
  field_simp
  simp
  ring

/-- C48: whatever the background, its momentum derivatives sum to zero along the (cyclic) axis: the force terms cannot create particles. -/
theorem C48_sums_to_zero (dp1 dp2 dp3 : Fin ns → ℝ) (fb : MomIx M1 M2 M3 → Fin ns → ℝ) (i : Fin ns) :
    (∀ b c, ∑ a, (dfdpBackground dp1 dp2 dp3 fb).1 (a, b, c) i = 0) ∧
    (∀ a c, ∑ b, (dfdpBackground dp1 dp2 dp3 fb).2.1 (a, b, c) i = 0) ∧
    (∀ a b, ∑ c, (dfdpBackground dp1 dp2 dp3 fb).2.2 (a, b, c) i = 0) := by
  have key : ∀ {M : ℕ} [NeZero M] (d : ℝ) (g : ZMod M → ℝ), ∑ a, centralDiff4 1 d g a = 0 := by
    intro M _ d g
    have := sum_weight_centralDiff4 (A := ZMod M) 1 (fun _ => (1 : ℝ)) (fun _ => d) (fun _ => rfl) (fun _ => rfl) g
    simpa using this
  refine ⟨fun b c => ?_, fun a c => ?_, fun a b => ?_⟩
  · rw [← key (dp1 i) fun a : ZMod M1 => fb (a, b, c) i]
    refine sum_congr rfl fun a _ => ?_
    simp [dfdpBackground, centralDiff4, afShift, axP1]
  · rw [← key (dp2 i) fun b : ZMod M2 => fb (a, b, c) i]
    refine sum_congr rfl fun b _ => ?_
    simp [dfdpBackground, centralDiff4, afShift, axP2]
  · rw [← key (dp3 i) fun c : ZMod M3 => fb (a, b, c) i]
    refine sum_congr rfl fun c _ => ?_
    simp [dfdpBackground, centralDiff4, afShift, axP3]

/-- C48: each derivative is taken along its own axis: on the line through a cell it is the stencil of `C48_exact_on_quartics`. -/
theorem C48_along_axes (dp1 dp2 dp3 : Fin ns → ℝ) (fb : MomIx M1 M2 M3 → Fin ns → ℝ) (i : Fin ns) (a : ZMod M1) (b : ZMod M2) (c : ZMod M3) :
    (dfdpBackground dp1 dp2 dp3 fb).1 (a, b, c) i = centralDiff4 1 (dp1 i) (fun a => fb (a, b, c) i) a ∧
    (dfdpBackground dp1 dp2 dp3 fb).2.1 (a, b, c) i = centralDiff4 1 (dp2 i) (fun b => fb (a, b, c) i) b ∧
    (dfdpBackground dp1 dp2 dp3 fb).2.2 (a, b, c) i = centralDiff4 1 (dp3 i) (fun c => fb (a, b, c) i) c := by
  simp [dfdpBackground, centralDiff4, afShift, axP1, axP2, axP3]

/-- C48: the background is the spatial mean of the initial distribution (its absolute value). -/
theorem C48_background_is_mean (f : LinF M1 M2 M3 ns N1 N2 ℝ) (p : MomIx M1 M2 M3) (i : Fin ns) :
    linBackground f p i = |(∑ q, f p i q) / (N1 * N2)| := by
  have : fft2 (fun p s q => (f p s q : ℂ)) p i 0 = ((∑ q, f p i q : ℝ) : ℂ) := by
    simp [fft2, reorder2301, afFft2_eq, chi_zero]
  rw [linBackground, this, Complex.norm_real, Real.norm_eq_abs, abs_div, abs_of_nonneg (by positivity : (0 : ℝ) ≤ N1 * N2)]

/-- C48 (negative): at the ends of the momentum grid the stencil wraps around; on the linear background `f = p` over four cells the
derivative in the first cell is not 1. -/
theorem C48_wraps_at_the_ends : centralDiff4 (K := ℝ) 1 1 (fun j : ZMod 4 => (j.val : ℝ)) 0 = -4 / 3 := by
  have e1 : ((0 : ZMod 4) - (-2 : ℤ) • 1) = 2 := by decide
  have e2 : ((0 : ZMod 4) - (-1 : ℤ) • 1) = 1 := by decide
  have e3 : ((0 : ZMod 4) - (2 : ℤ) • 1) = 2 := by decide
  have e4 : ((0 : ZMod 4) - (1 : ℤ) • 1) = 3 := by decide
  simp only [centralDiff4, afShift, e1, e2, e3, e4]
  rw [show (2 : ZMod 4).val = 2 from rfl, show (1 : ZMod 4).val = 1 from rfl, show (3 : ZMod 4).val = 3 from rfl]
  norm_num

/-! ## Concrete cases -/

/-- A configuration with five by three by one momentum cells, one species and three by three grid cells; `v` the velocities. -/
noncomputable def exLin (fields source inst hybrid : Bool) (ty : String) : LinCfg 5 3 1 1 3 3 where
  dq1 := 1
  dq2 := 1 / 2
  dp1 := fun _ => 1
  dp2 := fun _ => 2
  dp3 := fun _ => 1
  coords := ⟨fun _ p => p.1.val - 2, fun _ p => 2 * p.2.1.val - 2, fun _ _ => 0⟩
  charge := fun _ => -1
  mass := fun _ => 2
  eps := 3
  mu := 5
  Te := 1
  fieldsEnabled := fields
  sourceEnabled := source
  instantaneous := inst
  hybrid := hybrid
  fieldsType := ty
  Aq := fun _ => (fun p _ _ => p.1.val - 2, fun p _ _ => 2 * p.2.1.val - 2)
  Ap := fun _ _ => 0
  source := fun _ _ f => -f
  dfdp1 := (dfdpBackground (fun _ => (1 : ℝ)) (fun _ => 2) (fun _ => 1) fun (p : MomIx 5 3 1) (_ : Fin 1) => (p.1.val : ℝ)).1
  dfdp2 := (dfdpBackground (fun _ => (1 : ℝ)) (fun _ => 2) (fun _ => 1) fun (p : MomIx 5 3 1) (_ : Fin 1) => (p.1.val : ℝ)).2.1
  dfdp3 := (dfdpBackground (fun _ => (1 : ℝ)) (fun _ => 2) (fun _ => 1) fun (p : MomIx 5 3 1) (_ : Fin 1) => (p.1.val : ℝ)).2.2

/-- The hypotheses of the free-streaming theorems are met, with a nonzero velocity. -/
example : (exLin false false false false "None").Free ∧
    (∃ a1 a2 : MomIx 5 3 1 → Fin 1 → ℝ, ∀ t, (exLin false false false false "None").Aq t = (fun p i _ => a1 p i, fun p i _ => a2 p i)) ∧
    ((exLin false false false false "None").Aq 0).1 0 0 0 = -2 ∧ ¬ (3 = 1 ∧ 5 * 3 * 1 = 1 ∧ 1 = 1) :=
  ⟨⟨rfl, rfl, rfl⟩, ⟨fun p _ => p.1.val - 2, fun p _ => 2 * p.2.1.val - 2, fun _ => rfl⟩, by simp [exLin], by decide⟩

/-- Every distribution on this grid is resolved (`C46_converges_to_free_streaming`), and the constructor succeeds on it. -/
example (f : LinF 5 3 1 1 3 3 ℝ) (E : Fin 3 → ZMod 3 × ZMod 3 → ℝ) :
    (∀ p i, Resolved (f p i)) ∧ ∃ st, linInit (exLin false false false false "None") "fft" E .missing f = .ok st := by
  refine ⟨fun p i k hk => ?_, ⟨_, rfl⟩⟩
  simp only [Nyquist] at hk
  omega

/-- An interior cell of the momentum grid exists (`C48_exact_on_quartics`). -/
example : ∃ j : ZMod 5, 2 ≤ j.val ∧ j.val + 2 < 5 := ⟨2, by decide, by decide⟩

/-- A moving mode (`C59_rk2_unbounded`): a nonzero phase per step; and a step below the bound of `C59_rk4_bounded`. -/
example : ∃ (q : ZMod 3 × ZMod 3) (p : MomIx 5 3 1) (dt : ℝ),
    ((calculateK 1 (1 / 2) q).1 * (p.1.val - 2 : ℝ) + (calculateK 1 (1 / 2) q).2 * (2 * p.2.1.val - 2 : ℝ)) * dt ≠ 0 ∧
    (((calculateK 1 (1 / 2) q).1 * (p.1.val - 2 : ℝ) + (calculateK 1 (1 / 2) q).2 * (2 * p.2.1.val - 2 : ℝ)) * dt) ^ 2 ≤ 8 := by
  refine ⟨(1, 0), (3, 1, 0), 1 / Real.pi, ?_⟩
  have h1 : ((3 : ZMod 5).val : ℝ) = 3 := by norm_num [show (3 : ZMod 5).val = 3 from rfl]
  have h2 : ((1 : ZMod 3).val : ℝ) = 1 := by norm_num [show (1 : ZMod 3).val = 1 from rfl]
  have hk : calculateK (N1 := 3) (N2 := 3) 1 (1 / 2) (1, 0) = (2 * Real.pi * (1 / 3), 0) := by
    simp [calculateK, fftfreq, show (1 : ZMod 3).val = 1 from rfl]
  rw [hk, h1, h2]
  have := Real.pi_pos
  have e : (2 * Real.pi * (1 / 3) * (3 - 2) + 0 * (2 * 1 - 2)) * (1 / Real.pi) = 2 / 3 := by field_simp; norm_num
  rw [e]
  norm_num

end Bolt
