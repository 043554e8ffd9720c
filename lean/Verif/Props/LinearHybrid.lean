import Verif.Props.LinearIO

/-!
# C47: Ohm's law of the hybrid model and the initial fields of the linear solver, written out
-/

set_option linter.unusedSectionVars false

namespace Bolt

open Complex Finset

variable {M1 M2 M3 ns N1 N2 : ℕ} [NeZero M1] [NeZero M2] [NeZero M3] [NeZero N1] [NeZero N2]

theorem realOfModes_moment (hN2 : N2 ≠ 1) (cfg : LinCfg M1 M2 M3 1 N1 N2) (mom : MomentFn (Fin 1) (MomIx M1 M2 M3) (ZMod N1 × ZMod N2) ℂ)
    (w : Fin 1 → MomIx M1 M2 M3 → ℝ) (hw : ∀ h s q, linMoment cfg mom h s q = ∑ p, h p s q * (w s p : ℂ))
    (st : LinState M1 M2 M3 1 N1 N2) (f : LinF M1 M2 M3 1 N1 N2 ℝ) (h : getDistFunc st = .ok f) :
    realOfModes (fun q => ∑ s, linMoment cfg mom st.fHat s q) = .ok fun q => ∑ p, f p 0 q * w 0 p := by
  have key := C66_moments_of_the_distribution cfg mom w hw (by tauto) st f h
  rw [linComputeMoments, ifft2, if_neg (by tauto)] at key
  have key' := congrFun (congrFun (Except.ok.inj key) 0)
  rw [realOfModes, ifft2, if_neg (by tauto)]
  change Except.ok _ = _
  congr 1
  funext q
  rw [← key' q]
  simp only [Fin.sum_univ_one]
  rfl

theorem realOfModes_total (hN2 : N2 ≠ 1) (z : ZMod N1 × ZMod N2 → ℂ) : ∃ w, realOfModes z = .ok w := by
  rw [realOfModes, ifft2, if_neg (by simp [hN2])]
  exact ⟨_, rfl⟩

/-- C47: Ohm's law of the hybrid model as solved: with `n` the density and `u` the grid average of the mean velocity of the distribution in
real space, each mode of the electric field is `-u × B - Te k n̂ / n₀` with `n₀` the average density (no Hall term, and `k` instead of `i k`,
see `C47_hybrid_has_no_hall_term`, `C47_hybrid_pressure_lost`); it is left in the solver's array, and the magnetic field changes at the rate
`-i k × E`. -/
theorem C47_ohm (hN2 : N2 ≠ 1) (cfg : LinCfg M1 M2 M3 1 N1 N2) (hh : cfg.hybrid = true) (st : LinState M1 M2 M3 1 N1 N2) (y : LinEM N1 N2)
    (f : LinF M1 M2 M3 1 N1 N2 ℝ) (hf : getDistFunc st = .ok f) :
    let dp := cfg.dp1 0 * cfg.dp2 0 * cfg.dp3 0
    let n := fun q => ∑ p, f p 0 q * dp
    let mean := fun g : ZMod N1 × ZMod N2 → ℝ => (∑ q, g q) / (N1 * N2)
    let u := fun v : MomIx M1 M2 M3 → ℝ => mean fun q => (∑ p, f p 0 q * v p * dp) / n q
    let nHat := fun q => ∑ p, st.fHat p 0 q * (dp : ℂ)
    let k := fun q => calculateK cfg.dq1 cfg.dq2 q
    ∃ E0 E1 E2 r, dfieldsHatDt cfg st.fHat y st
        = .ok (r, { st with fieldsHat := ![E0, E1, E2, st.fieldsHat 3, st.fieldsHat 4, st.fieldsHat 5] }) ∧
      ∀ q, E0 q = -(u (cfg.coords.p2 0) * y 5 q - u (cfg.coords.p3 0) * y 4 q) - cfg.Te * (k q).1 * nHat q / mean n ∧
        E1 q = -(u (cfg.coords.p3 0) * y 3 q - u (cfg.coords.p1 0) * y 5 q) - cfg.Te * (k q).2 * nHat q / mean n ∧
        E2 q = -(u (cfg.coords.p1 0) * y 4 q - u (cfg.coords.p2 0) * y 3 q) ∧
        r 3 q = -(I * (k q).2 * E2 q) ∧ r 4 q = I * (k q).1 * E2 q ∧ r 5 q = -(I * (k q).1 * E1 q - I * (k q).2 * E0 q) := by
  intro dp n mean u nHat k
  have b := C66_bundled_moments cfg
  have hn := realOfModes_moment hN2 cfg density _ (fun h s q => (b h s q).1) st f hf
  have h1 := realOfModes_moment hN2 cfg momV1 _ (fun h s q => (b h s q).2.1) st f hf
  have h2 := realOfModes_moment hN2 cfg momV2 _ (fun h s q => (b h s q).2.2.1) st f hf
  have h3 := realOfModes_moment hN2 cfg momV3 _ (fun h s q => (b h s q).2.2.2.1) st f hf
  obtain ⟨j1, e1⟩ := realOfModes_total hN2 (hybridJ cfg.dq1 cfg.dq2 cfg.mu y 0)
  obtain ⟨j2, e2⟩ := realOfModes_total hN2 (hybridJ cfg.dq1 cfg.dq2 cfg.mu y 1)
  obtain ⟨j3, e3⟩ := realOfModes_total hN2 (hybridJ cfg.dq1 cfg.dq2 cfg.mu y 2)
  have m1 := gridMean_realOfModes _ (hybridJ_zero _ _ _ _ _) _ e1
  have m2 := gridMean_realOfModes _ (hybridJ_zero _ _ _ _ _) _ e2
  have m3 := gridMean_realOfModes _ (hybridJ_zero _ _ _ _ _) _ e3
  have hE : ∃ E, linOhm cfg st.fHat ![y 3, y 4, y 5] (hybridJ cfg.dq1 cfg.dq2 cfg.mu y) = .ok E ∧ ∀ q,
        E 0 q = -(u (cfg.coords.p2 0) * y 5 q - u (cfg.coords.p3 0) * y 4 q) - cfg.Te * (k q).1 * nHat q / mean n ∧
        E 1 q = -(u (cfg.coords.p3 0) * y 3 q - u (cfg.coords.p1 0) * y 5 q) - cfg.Te * (k q).2 * nHat q / mean n ∧
        E 2 q = -(u (cfg.coords.p1 0) * y 4 q - u (cfg.coords.p2 0) * y 3 q) := by
    have hn1 : ¬ ((1 : ℕ) ≠ 1) := by simp
    refine ⟨_, by
      rw [linOhm, if_neg hn1]
      simp only [hn, h1, h2, h3, e1, e2, e3, bind, Except.bind, pure, Except.pure, m1, m2, m3]
      rfl, fun q => ?_⟩
    have hu : ∀ v : MomIx M1 M2 M3 → ℝ, gridMean (fun q => (∑ p, f p 0 q * (v p * dp)) / ∑ p, f p 0 q * dp) = u v := by
      intro v
      simp only [u, mean, n, gridMean, mul_assoc]
    have hm : gridMean (fun q => ∑ p, f p 0 q * dp) = mean n := rfl
    have hN : ∑ s, linMoment cfg density st.fHat s q = nHat q := by
      rw [Fin.sum_univ_one, (b st.fHat 0 q).1]
    have hu1 := hu (cfg.coords.p1 0)
    have hu2 := hu (cfg.coords.p2 0)
    have hu3 := hu (cfg.coords.p3 0)
    simp only [dp] at hu1 hu2 hu3 hm
    simp only [Matrix.cons_val_zero, Matrix.cons_val_one, Matrix.cons_val, hu1, hu2, hu3, hm, hN]
    refine ⟨?_, ?_, ?_⟩
    · push_cast
      simp only [k]
      ring
    · push_cast
      simp only [k]
      ring
    · push_cast
      ring
  obtain ⟨E, hE, hq⟩ := hE
  obtain ⟨k0, k1, k2, hr⟩ := (dfieldsHatDt_hybrid cfg hh st.fHat y st).1 E hE
  refine ⟨E 0, E 1, E 2, _, hr, fun q => ⟨(hq q).1, (hq q).2.1, (hq q).2.2, ?_, ?_, ?_⟩⟩
  · change -E 2 q * I * _ = _
    ring
  · change E 2 q * I * _ = _
    ring
  · change E 0 q * I * _ - E 1 q * I * _ = _
    ring

/-- C47: the initial fields read back from the solver are those given: all six components for user-defined fields; the magnetic ones when
the electric field comes from Poisson's equation; and with a vector potential `A3`, the modes of `B1`, `B2` are those of its curl. -/
theorem C47_initial_fields (hN2 : N2 ≠ 1) (cfg : LinCfg M1 M2 M3 ns N1 N2) (option : String) (E : Fin 3 → ZMod N1 × ZMod N2 → ℝ)
    (f : LinF M1 M2 M3 ns N1 N2 ℝ) (st : LinState M1 M2 M3 ns N1 N2) :
    (∀ B, option = "user-defined" → linInit cfg option E (.initB B) f = .ok st →
      realOfModes (st.fieldsHat 0) = .ok (E 0) ∧ realOfModes (st.fieldsHat 1) = .ok (E 1) ∧ realOfModes (st.fieldsHat 2) = .ok (E 2) ∧
      realOfModes (st.fieldsHat 3) = .ok (B 0) ∧ realOfModes (st.fieldsHat 4) = .ok (B 1) ∧ realOfModes (st.fieldsHat 5) = .ok (B 2)) ∧
    (∀ B, option = "fft + user-defined magnetic fields" → linInit cfg option E (.initB B) f = .ok st →
      realOfModes (st.fieldsHat 3) = .ok (B 0) ∧ realOfModes (st.fieldsHat 4) = .ok (B 1) ∧ realOfModes (st.fieldsHat 5) = .ok (B 2)) ∧
    (∀ A3 B3, option = "user-defined" ∨ option = "fft + user-defined magnetic fields" → linInit cfg option E (.initA3B3 A3 B3) f = .ok st →
      realOfModes (st.fieldsHat 5) = .ok B3 ∧ ∃ A3hat, realOfModes A3hat = .ok A3 ∧ ∀ q,
        st.fieldsHat 3 q = I * (calculateK cfg.dq1 cfg.dq2 q).2 * A3hat q ∧ st.fieldsHat 4 q = -(I * (calculateK cfg.dq1 cfg.dq2 q).1 * A3hat q)) := by
  have rt : ∀ x : ZMod N1 × ZMod N2 → ℝ, realOfModes (fun q => 2 * afFft2 (fun q => (x q : ℂ)) q / ((N1 : ℂ) * N2)) = .ok x := by
    intro x
    rw [realOfModes, ifft2, if_neg (by simp [hN2])]
    change Except.ok _ = _
    congr 1
    funext q
    have hN := cardN (N1 := N1) (N2 := N2)
    have e : (fun q => 0.5 * (N2 : ℂ) * N1 * (2 * afFft2 (fun q => (x q : ℂ)) q / ((N1 : ℂ) * N2))) = afFft2 (fun q => (x q : ℂ)) := by
      funext k
      have hN1 : (N1 : ℂ) ≠ 0 := Nat.cast_ne_zero.mpr (NeZero.ne N1)
      have hN2 : (N2 : ℂ) ≠ 0 := Nat.cast_ne_zero.mpr (NeZero.ne N2)
      field_simp
      norm_num
    change (afIfft2 (fun q => 0.5 * (N2 : ℂ) * N1 * (2 * afFft2 (fun q => (x q : ℂ)) q / ((N1 : ℂ) * N2))) q / ((N1 : ℂ) * N2)).re = x q
    rw [e, afIfft2_afFft2, mul_div_cancel_left₀ _ hN, ofReal_re]
  refine ⟨fun B ho h => ?_, fun B ho h => ?_, fun A3 B3 ho h => ?_⟩
  · subst ho
    simp only [linInit, linInitFields, linInitB, if_true] at h
    cases h
    exact ⟨rt _, rt _, rt _, rt _, rt _, rt _⟩
  · subst ho
    have hne : ¬ ("fft + user-defined magnetic fields" = "user-defined") := by decide
    simp only [linInit, linInitFields, linInitB, hne, if_false, if_true] at h
    cases h
    exact ⟨rt _, rt _, rt _⟩
  · have e : linInitB cfg.dq1 cfg.dq2 (.initA3B3 A3 B3) = .ok ![
        fun j => afIfft2 (fun k => afFft2 (fun q => (A3 q : ℂ)) k * I * (calculateK cfg.dq1 cfg.dq2 k).2) j / ((N1 : ℂ) * N2),
        fun j => -(afIfft2 (fun k => afFft2 (fun q => (A3 q : ℂ)) k * I * (calculateK cfg.dq1 cfg.dq2 k).1) j / ((N1 : ℂ) * N2)),
        fun q => (B3 q : ℂ)] := by
      simp only [linInitB, ifft2, hN2, false_and, if_false]; rfl
    have lin : ∀ (y : ZMod N1 × ZMod N2 → ℂ) (c : ℂ) q, afFft2 (fun j => y j / c) q = afFft2 y q / c := by
      intro y c q
      simp only [afFft2_eq, sum_div]
      exact sum_congr rfl fun j _ => by ring
    have neg : ∀ (y : ZMod N1 × ZMod N2 → ℂ) q, afFft2 (fun j => -y j) q = -afFft2 y q := by
      intro y q
      simp only [afFft2_eq, ← sum_neg_distrib, neg_mul]
    have hN := cardN (N1 := N1) (N2 := N2)
    have fin : ∀ em : LinEM N1 N2,
        em 3 = (fun q => 2 * afFft2 (fun j => afIfft2 (fun k => afFft2 (fun q => (A3 q : ℂ)) k * I * (calculateK cfg.dq1 cfg.dq2 k).2) j / ((N1 : ℂ) * N2)) q / ((N1 : ℂ) * N2)) →
        em 4 = (fun q => 2 * afFft2 (fun j => -(afIfft2 (fun k => afFft2 (fun q => (A3 q : ℂ)) k * I * (calculateK cfg.dq1 cfg.dq2 k).1) j / ((N1 : ℂ) * N2))) q / ((N1 : ℂ) * N2)) →
        ∃ A3hat, realOfModes A3hat = .ok A3 ∧ ∀ q, em 3 q = I * (calculateK cfg.dq1 cfg.dq2 q).2 * A3hat q ∧
          em 4 q = -(I * (calculateK cfg.dq1 cfg.dq2 q).1 * A3hat q) := by
      intro em h3 h4
      refine ⟨_, rt A3, fun q => ?_⟩
      simp only [h3, h4, lin, neg, afFft2_afIfft2, mul_div_cancel_left₀ _ hN]
      constructor <;> ring
    rcases ho with rfl | rfl
    · simp only [linInit, linInitFields, e] at h
      cases h
      exact ⟨rt _, fin _ rfl rfl⟩
    · simp only [linInit, linInitFields, e] at h
      cases h
      exact ⟨rt _, fin _ rfl rfl⟩

/-- C47: at the start the clock is at zero and the six amplitudes kept as attributes of the fields solver are those of its array, to which
`C47_initial_fields` applies. -/
theorem C47_initial_attributes (cfg : LinCfg M1 M2 M3 ns N1 N2) (option : String) (E : Fin 3 → ZMod N1 × ZMod N2 → ℝ) (b : BInit N1 N2)
    (f : LinF M1 M2 M3 ns N1 N2 ℝ) (st : LinState M1 M2 M3 ns N1 N2) (h : linInit cfg option E b f = .ok st) :
    st.attrs = st.fieldsHat ∧ st.time = 0 := by
  simp only [linInit, Bind.bind, Except.bind, Pure.pure, Except.pure] at h
  split at h
  · cases h
  · cases h; exact ⟨rfl, rfl⟩

/-- The hypotheses of `C47_ohm` and `C47_initial_fields` are met: the hybrid model on a grid of three by three cells. -/
example (f : LinF 5 3 1 1 3 3 ℝ) (E B : Fin 3 → ZMod 3 × ZMod 3 → ℝ) :
    (exLin true false false true "electrodynamic").hybrid = true ∧
    ∃ st, linInit (exLin true false false true "electrodynamic") "user-defined" E (.initB B) f = .ok st ∧ ∃ g, getDistFunc st = .ok g := by
  refine ⟨rfl, _, rfl, ?_⟩
  rw [getDistFunc_eq (by decide)]
  exact ⟨_, rfl⟩

end Bolt
