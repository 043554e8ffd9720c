import Verif.Proofs.FieldInit
import Verif.Props.Cover

/-!
# C80: initial fields computed from the charge density
-/

set_option linter.unusedSectionVars false

namespace Bolt

open Complex Finset ZMod

variable {S : Type} [Fintype S] {N1 N2 : ℕ} [NeZero N1] [NeZero N2]

/-- C80: which settings of `fields_initialize` are accepted. -/
theorem C80_modes (cs : ℕ) (mode : String) (pr : FieldParams (ZMod N1 × ZMod N2) ℝ) (ini : InitFns (ZMod N1 × ZMod N2) ℝ)
    (rho : S → ZMod N1 × ZMod N2 → ℝ) :
    (mode ≠ "fft" → mode ≠ "user-defined" → mode ≠ "fft + user-defined magnetic fields" →
      initializeFields cs mode pr ini rho = .error .notImplemented) ∧
    initializeFields cs "user-defined" pr ini rho = initFields pr ini ∧
    ((∃ σ, initializeFields cs "fft" pr ini rho = .ok σ) ↔ cs = 1 ∧ N2 ≠ 1) ∧
    ((∃ σ, initializeFields cs "fft + user-defined magnetic fields" pr ini rho = .ok σ) ↔
      cs = 1 ∧ N2 ≠ 1 ∧ ∃ B, initMagnetic pr ini (EM.const 0 0 0 0 0 0) = .ok B) := by
  have hP := (C21_when_it_runs cs pr.dq1 pr.dq2 pr.eps (fun j => ∑ s, rho s j)).2
  refine ⟨fun a b d => ?_, ?_, ?_, ?_⟩
  · simp only [initializeFields, if_neg a, if_neg b, if_neg d]
  · simp only [initializeFields, if_neg (show ¬ ("user-defined" = "fft") by decide), if_true]
  · simp only [initializeFields, if_true, bind, Except.bind, pure, Except.pure]
    cases h : fftPoisson cs pr.dq1 pr.dq2 pr.eps (fun j => ∑ s, rho s j) with
    | error e =>
      simp only [h, reduceCtorEq, exists_false] at hP ⊢
      exact hP
    | ok E =>
      simp only [h, Except.ok.injEq, exists_eq', true_iff] at hP ⊢
      exact hP
  · simp only [initializeFields, if_neg (show ¬ ("fft + user-defined magnetic fields" = "fft") by decide),
      if_neg (show ¬ ("fft + user-defined magnetic fields" = "user-defined") by decide), if_true, bind, Except.bind, pure, Except.pure]
    have hB : ∀ F G : EM (ZMod N1 × ZMod N2) ℝ, (∃ B, initMagnetic pr ini F = .ok B) → ∃ B, initMagnetic pr ini G = .ok B := by
      rintro F G ⟨B, h⟩
      simp only [initMagnetic] at h ⊢
      split at h <;> simp_all
    cases h : fftPoisson cs pr.dq1 pr.dq2 pr.eps (fun j => ∑ s, rho s j) with
    | error e =>
      simp only [h, reduceCtorEq, exists_false] at hP ⊢
      rw [← and_assoc, ← hP]; simp
    | ok E =>
      simp only [h, Except.ok.injEq, exists_eq', true_iff] at hP ⊢
      constructor
      · rintro ⟨σ, hσ⟩
        refine ⟨hP.1, hP.2, hB (toYee pr.q1 pr.q2 .E { (EM.const 0 0 0 0 0 0 : EM (ZMod N1 × ZMod N2) ℝ) with E1 := E.1, E2 := E.2 } (EM.const 0 0 0 0 0 0)) _ ?_⟩
        split at hσ
        · cases hσ
        · rename_i B hb; exact ⟨B, hb⟩
      · rintro ⟨-, -, hb⟩
        obtain ⟨B, hb⟩ := hB _ (toYee pr.q1 pr.q2 .E { (EM.const 0 0 0 0 0 0 : EM (ZMod N1 × ZMod N2) ℝ) with E1 := E.1, E2 := E.2 } (EM.const 0 0 0 0 0 0)) hb
        simp only [EM.const] at hb
        rw [hb]
        exact ⟨_, rfl⟩

/-- C80: the state after initialisation with `'fft'`.  Whichever time level is asked for, the forces see the field of the Poisson solver and no magnetic
field; the staggered grid carries the averages of neighbouring cells. -/
theorem C80_fft {cs : ℕ} {pr : FieldParams (ZMod N1 × ZMod N2) ℝ} {ini : InitFns (ZMod N1 × ZMod N2) ℝ} {rho : S → ZMod N1 × ZMod N2 → ℝ}
    {σ : FieldState (ZMod N1 × ZMod N2) ℝ} (h : initializeFields cs "fft" pr ini rho = .ok σ) (b : Bool) :
    let out := (getFields "fdtd" "FVM" { σ with flag := b }).1
    fftPoisson cs pr.dq1 pr.dq2 pr.eps (fun j => ∑ s, rho s j) = .ok (out.E1, out.E2) ∧
    (∀ i, out.E3 i = 0 ∧ out.B1 i = 0 ∧ out.B2 i = 0 ∧ out.B3 i = 0) ∧
    (∀ i, σ.yee.E1 i = (out.E1 (i - pr.q1) + out.E1 i) / 2 ∧ σ.yee.E2 i = (out.E2 (i - pr.q2) + out.E2 i) / 2 ∧ σ.yee.E3 i = 0 ∧
      σ.yee.B1 i = 0 ∧ σ.yee.B2 i = 0 ∧ σ.yee.B3 i = 0) ∧ σ.flag = true ∧ σ.timeElapsed = 0 := by
  simp only [initializeFields, if_true, bind, Except.bind, pure, Except.pure] at h
  split at h
  · cases h
  · rename_i E hE
    simp only [Except.ok.injEq] at h
    subst h
    cases b <;> simp only [getFields, ne_eq, not_true_eq_false, if_false, if_true, Bool.false_eq_true] <;>
      (refine ⟨hE, fun i => ⟨trivial, trivial, trivial, trivial⟩, fun i => ?_, trivial, trivial⟩
       simp [toYee]
       constructor <;> ring)

/-- C80: the state after initialisation with `'fft + user-defined magnetic fields'`: the electric field is that of `'fft'`, the magnetic field that of
`'user-defined'`. -/
theorem C80_fft_with_magnetic {cs : ℕ} {pr : FieldParams (ZMod N1 × ZMod N2) ℝ} {ini : InitFns (ZMod N1 × ZMod N2) ℝ} {rho : S → ZMod N1 × ZMod N2 → ℝ}
    {σ σe σu : FieldState (ZMod N1 × ZMod N2) ℝ} (h : initializeFields cs "fft + user-defined magnetic fields" pr ini rho = .ok σ)
    (he : initializeFields cs "fft" pr ini rho = .ok σe) (hu : initializeFields cs "user-defined" pr ini rho = .ok σu) (b : Bool) :
    let out (σ : FieldState (ZMod N1 × ZMod N2) ℝ) := (getFields "fdtd" "FVM" { σ with flag := b }).1
    (out σ).E1 = (out σe).E1 ∧ (out σ).E2 = (out σe).E2 ∧ (out σ).E3 = (out σe).E3 ∧
    (out σ).B1 = (out σu).B1 ∧ (out σ).B2 = (out σu).B2 ∧ (out σ).B3 = (out σu).B3 ∧
    σ.yee.E1 = σe.yee.E1 ∧ σ.yee.E2 = σe.yee.E2 ∧ σ.yee.E3 = σe.yee.E3 ∧
    σ.yee.B1 = σu.yee.B1 ∧ σ.yee.B2 = σu.yee.B2 ∧ σ.yee.B3 = σu.yee.B3 ∧ σ.flag = true ∧ σ.timeElapsed = 0 := by
  have hB : ∀ {F G F' G' : EM (ZMod N1 × ZMod N2) ℝ}, initMagnetic pr ini F = .ok F' → initMagnetic pr ini G = .ok G' →
      (F'.E1 = F.E1 ∧ F'.E2 = F.E2 ∧ F'.E3 = F.E3) ∧ F'.B1 = G'.B1 ∧ F'.B2 = G'.B2 ∧ F'.B3 = G'.B3 := by
    intro F G F' G' h h'
    simp only [initMagnetic] at h h'
    split at h <;> simp_all <;> subst h h' <;> exact ⟨⟨rfl, rfl, rfl⟩, rfl, rfl, rfl⟩
  simp only [initializeFields, if_neg (show ¬ ("fft + user-defined magnetic fields" = "fft") by decide),
    if_neg (show ¬ ("fft + user-defined magnetic fields" = "user-defined") by decide), if_neg (show ¬ ("user-defined" = "fft") by decide),
    if_true, bind, Except.bind, pure, Except.pure, initFields] at h he hu
  split at h
  · cases h
  · rename_i E hE
    split at h
    · cases h
    · rename_i Y hY
      rw [hE] at he
      split at hu
      · cases hu
      · rename_i Z1 hZ1
        split at hu
        · cases hu
        · rename_i Z hZ
          obtain ⟨⟨e1, e2, e3⟩, b1, b2, b3⟩ := hB hY hZ
          simp only [Except.ok.injEq] at h he hu
          subst h he hu
          cases b <;> simp only [getFields, ne_eq, not_true_eq_false, if_false, if_true, Bool.false_eq_true] <;>
            refine ⟨rfl, rfl, rfl, ?_, ?_, ?_, e1, e2, e3, b1, b2, b3, trivial, trivial⟩ <;> simp [toCentre, b1, b2, b3]

/-- Specification: the factor by which the staggered divergence of the interpolated spectral field differs from the charge density in mode `k`. -/
noncomputable def yeeGain (dq1 dq2 : ℝ) (k : ZMod N1 × ZMod N2) : ℝ :=
  (waveNumber dq1 k.1 * Real.sin (waveNumber dq1 k.1 * dq1) / dq1 + waveNumber dq2 k.2 * Real.sin (waveNumber dq2 k.2 * dq2) / dq2) /
    (waveNumber dq1 k.1 ^ 2 + waveNumber dq2 k.2 ^ 2)

/-- The factor is less than one in every mode but the mean. -/
theorem C80_gain_lt_one {dq1 dq2 : ℝ} (h1 : dq1 ≠ 0) (h2 : dq2 ≠ 0) (k : ZMod N1 × ZMod N2) (hk : k ≠ 0) : yeeGain dq1 dq2 k < 1 := by
  have e : ∀ w d : ℝ, d ≠ 0 → w * Real.sin (w * d) / d = (w * d) * Real.sin (w * d) / d ^ 2 := by
    intro w d hd; field_simp
  have g : ∀ w d : ℝ, d ≠ 0 → (w * Real.sin (w * d) / d ≤ w ^ 2 ∧ (w ≠ 0 → w * Real.sin (w * d) / d < w ^ 2)) := by
    intro w d hd
    have hp : 0 < d ^ 2 := by positivity
    rw [e w d hd, div_le_iff₀ hp, div_lt_iff₀ hp, ← mul_pow]
    exact ⟨(mul_sin_le _).1, fun hw => (mul_sin_le _).2 (mul_ne_zero hw hd)⟩
  have a := g (waveNumber dq1 k.1) dq1 h1
  have b := g (waveNumber dq2 k.2) dq2 h2
  have hne : k.1 ≠ 0 ∨ k.2 ≠ 0 := by
    by_contra hc
    push Not at hc
    exact hk (Prod.ext hc.1 hc.2)
  rcases hne with h | h
  · have hw := waveNumber_ne_zero h1 k.1 h
    have := a.2 hw
    rw [yeeGain, div_lt_one (by positivity)]
    linarith [b.1]
  · have hw := waveNumber_ne_zero h2 k.2 h
    have := b.2 hw
    rw [yeeGain, div_lt_one (by positivity)]
    linarith [a.1]

section
variable {cs : ℕ} {mode : String} {pr : FieldParams (ZMod N1 × ZMod N2) ℝ} {ini : InitFns (ZMod N1 × ZMod N2) ℝ} {rho : S → ZMod N1 × ZMod N2 → ℝ}
  {σ : FieldState (ZMod N1 × ZMod N2) ℝ}

theorem init_yee (hm : mode = "fft" ∨ mode = "fft + user-defined magnetic fields") (h : initializeFields cs mode pr ini rho = .ok σ) :
    ∃ E1 E2, fftPoisson cs pr.dq1 pr.dq2 pr.eps (fun j => ∑ s, rho s j) = .ok (E1, E2) ∧
      (∀ i, σ.yee.E1 i = (E1 (i - pr.q1) + E1 i) / 2) ∧ ∀ i, σ.yee.E2 i = (E2 (i - pr.q2) + E2 i) / 2 := by
  rcases hm with rfl | rfl
  · obtain ⟨a, -, y, -⟩ := C80_fft h true
    exact ⟨_, _, a, fun i => (y i).1, fun i => (y i).2.1⟩
  · simp only [initializeFields, if_neg (show ¬ ("fft + user-defined magnetic fields" = "fft") by decide),
      if_neg (show ¬ ("fft + user-defined magnetic fields" = "user-defined") by decide), if_true, bind, Except.bind, pure, Except.pure] at h
    split at h
    · cases h
    · rename_i E hE
      split at h
      · cases h
      · rename_i Y hY
        simp only [Except.ok.injEq] at h
        subst h
        have : Y.E1 = (toYee pr.q1 pr.q2 .E (⟨E.1, E.2, fun _ => 0, fun _ => 0, fun _ => 0, fun _ => 0⟩ : EM (ZMod N1 × ZMod N2) ℝ)
              ⟨fun _ => 0, fun _ => 0, fun _ => 0, fun _ => 0, fun _ => 0, fun _ => 0⟩).E1 ∧
            Y.E2 = (toYee pr.q1 pr.q2 .E (⟨E.1, E.2, fun _ => 0, fun _ => 0, fun _ => 0, fun _ => 0⟩ : EM (ZMod N1 × ZMod N2) ℝ)
              ⟨fun _ => 0, fun _ => 0, fun _ => 0, fun _ => 0, fun _ => 0, fun _ => 0⟩).E2 := by
          simp only [initMagnetic] at hY
          split at hY <;> simp only [Except.ok.injEq, reduceCtorEq] at hY <;> subst hY <;> exact ⟨rfl, rfl⟩
        refine ⟨E.1, E.2, hE, fun i => ?_, fun i => ?_⟩
        · rw [this.1]; simp [toYee]; ring
        · rw [this.2]; simp [toYee]; ring

/-- C80: the divergence of the initial staggered electric field, mode by mode: the charge density multiplied by a factor different from one. -/
theorem C80_staggered_divergence (hm : mode = "fft" ∨ mode = "fft + user-defined magnetic fields") (h : initializeFields cs mode pr ini rho = .ok σ)
    (hq1 : pr.q1 = (1, 0)) (hq2 : pr.q2 = (0, 1)) (h1 : pr.dq1 ≠ 0) (h2 : pr.dq2 ≠ 0) (k : ZMod N1 × ZMod N2) (hk : k ≠ 0) :
    coeff (fun j => (((σ.yee.E1 (j + pr.q1) - σ.yee.E1 j) / pr.dq1 + (σ.yee.E2 (j + pr.q2) - σ.yee.E2 j) / pr.dq2 : ℝ) : ℂ)) k
      = yeeGain pr.dq1 pr.dq2 k * coeff (fun j => ((∑ s, rho s j : ℝ) : ℂ)) k / pr.eps := by
  obtain ⟨E1, E2, hE, y1, y2⟩ := init_yee hm h
  have e : (fun j => (((σ.yee.E1 (j + pr.q1) - σ.yee.E1 j) / pr.dq1 + (σ.yee.E2 (j + pr.q2) - σ.yee.E2 j) / pr.dq2 : ℝ) : ℂ))
      = fun j => (((E1 (j + pr.q1) - E1 (j - pr.q1)) / (2 * pr.dq1) : ℝ) : ℂ) + (((E2 (j + pr.q2) - E2 (j - pr.q2)) / (2 * pr.dq2) : ℝ) : ℂ) := by
    funext j
    simp only [y1, y2, add_sub_cancel_right]
    push_cast
    field_simp
    ring
  rw [e, coeff_add, coeff_central E1 pr.q1 k (hq1 ▸ chi_one_left h1 k), coeff_central E2 pr.q2 k (hq2 ▸ chi_one_right h2 k)]
  obtain ⟨c1, c2⟩ := fftPoisson_coeff hE k hk
  have s : (4 * Real.pi ^ 2 * (fftfreq N1 pr.dq1 k.1 ^ 2 + fftfreq N2 pr.dq2 k.2 ^ 2) : ℝ) = waveNumber pr.dq1 k.1 ^ 2 + waveNumber pr.dq2 k.2 ^ 2 := by
    rw [← fftfreq_sq, ← fftfreq_sq]; ring
  rw [s] at c1 c2
  have w : ∀ {N : ℕ} [NeZero N] {d : ℝ} (hd : d ≠ 0) (a : ZMod N), I * (Real.sin (waveNumber d a * d) / d : ℝ) *
      (if Nyquist a then 0 else -I * 2 * Real.pi * fftfreq N d a) = ((waveNumber d a * Real.sin (waveNumber d a * d) / d : ℝ) : ℂ) := by
    intro N _ d hd a
    split_ifs with hn
    · rw [sin_nyquist hd a hn]; simp
    · rw [← fftfreq_eq d a hn]
      push_cast
      linear_combination (-(Complex.sin (2 * Real.pi * fftfreq N d a * d) / d * 2 * Real.pi * fftfreq N d a)) * I_sq
  have key : ∀ (A D eps c i1 : ℂ), i1 * (A * (c / D) / eps) = (i1 * A) * (c / D) / eps := fun A D eps c i1 => by ring
  rw [c1, c2, key, key, w h1, w h2, yeeGain]
  push_cast
  ring

/-- C80 (negative): the initial staggered electric field satisfies Gauss's law, up to a uniform background charge, only if the charge density is uniform. -/
theorem C80_gauss_iff_uniform (hm : mode = "fft" ∨ mode = "fft + user-defined magnetic fields") (h : initializeFields cs mode pr ini rho = .ok σ)
    (hq1 : pr.q1 = (1, 0)) (hq2 : pr.q2 = (0, 1)) (h1 : pr.dq1 ≠ 0) (h2 : pr.dq2 ≠ 0) (he : pr.eps ≠ 0) :
    (∃ b, ∀ j, (σ.yee.E1 (j + pr.q1) - σ.yee.E1 j) / pr.dq1 + (σ.yee.E2 (j + pr.q2) - σ.yee.E2 j) / pr.dq2 = (∑ s, rho s j - b) / pr.eps) ↔
      ∀ i j, ∑ s, rho s i = ∑ s, rho s j := by
  constructor
  · rintro ⟨b, hb⟩
    refine uniform_of_coeff (fun j => ∑ s, rho s j) fun k hk => ?_
    have e := C80_staggered_divergence hm h hq1 hq2 h1 h2 k hk
    simp only [hb] at e
    have e' : (fun j => (((∑ s, rho s j - b) / pr.eps : ℝ) : ℂ)) = fun j => (1 / pr.eps : ℂ) * ((((∑ s, rho s j : ℝ) : ℂ)) + (-b : ℂ)) := by
      funext j; push_cast; ring
    rw [e', coeff_smul, coeff_add, coeff_const _ k hk, add_zero] at e
    have hec : (pr.eps : ℂ) ≠ 0 := by exact_mod_cast he
    have hg : ((yeeGain pr.dq1 pr.dq2 k : ℝ) : ℂ) - 1 ≠ 0 := by
      have := C80_gain_lt_one h1 h2 k hk
      have h' : yeeGain pr.dq1 pr.dq2 k - 1 ≠ 0 := by linarith [this] |> fun h => ne_of_lt h
      exact_mod_cast h'
    have : ((yeeGain pr.dq1 pr.dq2 k : ℝ) - 1) * coeff (fun j => ((∑ s, rho s j : ℝ) : ℂ)) k = 0 := by
      field_simp at e
      linear_combination -e
    exact (mul_eq_zero.mp this).resolve_left hg
  · intro hu
    obtain ⟨E1, E2, hE, y1, y2⟩ := init_yee hm h
    have z : ∀ k, coeff (fun j => (E1 j : ℂ)) k = 0 ∧ coeff (fun j => (E2 j : ℂ)) k = 0 := by
      intro k
      by_cases hk : k = 0
      · subst hk
        obtain ⟨m1, m2⟩ := C21_mean_zero hE
        rw [coeff_zero, coeff_zero, m1, m2]; simp
      · obtain ⟨c1, c2⟩ := fftPoisson_coeff hE k hk
        have : coeff (fun j => ((∑ s, rho s j : ℝ) : ℂ)) k = 0 := by
          have e : (fun j => ((∑ s, rho s j : ℝ) : ℂ)) = fun _ => ((∑ s, rho s 0 : ℝ) : ℂ) := by funext j; rw [hu j 0]
          rw [e, coeff_const _ k hk]
        rw [c1, c2, this]; simp
    have z1 : ∀ j, E1 j = 0 := fun j => by
      have := coeff_synthesis (fun j => (E1 j : ℂ)) j
      simp only [(z _).1, zero_mul, sum_const_zero] at this
      exact_mod_cast this
    have z2 : ∀ j, E2 j = 0 := fun j => by
      have := coeff_synthesis (fun j => (E2 j : ℂ)) j
      simp only [(z _).2, zero_mul, sum_const_zero] at this
      exact_mod_cast this
    refine ⟨∑ s, rho s 0, fun j => ?_⟩
    simp only [y1, y2, z1, z2, hu j 0]
    simp

end

/-- C80 (negative): Gauss's law is never repaired.  In an electrodynamic run started from fields computed from a charge density that is not uniform, at no
time and for no background charge does the staggered electric field satisfy Gauss's law with the charge of the distribution function. -/
theorem C80_gauss_violated_for_ever {P : Type} [AddCommGroup P] [Fintype P] {c : CoupledConfig S P (ZMod N1 × ZMod N2) ℝ} (hc : ElectrodynamicFVM c)
    (hh : c.hybrid = false) (hsrc : c.sourceEnabled = false) {mode : String} (hm : mode = "fft" ∨ mode = "fft + user-defined magnetic fields")
    {cs : ℕ} {ini : InitFns (ZMod N1 × ZMod N2) ℝ} {f0 : Dist S P (ZMod N1 × ZMod N2) ℝ} {σ0 : FieldState (ZMod N1 × ZMod N2) ℝ}
    (h0 : initializeFields cs mode c.fieldParams ini (rhoInitial c f0) = .ok σ0) (hq1 : c.ax.q1 = (1, 0)) (hq2 : c.ax.q2 = (0, 1))
    (h1 : c.dq1 ≠ 0) (h2 : c.dq2 ≠ 0) (he : c.eps ≠ 0) (hn : ∃ i j, chargeDensity c f0 i ≠ chargeDensity c f0 j) (poisson) (hyb : S)
    (steps : List (ℝ × (Fin 2 → CoupledCallbacks S P (ZMod N1 × ZMod N2) ℝ))) (hb : ∀ stp ∈ steps, ∀ k, Ballistic c (stp.2 k))
    (st' : Dist S P (ZMod N1 × ZMod N2) ℝ × FieldState (ZMod N1 × ZMod N2) ℝ) (h : runCoupled c poisson hyb steps (f0, σ0) = .ok st') (b : ℝ) :
    ∃ q, (st'.2.yee.E1 (q + c.ax.q1) - st'.2.yee.E1 q) / c.dq1 + (st'.2.yee.E2 (q + c.ax.q2) - st'.2.yee.E2 q) / c.dq2
      ≠ (chargeDensity c st'.1 q - b) / c.eps := by
  by_contra hcon
  push Not at hcon
  have hr : ∀ j, ∑ s, rhoInitial c f0 s j = chargeDensity c f0 j := by
    intro j
    simp only [rhoInitial, chargeDensity, density, integralOverV, FVMConfig.measure, sum_mul, mul_sum]
    refine sum_congr rfl fun s _ => sum_congr rfl fun p _ => ?_
    ring
  have hflag : σ0.flag = true := by
    rcases hm with rfl | rfl
    · exact (C80_fft h0 true).2.2.2.1
    · simp only [initializeFields, if_neg (show ¬ ("fft + user-defined magnetic fields" = "fft") by decide),
        if_neg (show ¬ ("fft + user-defined magnetic fields" = "user-defined") by decide), if_true, bind, Except.bind, pure, Except.pure] at h0
      split at h0
      · cases h0
      · split at h0
        · cases h0
        · simp only [Except.ok.injEq] at h0; subst h0; rfl
  have pres := fun q => C14_gauss_law_preserved c hc hh hsrc poisson hyb steps hb (f0, σ0) st' hflag h q
  have hu := (C80_gauss_iff_uniform hm h0 hq1 hq2 h1 h2 he).mp ⟨b, fun j => by
    have p := pres j
    have q := hcon j
    simp only [gaussDefect] at p
    simp only [hr]
    have e : (chargeDensity c st'.1 j - b) / c.eps - chargeDensity c st'.1 j / c.eps = (chargeDensity c f0 j - b) / c.eps - chargeDensity c f0 j / c.eps := by ring
    have : (σ0.yee.E1 (j + c.ax.q1) - σ0.yee.E1 j) / c.dq1 + (σ0.yee.E2 (j + c.ax.q2) - σ0.yee.E2 j) / c.dq2 = (chargeDensity c f0 j - b) / c.eps := by
      linarith
    exact this⟩
  obtain ⟨i, j, hij⟩ := hn
  exact hij (by rw [← hr i, ← hr j]; exact hu i j)

/-! ## A concrete case -/

/-- Electrons with fully electrodynamic fields on a 3 × 2 grid. -/
noncomputable def c80Cfg : CoupledConfig Unit (ZMod 2 × ZMod 1 × ZMod 1) (ZMod 3 × ZMod 2) ℝ :=
  { c69Es with fieldsType := "electrodynamic", fieldsSolver := "fdtd" }

/-- A charge density that is not uniform, and three steps: Gauss's law fails at the end whatever background is allowed for. -/
example (b : ℝ) : ∃ σ0 st', initializeFields 1 "fft + user-defined magnetic fields" c80Cfg.fieldParams
      ⟨none, none, some (fun _ => 1, fun _ => 0, fun i => i.1.val), none, none⟩ (rhoInitial c80Cfg (fun _ _ i => (i.1.val : ℝ))) = .ok σ0 ∧
    runCoupled c80Cfg (fun _ σ => σ) () (List.replicate 3 (1 / 10, fun _ => nonrelCallbacks (fun _ => -1) (fun _ => 1) c80Cfg.coords c80Cfg.coords id))
      (fun _ _ i => (i.1.val : ℝ), σ0) = .ok st' ∧
    ∃ q, (st'.2.yee.E1 (q + (1, 0)) - st'.2.yee.E1 q) / 1 + (st'.2.yee.E2 (q + (0, 1)) - st'.2.yee.E2 q) / 2 ≠ (chargeDensity c80Cfg st'.1 q - b) / 3 := by
  obtain ⟨σ0, h0⟩ := (C80_modes (S := Unit) 1 "fft" c80Cfg.fieldParams ⟨none, none, some (fun _ => 1, fun _ => 0, fun i => i.1.val), none, none⟩
    (rhoInitial c80Cfg (fun _ _ i => (i.1.val : ℝ)))).2.2.2.mpr ⟨rfl, by norm_num, _, rfl⟩
  obtain ⟨st', h⟩ := C67_whole_grid_run_exists (c := c80Cfg) ⟨⟨.ppm, rfl⟩, ⟨.minmod, rfl⟩, fun _ => rfl⟩ (fun _ σ => σ) ()
    (List.replicate 3 (1 / 10, fun _ => nonrelCallbacks (fun _ => -1) (fun _ => 1) c80Cfg.coords c80Cfg.coords id)) (fun _ _ i => (i.1.val : ℝ), σ0)
  refine ⟨σ0, st', h0, h, ?_⟩
  refine C80_gauss_violated_for_ever (c := c80Cfg) ⟨rfl, rfl, rfl, rfl⟩ rfl rfl (Or.inr rfl) h0 rfl rfl (by norm_num [c80Cfg, c69Es])
    (by norm_num [c80Cfg, c69Es]) (by norm_num [c80Cfg, c69Es]) ⟨(0, 0), (1, 0), ?_⟩ _ () _ ?_ st' h b
  · simp only [chargeDensity, c80Cfg, c69Es]
    have v : ((1 : ZMod 3).val : ℝ) = 1 := by norm_num [ZMod.val_one]
    simp [v, Fintype.card_prod, ZMod.card]
  · intro stp hs k
    rw [List.eq_of_mem_replicate hs]
    exact ⟨fun _ _ _ => rfl, fun _ _ _ => rfl⟩

end Bolt
