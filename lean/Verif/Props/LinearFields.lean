import Verif.Props.Linear

/-!
# C46 (with fields), C47: fields in the linear solver
-/

set_option linter.unusedSectionVars false

namespace Bolt

open Complex Finset

variable {M1 M2 M3 ns N1 N2 : ℕ} [NeZero M1] [NeZero M2] [NeZero M3] [NeZero N1] [NeZero N2]

theorem calculateK_zero (dq1 dq2 : ℝ) : calculateK (N1 := N1) (N2 := N2) dq1 dq2 0 = (0, 0) := by
  simp [calculateK, fftfreq]

/-! ## Exceptions -/

theorem dfHatDt_total (cfg : LinCfg M1 M2 M3 ns N1 N2)
    (hd : cfg.sourceEnabled = true → ¬ (N2 = 1 ∧ M1 * M2 * M3 = 1 ∧ ns = 1))
    (hf : cfg.fieldsEnabled = true → (ns = 1 ∨ ns = M2) ∧ cfg.fieldsType ∈ ["electrostatic", "electrodynamic", "None"])
    (x : LinF M1 M2 M3 ns N1 N2 ℂ) (y : LinEM N1 N2) : Total (dfHatDt cfg x y) := by
  refine .bind .get fun st => .bind ?_ fun src => .bind ?_ fun frc => .pure _
  · split_ifs with h
    · refine .lift _ ?_
      obtain ⟨z, hz⟩ := ifft2_ok (N1 := N1) (N2 := N2) (M1 * M2 * M3) ns (hd h) fun p s q => 0.5 * (N2 : ℂ) * N1 * x p s q
      rw [linSourceTerm, hz]
      exact ⟨_, rfl⟩
    · exact .pure _
  · split_ifs with h
    · obtain ⟨hn, ht⟩ := hf h
      refine .bind ?_ fun _ => .bind (.bind (.modify _) fun _ => .bind .get fun _ => .pure _) fun em => .bind .get fun _ =>
        .bind (.lift _ (dpBroadcast_ok _ hn)) fun _ => .bind (.lift _ (dpBroadcast_ok _ hn)) fun _ =>
        .bind (.lift _ (dpBroadcast_ok _ hn)) fun _ => .pure _
      rw [linUpdateFields]
      split_ifs with h1 h2 h3
      · exact .modify _
      · exact .pure _
      · exact .pure _
      · simp [h1, h2, h3] at ht
    · exact .pure _

theorem dfieldsHatDt_total (cfg : LinCfg M1 M2 M3 ns N1 N2) (hh : cfg.hybrid = true → ns = 1 ∧ N2 ≠ 1)
    (x : LinF M1 M2 M3 ns N1 N2 ℂ) (y : LinEM N1 N2) : Total (dfieldsHatDt cfg x y) := by
  cases hc : cfg.hybrid with
  | false => exact fun s => ⟨_, dfieldsHatDt_eq cfg hc x y s⟩
  | true =>
      obtain ⟨h1, h2⟩ := hh hc
      refine .bind ?_ fun _ => .pure _
      rw [if_pos hc]
      refine .bind (.lift _ ?_) fun _ => .bind (.modify _) fun _ => .pure _
      have hr : ∀ z : ZMod N1 × ZMod N2 → ℂ, ∃ w, realOfModes z = .ok w := by
        intro z
        rw [realOfModes, ifft2, if_neg (by simp [h2])]
        exact ⟨_, rfl⟩
      choose R hR using hr
      simp only [linOhm, h1, ne_eq, not_true_eq_false, if_false, hR]
      exact ⟨_, rfl⟩

/-- C46: runs never raise, provided (when the corresponding term is enabled): the transform is not of a single cell, the fields type is
known, there is one species (or as many as momentum cells along `p2`), and the hybrid model has one species and more than one cell
along `q2`. -/
theorem C46_never_raises (cfg : LinCfg M1 M2 M3 ns N1 N2)
    (hd : cfg.sourceEnabled = true ∨ cfg.instantaneous = true → ¬ (N2 = 1 ∧ M1 * M2 * M3 = 1 ∧ ns = 1))
    (hf : cfg.fieldsEnabled = true → (ns = 1 ∨ ns = M2) ∧ cfg.fieldsType ∈ ["electrostatic", "electrodynamic", "None"])
    (hh : cfg.hybrid = true → ns = 1 ∧ N2 ≠ 1) : ∀ (l : List (LinScheme × ℝ)) (s : LinState M1 M2 M3 ns N1 N2),
      ∃ t, linRun cfg l s = .ok ((), t) := by
  have step : ∀ m dt, Total (linStep m cfg dt) := by
    intro m dt
    refine .bind ?_ fun _ => .bind .get fun _ => ?_
    · split_ifs with h
      · exact .bind .get fun _ => .bind (.lift _ (ifft2_ok _ _ (hd (.inr h)) _)) fun _ => .set _
      · exact .pure _
    · have ht : ∀ c, Total (linTick (M1 := M1) (M2 := M2) (M3 := M3) (ns := ns) (N1 := N1) (N2 := N2) c) := fun c => .modify _
      split_ifs
      · exact .bind (coupled_total m ht (dfHatDt_total cfg (fun h => hd (.inl h)) hf) (dfieldsHatDt_total cfg hh)
          (.bind .get fun _ => .pure _) _ _) fun _ => .modify _
      · exact .bind (.bind .get fun _ => .pure _) fun _ => .bind (single_total m ht
          (fun x => dfHatDt_total cfg (fun h => hd (.inl h)) hf x _) _ _) fun _ => .modify _
  intro l
  have run : Total (linRun cfg l) := by
    induction l with
    | nil => exact .pure _
    | cons a l ih => exact .bind (step _ _) fun _ => ih
  intro s
  obtain ⟨⟨⟨⟩, t⟩, h⟩ := run s
  exact ⟨t, h⟩

/-- C46 (negative): with fields enabled and a number of species other than one and the number of momentum cells along `p2`, every step raises,
whatever the state. -/
theorem C46_multispecies_fields_raise (cfg : LinCfg M1 M2 M3 ns N1 N2) (hf : cfg.fieldsEnabled = true) (h1 : ns ≠ 1) (h2 : ns ≠ M2)
    (m : LinScheme) (dt : ℝ) (s : LinState M1 M2 M3 ns N1 N2) : ∃ e, linStep m cfg dt s = .error e := by
  have slope : ∀ x y s, Post (dfHatDt cfg x y) s fun _ _ => False := by
    intro x y s
    refine .bind (.get (.bind (Post.mono (Q := fun _ _ => True) (fun _ _ _ => trivial) fun _ s1 _ => .bind ?_)))
    rw [if_pos hf]
    refine .bind (Post.mono (Q := fun _ _ => True) (fun _ _ _ => trivial) fun _ s2 _ => ?_)
    refine .bind (Post.mono (Q := fun _ _ => True) (fun _ _ _ => trivial) fun _ s3 _ => .bind (.get (.bind ?_)))
    refine .lift fun d hd => ?_
    rw [dpBroadcast, if_neg h1, dif_neg h2] at hd
    cases hd
  have hsingle : ∀ x y s, Post (m.single linTick (fun x => dfHatDt cfg x y) x dt) s fun _ _ => False := by
    intro x y s
    cases m <;> exact .bind ((slope _ _ _).mono fun _ _ h => h.elim)
  have hcoupled : ∀ x s, Post (m.coupled linTick (dfHatDt cfg) x (dfieldsHatDt cfg) linFieldsRef dt) s fun _ _ => False := by
    intro x s
    cases m <;> exact .bind (.bind (.get (.pure (.bind ((slope _ _ _).mono fun _ _ h => h.elim)))))
  have : Post (linStep m cfg dt) s fun _ _ => False := by
    refine .bind (Post.mono (Q := fun _ _ => True) (fun _ _ _ => trivial) fun _ s1 _ => .bind (.get ?_))
    split_ifs
    · exact .bind ((hcoupled _ _).mono fun _ _ h => h.elim)
    · exact .bind (.bind (.get (.pure (.bind ((hsingle _ _ _).mono fun _ _ h => h.elim)))))
  cases hr : linStep m cfg dt s with
  | error e => exact ⟨e, rfl⟩
  | ok r => exact (this r.1 r.2 hr).elim

/-! ## Conservation of particles with fields -/

/-- Sum over momentum of one mode, as a linear map. -/
def sumAt (i : Fin ns) (q : ZMod N1 × ZMod N2) : LinF M1 M2 M3 ns N1 N2 ℂ →ₗ[ℝ] ℂ where
  toFun x := ∑ p, x p i q
  map_add' x y := by simp [sum_add_distrib]
  map_smul' c x := by simp [mul_sum]

/-- C46: with the nonrelativistic force, any field configuration and evolution (electrostatic, electrodynamic, hybrid), the number of
particles of each species is constant: the momentum sum of the mean mode never changes, nor does the sum over all cells of what
`get_dist_func` returns. -/
theorem C46_particles_with_fields (cfg : LinCfg M1 M2 M3 ns N1 N2) (hg : LinProductGrid cfg.coords)
    (Aq : ℝ → LinF M1 M2 M3 ns N1 N2 ℝ × LinF M1 M2 M3 ns N1 N2 ℝ) (hb : cfg.FromBackground)
    (hdp : ∀ i j, cfg.dp2 i = cfg.dp2 j) (hs : cfg.sourceEnabled = false) (hi : cfg.instantaneous = false)
    (l : List (LinScheme × ℝ)) (s t : LinState M1 M2 M3 ns N1 N2) (h : linRun { cfg.nonrel with Aq := Aq } l s = .ok ((), t)) (i : Fin ns) :
    ∑ p, t.fHat p i 0 = ∑ p, s.fHat p i 0 ∧
    ∀ f g, getDistFunc s = .ok f → getDistFunc t = .ok g → ∑ p, ∑ q, g p i q = ∑ p, ∑ q, f p i q := by
  set cfg' := { cfg.nonrel with Aq := Aq } with hcfg
  have hF : ∀ x y s, Post (dfHatDt cfg' x y) s fun k _ => sumAt i 0 k = 0 := by
    intro x y s
    refine (dfHatDt_sum cfg hg Aq hb hdp hs x y s).mono fun k _ hk => ?_
    refine (hk i 0).trans (sum_eq_zero fun p _ => ?_)
    simp [linStreaming, calculateK_zero]
  have step : ∀ m dt s0, ∑ p, s0.fHat p i 0 = ∑ p, s.fHat p i 0 →
      Post (linStep m cfg' dt) s0 fun _ s' => ∑ p, s'.fHat p i 0 = ∑ p, s.fHat p i 0 := by
    intro m dt s0 h0
    refine .bind ?_
    rw [if_neg (by simp [hcfg, LinCfg.nonrel, hi])]
    refine .pure (.bind (.get ?_))
    split_ifs
    · refine .bind ((coupled_invariant m (sumAt i 0) (0 : LinEM N1 N2 →ₗ[ℝ] ℂ) (fun _ => 0) 0 (fun _ => True)
        (fun c s _ => fun _ _ _ => trivial) (fun x y s _ => (hF x y s).mono fun _ _ h => ⟨trivial, h⟩)
        (fun x y s _ => fun _ _ _ => ⟨trivial, by simp⟩) (fun s _ => fun _ _ _ => ⟨trivial, rfl⟩) _ dt _ trivial).mono fun r s1 h1 => ?_)
      refine .modify ?_
      have := h1.2
      simp only [LinearMap.zero_apply, add_zero] at this
      exact this.trans h0
    · refine .bind (.bind (.get (.pure (.bind ?_))))
      refine (single_invariant m (sumAt i 0) (fun _ => True) (fun c s _ => fun _ _ _ => trivial)
        (fun x s _ => (hF x _ s).mono fun _ _ h => ⟨trivial, h⟩) _ dt _ trivial).mono fun r s1 h1 => ?_
      exact .modify (h1.2.trans h0)
  have key := linRun_invariant cfg' (fun s' => ∑ p, s'.fHat p i 0 = ∑ p, s.fHat p i 0) step l s rfl () t h
  refine ⟨key, fun f g hf hg => ?_⟩
  simp only [sum_getDistFunc s f hf, sum_getDistFunc t g hg, ← mul_sum, ← Complex.re_sum, key]

/-! ## C47: Maxwell's constraints -/

/-- The divergence of the magnetic field of a mode, as a linear map. -/
noncomputable def divBMap (dq1 dq2 : ℝ) (q : ZMod N1 × ZMod N2) : LinEM N1 N2 →ₗ[ℝ] ℂ where
  toFun em := divBHat dq1 dq2 em q
  map_add' x y := by simp [divBHat]; ring
  map_smul' c x := by simp [divBHat]; ring

/-- C47: over any run, in every configuration (including the hybrid model, sources and collisions), the divergence of the magnetic field
of every mode is unchanged: a solenoidal magnetic field stays solenoidal. -/
theorem C47_divB_unchanged (cfg : LinCfg M1 M2 M3 ns N1 N2) (l : List (LinScheme × ℝ)) (s t : LinState M1 M2 M3 ns N1 N2)
    (h : linRun cfg l s = .ok ((), t)) (q : ZMod N1 × ZMod N2) :
    divBHat cfg.dq1 cfg.dq2 t.fieldsHat q = divBHat cfg.dq1 cfg.dq2 s.fieldsHat q := by
  set c0 := divBHat cfg.dq1 cfg.dq2 s.fieldsHat q with hc0
  refine linRun_invariant cfg (fun s' => divBHat cfg.dq1 cfg.dq2 s'.fieldsHat q = c0) (fun m dt s0 h0 => ?_) l s rfl () t h
  refine .bind (Post.mono (Q := fun _ s1 => divBHat cfg.dq1 cfg.dq2 s1.fieldsHat q = c0) ?_ fun _ s1 h1 => ?_)
  · split_ifs
    · exact (linCollide_frame cfg s0).mono fun _ _ h => by rw [h.2, h0]
    · exact .pure h0
  refine .bind (.get ?_)
  split_ifs
  · refine .bind ((coupled_invariant (tick := linTick) (F2 := dfHatDt cfg) (G := dfieldsHatDt cfg) (y0 := linFieldsRef) m 0
      (divBMap cfg.dq1 cfg.dq2 q) (fun _ => 0) c0 (fun s1 : LinState M1 M2 M3 ns N1 N2 => divBHat cfg.dq1 cfg.dq2 s1.fieldsHat q = c0)
      (fun c s h => .modify h) (fun x y s h => (dfHatDt_frame cfg x y s).mono fun _ _ h' => ⟨by rw [h'.2.1, h], rfl⟩)
      (fun x y s h => (dfieldsHatDt_divB cfg x y s q).mono fun k s' h' => ⟨?_, ?_⟩)
      (fun s h => .bind (.get (.pure ⟨h, h⟩))) _ dt _ h1).mono fun r s2 h2 => ?_)
    · rw [← h]
      simp only [divBHat]
      rw [h'.2.1 3 (by decide), h'.2.1 4 (by decide)]
    · rw [neg_zero]; exact h'.2.2
    · refine .modify ?_
      have := h2.2
      simp only [LinearMap.zero_apply, zero_add] at this
      exact this
  · refine .bind (.bind (.get (.pure (.bind ?_))))
    refine (single_invariant (tick := linTick) (F := fun x => dfHatDt cfg x s1.fieldsHat) m (0 : LinF M1 M2 M3 ns N1 N2 ℂ →ₗ[ℝ] ℂ) (fun s1 : LinState M1 M2 M3 ns N1 N2 => divBHat cfg.dq1 cfg.dq2 s1.fieldsHat q = c0) (fun c s h => .modify h)
      (fun x s h => (dfHatDt_frame cfg x _ s).mono fun _ _ h' => ⟨by rw [h'.2.1, h], rfl⟩) _ dt _ h1).mono fun r s2 h2 => Post.modify h2.1

/-- C47: a magnetic field initialised from a vector potential is solenoidal from the start. -/
theorem C47_vector_potential_solenoidal (cfg : LinCfg M1 M2 M3 ns N1 N2) (option : String)
    (ho : option = "user-defined" ∨ option = "fft + user-defined magnetic fields") (E : Fin 3 → ZMod N1 × ZMod N2 → ℝ)
    (A3 B3 : ZMod N1 × ZMod N2 → ℝ) (f : LinF M1 M2 M3 ns N1 N2 ℝ) (st : LinState M1 M2 M3 ns N1 N2)
    (h : linInit cfg option E (.initA3B3 A3 B3) f = .ok st) (q : ZMod N1 × ZMod N2) : divBHat cfg.dq1 cfg.dq2 st.fieldsHat q = 0 := by
  by_cases hN : N2 = 1
  · have e : linInitB cfg.dq1 cfg.dq2 (.initA3B3 A3 B3) = .error .indexError := by
      simp only [linInitB, ifft2, hN, and_self, if_true]; rfl
    rcases ho with rfl | rfl <;> simp [linInit, linInitFields, e] at h
  · have e : linInitB cfg.dq1 cfg.dq2 (.initA3B3 A3 B3) = .ok ![
        fun j => afIfft2 (fun k => afFft2 (fun q => (A3 q : ℂ)) k * I * (calculateK cfg.dq1 cfg.dq2 k).2) j / ((N1 : ℂ) * N2),
        fun j => -(afIfft2 (fun k => afFft2 (fun q => (A3 q : ℂ)) k * I * (calculateK cfg.dq1 cfg.dq2 k).1) j / ((N1 : ℂ) * N2)),
        fun q => (B3 q : ℂ)] := by
      simp only [linInitB, ifft2, hN, false_and, if_false]; rfl
    have lin : ∀ (y : ZMod N1 × ZMod N2 → ℂ) (c : ℂ) q, afFft2 (fun j => y j / c) q = afFft2 y q / c := by
      intro y c q
      simp only [afFft2_eq, sum_div]
      exact sum_congr rfl fun j _ => by ring
    have neg : ∀ (y : ZMod N1 × ZMod N2 → ℂ) q, afFft2 (fun j => -y j) q = -afFft2 y q := by
      intro y q
      simp only [afFft2_eq, ← sum_neg_distrib, neg_mul]
    have fin : ∀ em : LinEM N1 N2,
        em 3 = (fun q => 2 * afFft2 (fun j => afIfft2 (fun k => afFft2 (fun q => (A3 q : ℂ)) k * I * (calculateK cfg.dq1 cfg.dq2 k).2) j / ((N1 : ℂ) * N2)) q / ((N1 : ℂ) * N2)) →
        em 4 = (fun q => 2 * afFft2 (fun j => -(afIfft2 (fun k => afFft2 (fun q => (A3 q : ℂ)) k * I * (calculateK cfg.dq1 cfg.dq2 k).1) j / ((N1 : ℂ) * N2))) q / ((N1 : ℂ) * N2)) →
        divBHat cfg.dq1 cfg.dq2 em q = 0 := by
      intro em h3 h4
      simp only [divBHat, h3, h4, lin, neg, afFft2_afIfft2]
      ring
    rcases ho with rfl | rfl
    · simp only [linInit, linInitFields, e] at h
      cases h
      exact fin _ rfl rfl
    · simp only [linInit, linInitFields, e] at h
      cases h
      exact fin _ rfl rfl

/-- The charge density of a mode, as a linear map. -/
noncomputable def chargeMap (charge dp1 dp2 dp3 : Fin ns → ℝ) (q : ZMod N1 × ZMod N2) : LinF M1 M2 M3 ns N1 N2 ℂ →ₗ[ℝ] ℂ where
  toFun f := chargeHat charge dp1 dp2 dp3 f q
  map_add' x y := by
    simp only [chargeHat, Pi.add_apply]
    rw [← sum_add_distrib]
    exact sum_congr rfl fun s _ => by rw [sum_add_distrib]; ring
  map_smul' c x := by
    simp only [chargeHat, Pi.smul_apply, real_smul, RingHom.id_apply, mul_sum, sum_mul]
    exact sum_congr rfl fun s _ => sum_congr rfl fun p _ => by ring

/-- `-eps` times the divergence of the electric field of a mode, as a linear map. -/
noncomputable def divEMap (dq1 dq2 eps : ℝ) (q : ZMod N1 × ZMod N2) : LinEM N1 N2 →ₗ[ℝ] ℂ where
  toFun em := -(eps * divEHat dq1 dq2 em q)
  map_add' x y := by simp [divEHat]; ring
  map_smul' c x := by simp [divEHat]; ring

/-- C47: with the nonrelativistic equations and self-consistent electrodynamic fields, the residual of Gauss's law `rho - eps div E` of
every mode is unchanged over any run. -/
theorem C47_gauss_residual_unchanged (cfg : LinCfg M1 M2 M3 ns N1 N2) (hg : LinProductGrid cfg.coords) (hb : cfg.FromBackground)
    (hdp : ∀ i j, cfg.dp2 i = cfg.dp2 j) (hs : cfg.sourceEnabled = false) (hi : cfg.instantaneous = false) (hh : cfg.hybrid = false)
    (hf : cfg.fieldsEnabled = true) (ht : cfg.fieldsType = "electrodynamic") (he : cfg.eps ≠ 0)
    (l : List (LinScheme × ℝ)) (s t : LinState M1 M2 M3 ns N1 N2) (h : linRun cfg.nonrel l s = .ok ((), t)) (q : ZMod N1 × ZMod N2) :
    chargeHat cfg.charge cfg.dp1 cfg.dp2 cfg.dp3 t.fHat q - cfg.eps * divEHat cfg.dq1 cfg.dq2 t.fieldsHat q
      = chargeHat cfg.charge cfg.dp1 cfg.dp2 cfg.dp3 s.fHat q - cfg.eps * divEHat cfg.dq1 cfg.dq2 s.fieldsHat q := by
  set c0 := chargeHat cfg.charge cfg.dp1 cfg.dp2 cfg.dp3 s.fHat q - cfg.eps * divEHat cfg.dq1 cfg.dq2 s.fieldsHat q with hc0
  have hec : (cfg.eps : ℂ) ≠ 0 := by exact_mod_cast he
  refine linRun_invariant cfg.nonrel (fun s' => chargeHat cfg.charge cfg.dp1 cfg.dp2 cfg.dp3 s'.fHat q
    - cfg.eps * divEHat cfg.dq1 cfg.dq2 s'.fieldsHat q = c0) (fun m dt s0 h0 => ?_) l s rfl () t h
  refine .bind ?_
  rw [if_neg (by simp [LinCfg.nonrel, hi])]
  refine .pure (.bind (.get ?_))
  rw [if_pos ⟨hf, ht⟩]
  -- minus `i k · J`
  set φ : LinF M1 M2 M3 ns N1 N2 ℂ → ℂ := fun x =>
    -I * ((calculateK cfg.dq1 cfg.dq2 q).1 * ∑ i, (cfg.charge i : ℂ) * linMoment cfg momV1 x i q
      + (calculateK cfg.dq1 cfg.dq2 q).2 * ∑ i, (cfg.charge i : ℂ) * linMoment cfg momV2 x i q) with hφ
  have hF : ∀ x y s1, Post (dfHatDt cfg.nonrel x y) s1 fun k _ => chargeMap cfg.charge cfg.dp1 cfg.dp2 cfg.dp3 q k = φ x := by
    intro x y s1
    refine (dfHatDt_sum cfg hg cfg.nonrel.Aq hb hdp hs x y s1).mono fun k _ hk => ?_
    change chargeHat _ _ _ _ k q = _
    simp only [chargeHat, hk, hφ, mul_sum, ← sum_add_distrib, linMoment, momV1, momV2, integralOverV, sum_mul]
    refine sum_congr rfl fun i _ => sum_congr rfl fun p _ => ?_
    simp only [linStreaming, LinCfg.nonrel, nonrelCq]
    push_cast
    ring
  have hG : ∀ x y s1, Post (dfieldsHatDt cfg.nonrel x y) s1 fun k s' => s'.fieldsHat = s1.fieldsHat ∧ divEMap cfg.dq1 cfg.dq2 cfg.eps q k = -φ x := by
    intro x y s1 k s' e
    rw [dfieldsHatDt_eq cfg.nonrel hh] at e
    cases e
    refine ⟨rfl, ?_⟩
    change -((cfg.eps : ℂ) * divEHat _ _ _ q) = _
    simp only [divEHat, hφ]
    have e0 : ∀ a b c d e f : ZMod N1 × ZMod N2 → ℂ, (![a, b, c, d, e, f] : LinEM N1 N2) 0 = a ∧ (![a, b, c, d, e, f] : LinEM N1 N2) 1 = b :=
      fun _ _ _ _ _ _ => ⟨rfl, rfl⟩
    simp only [(e0 _ _ _ _ _ _).1, (e0 _ _ _ _ _ _).2]
    simp only [LinCfg.nonrel]
    set J1 := ∑ i, (cfg.charge i : ℂ) * linMoment cfg momV1 x i q with hJ1
    set J2 := ∑ i, (cfg.charge i : ℂ) * linMoment cfg momV2 x i q with hJ2
    have j1 : ∑ i, (cfg.charge i : ℂ) * linMoment cfg.nonrel momV1 x i q = J1 := rfl
    have j2 : ∑ i, (cfg.charge i : ℂ) * linMoment cfg.nonrel momV2 x i q = J2 := rfl
    simp only [LinCfg.nonrel] at j1 j2
    rw [j1, j2]
    field_simp
    ring
  refine .bind ((coupled_invariant (tick := linTick) (F2 := dfHatDt cfg.nonrel) (G := dfieldsHatDt cfg.nonrel) (y0 := linFieldsRef) m (chargeMap cfg.charge cfg.dp1 cfg.dp2 cfg.dp3 q) (divEMap cfg.dq1 cfg.dq2 cfg.eps q) φ
      (divEMap cfg.dq1 cfg.dq2 cfg.eps q s0.fieldsHat) (fun s1 : LinState M1 M2 M3 ns N1 N2 => s1.fieldsHat = s0.fieldsHat)
      (fun c s h => .modify h) (fun x y s1 h1 => ?_)
      (fun x y s1 h1 => (hG x y s1).mono fun k s' h' => ⟨h'.1.trans h1, h'.2⟩)
      (fun s1 h1 => .bind (.get (.pure ⟨h1, by rw [h1]⟩))) _ dt _ rfl).mono fun r s2 h2 => Post.modify ?_)
  · exact fun a b e => ⟨((dfHatDt_frame cfg.nonrel x y s1 a b e).2.1).trans h1, hF x y s1 a b e⟩
  · have := h2.2
    rw [← h0]
    change chargeHat _ _ _ _ r.1 q + -((cfg.eps : ℂ) * divEHat _ _ r.2 q) = chargeHat _ _ _ _ s0.fHat q + -((cfg.eps : ℂ) * divEHat _ _ s0.fieldsHat q) at this
    simpa only [sub_eq_add_neg] using this

/-- C47: the electrostatic solve satisfies Gauss's law in every mode but the mean, is curl free, and has no mean and no magnetic field. -/
theorem C47_electrostatic (dq1 dq2 eps : ℝ) (h1 : dq1 ≠ 0) (h2 : dq2 ≠ 0) (he : eps ≠ 0) (rhoHat : Fin ns → ZMod N1 × ZMod N2 → ℂ) :
    (∀ q, q ≠ 0 → eps * divEHat dq1 dq2 (linElectrostatic dq1 dq2 eps rhoHat) q = ∑ s, rhoHat s q) ∧
    (∀ q, (calculateK dq1 dq2 q).1 * linElectrostatic dq1 dq2 eps rhoHat 1 q = (calculateK dq1 dq2 q).2 * linElectrostatic dq1 dq2 eps rhoHat 0 q) ∧
    (∀ i, linElectrostatic dq1 dq2 eps rhoHat i 0 = 0) ∧ ∀ i : Fin 6, 2 ≤ i → ∀ q, linElectrostatic dq1 dq2 eps rhoHat i q = 0 := by
  have hec : (eps : ℂ) ≠ 0 := by exact_mod_cast he
  refine ⟨fun q hq => ?_, fun q => ?_, fun i => ?_, fun i hi q => ?_⟩
  · have hne := freqSum_ne_zero h1 h2 q hq
    have hk : ((calculateK dq1 dq2 q).1 ^ 2 + (calculateK dq1 dq2 q).2 ^ 2 : ℝ) ≠ 0 := by
      have : (calculateK dq1 dq2 q).1 ^ 2 + (calculateK dq1 dq2 q).2 ^ 2 = 4 * Real.pi ^ 2 * (fftfreq N1 dq1 q.1 ^ 2 + fftfreq N2 dq2 q.2 ^ 2) := by
        simp only [calculateK]; ring
      rw [this]; exact hne
    have hkc : ((calculateK dq1 dq2 q).1 : ℂ) ^ 2 + ((calculateK dq1 dq2 q).2 : ℂ) ^ 2 ≠ 0 := by exact_mod_cast hk
    change (eps : ℂ) * (I * _ * (-(if q = 0 then (0 : ℂ) else _) * I * _ / _) + I * _ * (-(if q = 0 then (0 : ℂ) else _) * I * _ / _)) = _
    rw [if_neg hq]
    push_cast
    field_simp
    linear_combination (-(∑ s, rhoHat s q) * (((calculateK dq1 dq2 q).1 : ℂ) ^ 2 + ((calculateK dq1 dq2 q).2 : ℂ) ^ 2)) * I_sq
  · change _ * (-_ * I * _ / _) = _ * (-_ * I * _ / _)
    ring
  · fin_cases i <;> simp [linElectrostatic]
  · fin_cases i <;> first | rfl | exact absurd hi (by decide)

/-- C47: starting from fields initialised by the electrostatic solve, Gauss's law holds in every mode but the mean after any run. -/
theorem C47_gauss_after_any_run (cfg : LinCfg M1 M2 M3 ns N1 N2) (hg : LinProductGrid cfg.coords) (hb : cfg.FromBackground)
    (hdp : ∀ i j, cfg.dp2 i = cfg.dp2 j) (hs : cfg.sourceEnabled = false) (hi : cfg.instantaneous = false) (hh : cfg.hybrid = false)
    (hf : cfg.fieldsEnabled = true) (ht : cfg.fieldsType = "electrodynamic") (he : cfg.eps ≠ 0) (h1 : cfg.dq1 ≠ 0) (h2 : cfg.dq2 ≠ 0)
    (option : String) (ho : option ≠ "user-defined") (E : Fin 3 → ZMod N1 × ZMod N2 → ℝ) (b : BInit N1 N2)
    (f : LinF M1 M2 M3 ns N1 N2 ℝ) (l : List (LinScheme × ℝ)) (s t : LinState M1 M2 M3 ns N1 N2)
    (h0 : linInit cfg.nonrel option E b f = .ok s) (h : linRun cfg.nonrel l s = .ok ((), t)) (q : ZMod N1 × ZMod N2) (hq : q ≠ 0) :
    cfg.eps * divEHat cfg.dq1 cfg.dq2 t.fieldsHat q = chargeHat cfg.charge cfg.dp1 cfg.dp2 cfg.dp3 t.fHat q := by
  have key := C47_gauss_residual_unchanged cfg hg hb hdp hs hi hh hf ht he l s t h q
  have init : cfg.eps * divEHat cfg.dq1 cfg.dq2 s.fieldsHat q = chargeHat cfg.charge cfg.dp1 cfg.dp2 cfg.dp3 s.fHat q := by
    have es : ∀ em : LinEM N1 N2, em 0 = linElectrostatic cfg.dq1 cfg.dq2 cfg.eps (linRho cfg (linInitF f)) 0 →
        em 1 = linElectrostatic cfg.dq1 cfg.dq2 cfg.eps (linRho cfg (linInitF f)) 1 →
        cfg.eps * divEHat cfg.dq1 cfg.dq2 em q = chargeHat cfg.charge cfg.dp1 cfg.dp2 cfg.dp3 (linInitF f) q := by
      intro em e0 e1
      have := (C47_electrostatic cfg.dq1 cfg.dq2 cfg.eps h1 h2 he (linRho cfg (linInitF f))).1 q hq
      simp only [divEHat, e0, e1] at this ⊢
      rw [this]
      simp only [linRho, chargeHat, linMoment, density, integralOverV]
      refine sum_congr rfl fun i _ => ?_
      push_cast
      ring
    rw [linInit, linInitFields, if_neg ho] at h0
    split_ifs at h0 with ho2
    · cases hB : linInitB cfg.nonrel.dq1 cfg.nonrel.dq2 b with
      | error e => rw [hB] at h0; cases h0
      | ok B => rw [hB] at h0; cases h0; exact es _ rfl rfl
    · cases h0; exact es _ rfl rfl
  rw [init, sub_self] at key
  exact (sub_eq_zero.mp key).symm

/-! ## The hybrid model -/

theorem sum_afIfft2 (x : ZMod N1 × ZMod N2 → ℂ) : ∑ j, afIfft2 x j = (N1 : ℂ) * N2 * x 0 := by
  simp only [afIfft2_eq]
  rw [sum_comm]
  simp only [← mul_sum, fun k => sum_congr rfl fun (j : ZMod N1 × ZMod N2) (_ : j ∈ univ) => chi_comm j k, sum_chi]
  simp [mul_comm]

theorem gridMean_realOfModes (x : ZMod N1 × ZMod N2 → ℂ) (h0 : x 0 = 0) (y : ZMod N1 × ZMod N2 → ℝ) (h : realOfModes x = .ok y) :
    gridMean y = 0 := by
  rw [realOfModes, ifft2] at h
  split_ifs at h
  · cases h
  · cases h
    rw [gridMean]
    simp only [reorder2301]
    rw [← Complex.re_sum, ← sum_div, sum_afIfft2, h0]
    simp

/-- The current of the hybrid model: the curl of the magnetic field over `mu` — `dfields_hat_dt.py:44-58`. -/
noncomputable def hybridJ (dq1 dq2 mu : ℝ) (y : LinEM N1 N2) : Fin 3 → ZMod N1 × ZMod N2 → ℂ :=
  ![fun q => y 5 q * I * ((calculateK dq1 dq2 q).2 : ℂ) / mu, fun q => -y 5 q * I * ((calculateK dq1 dq2 q).1 : ℂ) / mu,
    fun q => (y 4 q * I * ((calculateK dq1 dq2 q).1 : ℂ) - y 3 q * I * ((calculateK dq1 dq2 q).2 : ℂ)) / mu]

theorem hybridJ_zero (dq1 dq2 mu : ℝ) (y : LinEM N1 N2) (i : Fin 3) : hybridJ dq1 dq2 mu y i 0 = 0 := by
  fin_cases i <;> simp [hybridJ, calculateK_zero]

theorem linOhm_hall (cfg : LinCfg M1 M2 M3 ns N1 N2) (mu : ℝ) (x : LinF M1 M2 M3 ns N1 N2 ℂ) (B J J' : Fin 3 → ZMod N1 × ZMod N2 → ℂ)
    (hJ : ∀ i, J i 0 = 0) (hJ' : ∀ i, J' i 0 = 0) : linOhm { cfg with mu := mu } x B J' = linOhm cfg x B J := by
  by_cases h1 : ns = 1
  swap
  · simp only [linOhm, ne_eq, h1, not_false_eq_true, if_true]
  by_cases h2 : N2 = 1
  · have hr : ∀ z : ZMod N1 × ZMod N2 → ℂ, realOfModes z = .error .indexError := by
      intro z; rw [realOfModes, ifft2, if_pos ⟨h2, rfl, rfl⟩]; rfl
    simp only [linOhm, h1, ne_eq, not_true_eq_false, if_false, hr, bind, Except.bind]
  · have hr : ∀ z : ZMod N1 × ZMod N2 → ℂ, ∃ w, realOfModes z = .ok w := by
      intro z
      rw [realOfModes, ifft2, if_neg (by simp [h2])]
      exact ⟨_, rfl⟩
    choose R hR using hr
    have m0 : ∀ i, gridMean (R (J i)) = 0 := fun i => gridMean_realOfModes _ (hJ i) _ (hR _)
    have m0' : ∀ i, gridMean (R (J' i)) = 0 := fun i => gridMean_realOfModes _ (hJ' i) _ (hR _)
    have hm : ∀ m, linMoment { cfg with mu := mu } m x = linMoment cfg m x := fun m => rfl
    simp only [linOhm, h1, ne_eq, not_true_eq_false, if_false, hR, hm, bind, Except.bind, m0, m0']

theorem dfieldsHatDt_hybrid (cfg : LinCfg M1 M2 M3 ns N1 N2) (hh : cfg.hybrid = true) (x : LinF M1 M2 M3 ns N1 N2 ℂ)
    (y : LinEM N1 N2) (s : LinState M1 M2 M3 ns N1 N2) :
    (∀ E, linOhm cfg x ![y 3, y 4, y 5] (hybridJ cfg.dq1 cfg.dq2 cfg.mu y) = .ok E → ∃ k0 k1 k2, dfieldsHatDt cfg x y s
      = .ok (![k0, k1, k2, fun q => -E 2 q * I * (calculateK cfg.dq1 cfg.dq2 q).2, fun q => E 2 q * I * (calculateK cfg.dq1 cfg.dq2 q).1,
        fun q => E 0 q * I * (calculateK cfg.dq1 cfg.dq2 q).2 - E 1 q * I * (calculateK cfg.dq1 cfg.dq2 q).1],
        { s with fieldsHat := ![E 0, E 1, E 2, s.fieldsHat 3, s.fieldsHat 4, s.fieldsHat 5] })) ∧
    (∀ e, linOhm cfg x ![y 3, y 4, y 5] (hybridJ cfg.dq1 cfg.dq2 cfg.mu y) = .error e → dfieldsHatDt cfg x y s = .error e) := by
  have hJ : dfieldsHatDt cfg x y = (do
      let E ← linOhmWrite cfg x ![y 3, y 4, y 5] (hybridJ cfg.dq1 cfg.dq2 cfg.mu y)
      pure ![fun q => y 5 q * I * ((calculateK cfg.dq1 cfg.dq2 q).2 : ℂ) / (cfg.mu * cfg.eps) - hybridJ cfg.dq1 cfg.dq2 cfg.mu y 0 q / cfg.eps,
         fun q => -y 5 q * I * ((calculateK cfg.dq1 cfg.dq2 q).1 : ℂ) / (cfg.mu * cfg.eps) - hybridJ cfg.dq1 cfg.dq2 cfg.mu y 1 q / cfg.eps,
         fun q => (y 4 q * I * ((calculateK cfg.dq1 cfg.dq2 q).1 : ℂ) - y 3 q * I * ((calculateK cfg.dq1 cfg.dq2 q).2 : ℂ)) / (cfg.mu * cfg.eps)
           - hybridJ cfg.dq1 cfg.dq2 cfg.mu y 2 q / cfg.eps,
         fun q => -E 2 q * I * ((calculateK cfg.dq1 cfg.dq2 q).2 : ℂ),
         fun q => E 2 q * I * ((calculateK cfg.dq1 cfg.dq2 q).1 : ℂ),
         fun q => E 0 q * I * ((calculateK cfg.dq1 cfg.dq2 q).2 : ℂ) - E 1 q * I * ((calculateK cfg.dq1 cfg.dq2 q).1 : ℂ)]) := by
    simp only [dfieldsHatDt, hh, if_true, hybridJ]
  rw [hJ]
  refine ⟨fun E hE => ?_, fun e hE => ?_⟩ <;> simp only [linOhmWrite, hE]
  · exact ⟨_, _, _, rfl⟩
  · rfl

/-- C47 (negative): in the hybrid model the Hall term of Ohm's law never acts: the code multiplies the magnetic field by the grid mean of
the current, which is zero because the current is a curl.  The electric field used, the magnetic slopes and the state left behind are the same for every `mu`. -/
theorem C47_hybrid_has_no_hall_term (cfg : LinCfg M1 M2 M3 ns N1 N2) (hh : cfg.hybrid = true) (mu : ℝ) (x : LinF M1 M2 M3 ns N1 N2 ℂ)
    (y : LinEM N1 N2) (s : LinState M1 M2 M3 ns N1 N2) :
    (∀ k s', dfieldsHatDt cfg x y s = .ok (k, s') → ∃ k', dfieldsHatDt { cfg with mu := mu } x y s = .ok (k', s') ∧
      ∀ j : Fin 6, 3 ≤ j → k' j = k j) := by
  intro k s' e
  have ohm := linOhm_hall cfg mu x ![y 3, y 4, y 5] (hybridJ cfg.dq1 cfg.dq2 cfg.mu y) (hybridJ cfg.dq1 cfg.dq2 mu y)
    (hybridJ_zero _ _ _ _) (hybridJ_zero _ _ _ _)
  cases hE : linOhm cfg x ![y 3, y 4, y 5] (hybridJ cfg.dq1 cfg.dq2 cfg.mu y) with
  | error err => rw [(dfieldsHatDt_hybrid cfg hh x y s).2 err hE] at e; cases e
  | ok E =>
      obtain ⟨k0, k1, k2, h1⟩ := (dfieldsHatDt_hybrid cfg hh x y s).1 E hE
      obtain ⟨k0', k1', k2', h2⟩ := (dfieldsHatDt_hybrid { cfg with mu := mu } hh x y s).1 E (ohm.trans hE)
      rw [h1] at e
      obtain ⟨rfl, rfl⟩ := Prod.mk.inj (Except.ok.inj e)
      refine ⟨_, h2, fun j hj => ?_⟩
      fin_cases j <;> first | rfl | exact absurd hj (by decide)

/-- C47 (negative): the electron pressure term of the hybrid model lacks the factor `i` of a gradient: for any real density resolved by the
grid, the electric field in space it amounts to (`k` times the density amplitudes, transformed back) vanishes identically. -/
theorem C47_hybrid_pressure_lost (hN2 : N2 ≠ 1) (dq1 dq2 c : ℝ) (n : ZMod N1 × ZMod N2 → ℝ) (hr : Resolved n) :
    realOfModes (fun q => (c : ℂ) * (2 * afFft2 (fun j => (n j : ℂ)) q / ((N1 : ℂ) * N2)) * (calculateK dq1 dq2 q).1) = .ok 0 ∧
    realOfModes (fun q => (c : ℂ) * (2 * afFft2 (fun j => (n j : ℂ)) q / ((N1 : ℂ) * N2)) * (calculateK dq1 dq2 q).2) = .ok 0 := by
  have key : ∀ κ : ZMod N1 × ZMod N2 → ℝ, (∀ q, ¬ (Nyquist q.1 ∨ Nyquist q.2) → κ (-q) = -κ q) →
      realOfModes (fun q => (c : ℂ) * (2 * afFft2 (fun j => (n j : ℂ)) q / ((N1 : ℂ) * N2)) * κ q) = .ok 0 := by
    intro κ hκ
    have hz : ∀ q, Nyquist q.1 ∨ Nyquist q.2 → afFft2 (fun j => (n j : ℂ)) q = 0 := by
      intro q hq
      have := hr q hq
      rw [coeff_eq, div_eq_zero_iff] at this
      exact this.resolve_right cardN
    rw [realOfModes, ifft2, if_neg (by simp [hN2])]
    change Except.ok _ = _
    congr 1
    funext j
    simp only [reorder2301]
    set g : ZMod N1 × ZMod N2 → ℂ := fun q => afFft2 (fun j => (n j : ℂ)) q * κ q with hg
    have hsum : afIfft2 (fun k => 0.5 * (N2 : ℂ) * N1 * ((c : ℂ) * (2 * afFft2 (fun j => (n j : ℂ)) k / ((N1 : ℂ) * N2)) * κ k)) j / ((N1 : ℂ) * N2)
        = ((c / (N1 * N2) : ℝ) : ℂ) * ∑ k, g k * chi j k := by
      rw [afIfft2_eq, mul_sum, sum_div]
      refine sum_congr rfl fun k _ => ?_
      have hN := cardN (N1 := N1) (N2 := N2)
      have hN1 : (N1 : ℂ) ≠ 0 := Nat.cast_ne_zero.mpr (NeZero.ne N1)
      have hN2 : (N2 : ℂ) ≠ 0 := Nat.cast_ne_zero.mpr (NeZero.ne N2)
      rw [hg, show (0.5 : ℂ) = 1 / 2 by norm_num]
      push_cast
      field_simp
    rw [hsum, re_ofReal_mul]
    have hc : (starRingEnd ℂ) (∑ k, g k * chi j k) = -∑ k, g k * chi j k := by
      rw [map_sum, ← sum_neg_distrib, ← Equiv.sum_comp (Equiv.neg (ZMod N1 × ZMod N2))]
      refine sum_congr rfl fun k _ => ?_
      simp only [Equiv.neg_apply, map_mul, conj_chi, neg_neg, hg, conj_ofReal]
      by_cases hn : Nyquist k.1 ∨ Nyquist k.2
      · have : Nyquist (-k).1 ∨ Nyquist (-k).2 := by
          simpa only [Prod.fst_neg, Prod.snd_neg, nyquist_neg] using hn
        rw [hz k hn, hz _ this]; simp
      · rw [hκ k hn, ← fft_real n (-k), neg_neg]
        push_cast; ring
    have : (∑ k, g k * chi j k).re = 0 := by
      have := congrArg Complex.re hc
      rw [conj_re, neg_re] at this
      linarith
    rw [this]; simp
  refine ⟨key (fun q => (calculateK dq1 dq2 q).1) fun q hq => ?_, key (fun q => (calculateK dq1 dq2 q).2) fun q hq => ?_⟩ <;> push Not at hq
  · simp only [calculateK, Prod.fst_neg, fftfreq_neg _ _ hq.1]; ring
  · simp only [calculateK, Prod.snd_neg, fftfreq_neg _ _ hq.2]; ring

/-! ## Fields frozen during a step -/

section sim

variable {σ α β γ δ : Type}

/-- Whenever `c` from `s` does not raise, neither does `c'` from `s'`, and the outcomes are related. -/
def Sim (c : LinM σ α) (c' : LinM σ β) (s s' : σ) (Q : α → σ → β → σ → Prop) : Prop :=
  ∀ a t, c s = .ok (a, t) → ∃ b t', c' s' = .ok (b, t') ∧ Q a t b t'

theorem Sim.bind {c : LinM σ α} {c' : LinM σ β} {d : α → LinM σ γ} {d' : β → LinM σ δ} {s s' : σ} {Q : γ → σ → δ → σ → Prop}
    (h : Sim c c' s s' fun a t b t' => Sim (d a) (d' b) t t' Q) : Sim (c >>= d) (c' >>= d') s s' Q := by
  intro a t e
  change (c s >>= fun x => d x.1 x.2) = _ at e
  cases hc : c s with
  | error x => rw [hc] at e; cases e
  | ok x =>
      rw [hc] at e
      obtain ⟨b, t', h1, h2⟩ := h x.1 x.2 hc
      obtain ⟨b2, t2, h3, h4⟩ := h2 a t e
      exact ⟨b2, t2, by change (c' s' >>= fun x => d' x.1 x.2) = _; rw [h1]; exact h3, h4⟩

theorem Sim.left {c : LinM σ α} {d : α → LinM σ γ} {c' : LinM σ δ} {s s' : σ} {Q : γ → σ → δ → σ → Prop}
    (h : Post c s fun a t => Sim (d a) c' t s' Q) : Sim (c >>= d) c' s s' Q := by
  intro a t e
  change (c s >>= fun x => d x.1 x.2) = _ at e
  cases hc : c s with
  | error x => rw [hc] at e; cases e
  | ok x => rw [hc] at e; exact h x.1 x.2 hc a t e

theorem Sim.right {c : LinM σ α} {d' : β → LinM σ δ} {c' : LinM σ β} {s s' : σ} {Q : α → σ → δ → σ → Prop} (b : β) (t' : σ)
    (hc : c' s' = .ok (b, t')) (h : Sim c (d' b) s t' Q) : Sim c (c' >>= d') s s' Q := by
  intro a t e
  obtain ⟨b2, t2, h3, h4⟩ := h a t e
  exact ⟨b2, t2, by change (c' s' >>= fun x => d' x.1 x.2) = _; rw [hc]; exact h3, h4⟩

theorem Sim.pure {a : α} {b : β} {s s' : σ} {Q : α → σ → β → σ → Prop} (h : Q a s b s') :
    Sim (Pure.pure a : LinM σ α) (Pure.pure b) s s' Q := by
  intro _ _ e; cases e; exact ⟨b, s', rfl, h⟩

theorem Sim.mono {c : LinM σ α} {c' : LinM σ β} {s s' : σ} {Q R : α → σ → β → σ → Prop} (h : Sim c c' s s' Q)
    (hQ : ∀ a t b t', Q a t b t' → R a t b t') : Sim c c' s s' R := by
  intro a t e
  obtain ⟨b, t', h1, h2⟩ := h a t e
  exact ⟨b, t', h1, hQ _ _ _ _ h2⟩

theorem Sim.lift {e : Except PyErr α} {s s' : σ} {Q : α → σ → α → σ → Prop} (h : ∀ a, e = .ok a → Q a s a s') :
    Sim (liftM e : LinM σ α) (liftM e) s s' Q := by
  intro a t h1
  cases e with
  | error x => cases h1
  | ok x => cases h1; exact ⟨_, _, rfl, h _ rfl⟩

end sim

/-- The step of the electrodynamic solver and the step with the fields held fixed see the same fields. -/
def FrozenRel (s s' : LinState M1 M2 M3 ns N1 N2) : Prop := s.time = s'.time ∧ s.fieldsHat = s'.attrs ∧ s.fieldsHat = s'.fieldsHat

theorem dfHatDt_frozen (cfg : LinCfg M1 M2 M3 ns N1 N2) (ht : cfg.fieldsType = "electrodynamic")
    (x : LinF M1 M2 M3 ns N1 N2 ℂ) (y y' : LinEM N1 N2) (s s' : LinState M1 M2 M3 ns N1 N2) (h : FrozenRel s s') :
    Sim (dfHatDt cfg x y) (dfHatDt { cfg with fieldsType := "None" } x y') s s' fun k t k' t' => k = k' ∧ FrozenRel t t' := by
  refine .left (.get (.right _ _ rfl ?_))
  rw [h.1]
  refine .bind (Sim.mono (Q := fun a t b t' => a = b ∧ t = s ∧ t' = s') ?_ ?_)
  · change Sim (if cfg.sourceEnabled = true then liftM (linSourceTerm cfg s'.time x) else pure 0)
      (if cfg.sourceEnabled = true then liftM (linSourceTerm cfg s'.time x) else pure 0) _ _ _
    split_ifs
    · exact .lift fun a _ => ⟨rfl, rfl, rfl⟩
    · exact .pure ⟨rfl, rfl, rfl⟩
  rintro a t b t' ⟨rfl, rfl, rfl⟩
  refine .bind (Sim.mono (Q := fun a t b t' => a = b ∧ FrozenRel t t') ?_ ?_)
  · change Sim (if cfg.fieldsEnabled = true then linForceTerm cfg t'.time x else pure 0)
      (if cfg.fieldsEnabled = true then linForceTerm { cfg with fieldsType := "None" } t'.time x else pure 0) _ _ _
    split_ifs
    · rw [linForceTerm, linForceTerm]
      have e1 : linUpdateFields cfg x = pure () := by
        rw [linUpdateFields, ht, if_neg (by decide), if_pos rfl]
      have e2 : linUpdateFields { cfg with fieldsType := "None" } x = pure () := by
        rw [linUpdateFields, if_neg (show ¬ "None" = "electrostatic" by decide), if_neg (show ¬ "None" = "electrodynamic" by decide), if_pos rfl]
      rw [e1, e2]
      refine .left (.pure (.right _ _ rfl ?_))
      refine .bind ?_
      rintro em u hu
      rw [ht] at hu
      change Except.ok (t.fieldsHat, { t with attrs := t.fieldsHat }) = _ at hu
      obtain ⟨rfl, rfl⟩ := Prod.mk.inj (Except.ok.inj hu)
      refine ⟨t'.attrs, t', rfl, ?_⟩
      refine .left (.get (.right _ _ rfl ?_))
      refine .bind (.lift fun d1 _ => .bind (.lift fun d2 _ => .bind (.lift fun d3 _ => .pure ⟨?_, h⟩)))
      change linForce cfg t'.time t.fieldsHat ![t.fieldsHat 3 0 / 2, t.fieldsHat 4 0 / 2, t.fieldsHat 5 0 / 2] d1 d2 d3 x
        = linForce cfg t'.time t'.attrs ![t'.fieldsHat 3 0 / 2, t'.fieldsHat 4 0 / 2, t'.fieldsHat 5 0 / 2] d1 d2 d3 x
      rw [← h.2.1, ← h.2.2]
    · exact .pure ⟨rfl, h⟩
  rintro a t b t' ⟨rfl, h'⟩
  exact .pure ⟨rfl, h'⟩

/-- C47 (negative): during an electrodynamic step the distribution function does not feel the fields evolve: the new distribution function is
exactly the one obtained by holding the fields at their values at the start of the step (the intermediate field values that the
integrator passes to the slope are ignored). -/
theorem C47_fields_frozen_during_step (cfg : LinCfg M1 M2 M3 ns N1 N2) (ht : cfg.fieldsType = "electrodynamic") (hf : cfg.fieldsEnabled = true)
    (hh : cfg.hybrid = false) (m : LinScheme) (dt : ℝ) (s t : LinState M1 M2 M3 ns N1 N2) (hrun : linStep m cfg dt s = .ok ((), t)) :
    ∃ t', linStep m { cfg with fieldsType := "None" } dt { s with attrs := s.fieldsHat } = .ok ((), t') ∧ t'.fHat = t.fHat := by
  set cfg' := { cfg with fieldsType := "None" } with hcfg
  have hFF : ∀ x y y' s s', FrozenRel s s' → Sim (dfHatDt cfg x y) (dfHatDt cfg' x y') s s' fun k t k' t' => k = k' ∧ FrozenRel t t' :=
    fun x y y' s s' h => dfHatDt_frozen cfg ht x y y' s s' h
  have hG : ∀ x y (s s' : LinState M1 M2 M3 ns N1 N2), FrozenRel s s' → Post (dfieldsHatDt cfg x y) s fun _ t => FrozenRel t s' := by
    intro x y s s' h k t e
    rw [dfieldsHatDt_eq cfg hh] at e
    obtain ⟨-, rfl⟩ := Prod.mk.inj (Except.ok.inj e)
    exact h
  have hT : ∀ c (s s' : LinState M1 M2 M3 ns N1 N2), FrozenRel s s' → Sim (linTick c) (linTick c) s s' fun _ t _ t' => FrozenRel t t' := by
    intro c s s' h a t e
    change Except.ok ((), { s with time := s.time + c }) = _ at e
    obtain ⟨-, rfl⟩ := Prod.mk.inj (Except.ok.inj e)
    exact ⟨(), { s' with time := s'.time + c }, rfl, by simp only [h.1], h.2⟩
  have hR : ∀ (s s' : LinState M1 M2 M3 ns N1 N2), FrozenRel s s' → Post linFieldsRef s fun _ t => FrozenRel t s' :=
    fun s s' h => .bind (.get (.pure h))
  have main : ∀ (x0 : LinF M1 M2 M3 ns N1 N2 ℂ) (em : LinEM N1 N2) (s s' : LinState M1 M2 M3 ns N1 N2), FrozenRel s s' →
      Sim (m.coupled linTick (dfHatDt cfg) x0 (dfieldsHatDt cfg) linFieldsRef dt) (m.single linTick (fun x => dfHatDt cfg' x em) x0 dt) s s'
        fun r _ r' _ => r.1 = r' := by
    intro x0 em s s' h
    cases m with
    | rk2 =>
        refine .left ((hR _ _ h).mono fun _ _ h => ?_)
        refine .bind ((hFF _ _ _ _ _ h).mono ?_)
        rintro k1 _ _ _ ⟨rfl, h⟩
        refine .left ((hR _ _ h).mono fun _ _ h => .left ((hG _ _ _ _ h).mono fun _ _ h => .left ((hR _ _ h).mono fun _ _ h => ?_)))
        refine .bind ((hT _ _ _ h).mono fun _ _ _ _ h => .bind ((hFF _ _ _ _ _ h).mono ?_))
        rintro k2 _ _ _ ⟨rfl, h⟩
        refine .left ((hG _ _ _ _ h).mono fun _ _ h => .left ((hR _ _ h).mono fun _ _ h => ?_))
        exact .bind ((hT _ _ _ h).mono fun _ _ _ _ h => .pure rfl)
    | rk4 =>
        refine .left ((hR _ _ h).mono fun _ _ h => ?_)
        refine .bind ((hFF _ _ _ _ _ h).mono ?_)
        rintro k1 _ _ _ ⟨rfl, h⟩
        refine .left ((hR _ _ h).mono fun _ _ h => .left ((hG _ _ _ _ h).mono fun _ _ h => ?_))
        refine .bind ((hT _ _ _ h).mono fun _ _ _ _ h => .left ((hR _ _ h).mono fun _ _ h => .bind ((hFF _ _ _ _ _ h).mono ?_)))
        rintro k2 _ _ _ ⟨rfl, h⟩
        refine .left ((hG _ _ _ _ h).mono fun _ _ h => .left ((hR _ _ h).mono fun _ _ h => .bind ((hFF _ _ _ _ _ h).mono ?_)))
        rintro k3 _ _ _ ⟨rfl, h⟩
        refine .left ((hG _ _ _ _ h).mono fun _ _ h => .left ((hR _ _ h).mono fun _ _ h => ?_))
        refine .bind ((hT _ _ _ h).mono fun _ _ _ _ h => .bind ((hFF _ _ _ _ _ h).mono ?_))
        rintro k4 _ _ _ ⟨rfl, h⟩
        exact .left ((hG _ _ _ _ h).mono fun _ _ h => .left ((hR _ _ h).mono fun _ _ h => .pure rfl))
    | rk5 =>
        refine .left ((hR _ _ h).mono fun _ _ h => ?_)
        refine .bind ((hFF _ _ _ _ _ h).mono ?_)
        rintro k1 _ _ _ ⟨rfl, h⟩
        refine .left ((hR _ _ h).mono fun _ _ h => .left ((hG _ _ _ _ h).mono fun _ _ h => .left ((hR _ _ h).mono fun _ _ h => ?_)))
        refine .bind ((hT _ _ _ h).mono fun _ _ _ _ h => .bind ((hFF _ _ _ _ _ h).mono ?_))
        rintro k2 _ _ _ ⟨rfl, h⟩
        refine .left ((hG _ _ _ _ h).mono fun _ _ h => .left ((hR _ _ h).mono fun _ _ h => .bind ((hFF _ _ _ _ _ h).mono ?_)))
        rintro k3 _ _ _ ⟨rfl, h⟩
        refine .left ((hG _ _ _ _ h).mono fun _ _ h => .left ((hR _ _ h).mono fun _ _ h => ?_))
        refine .bind ((hT _ _ _ h).mono fun _ _ _ _ h => .bind ((hFF _ _ _ _ _ h).mono ?_))
        rintro k4 _ _ _ ⟨rfl, h⟩
        refine .left ((hG _ _ _ _ h).mono fun _ _ h => .left ((hR _ _ h).mono fun _ _ h => ?_))
        refine .bind ((hT _ _ _ h).mono fun _ _ _ _ h => .bind ((hFF _ _ _ _ _ h).mono ?_))
        rintro k5 _ _ _ ⟨rfl, h⟩
        refine .left ((hG _ _ _ _ h).mono fun _ _ h => .left ((hR _ _ h).mono fun _ _ h => ?_))
        refine .bind ((hT _ _ _ h).mono fun _ _ _ _ h => .bind ((hFF _ _ _ _ _ h).mono ?_))
        rintro k6 _ _ _ ⟨rfl, h⟩
        exact .left ((hG _ _ _ _ h).mono fun _ _ h => .left ((hR _ _ h).mono fun _ _ h => .pure rfl))
  have step : Sim (linStep m cfg dt) (linStep m cfg' dt) s { s with attrs := s.fieldsHat } fun _ t _ t' => t.fHat = t'.fHat := by
    refine .bind (Sim.mono (Q := fun _ t _ t' => FrozenRel t t' ∧ t.fHat = t'.fHat) ?_ ?_)
    · change Sim (if cfg.instantaneous = true then linCollide cfg else pure ()) (if cfg.instantaneous = true then linCollide cfg' else pure ()) _ _ _
      split_ifs
      · refine .left (.get (.right _ _ rfl ?_))
        refine .bind (.lift fun y _ => ?_)
        intro a t e
        change Except.ok ((), _) = _ at e
        obtain ⟨-, rfl⟩ := Prod.mk.inj (Except.ok.inj e)
        exact ⟨(), _, rfl, ⟨rfl, rfl, rfl⟩, rfl⟩
      · exact .pure ⟨⟨rfl, rfl, rfl⟩, rfl⟩
    rintro _ t _ t' ⟨h, hx⟩
    refine .left (.get (.right _ _ rfl ?_))
    rw [if_pos ⟨hf, ht⟩, if_neg (by rintro ⟨_, h⟩; exact absurd h (show ¬ "None" = "electrodynamic" by decide)), hx]
    refine .right _ _ rfl (.bind ((main _ _ _ _ h).mono fun r u r' u' hr => ?_))
    intro a v e
    change Except.ok ((), _) = _ at e
    obtain ⟨-, rfl⟩ := Prod.mk.inj (Except.ok.inj e)
    exact ⟨(), _, rfl, hr⟩
  obtain ⟨⟨⟩, t', h1, h2⟩ := step () t hrun
  exact ⟨t', h1, h2.symm⟩

/-! ## Concrete cases -/

/-- The momentum grid of the example is a product grid and its background derivatives come from a (non-constant) background, as the
conservation theorems require; the electrodynamic, electrostatic and hybrid variants run. -/
example : LinProductGrid (exLin true false false false "electrodynamic").coords ∧ (exLin true false false false "electrodynamic").FromBackground ∧
    (exLin true false false false "electrodynamic").eps ≠ 0 :=
  ⟨⟨⟨fun _ j => j.val - 2, fun _ _ => rfl⟩, ⟨fun _ j => 2 * j.val - 2, fun _ _ => rfl⟩, ⟨fun _ _ => 0, fun _ _ => rfl⟩⟩,
    ⟨fun p _ => p.1.val, rfl⟩, by simp [exLin]⟩

example (l : List (LinScheme × ℝ)) (s : LinState 5 3 1 1 3 3) : (∃ t, linRun (exLin true false false false "electrodynamic").nonrel l s = .ok ((), t)) ∧
    (∃ t, linRun (exLin true false false false "electrostatic").nonrel l s = .ok ((), t)) ∧
    ∃ t, linRun (exLin true true true true "electrodynamic").nonrel l s = .ok ((), t) :=
  ⟨C46_never_raises _ (fun _ => by decide) (fun _ => ⟨.inl rfl, by simp [exLin, LinCfg.nonrel]⟩) (fun _ => ⟨rfl, by decide⟩) l s,
    C46_never_raises _ (fun _ => by decide) (fun _ => ⟨.inl rfl, by simp [exLin, LinCfg.nonrel]⟩) (fun _ => ⟨rfl, by decide⟩) l s,
    C46_never_raises _ (fun _ => by decide) (fun _ => ⟨.inl rfl, by simp [exLin, LinCfg.nonrel]⟩) (fun _ => ⟨rfl, by decide⟩) l s⟩

/-- The constructor succeeds from the electrostatic solve with a vector potential. -/
example (f : LinF 5 3 1 1 3 3 ℝ) (E : Fin 3 → ZMod 3 × ZMod 3 → ℝ) (A3 B3 : ZMod 3 × ZMod 3 → ℝ) :
    ∃ st, linInit (exLin true false false false "electrodynamic").nonrel "fft + user-defined magnetic fields" E (.initA3B3 A3 B3) f = .ok st := by
  have e : ∃ B, linInitB (N1 := 3) (N2 := 3) (exLin true false false false "electrodynamic").nonrel.dq1
      (exLin true false false false "electrodynamic").nonrel.dq2 (.initA3B3 A3 B3) = .ok B := by
    simp only [linInitB, ifft2]
    exact ⟨_, rfl⟩
  obtain ⟨B, hB⟩ := e
  simp only [linInit, linInitFields, hB]
  exact ⟨_, rfl⟩

/-- Two species on a grid with three cells along `p2`: the hypotheses of `C46_multispecies_fields_raise`. -/
example : (2 : ℕ) ≠ 1 ∧ (2 : ℕ) ≠ 3 := by decide

end Bolt
