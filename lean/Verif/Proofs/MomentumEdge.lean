import Verif.Spec.MomentumEdge
import Verif.Proofs.Decomp

/-! Lemmas for C108. -/

set_option linter.unusedSectionVars false

namespace Bolt

variable {S P P' Q K : Type} [AddCommGroup P] [AddCommGroup P'] [AddCommGroup Q] [Field K] [LinearOrder K] [IsStrictOrderedRing K]

theorem phi_zsmul {φ : P' → P} {e' : P'} {e : P} (h : ∀ p, φ (p + e') = φ p + e) (p : P') (k : ℤ) : φ (p + k • e') = φ p + k • e := by
  induction k using Int.induction_on with
  | zero => simp
  | succ n ih => rw [add_smul, one_smul, ← add_assoc, h, ih, add_smul, one_smul, add_assoc]
  | pred n ih =>
    have := h (p + (-(n : ℤ) - 1) • e')
    rw [add_assoc, ← one_smul ℤ e', ← mul_smul, mul_one, ← add_smul, sub_add_cancel, ih] at this
    rw [sub_smul (-(n : ℤ)) 1 e, one_smul, ← add_sub_assoc, this, add_sub_cancel_right]

theorem depth_zsmul {depth : P' → ℤ} {e' : P'} (h : ∀ p, |depth (p + e') - depth p| ≤ 1) (p : P') (k : ℤ) :
    |depth (p + k • e') - depth p| ≤ |k| := by
  induction k using Int.induction_on with
  | zero => simp
  | succ n ih =>
    have := h (p + (n : ℤ) • e')
    rw [add_smul, one_smul, ← add_assoc]
    have e1 : |((n : ℤ) + 1)| = n + 1 := abs_of_nonneg (by omega)
    have e2 : |(n : ℤ)| = n := abs_of_nonneg (by omega)
    rw [e2] at ih
    rw [e1, abs_le] at *
    constructor <;> linarith [this.1, this.2, ih.1, ih.2]
  | pred n ih =>
    have := h (p + (-(n : ℤ) - 1) • e')
    rw [add_assoc, ← one_smul ℤ e', ← mul_smul, mul_one, ← add_smul, sub_add_cancel] at this
    have e1 : |(-(n : ℤ) - 1)| = n + 1 := by rw [abs_of_nonpos (by omega)]; ring
    have e2 : |-(n : ℤ)| = n := by rw [abs_neg]; exact abs_of_nonneg (by omega)
    rw [e2] at ih
    rw [e1]
    rw [abs_le] at *
    constructor <;> linarith [this.1, this.2, ih.1, ih.2]

/-- A flux difference of nothing. -/
theorem fluxDiv_nothing {I : Type} [AddCommGroup I] (m : Recon) (e : I) (d : K) (C x : I → K) (i : I)
    (h : ∀ k : ℤ, |k| ≤ m.radius → x (i + k • e) = 0) : fluxDiv m e d C x i = 0 := by
  have a := fluxDiv_congr m e e d C C x (fun _ => 0) i i rfl rfl (fun k hk => by rw [h k hk])
  rw [a]
  have z : ∀ j, leftState m e C (fun _ => (0 : K)) j = 0 := by
    intro j
    have r := reconFaces_congr m e e (fun _ : I => (0 : K)) (fun _ => 0) j j fun _ _ => rfl
    rw [leftState_eq]
    have c1 : ∀ j, (reconFaces m e (fun _ : I => (0 : K))).1 j = 0 ∧ (reconFaces m e (fun _ : I => (0 : K))).2 j = 0 := by
      intro j
      cases m with
      | piecewiseConstant => exact ⟨rfl, rfl⟩
      | minmod => simp [reconFaces, reconstructMinmod, slopeMinmod, minmod, afShift, afSign]
      | ppm => simp [reconFaces, reconstructPPM, ppmCell, ppmDQ, afShift, b2k]
    simp [(c1 _).1, (c1 _).2]
  rw [fluxDiv_eq]
  simp [z]

theorem dFluxP_eq_fluxDiv (m : Recon) (e : P) (dp : S → K) (C f : Dist S P Q K) (s : S) (p : P) (q : Q) :
    dFluxP m e dp C f s p q = fluxDiv m e (dp s) (fun p => C s p q) (fun p => f s p q) p := by
  simp only [dFluxP, fluxDiv]
  rw [mul_one_div]

section stage

variable {ax : Axes P Q} {ax' : Axes P' Q} {φ : P' → P} {depth : P' → ℤ} {n r : ℕ} {f : Dist S P Q K} {f' : Dist S P' Q K}

/-- Values of the run near the edge, cells outside included. -/
theorem ContinuedState.near (hU : Continues ax ax' φ depth) (hf : ContinuedState φ depth (n + 2 * r) f f') (s : S) (p : P') (q : Q)
    (h1 : -(r : ℤ) ≤ depth p) (h2 : depth p < 2 * r) : f s (φ p) q = 0 := by
  rcases lt_or_ge (depth p) 0 with h | h
  · obtain ⟨p', e, a, b⟩ := hU.wraps p h
    rw [← e, ← hf.1 s p' q a]
    exact hf.2 s p' q (by push_cast; omega)
  · rw [← hf.1 s p q h]
    exact hf.2 s p q (by push_cast; omega)

theorem ContinuedState.axis (hU : Continues ax ax' φ depth) (hf : ContinuedState φ depth (n + 2 * r) f f') (hr : 1 ≤ r) {e' : P'} {e : P}
    (he : ∀ p, φ (p + e') = φ p + e) (hd : ∀ p, |depth (p + e') - depth p| ≤ 1) {m : Recon} (hm : m.radius ≤ r) (dp : S → K)
    (C : Dist S P Q K) (C' : Dist S P' Q K) (hC : ∀ s p q, 0 ≤ depth p → C' s p q = C s (φ p) q) (s : S) (p : P') (q : Q) :
    (0 ≤ depth p → dFluxP m e' dp C' f' s p q = dFluxP m e dp C f s (φ p) q) ∧ (depth p < n + r → dFluxP m e' dp C' f' s p q = 0) := by
  have hz : depth p < n + r → dFluxP m e' dp C' f' s p q = 0 := by
    intro h
    rw [dFluxP_eq_fluxDiv]
    refine fluxDiv_nothing _ _ _ _ _ _ fun k hk => hf.2 s _ q ?_
    have := depth_zsmul hd p k
    rw [abs_le] at this
    push_cast; omega
  refine ⟨fun h0 => ?_, hz⟩
  rcases lt_or_ge (depth p) r with h | h
  · rw [hz (by omega), dFluxP_eq_fluxDiv]
    refine (fluxDiv_nothing _ _ _ _ _ _ fun k hk => ?_).symm
    rw [← phi_zsmul he]
    have := depth_zsmul hd p k
    rw [abs_le] at this
    exact hf.near hU s _ q (by omega) (by omega)
  · rw [dFluxP_eq_fluxDiv, dFluxP_eq_fluxDiv]
    refine fluxDiv_congr m e' e (dp s) _ _ _ _ p (φ p) (hC s p q h0) ?_ fun k hk => ?_
    · rw [← he]
      have := hd p
      rw [abs_le] at this
      exact hC s _ q (by omega)
    · rw [← phi_zsmul he]
      have := depth_zsmul hd p k
      rw [abs_le] at this
      exact hf.1 s _ q (by omega)

/-- One slope. -/
theorem slope_continues (hU : Continues ax ax' φ depth) {cfg : FVMConfig S K} (hsrc : cfg.sourceEnabled = false) (hr : 1 ≤ r)
    (hm : ∀ m, reconMethod cfg.reconstructionInP = .ok m → m.radius ≤ r) {cb : Callbacks S P Q K} {cb' : Callbacks S P' Q K}
    (hcb : ContinuedCallbacks φ depth cb cb') (hf : ContinuedState φ depth (n + 2 * r) f f') {k : Dist S P Q K}
    (h : dfdtFVM ax cfg cb f = .ok k) :
    ∃ k', dfdtFVM ax' cfg cb' f' = .ok k' ∧ ContinuedState φ depth (n + r) k k' := by
  have hex : ∃ k', dfdtFVM ax' cfg cb' f' = .ok k' := by
    unfold dfdtFVM at h ⊢
    by_cases hq : cfg.solverMethodInQ = "FVM" <;> by_cases hp : cfg.solverMethodInP = "FVM" ∧ cfg.fieldsEnabled = true
    all_goals
      cases hmq : reconMethod cfg.reconstructionInQ <;> cases hmp : reconMethod cfg.reconstructionInP <;>
      simp [hq, hp, hmq, hmp, hsrc, bind, Except.bind, pure, Except.pure] at h ⊢
  obtain ⟨k', h'⟩ := hex
  refine ⟨k', h', ?_⟩
  obtain ⟨a, b, e, ha, hb⟩ := dfdtFVM_ok h
  obtain ⟨a', b', e', ha', hb'⟩ := dfdtFVM_ok h'
  have A : ∀ s p q, (0 ≤ depth p → a' s p q = a s (φ p) q) ∧ (depth p < n + r → a' s p q = 0) := by
    intro s p q
    rcases ha with ⟨hQ, m, hm1, ha⟩ | ⟨hQ, ha⟩ <;> rcases ha' with ⟨hQ', m2, hm2, ha'⟩ | ⟨hQ', ha'⟩
    · rw [hm1] at hm2
      cases hm2
      rw [ha, ha', hsrc]
      simp only [Bool.false_eq_true, if_false, add_zero, dfdtQ, hU.q1, hU.q2]
      refine ⟨fun h0 => ?_, fun h0 => ?_⟩
      · have r1 : f' s p = f s (φ p) := by funext q; exact hf.1 s p q h0
        have r2 : cb'.Cq1 s p = cb.Cq1 s (φ p) := by funext q; exact (hcb s p q h0).1
        have r3 : cb'.Cq2 s p = cb.Cq2 s (φ p) := by funext q; exact (hcb s p q h0).2.1
        rw [r1, r2, r3]
      · have r1 : ∀ q, f' s p q = 0 := fun q => hf.2 s p q (by push_cast; omega)
        rw [fluxDiv_nothing _ _ _ _ _ _ fun k _ => r1 _, fluxDiv_nothing _ _ _ _ _ _ fun k _ => r1 _]; simp
    · exact absurd hQ hQ'
    · exact absurd hQ' hQ
    · rw [ha, ha']; simp
  have B : ∀ s p q, (0 ≤ depth p → b' s p q = b s (φ p) q) ∧ (depth p < n + r → b' s p q = 0) := by
    intro s p q
    rcases hb with ⟨hA, m, hm1, hb⟩ | ⟨hA, hb⟩ <;> rcases hb' with ⟨hA', m2, hm2, hb'⟩ | ⟨hA', hb'⟩
    · rw [hm1] at hm2
      cases hm2
      have x1 := hf.axis hU hr hU.step1 hU.depth1 (hm m hm1) cfg.dp1 cb.Cp1 cb'.Cp1 (fun s p q h => (hcb s p q h).2.2.1) s p q
      have x2 := hf.axis hU hr hU.step2 hU.depth2 (hm m hm1) cfg.dp2 cb.Cp2 cb'.Cp2 (fun s p q h => (hcb s p q h).2.2.2.1) s p q
      have x3 := hf.axis hU hr hU.step3 hU.depth3 (hm m hm1) cfg.dp3 cb.Cp3 cb'.Cp3 (fun s p q h => (hcb s p q h).2.2.2.2) s p q
      rw [hb, hb']
      simp only [dfdtP]
      refine ⟨fun h0 => ?_, fun h0 => ?_⟩
      · rw [x1.1 h0, x2.1 h0, x3.1 h0]
      · rw [x1.2 h0, x2.2 h0, x3.2 h0]; simp
    · exact absurd hA hA'
    · exact absurd hA' hA
    · rw [hb, hb']; simp
  refine ⟨fun s p q h0 => ?_, fun s p q h0 => ?_⟩
  · rw [e, e', (A s p q).1 h0, (B s p q).1 h0]
  · push_cast at h0
    rw [e', (A s p q).2 h0, (B s p q).2 h0, add_zero]

theorem ContinuedState.addMul {N : ℕ} {k : Dist S P Q K} {k' : Dist S P' Q K} (hf : ContinuedState φ depth N f f') {M : ℕ} (hM : M ≤ N)
    (hk : ContinuedState φ depth M k k') (c : K) :
    ContinuedState φ depth M (fun s p q => f s p q + k s p q * c) (fun s p q => f' s p q + k' s p q * c) :=
  ⟨fun s p q h => by simp only [hf.1 s p q h, hk.1 s p q h], fun s p q h => by
    simp only [hf.2 s p q (by omega), hk.2 s p q h, zero_mul, add_zero]⟩

/-- One step. -/
theorem step_continues (hU : Continues ax ax' φ depth) {cfg : FVMConfig S K} (hsrc : cfg.sourceEnabled = false) (hr : 1 ≤ r)
    (hm : ∀ m, reconMethod cfg.reconstructionInP = .ok m → m.radius ≤ r) {cb : Fin 2 → Callbacks S P Q K} {cb' : Fin 2 → Callbacks S P' Q K}
    (hcb : ∀ k, ContinuedCallbacks φ depth (cb k) (cb' k)) (dt : K) (hf : ContinuedState φ depth (n + 3 * r) f f') {g : Dist S P Q K}
    (h : timestepFVM (fun f => .ok f) (fun k => dfdtFVM ax cfg (cb k)) dt f = .ok g) :
    ∃ g', timestepFVM (fun f => .ok f) (fun k => dfdtFVM ax' cfg (cb' k)) dt f' = .ok g' ∧ ContinuedState φ depth (n + r) g g' := by
  cases h0 : dfdtFVM ax cfg (cb 0) f with
  | error e => simp [timestepFVM, h0, bind, Except.bind] at h
  | ok k0 =>
    cases h1 : dfdtFVM ax cfg (cb 1) (fun s p q => f s p q + k0 s p q * (dt / 2)) with
    | error e => simp [timestepFVM, h0, h1, bind, Except.bind] at h
    | ok k1 =>
      simp [timestepFVM, h0, h1, bind, Except.bind, pure, Except.pure] at h
      have hf3 : ContinuedState φ depth (n + r + 2 * r) f f' := by rw [show n + r + 2 * r = n + 3 * r by ring]; exact hf
      obtain ⟨k0', a0, b0⟩ := slope_continues hU hsrc hr hm (hcb 0) hf3 h0
      have hh := hf3.addMul (by omega) b0 (dt / 2)
      rw [show n + r + r = n + 2 * r by ring] at hh
      obtain ⟨k1', a1, b1⟩ := slope_continues hU hsrc hr hm (hcb 1) hh h1
      refine ⟨fun s p q => f' s p q + k1' s p q * dt, ?_, ?_⟩
      · simp [timestepFVM, a0, a1, bind, Except.bind, pure, Except.pure]
      · rw [← h]; exact hf3.addMul (by omega) b1 dt

end stage

end Bolt
