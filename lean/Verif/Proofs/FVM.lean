import Verif.Model.FVM
import Verif.Proofs.PPM
import Mathlib.Algebra.BigOperators.Group.Finset.Basic
import Mathlib.Algebra.BigOperators.Ring.Finset
import Mathlib.Algebra.BigOperators.Field
import Mathlib.Data.Fintype.BigOperators
import Mathlib.Tactic.Abel

/-! Helper lemmas about the finite-volume slope. -/

set_option linter.unusedSectionVars false

namespace Bolt

open Finset

variable {I K : Type} [AddCommGroup I] [Field K] [LinearOrder K] [IsStrictOrderedRing K]

theorem sum_afShift [Fintype I] (e : I) (k : ℤ) (x : I → K) : ∑ i, afShift e k x i = ∑ i, x i :=
  Equiv.sum_comp (Equiv.subRight (k • e)) x

theorem sum_fluxDiv [Fintype I] (m : Recon) (e : I) (d : K) (C x : I → K) :
    ∑ i, fluxDiv m e d C x i = 0 := by
  simp only [fluxDiv]
  rw [← Finset.sum_div, Finset.sum_sub_distrib, sum_afShift]; simp

theorem reconFaces_const (m : Recon) (e : I) (c : K) :
    reconFaces m e (fun _ => c) = (fun _ => c, fun _ => c) := by
  cases m with
  | piecewiseConstant => rfl
  | minmod => simp [reconFaces, reconstructMinmod, slopeMinmod_eq, minmod]
  | ppm =>
    have : ppmBase c c c c = c := by
      simp [ppmBase, dq_zero]; ring
    simp [reconFaces, reconstructPPM, afShift, ppmCell_eq, this, ppmLimit]

theorem leftState_const (m : Recon) (e : I) (C : I → K) (c : K) :
    leftState m e C (fun _ => c) = fun _ => c := by
  funext i
  simp [leftState, reconFaces_const, riemann, afSelect, afShift]

theorem leftState_eq (m : Recon) (e : I) (C x : I → K) (i : I) :
    leftState m e C x i = if 0 < C i then (reconFaces m e x).2 (i - e) else (reconFaces m e x).1 i := by
  simp [leftState, riemann, afSelect]

theorem fluxDiv_eq (m : Recon) (e : I) (d : K) (C x : I → K) (i : I) :
    fluxDiv m e d C x i = (C (i + e) * leftState m e C x (i + e) - C i * leftState m e C x i) / d := by
  simp [fluxDiv, leftFlux]

variable {S P Q : Type} [AddCommGroup P] [AddCommGroup Q]

theorem sum_dFluxP [Fintype P] (m : Recon) (e : P) (dp : S → K) (C f : Dist S P Q K) (s : S) (q : Q) :
    ∑ p, dFluxP m e dp C f s p q = 0 := by
  simp only [dFluxP]
  rw [← Finset.sum_mul, Finset.sum_sub_distrib, sum_afShift]; simp

theorem sum_dfdtQ [Fintype Q] (ax : Axes P Q) (m : Recon) (dq1 dq2 : K) (C1 C2 f : Dist S P Q K) (s : S) (p : P) :
    ∑ q, dfdtQ ax m dq1 dq2 C1 C2 f s p q = 0 := by
  simp [dfdtQ, Finset.sum_sub_distrib, sum_fluxDiv]

theorem sum_dfdtP [Fintype P] (ax : Axes P Q) (m : Recon) (dp1 dp2 dp3 : S → K) (C1 C2 C3 f : Dist S P Q K)
    (s : S) (q : Q) : ∑ p, dfdtP ax m dp1 dp2 dp3 C1 C2 C3 f s p q = 0 := by
  simp [dfdtP, Finset.sum_add_distrib, sum_dFluxP]

/-- The successful outcomes of `df_dt_fvm`. -/
theorem dfdtFVM_ok {ax : Axes P Q} {cfg : FVMConfig S K} {cb : Callbacks S P Q K} {f k : Dist S P Q K}
    (h : dfdtFVM ax cfg cb f = .ok k) :
    ∃ a b : Dist S P Q K, (∀ s p q, k s p q = a s p q + b s p q) ∧
      ((cfg.solverMethodInQ = "FVM" ∧ ∃ m, reconMethod cfg.reconstructionInQ = .ok m ∧
          ∀ s p q, a s p q = dfdtQ ax m cfg.dq1 cfg.dq2 cb.Cq1 cb.Cq2 f s p q +
            if cfg.sourceEnabled = true then cb.source f s p q else 0) ∨
        (cfg.solverMethodInQ ≠ "FVM" ∧ ∀ s p q, a s p q = 0)) ∧
      (((cfg.solverMethodInP = "FVM" ∧ cfg.fieldsEnabled = true) ∧ ∃ m, reconMethod cfg.reconstructionInP = .ok m ∧
          ∀ s p q, b s p q = dfdtP ax m cfg.dp1 cfg.dp2 cfg.dp3 cb.Cp1 cb.Cp2 cb.Cp3 f s p q) ∨
        (¬ (cfg.solverMethodInP = "FVM" ∧ cfg.fieldsEnabled = true) ∧ ∀ s p q, b s p q = 0)) := by
  unfold dfdtFVM at h
  by_cases hq : cfg.solverMethodInQ = "FVM"
  · cases hm : reconMethod cfg.reconstructionInQ with
    | error err => simp [hq, hm, bind, Except.bind] at h
    | ok m =>
      by_cases hs : cfg.sourceEnabled = true
      all_goals
        by_cases hp : cfg.solverMethodInP = "FVM" ∧ cfg.fieldsEnabled = true
        · cases hm2 : reconMethod cfg.reconstructionInP with
          | error err => simp [hq, hm, hs, hp, hm2, bind, Except.bind, pure, Except.pure] at h
          | ok m2 =>
            simp [hq, hm, hs, hp, hm2, bind, Except.bind, pure, Except.pure] at h
            subst h
            exact ⟨_, _, fun _ _ _ => rfl, Or.inl ⟨hq, m, rfl, by simp [hs]⟩, Or.inl ⟨hp, m2, rfl, fun _ _ _ => rfl⟩⟩
        · simp only [hq, hm, hs, hp, bind, Except.bind, pure, Except.pure, if_true, if_false, Except.ok.injEq,
            Bool.false_eq_true] at h
          subst h
          exact ⟨_, fun _ _ _ => 0, fun _ _ _ => (add_zero _).symm, Or.inl ⟨hq, m, rfl, by simp [hs]⟩,
            Or.inr ⟨hp, fun _ _ _ => rfl⟩⟩
  · by_cases hp : cfg.solverMethodInP = "FVM" ∧ cfg.fieldsEnabled = true
    · cases hm2 : reconMethod cfg.reconstructionInP with
      | error err => simp [hq, hp, hm2, bind, Except.bind, pure, Except.pure] at h
      | ok m2 =>
        simp [hq, hp, hm2, bind, Except.bind, pure, Except.pure] at h
        subst h
        exact ⟨fun _ _ _ => 0, _, fun _ _ _ => (zero_add _).symm, Or.inr ⟨hq, fun _ _ _ => rfl⟩,
          Or.inl ⟨hp, m2, rfl, fun _ _ _ => rfl⟩⟩
    · simp only [hq, hp, bind, Except.bind, pure, Except.pure, if_false, Except.ok.injEq] at h
      subst h
      exact ⟨fun _ _ _ => 0, fun _ _ _ => 0, fun _ _ _ => (add_zero _).symm, Or.inr ⟨hq, fun _ _ _ => rfl⟩,
        Or.inr ⟨hp, fun _ _ _ => rfl⟩⟩

/-- The successful outcomes of `timestep_fvm`. -/
theorem timestepFVM_ok {sync : Dist S P Q K → Except PyErr (Dist S P Q K)}
    {slope : Fin 2 → Dist S P Q K → Except PyErr (Dist S P Q K)} {dt : K} {f f' : Dist S P Q K}
    (h : timestepFVM sync slope dt f = .ok f') :
    ∃ f0 k0 fh k1, sync f = .ok f0 ∧ slope 0 f0 = .ok k0 ∧
      sync (fun s p q => f0 s p q + k0 s p q * (dt / 2)) = .ok fh ∧ slope 1 fh = .ok k1 ∧
      ∀ s p q, f' s p q = f0 s p q + k1 s p q * dt := by
  unfold timestepFVM at h
  simp only [bind, Except.bind, pure, Except.pure] at h
  cases h0 : sync f with
  | error e => simp [h0] at h
  | ok f0 =>
    simp only [h0] at h
    cases h1 : slope 0 f0 with
    | error e => simp [h1] at h
    | ok k0 =>
      simp only [h1] at h
      cases h2 : sync (fun s p q => f0 s p q + k0 s p q * (dt / 2)) with
      | error e => simp [h2] at h
      | ok fh =>
        simp only [h2] at h
        cases h3 : slope 1 fh with
        | error e => simp [h3] at h
        | ok k1 =>
          simp only [h3, Except.ok.injEq] at h
          exact ⟨f0, k0, fh, k1, rfl, h1, h2, h3, fun s p q => by rw [← h]⟩

end Bolt
