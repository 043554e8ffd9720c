import Verif.Model.MachineArith
import Verif.Props.Decomp

/-! Helper lemmas about the finite-volume program with machine arithmetic. -/

set_option linter.unusedSectionVars false

namespace Bolt

namespace Mach

open Machine

section lawless

variable {I J K : Type} [AddCommGroup I] [AddCommGroup J] [Machine K]

theorem reconFaces_congr (m : Recon) (e : I) (e' : J) (x : I → K) (y : J → K) (i : I) (j : J)
    (h : ∀ k : ℤ, |k| < m.radius → x (i + k • e) = y (j + k • e')) :
    (reconFaces m e x).1 i = (reconFaces m e' y).1 j ∧ (reconFaces m e x).2 i = (reconFaces m e' y).2 j := by
  have h0 := h 0 (by cases m <;> simp [Recon.radius])
  simp only [zero_smul, add_zero] at h0
  have hs : ∀ k : ℤ, |k| < m.radius → afShift e k x i = afShift e' k y j := fun k hk => by
    have := h (-k) (by rwa [abs_neg])
    rw [neg_smul, neg_smul, ← sub_eq_add_neg, ← sub_eq_add_neg] at this
    exact this
  cases m with
  | piecewiseConstant => exact ⟨h0, h0⟩
  | minmod =>
    simp [reconFaces, reconstructMinmod, slopeMinmod, h0, hs 1 (by simp [Recon.radius]), hs (-1) (by simp [Recon.radius])]
  | ppm =>
    simp [reconFaces, reconstructPPM, h0, hs 1 (by simp [Recon.radius]), hs (-1) (by simp [Recon.radius]),
      hs 2 (by simp [Recon.radius]), hs (-2) (by simp [Recon.radius])]

theorem leftState_eq (m : Recon) (e : I) (C x : I → K) (i : I) :
    leftState m e C x i = if lt (lit 0) (C i) = true then (reconFaces m e x).2 (i - e) else (reconFaces m e x).1 i := by
  simp [leftState, afShift]

theorem fluxJump_eq (m : Recon) (e : I) (C x : I → K) (i : I) :
    fluxJump m e C x i = leftFlux m e C x (i + e) ⊟ leftFlux m e C x i := by
  simp [fluxJump, afShift]

theorem leftState_congr (m : Recon) (e : I) (e' : J) (C : I → K) (C' : J → K) (x : I → K) (y : J → K) (i : I) (j : J)
    (hC : C i = C' j) (h : ∀ k : ℤ, -(m.radius : ℤ) ≤ k → k < m.radius → x (i + k • e) = y (j + k • e')) :
    leftState m e C x i = leftState m e' C' y j := by
  rw [leftState_eq, leftState_eq, hC]
  have a := (reconFaces_congr m e e' x y i j (fun k hk => by
    rw [abs_lt] at hk; exact h k hk.1.le hk.2)).1
  have b := (reconFaces_congr m e e' x y (i - e) (j - e') (fun k hk => by
    rw [abs_lt] at hk
    have := h (k - 1) (by omega) (by omega)
    rw [sub_smul, sub_smul, one_smul, one_smul] at this
    rw [show i - e + k • e = i + (k • e - e) by abel, show j - e' + k • e' = j + (k • e' - e') by abel]
    exact this)).2
  rw [a, b]

theorem fluxJump_congr (m : Recon) (e : I) (e' : J) (C : I → K) (C' : J → K) (x : I → K) (y : J → K) (i : I) (j : J)
    (hC : C i = C' j) (hC' : C (i + e) = C' (j + e'))
    (h : ∀ k : ℤ, |k| ≤ m.radius → x (i + k • e) = y (j + k • e')) :
    fluxJump m e C x i = fluxJump m e' C' y j := by
  rw [fluxJump_eq, fluxJump_eq]
  simp only [leftFlux]
  rw [hC, hC', leftState_congr m e e' C C' x y i j hC (fun k h1 h2 => h k (by rw [abs_le]; omega))]
  rw [leftState_congr m e e' C C' x y (i + e) (j + e') hC' (fun k h1 h2 => by
    have := h (k + 1) (by rw [abs_le]; omega)
    rw [add_smul, add_smul, one_smul, one_smul] at this
    rw [show i + e + k • e = i + (k • e + e) by abel, show j + e' + k • e' = j + (k • e' + e') by abel]
    exact this)]

variable {S P Q : Type} [AddCommGroup P] [AddCommGroup Q]

/-- The slope when no exception is raised. -/
def slopeValue (ax : Axes P Q) (cfg : FVMConfig S K) (mq mp : Recon) (cb : Callbacks S P Q K) (f : Dist S P Q K) : Dist S P Q K :=
  fun s p q =>
    let a := if cfg.solverMethodInQ = "FVM" then
        (if cfg.sourceEnabled = true then lit 0 ⊞ dfdtQ ax mq cfg.dq1 cfg.dq2 cb.Cq1 cb.Cq2 f s p q ⊞ cb.source f s p q
          else lit 0 ⊞ dfdtQ ax mq cfg.dq1 cfg.dq2 cb.Cq1 cb.Cq2 f s p q)
      else lit 0
    if cfg.solverMethodInP = "FVM" ∧ cfg.fieldsEnabled = true then
      a ⊞ dfdtP ax mp cfg.dp1 cfg.dp2 cfg.dp3 cb.Cp1 cb.Cp2 cb.Cp3 f s p q
    else a

/-- The reconstructions in use: those named in the configuration, if they are used at all. -/
def Uses (cfg : FVMConfig S K) (mq mp : Recon) : Prop :=
  (cfg.solverMethodInQ = "FVM" → reconMethod cfg.reconstructionInQ = .ok mq) ∧
  (cfg.solverMethodInP = "FVM" ∧ cfg.fieldsEnabled = true → reconMethod cfg.reconstructionInP = .ok mp)

theorem dfdtFVM_uses {ax : Axes P Q} {cfg : FVMConfig S K} {cb : Callbacks S P Q K} {f k : Dist S P Q K}
    (h : dfdtFVM ax cfg cb f = .ok k) : ∃ mq mp, Uses cfg mq mp := by
  unfold dfdtFVM at h
  unfold Uses
  by_cases hq : cfg.solverMethodInQ = "FVM" <;> by_cases hp : cfg.solverMethodInP = "FVM" ∧ cfg.fieldsEnabled = true
  · cases hm : reconMethod cfg.reconstructionInQ with
    | error err => simp [hq, hm, bind, Except.bind] at h
    | ok m =>
      cases hm2 : reconMethod cfg.reconstructionInP with
      | error err =>
        by_cases hs : cfg.sourceEnabled = true <;> simp [hq, hm, hs, hp, hm2, bind, Except.bind, pure, Except.pure] at h
      | ok m2 => exact ⟨m, m2, fun _ => rfl, fun _ => rfl⟩
  · cases hm : reconMethod cfg.reconstructionInQ with
    | error err => simp [hq, hm, bind, Except.bind] at h
    | ok m => exact ⟨m, m, fun _ => rfl, fun c => absurd c hp⟩
  · cases hm2 : reconMethod cfg.reconstructionInP with
    | error err => simp [hq, hp, hm2, bind, Except.bind, pure, Except.pure] at h
    | ok m2 => exact ⟨m2, m2, fun c => absurd c hq, fun _ => rfl⟩
  · exact ⟨.ppm, .ppm, fun c => absurd c hq, fun c => absurd c hp⟩

theorem dfdtFVM_eq (ax : Axes P Q) (cfg : FVMConfig S K) {mq mp : Recon} (hu : Uses cfg mq mp) (cb : Callbacks S P Q K)
    (f : Dist S P Q K) : dfdtFVM ax cfg cb f = .ok (slopeValue ax cfg mq mp cb f) := by
  obtain ⟨h1, h2⟩ := hu
  unfold dfdtFVM slopeValue
  by_cases hq : cfg.solverMethodInQ = "FVM" <;> by_cases hp : cfg.solverMethodInP = "FVM" ∧ cfg.fieldsEnabled = true <;>
    by_cases hs : cfg.sourceEnabled = true
  all_goals
    first | rw [h1 hq] | skip
    first | rw [h2 hp] | skip
    simp [hq, hp, hs, bind, Except.bind, pure, Except.pure]

/-- One step on the whole grid when no exception is raised. -/
def stepValue (ax : Axes P Q) (cfg : FVMConfig S K) (mq mp : Recon) (dt : K) (cb : Fin 2 → Callbacks S P Q K) (f : Dist S P Q K) :
    Dist S P Q K :=
  fun s p q => f s p q ⊞ slopeValue ax cfg mq mp (cb 1)
    (fun s p q => f s p q ⊞ slopeValue ax cfg mq mp (cb 0) f s p q ⊠ (dt ⊘ lit 2)) s p q ⊠ dt

theorem timestepFVM_eq (ax : Axes P Q) (cfg : FVMConfig S K) {mq mp : Recon} (hu : Uses cfg mq mp) (dt : K)
    (cb : Fin 2 → Callbacks S P Q K) (f : Dist S P Q K) :
    timestepFVM (fun k => dfdtFVM ax cfg (cb k)) dt f = .ok (stepValue ax cfg mq mp dt cb f) := by
  simp [timestepFVM, dfdtFVM_eq ax cfg hu, bind, Except.bind, pure, Except.pure]
  rfl

theorem timestepFVM_uses {ax : Axes P Q} {cfg : FVMConfig S K} {cb : Fin 2 → Callbacks S P Q K} {dt : K} {f k : Dist S P Q K}
    (h : timestepFVM (fun k => dfdtFVM ax cfg (cb k)) dt f = .ok k) : ∃ mq mp, Uses cfg mq mp := by
  unfold timestepFVM at h
  cases h0 : dfdtFVM ax cfg (cb 0) f with
  | error e => simp [h0, bind, Except.bind] at h
  | ok a => exact dfdtFVM_uses h0

theorem runFVM_cons (ax : Axes P Q) (cfg : FVMConfig S K) {mq mp : Recon} (hu : Uses cfg mq mp)
    (st : K × (Fin 2 → Callbacks S P Q K)) (rest : List (K × (Fin 2 → Callbacks S P Q K))) (f : Dist S P Q K) :
    runFVM ax cfg (st :: rest) f = runFVM ax cfg rest (stepValue ax cfg mq mp st.1 st.2 f) := by
  obtain ⟨dt, cb⟩ := st
  simp [runFVM, timestepFVM_eq ax cfg hu, bind, Except.bind]

theorem runFVM_uses {ax : Axes P Q} {cfg : FVMConfig S K} {steps : List (K × (Fin 2 → Callbacks S P Q K))} {f f' : Dist S P Q K}
    (h : runFVM ax cfg steps f = .ok f') (hne : steps ≠ []) : ∃ mq mp, Uses cfg mq mp := by
  cases steps with
  | nil => exact absurd rfl hne
  | cons st rest =>
    obtain ⟨dt, cb⟩ := st
    simp only [runFVM] at h
    cases h0 : timestepFVM (fun k => dfdtFVM ax cfg (cb k)) dt f with
    | error e => simp [h0, bind, Except.bind] at h
    | ok g => exact timestepFVM_uses h0

variable {N1 N2 : ℕ} {R : Type} [NeZero N1] [NeZero N2] (D : Decomp N1 N2 R) (g1 g2 : ℕ)

/-- A slope evaluation on a process agrees in the bulk with the slope on the whole grid. -/
theorem slope_agrees (ax : P × P × P) (cfg : FVMConfig S K) (mq mp : Recon)
    (hg : cfg.solverMethodInQ = "FVM" → GhostsSuffice mq g1 N1 ∧ GhostsSuffice mq g2 N2)
    (r : R) (loc : Callbacks S P (D.Loc g1 g2 r) K) (glob : Callbacks S P (ZMod N1 × ZMod N2) K)
    (hcb : D.CallbacksAgree g1 g2 r loc glob) (x : Dist S P (D.Loc g1 g2 r) K) (f : Dist S P (ZMod N1 × ZMod N2) K)
    (hx : ∀ s p l, x s p l = f s p (D.toGlob g1 g2 r l)) (s : S) (p : P) (l : D.Loc g1 g2 r) (hl : D.Interior g1 g2 r l) :
    slopeValue (D.locAxes g1 g2 r ax.1 ax.2.1 ax.2.2) cfg mq mp loc x s p l =
      slopeValue ⟨ax.1, ax.2.1, ax.2.2, (1, 0), (0, 1)⟩ cfg mq mp glob f s p (D.toGlob g1 g2 r l) := by
  have hQ : cfg.solverMethodInQ = "FVM" →
      dfdtQ (D.locAxes g1 g2 r ax.1 ax.2.1 ax.2.2) mq cfg.dq1 cfg.dq2 loc.Cq1 loc.Cq2 x s p l =
        dfdtQ ⟨ax.1, ax.2.1, ax.2.2, (1, 0), (0, 1)⟩ mq cfg.dq1 cfg.dq2 glob.Cq1 glob.Cq2 f s p (D.toGlob g1 g2 r l) := by
    intro hq
    obtain ⟨gs1, gs2⟩ := hg hq
    have e1 := fluxJump_congr mq ((1, 0) : D.Loc g1 g2 r) ((1, 0) : ZMod N1 × ZMod N2) (loc.Cq1 s p) (glob.Cq1 s p)
      (x s p) (f s p) l _ (hcb.q1 s p l hl).1 (hcb.q1 s p l hl).2
      (fun k hk => by rw [hx, Decomp.toGlob_add1 D g1 g2 mq gs1 r l hl k hk])
    have e2 := fluxJump_congr mq ((0, 1) : D.Loc g1 g2 r) ((0, 1) : ZMod N1 × ZMod N2) (loc.Cq2 s p) (glob.Cq2 s p)
      (x s p) (f s p) l _ (hcb.q2 s p l hl).1 (hcb.q2 s p l hl).2
      (fun k hk => by rw [hx, Decomp.toGlob_add2 D g1 g2 mq gs2 r l hl k hk])
    simp only [dfdtQ, Decomp.locAxes]
    rw [e1, e2]
  have hP : dfdtP (D.locAxes g1 g2 r ax.1 ax.2.1 ax.2.2) mp cfg.dp1 cfg.dp2 cfg.dp3 loc.Cp1 loc.Cp2 loc.Cp3 x s p l =
      dfdtP ⟨ax.1, ax.2.1, ax.2.2, (1, 0), (0, 1)⟩ mp cfg.dp1 cfg.dp2 cfg.dp3 glob.Cp1 glob.Cp2 glob.Cp3 f s p
        (D.toGlob g1 g2 r l) := by
    have e1 : (fun p => loc.Cp1 s p l) = fun p => glob.Cp1 s p (D.toGlob g1 g2 r l) := by
      funext p; exact hcb.p1 s p l hl
    have e2 : (fun p => loc.Cp2 s p l) = fun p => glob.Cp2 s p (D.toGlob g1 g2 r l) := by
      funext p; exact hcb.p2 s p l hl
    have e3 : (fun p => loc.Cp3 s p l) = fun p => glob.Cp3 s p (D.toGlob g1 g2 r l) := by
      funext p; exact hcb.p3 s p l hl
    have e4 : (fun p => x s p l) = fun p => f s p (D.toGlob g1 g2 r l) := by funext p; exact hx s p l
    simp only [dfdtP, dFluxP, Decomp.locAxes, e1, e2, e3, e4]
  have hS : loc.source x s p l = glob.source f s p (D.toGlob g1 g2 r l) := hcb.src x f l hl (fun s p => hx s p l) s p
  simp only [slopeValue, hP, hS]
  by_cases hq : cfg.solverMethodInQ = "FVM"
  · rw [hQ hq]
  · simp only [hq, if_false]

theorem step_agrees (ax : P × P × P) (cfg : FVMConfig S K) {mq mp : Recon} (hu : Uses cfg mq mp)
    (hg : cfg.solverMethodInQ = "FVM" → GhostsSuffice mq g1 N1 ∧ GhostsSuffice mq g2 N2)
    (dt : K) (cb : Fin 2 → ∀ r, Callbacks S P (D.Loc g1 g2 r) K) (cbG : Fin 2 → Callbacks S P (ZMod N1 × ZMod N2) K)
    (hcb : ∀ k r, D.CallbacksAgree g1 g2 r (cb k r) (cbG k)) (F F' : ∀ r, Dist S P (D.Loc g1 g2 r) K)
    (f : Dist S P (ZMod N1 × ZMod N2) K) (hF : D.Holds g1 g2 F f) (h : PeriodicStep D g1 g2 ax cfg dt cb F F') :
    D.Holds g1 g2 F' (stepValue ⟨ax.1, ax.2.1, ax.2.2, (1, 0), (0, 1)⟩ cfg mq mp dt cbG f) := by
  obtain ⟨st0, st1, k0, k1, a, b, rfl⟩ := h
  rw [Decomp.holds_iff] at hF
  subst hF
  simp only [dfdtFVM_eq _ cfg hu, Except.ok.injEq] at a b
  have s0 : ∀ r s p l, D.Interior g1 g2 r l → k0 r s p l =
      slopeValue ⟨ax.1, ax.2.1, ax.2.2, (1, 0), (0, 1)⟩ cfg mq mp (cbG 0) (D.assemble g1 g2 F) s p (D.toGlob g1 g2 r l) :=
    fun r s p l hl => by
      rw [← a r]
      exact slope_agrees D g1 g2 ax cfg mq mp hg r (cb 0 r) (cbG 0) (hcb 0 r) _ _
        (fun s p l => Decomp.exchange_periodic D g1 g2 st0 F r s p l) s p l hl
  have hh : D.assemble g1 g2 (fun r s p l => D.exchange g1 g2 .periodic .periodic st0 F r s p l ⊞ k0 r s p l ⊠ (dt ⊘ lit 2))
      = fun s p q => D.assemble g1 g2 F s p q ⊞
        slopeValue ⟨ax.1, ax.2.1, ax.2.2, (1, 0), (0, 1)⟩ cfg mq mp (cbG 0) (D.assemble g1 g2 F) s p q ⊠ (dt ⊘ lit 2) := by
    rw [← Decomp.holds_iff]
    intro r s p l hl
    beta_reduce
    rw [Decomp.exchange_periodic, s0 r s p l hl]
  intro r s p l hl
  beta_reduce
  rw [Decomp.exchange_periodic, ← b r, stepValue]
  congr 2
  exact slope_agrees D g1 g2 ax cfg mq mp hg r (cb 1 r) (cbG 1) (hcb 1 r) _ _
    (fun s p l => by rw [Decomp.exchange_periodic, hh]) s p l hl

end lawless

end Mach

end Bolt
