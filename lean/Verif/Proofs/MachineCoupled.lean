import Verif.Model.MachineCoupled
import Verif.Proofs.MachineFields

/-! Helper lemmas about the coupled step with machine arithmetic. -/

set_option linter.unusedSectionVars false

namespace Bolt
namespace Mach

open Machine

section pointwise
variable {Q Q' K : Type} [AddCommGroup Q] [AddCommGroup Q'] [Machine K] {i : Q} {i' : Q'}

theorem avg_same {F F2 : EM Q K} {G G2 : EM Q' K} (h : Decomp.SameAt F i G i') (h2 : Decomp.SameAt F2 i G2 i') :
    Decomp.SameAt (avg F F2) i (avg G G2) i' := by
  intro c
  have a := h c; have b := h2 c
  fin_cases c <;> simp only [EM.comp, avg] at a b ⊢ <;> simp [a, b]

theorem store_same {σ : FieldState Q K} {τ : FieldState Q' K} (h : Decomp.StateAt σ i τ i') (pr : FieldParams Q K) (pr' : FieldParams Q' K)
    (dt : K) (Y : EM Q K) (Y' : EM Q' K) (hY : Decomp.SameAt (toCentre pr.q1 pr.q2 Y) i (toCentre pr'.q1 pr'.q2 Y') i') :
    Decomp.StateAt (storeFields pr dt Y σ) i (storeFields pr' dt Y' τ) i' := by
  have h1 := h.writeE h.atN (h.ofEq h.cc)
  have h2 := h1.writeB h1.atN (avg_same (h1.ofEq h1.atHalf) (h1.ofEq h1.cc))
  have h3 := h2.writeB h2.atHalf (h1.ofEq h1.cc)
  generalize hs : ((σ.writeE σ.atN (σ.heap σ.cc)).writeB (σ.writeE σ.atN (σ.heap σ.cc)).atN
    (avg ((σ.writeE σ.atN (σ.heap σ.cc)).heap (σ.writeE σ.atN (σ.heap σ.cc)).atHalf)
      ((σ.writeE σ.atN (σ.heap σ.cc)).heap (σ.writeE σ.atN (σ.heap σ.cc)).cc))).writeB _ _ = s3 at h3
  generalize ht : ((τ.writeE τ.atN (τ.heap τ.cc)).writeB (τ.writeE τ.atN (τ.heap τ.cc)).atN
    (avg ((τ.writeE τ.atN (τ.heap τ.cc)).heap (τ.writeE τ.atN (τ.heap τ.cc)).atHalf)
      ((τ.writeE τ.atN (τ.heap τ.cc)).heap (τ.writeE τ.atN (τ.heap τ.cc)).cc))).writeB _ _ = t3 at h3
  have h4 : Decomp.StateAt ({ s3 with
        yee := Y
        heap := fun k => if k = s3.cc then toCentre pr.q1 pr.q2 Y else s3.heap k } : FieldState Q K) i
      ({ t3 with
        yee := Y'
        heap := fun k => if k = t3.cc then toCentre pr'.q1 pr'.q2 Y' else t3.heap k } : FieldState Q' K) i' := by
    refine ⟨h3.cc, h3.atN, h3.atHalf, fun k => ?_⟩
    simp only [h3.cc]
    split_ifs
    · exact hY
    · exact h3.heap k
  have h5 := h4.writeE h4.atHalf (avg_same (h.ofEq h.cc) (h4.ofEq h4.cc))
  subst hs ht
  exact ⟨h5.cc, h5.atN, h5.atHalf, h5.heap⟩

theorem store_rest (pr : FieldParams Q K) (dt : K) (Y : EM Q K) (σ : FieldState Q K) :
    (storeFields pr dt Y σ).yee = Y ∧ (storeFields pr dt Y σ).flag = σ.flag ∧
      (storeFields pr dt Y σ).timeElapsed = σ.timeElapsed ⊞ dt ∧ (storeFields pr dt Y σ).cc = σ.cc ∧
      (storeFields pr dt Y σ).atN = σ.atN ∧ (storeFields pr dt Y σ).atHalf = σ.atHalf := ⟨rfl, rfl, rfl, rfl, rfl, rfl⟩

theorem get_flag (fs sp : String) (hsp : sp = "FVM") (σ : FieldState Q K) : (getFields fs sp σ).2 = { σ with flag := !σ.flag } := by
  simp [getFields, hsp]

end pointwise

section lawless
variable {S P K : Type} [AddCommGroup P] [Machine K] (Sm : Sums S P K) {N1 N2 : ℕ} {R : Type} (D : Decomp N1 N2 R) (g1 g2 : ℕ) [NeZero N1] [NeZero N2]

theorem toCentre_box {r : R} {pr : FieldParams (D.Loc g1 g2 r) K} {prG : FieldParams (ZMod N1 × ZMod N2) K}
    (hp : D.SameParams g1 g2 r pr prG) {F : EM (D.Loc g1 g2 r) K} {G : EM (ZMod N1 × ZMod N2) K} {l : D.Loc g1 g2 r}
    (h : D.EMBox g1 g2 1 r F G l) (dt : K) (c : Fin 6) :
    (toCentre pr.q1 pr.q2 (evolveB pr dt F)).comp c l = (toCentre prG.q1 prG.q2 (evolveB prG dt G)).comp c (D.toGlob g1 g2 r l) := by
  obtain ⟨rfl, q1, q2⟩ := hp
  have h0 := h.at0
  have e0 := h0 0; have e1 := h0 1; have e2 := h0 2; have e3 := h0 3; have e4 := h0 4; have e5 := h0 5
  simp only [EM.comp] at e0 e1 e2 e3 e4 e5
  fin_cases c <;> simp [toCentre, evolveB, EM.comp, curlE1, curlE2, curlE3, q1, q2, afShift_q1, afShift_q2, off_add, add_off_zero,
    e0, e1, e2, e3, e4, e5, h.E1, h.E2, h.E3, h.B1, h.B2, h.B3]

theorem evolve_agrees {o : BCOptions} (h1 : PeriodicEnds (o.name .left) (o.name .right) N1)
    (h2 : PeriodicEnds (o.name .bottom) (o.name .top) N2)
    (k1 : 1 ≤ g1 ∨ (g1 = 0 ∧ N1 = 1)) (k2 : 1 ≤ g2 ∨ (g2 = 0 ∧ N2 = 1)) {user : ∀ r, D.LocFieldBCs g1 g2 r K}
    {pr : ∀ r, FieldParams (D.Loc g1 g2 r) K} {prG : FieldParams (ZMod N1 × ZMod N2) K} (hp : ∀ r, D.SameParams g1 g2 r (pr r) prG)
    {J : ∀ r, Currents (D.Loc g1 g2 r) K} {JG : Currents (ZMod N1 × ZMod N2) K} {dt : K} {σ σ' : ∀ r, FieldState (D.Loc g1 g2 r) K}
    {τ : FieldState (ZMod N1 × ZMod N2) K} (hJ : ∀ r l, D.Interior g1 g2 r l →
      (J r).J1 l = JG.J1 (D.toGlob g1 g2 r l) ∧ (J r).J2 l = JG.J2 (D.toGlob g1 g2 r l) ∧ (J r).J3 l = JG.J3 (D.toGlob g1 g2 r l))
    (hσ : D.FieldsHold g1 g2 σ τ) {Y' : ∀ r, EM (D.Loc g1 g2 r) K} (h : FdtdStep D g1 g2 o user pr J dt (fun r => (σ r).yee) Y')
    (hs : ∀ r, σ' r = storeFields (pr r) dt (Y' r) (σ r)) :
    D.FieldsHold g1 g2 σ' (storeFields prG dt (fdtd prG JG dt τ.yee) τ) := by
  have hY := fdtdStep_holds D g1 g2 h1 h2 k1 k2 hp hJ hσ.yee h
  obtain ⟨Y0, Y2, s0, s2, e2⟩ := h
  have y0 : ∀ r, D.EMFull g1 g2 r (Y0 r) τ.yee := fun r c l => by
    rw [D.syncedFields_wrap g1 g2 h1 h2 s0 r c l, (D.emHolds_iff g1 g2 _ _).mp hσ.yee]
  have y1 : ∀ r, D.EMHolds g1 g2 r (evolveE (pr r) (J r) dt (Y0 r)) (evolveE prG JG dt τ.yee) := fun r c l hl =>
    evolveE_box D g1 g2 (hp r) ((y0 r).box 1 k1 k2 l hl) _ _ (hJ r l hl) dt c
  have y2 : ∀ r, D.EMFull g1 g2 r (Y2 r) (evolveE prG JG dt τ.yee) := fun r c l => by
    rw [D.syncedFields_wrap g1 g2 h1 h2 s2 r c l, (D.emHolds_iff g1 g2 _ _).mp y1]
  have st : ∀ r l, D.Interior g1 g2 r l →
      Decomp.StateAt (σ' r) l (storeFields prG dt (fdtd prG JG dt τ.yee) τ) (D.toGlob g1 g2 r l) := by
    intro r l hl
    rw [hs r, e2 r]
    refine store_same ⟨hσ.cc r, hσ.atN r, hσ.atHalf r, fun k c => hσ.heap r k c l hl⟩ _ _ dt _ _ ?_
    intro c
    exact toCentre_box D g1 g2 (hp r) ((y2 r).box 1 k1 k2 l hl) dt c
  have rest := fun r => store_rest (pr r) dt (Y' r) (σ r)
  have restG := store_rest prG dt (fdtd prG JG dt τ.yee) τ
  refine ⟨fun r c l hl => ?_, fun r k c l hl => (st r l hl).heap k c, fun r => ?_, fun r => ?_, fun r => ?_, fun r => ?_, fun r => ?_⟩
  · rw [hs r, (rest r).1, restG.1]; exact hY r c l hl
  · rw [hs r, (rest r).2.2.2.1, restG.2.2.2.1]; exact hσ.cc r
  · rw [hs r, (rest r).2.2.2.2.1, restG.2.2.2.2.1]; exact hσ.atN r
  · rw [hs r, (rest r).2.2.2.2.2, restG.2.2.2.2.2]; exact hσ.atHalf r
  · rw [hs r, (rest r).2.1, restG.2.1]; exact hσ.flag r
  · rw [hs r, (rest r).2.2.1, restG.2.2.1, hσ.time r]

variable {D g1 g2}

theorem kinetic_agrees {c : CoupledConfig S P (ZMod N1 × ZMod N2) K} {r : R} {loc : CoupledCallbacks S P (D.Loc g1 g2 r) K}
    {glob : CoupledCallbacks S P (ZMod N1 × ZMod N2) K} {x : Dist S P (D.Loc g1 g2 r) K} {f : Dist S P (ZMod N1 × ZMod N2) K}
    {l : D.Loc g1 g2 r} {m : Recon} (q1 : c.ax.q1 = (1, 0)) (q2 : c.ax.q2 = (0, 1)) (h1 : GhostsSuffice m g1 N1)
    (h2 : GhostsSuffice m g2 N2) (hcb : D.CoupledAgree g1 g2 r loc glob) (hx : ∀ s p l, x s p l = f s p (D.toGlob g1 g2 r l))
    (hl : D.Interior g1 g2 r l) :
    let J := kineticCurrents Sm (D.locCfg g1 g2 c r) m loc.Cq1 loc.Cq2 x
    let JG := kineticCurrents Sm c m glob.Cq1 glob.Cq2 f
    J.J1 l = JG.J1 (D.toGlob g1 g2 r l) ∧ J.J2 l = JG.J2 (D.toGlob g1 g2 r l) ∧ J.J3 l = JG.J3 (D.toGlob g1 g2 r l) := by
  have fL : ∀ s p, leftState m (D.locCfg g1 g2 c r).ax.q1 (loc.Cq1 s p) (x s p) l =
      leftState m c.ax.q1 (glob.Cq1 s p) (f s p) (D.toGlob g1 g2 r l) := by
    intro s p
    rw [q1]
    refine leftState_congr m _ _ _ _ _ _ _ _ (hcb.q1 s p l hl).1 (fun k ka kb => ?_)
    rw [hx]
    exact congrArg _ (Decomp.toGlob_add1 D g1 g2 m h1 r l hl k (by rw [abs_le]; omega))
  have fB : ∀ s p, leftState m (D.locCfg g1 g2 c r).ax.q2 (loc.Cq2 s p) (x s p) l =
      leftState m c.ax.q2 (glob.Cq2 s p) (f s p) (D.toGlob g1 g2 r l) := by
    intro s p
    rw [q2]
    refine leftState_congr m _ _ _ _ _ _ _ _ (hcb.q2 s p l hl).1 (fun k ka kb => ?_)
    rw [hx]
    exact congrArg _ (Decomp.toGlob_add2 D g1 g2 m h2 r l hl k (by rw [abs_le]; omega))
  simp only [kineticCurrents, momV, fL, fB, hx]
  exact ⟨rfl, rfl, rfl⟩

theorem fieldUpdate_ok {Q : Type} [AddCommGroup Q] {c : CoupledConfig S P Q K} {cb : CoupledCallbacks S P Q K} {dt : K} {f : Dist S P Q K}
    {τ τ' : FieldState Q K} (h : fieldUpdate Sm c cb dt f τ = .ok τ') :
    (c.fieldsType = "electrodynamic" ∧ τ.flag = false ∧ c.solverMethodInQ = "FVM" ∧ ∃ m, reconMethod c.reconstructionInQ = .ok m ∧
      τ' = storeFields c.fieldParams dt (fdtd c.fieldParams (kineticCurrents Sm c m cb.Cq1 cb.Cq2 f) dt τ.yee) τ) ∨
    (¬ (c.fieldsType = "electrodynamic" ∧ τ.flag = false) ∧ τ' = τ) := by
  unfold fieldUpdate at h
  by_cases h1 : c.fieldsType = "electrodynamic" ∧ τ.flag = false
  · rw [if_pos h1] at h
    by_cases h2 : c.solverMethodInQ = "FVM"
    · rw [if_pos h2] at h
      cases hm : reconMethod c.reconstructionInQ with
      | error e => simp [hm, bind, Except.bind] at h
      | ok m =>
        simp only [hm, bind, Except.bind, pure, Except.pure, Except.ok.injEq] at h
        exact Or.inl ⟨h1.1, h1.2, h2, m, rfl, h.symm⟩
    · rw [if_neg h2] at h
      cases h
  · rw [if_neg h1] at h
    simp only [pure, Except.pure, Except.ok.injEq] at h
    exact Or.inr ⟨h1, h.symm⟩

theorem fieldPhase_agrees {o : BCOptions} {c : CoupledConfig S P (ZMod N1 × ZMod N2) K} (hc : GridConfig g1 g2 o c)
    {user : ∀ r, D.LocFieldBCs g1 g2 r K} {cb : ∀ r, CoupledCallbacks S P (D.Loc g1 g2 r) K}
    {cbG : CoupledCallbacks S P (ZMod N1 × ZMod N2) K} (hcb : ∀ r, D.CoupledAgree g1 g2 r (cb r) cbG) {dt : K}
    {F : ∀ r, Dist S P (D.Loc g1 g2 r) K} {f : Dist S P (ZMod N1 × ZMod N2) K} (hF : ∀ r s p l, F r s p l = f s p (D.toGlob g1 g2 r l))
    {σ σ' : ∀ r, FieldState (D.Loc g1 g2 r) K} {τ τ' : FieldState (ZMod N1 × ZMod N2) K} (hσ : D.FieldsHold g1 g2 σ τ)
    (h : FieldPhase Sm D g1 g2 o user c cb dt F σ σ') (h' : fieldUpdate Sm c cbG dt f τ = .ok τ') : D.FieldsHold g1 g2 σ' τ' := by
  have r0 : R := D.owner 0
  rcases h with ⟨a1, a2, a3, m, hm, Y', hY, hs⟩ | ⟨a, rfl⟩ <;> rcases fieldUpdate_ok Sm h' with ⟨b1, b2, b3, m', hm', rfl⟩ | ⟨b, rfl⟩
  · rw [hm, Except.ok.injEq] at hm'
    subst hm'
    obtain ⟨G1, G2⟩ := hc.ghosts m hm
    exact evolve_agrees D g1 g2 hc.ends1 hc.ends2 G1.one G2.one (fun r => Decomp.sameParams c hc.q1 hc.q2 r)
      (fun r l hl => kinetic_agrees Sm hc.q1 hc.q2 G1.recon G2.recon (hcb r) (hF r) hl) hσ hY hs
  · exact absurd ⟨a1, by rw [← hσ.flag r0]; exact a2 r0⟩ b
  · rcases a with a | a
    · exact absurd b1 a
    · have := a r0
      rw [hσ.flag r0, b2] at this
      exact absurd this (by decide)
  · exact hσ

/-- The slope of a process and of the whole grid. -/
theorem dfdtFVM_agrees {c : CoupledConfig S P (ZMod N1 × ZMod N2) K} {o : BCOptions} (hc : GridConfig g1 g2 o c) (r : R)
    {loc : Callbacks S P (D.Loc g1 g2 r) K} {glob : Callbacks S P (ZMod N1 × ZMod N2) K} (hcb : D.CallbacksAgree g1 g2 r loc glob)
    {x k : Dist S P (D.Loc g1 g2 r) K} {f kG : Dist S P (ZMod N1 × ZMod N2) K} (hx : ∀ s p l, x s p l = f s p (D.toGlob g1 g2 r l))
    (h : dfdtFVM (D.locCfg g1 g2 c r).ax c.toFVMConfig loc x = .ok k) (h' : dfdtFVM c.ax c.toFVMConfig glob f = .ok kG) (s : S) (p : P)
    (l : D.Loc g1 g2 r) (hl : D.Interior g1 g2 r l) : k s p l = kG s p (D.toGlob g1 g2 r l) := by
  obtain ⟨mq, mp, hu⟩ := dfdtFVM_uses h'
  rw [dfdtFVM_eq _ _ hu, Except.ok.injEq] at h h'
  subst h h'
  have hax : c.ax = ⟨c.ax.p1, c.ax.p2, c.ax.p3, (1, 0), (0, 1)⟩ := by rw [← hc.q1, ← hc.q2]
  rw [hax]
  exact slope_agrees D g1 g2 (c.ax.p1, c.ax.p2, c.ax.p3) c.toFVMConfig mq mp
    (fun hq => ⟨(hc.ghosts mq (hu.1 hq)).1.recon, (hc.ghosts mq (hu.1 hq)).2.recon⟩) r loc glob hcb x f hx s p l hl

theorem slopeCoupled_agrees {o : BCOptions} {c : CoupledConfig S P (ZMod N1 × ZMod N2) K} (hc : GridConfig g1 g2 o c)
    {user : ∀ r, D.LocFieldBCs g1 g2 r K} {cb : ∀ r, CoupledCallbacks S P (D.Loc g1 g2 r) K}
    {cbG : CoupledCallbacks S P (ZMod N1 × ZMod N2) K} (hcb : ∀ r, D.CoupledAgree g1 g2 r (cb r) cbG) {dt : K}
    {F k : ∀ r, Dist S P (D.Loc g1 g2 r) K} {f : Dist S P (ZMod N1 × ZMod N2) K} (hF : ∀ r s p l, F r s p l = f s p (D.toGlob g1 g2 r l))
    {σ σ' : ∀ r, FieldState (D.Loc g1 g2 r) K} {τ : FieldState (ZMod N1 × ZMod N2) K} (hσ : D.FieldsHold g1 g2 σ τ)
    (h : SlopeCoupled Sm D g1 g2 o user c cb dt F σ k σ') {res : Dist S P (ZMod N1 × ZMod N2) K × FieldState (ZMod N1 × ZMod N2) K}
    (h' : dfdtCoupled Sm c cbG dt f τ = .ok res) : D.Holds g1 g2 k res.1 ∧ D.FieldsHold g1 g2 σ' res.2 := by
  by_cases hp : c.solverMethodInP = "FVM" ∧ c.fieldsEnabled = true
  · rw [SlopeCoupled, if_pos hp] at h
    obtain ⟨σ1, hph, h⟩ := h
    simp only [dfdtCoupled, if_pos hp, bind, Except.bind, pure, Except.pure] at h'
    cases hup : fieldUpdate Sm c cbG dt f τ with
    | error e => simp [hup] at h'
    | ok τ1 =>
      simp only [hup] at h'
      have hσ1 := fieldPhase_agrees Sm hc hcb hF hσ hph hup
      have hσ' : σ' = fun r => { σ1 r with flag := !(σ1 r).flag } := by
        funext r
        have := (h r).2
        simp only [get_flag _ _ hp.1, Bool.not_not] at this
        exact this
      simp only [get_flag _ _ hp.1, Bool.not_not] at h'
      split at h'
      · cases h'
      · rename_i kG hk
        simp only [Except.ok.injEq] at h'
        subst h'
        constructor
        · intro r s p l hl
          have hr := (h r).1
          simp only [get_flag _ _ hp.1, Bool.not_not] at hr
          exact dfdtFVM_agrees hc r ((hcb r).callbacks (hσ1.get _ _ r) (hσ1.setFlag.get _ _ r) (hσ1.get _ _ r)) (hF r) hr hk s p l hl
        · rw [hσ']
          exact hσ1.setFlag
  · rw [SlopeCoupled, if_neg hp] at h
    obtain ⟨h, rfl⟩ := h
    simp only [dfdtCoupled, if_neg hp, bind, Except.bind, pure, Except.pure] at h'
    split at h'
    · cases h'
    · rename_i k' hk
      simp only [Except.ok.injEq] at h'
      subst h'
      exact ⟨fun r s p l hl => dfdtFVM_agrees hc r
        ⟨(hcb r).q1, (hcb r).q2, fun _ _ _ _ => rfl, fun _ _ _ _ => rfl, fun _ _ _ _ => rfl, (hcb r).src⟩ (hF r) (h r) hk s p l hl, hσ⟩

theorem stepCoupled_ok {Q : Type} [AddCommGroup Q] {c : CoupledConfig S P Q K} {cb : Fin 2 → CoupledCallbacks S P Q K} {dt : K}
    {st st' : Dist S P Q K × FieldState Q K} (h : stepCoupled Sm c cb dt st = .ok st') :
    ∃ r0 r1, dfdtCoupled Sm c (cb 0) dt st.1 st.2 = .ok r0 ∧
      dfdtCoupled Sm c (cb 1) dt (fun s p q => st.1 s p q ⊞ r0.1 s p q ⊠ (dt ⊘ lit 2)) r0.2 = .ok r1 ∧
      st' = (fun s p q => st.1 s p q ⊞ r1.1 s p q ⊠ dt, r1.2) := by
  unfold stepCoupled at h
  cases h0 : dfdtCoupled Sm c (cb 0) dt st.1 st.2 with
  | error e => simp [h0, bind, Except.bind] at h
  | ok r0 =>
    simp only [h0, bind, Except.bind] at h
    cases h1 : dfdtCoupled Sm c (cb 1) dt (fun s p q => st.1 s p q ⊞ r0.1 s p q ⊠ (dt ⊘ lit 2)) r0.2 with
    | error e => simp [h1] at h
    | ok r1 =>
      simp only [h1, pure, Except.pure, Except.ok.injEq] at h
      exact ⟨r0, r1, rfl, h1, h.symm⟩

theorem stepCoupled_agrees {o : BCOptions} {c : CoupledConfig S P (ZMod N1 × ZMod N2) K} (hc : GridConfig g1 g2 o c)
    {user : ∀ r, D.LocFieldBCs g1 g2 r K} (dt : K) (cb : Fin 2 → ∀ r, CoupledCallbacks S P (D.Loc g1 g2 r) K)
    (cbG : Fin 2 → CoupledCallbacks S P (ZMod N1 × ZMod N2) K) (hcb : ∀ k r, D.CoupledAgree g1 g2 r (cb k r) (cbG k))
    {F F' : ∀ r, Dist S P (D.Loc g1 g2 r) K} {σ σ' : ∀ r, FieldState (D.Loc g1 g2 r) K}
    {st st' : Dist S P (ZMod N1 × ZMod N2) K × FieldState (ZMod N1 × ZMod N2) K}
    (hF : D.Holds g1 g2 F st.1) (hσ : D.FieldsHold g1 g2 σ st.2) (h : StepCoupled Sm D g1 g2 o user c dt cb F σ F' σ')
    (h' : stepCoupled Sm c cbG dt st = .ok st') : D.Holds g1 g2 F' st'.1 ∧ D.FieldsHold g1 g2 σ' st'.2 := by
  obtain ⟨st0, st1, k0, k1, σh, a0, a1, rfl⟩ := h
  obtain ⟨r0, r1, b0, b1, rfl⟩ := stepCoupled_ok Sm h'
  rw [Decomp.holds_iff] at hF
  have f0 : ∀ r s p l, D.exchange g1 g2 .periodic .periodic st0 F r s p l = st.1 s p (D.toGlob g1 g2 r l) := fun r s p l => by
    rw [Decomp.exchange_periodic, hF]
  obtain ⟨u0, v0⟩ := slopeCoupled_agrees Sm hc (hcb 0) f0 hσ a0 b0
  have hh : D.assemble g1 g2 (fun r s p l => D.exchange g1 g2 .periodic .periodic st0 F r s p l ⊞ k0 r s p l ⊠ (dt ⊘ lit 2)) =
      fun s p q => st.1 s p q ⊞ r0.1 s p q ⊠ (dt ⊘ lit 2) := by
    rw [← Decomp.holds_iff]
    intro r s p l hl
    beta_reduce
    rw [f0, u0 r s p l hl]
  obtain ⟨u1, v1⟩ := slopeCoupled_agrees Sm hc (hcb 1) (f := fun s p q => st.1 s p q ⊞ r0.1 s p q ⊠ (dt ⊘ lit 2))
    (fun r s p l => by rw [Decomp.exchange_periodic, hh]) v0 a1 b1
  refine ⟨fun r s p l hl => ?_, v1⟩
  beta_reduce
  rw [f0, u1 r s p l hl]

end lawless

end Mach
end Bolt
