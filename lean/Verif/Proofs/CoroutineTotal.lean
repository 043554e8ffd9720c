import Verif.Proofs.Coroutine
import Verif.Props.CoupledDecomp

/-! Coupled scripts on a periodic grid end without exception. -/

set_option linter.unusedSectionVars false

namespace Bolt

section
variable {R X : Type} [DecidableEq X] {W : Wire R X} {A : R → Type}

/-- Moving together, the processes end without exception. -/
def Completes (scr : ∀ r, Script (W.Arr r) (A r)) (vec : ∀ r k, W.Arr r k) : Prop := ∃ a, Ends scr vec a

theorem completes_ret (b : ∀ r, A r) (vec : ∀ r k, W.Arr r k) : Completes (W := W) (fun r => .ret (b r)) vec :=
  ⟨b, 0, fun r => ⟨vec r, rfl⟩⟩

theorem completes_lift {B : R → Type} {e : ∀ r, Except PyErr (B r)} {q : ∀ r, B r → Script (W.Arr r) (A r)} {vec : ∀ r k, W.Arr r k}
    {b : ∀ r, B r} (hb : ∀ r, e r = .ok (b r)) (h : Completes (fun r => q r (b r)) vec) :
    Completes (fun r => (Script.lift (e r)).bind (q r)) vec := by
  have e2 : (fun r => (Script.lift (V := W.Arr r) (e r)).bind (q r)) = fun r => q r (b r) := by
    funext r; rw [hb r]; rfl
  rwa [e2]

theorem completes_xch {k : X} {v : ∀ r, W.Arr r k} {next : ∀ r, W.Arr r k → Script (W.Arr r) (A r)} {vec : ∀ r k, W.Arr r k}
    (h : Completes (fun r => next r (allGet W k (fun r => vec r k) v r))
      (fun r => Function.update (vec r) k (allGet W k (fun r => vec r k) v r))) :
    Completes (fun r => .xch k (v r) (next r)) vec := by
  obtain ⟨a, n, h⟩ := h
  refine ⟨a, n + 1, fun r => ?_⟩
  obtain ⟨vec', h⟩ := h r
  refine ⟨vec', (Together.shift (fun r => ?_)).mpr h⟩
  exact ⟨_, k, v r, next r, fun x _ => W.pack x k (v x), rfl, rfl, fun x _ => ⟨_, v x, next x, rfl, rfl, rfl⟩, rfl⟩

end

namespace Decomp

variable {N1 N2 : ℕ} {R : Type} (D : Decomp N1 N2 R) (g1 g2 : ℕ) [NeZero N1] [NeZero N2] {S K : Type} {Np1 Np2 Np3 : ℕ} [Field K]
  [LinearOrder K] [IsStrictOrderedRing K] {bcf bce : PetscBC × PetscBC} {o : BCOptions} {A : R → Type}

theorem completes_syncF (h1 : PeriodicEnds (o.name .left) (o.name .right) N1) (h2 : PeriodicEnds (o.name .bottom) (o.name .top) N2)
    {dat : ∀ r, D.LocBCData g1 g2 r S Np1 Np2 Np3 K} {F : ∀ r, Dist S (PIdx Np1 Np2 Np3) (D.Loc g1 g2 r) K}
    {q : ∀ r, Dist S (PIdx Np1 Np2 Np3) (D.Loc g1 g2 r) K → D.ProcScript g1 g2 r S Np1 Np2 Np3 K (A r)}
    {vec : ∀ r k, KindArr S Np1 Np2 Np3 K (D.Loc g1 g2 r) k}
    (h : ∀ (F0 : ∀ r, Dist S (PIdx Np1 Np2 Np3) (D.Loc g1 g2 r) K) (vec' : ∀ r k, KindArr S Np1 Np2 Np3 K (D.Loc g1 g2 r) k),
      Completes (W := D.coupledWire g1 g2 S Np1 Np2 Np3 K bcf bce) (fun r => q r (F0 r)) vec') :
    Completes (W := D.coupledWire g1 g2 S Np1 Np2 Np3 K bcf bce) (fun r => (D.syncF g1 g2 o r (dat r) (F r)).bind (q r)) vec := by
  have skip : ∀ r w f, atWall (D.bcEnv g1 g2 o r (dat r)) w f = .ok f := by
    intro r w f
    unfold atWall
    split_ifs
    · have : (D.bcEnv g1 g2 o r (dat r)).name w = o.name w := rfl
      rcases names_wrap h1 h2 w with hw | hw <;> simp [applyWall, this, hw]
    · rfl
  have ok : ∀ r f, applyBcsF (D.bcEnv g1 g2 o r (dat r)) f = .ok f := fun r f => by simp only [applyBcsF, skip, bind, Except.bind]
  simp only [syncF, Script.bind_def, Script.exchange_bind]
  refine completes_xch (W := D.coupledWire g1 g2 S Np1 Np2 Np3 K bcf bce) (k := .f) (v := F) ?_
  exact completes_lift (fun r => ok r _) (h _ _)

theorem completes_sent (hty : FieldTypes g1 g2 o bce.1 bce.2) {Y : ∀ r, EM (D.Loc g1 g2 r) K}
    {q : ∀ r, EM (D.Loc g1 g2 r) K → D.ProcScript g1 g2 r S Np1 Np2 Np3 K (A r)} {vec : ∀ r k, KindArr S Np1 Np2 Np3 K (D.Loc g1 g2 r) k}
    (h : ∀ (Y0 : ∀ r, EM (D.Loc g1 g2 r) K) (vec' : ∀ r k, KindArr S Np1 Np2 Np3 K (D.Loc g1 g2 r) k), D.SentFields g1 g2 o Y Y0 →
      Completes (W := D.coupledWire g1 g2 S Np1 Np2 Np3 K bcf bce) (fun r => q r (Y0 r)) vec') :
    Completes (W := D.coupledWire g1 g2 S Np1 Np2 Np3 K bcf bce) (fun r => .xch .em (Y r) (q r)) vec := by
  refine completes_xch (W := D.coupledWire g1 g2 S Np1 Np2 Np3 K bcf bce) (k := .em) (v := Y) ?_
  refine h _ _ ⟨bce.1, bce.2, fun r => vec r .em, hty, ?_⟩
  funext r
  exact D.allGet_em g1 g2 bcf bce _ _ r

theorem completes_syncEM (h1 : PeriodicEnds (o.name .left) (o.name .right) N1) (h2 : PeriodicEnds (o.name .bottom) (o.name .top) N2)
    (hty : FieldTypes g1 g2 o bce.1 bce.2) {user : ∀ r, D.LocFieldBCs g1 g2 r K} {Y : ∀ r, EM (D.Loc g1 g2 r) K}
    {q : ∀ r, EM (D.Loc g1 g2 r) K → D.ProcScript g1 g2 r S Np1 Np2 Np3 K (A r)} {vec : ∀ r k, KindArr S Np1 Np2 Np3 K (D.Loc g1 g2 r) k}
    (h : ∀ (Y0 : ∀ r, EM (D.Loc g1 g2 r) K) (vec' : ∀ r k, KindArr S Np1 Np2 Np3 K (D.Loc g1 g2 r) k), D.SyncedFields g1 g2 o user Y Y0 →
      Completes (W := D.coupledWire g1 g2 S Np1 Np2 Np3 K bcf bce) (fun r => q r (Y0 r)) vec') :
    Completes (W := D.coupledWire g1 g2 S Np1 Np2 Np3 K bcf bce)
      (fun r => Script.bind (V := KindArr S Np1 Np2 Np3 K (D.Loc g1 g2 r)) (D.syncEM g1 g2 o r (user r) (Y r)) (q r)) vec := by
  simp only [syncEM, Script.bind_def, Script.exchange_bind]
  refine D.completes_sent g1 g2 hty fun G vec' hG => ?_
  have ok : ∀ r, applyBcsFields (D.fieldEnv g1 g2 o r (user r)) true (G r) = .ok (G r) :=
    fun r => applyBcsFields_wrap _ _ (fun w => names_wrap h1 h2 w) _
  exact completes_lift ok (h _ _ ⟨G, hG, ok⟩)

theorem completes_evolve [∀ r, Fintype (D.Loc g1 g2 r)] (h1 : PeriodicEnds (o.name .left) (o.name .right) N1)
    (h2 : PeriodicEnds (o.name .bottom) (o.name .top) N2)
    (hty : FieldTypes g1 g2 o bce.1 bce.2) {user : ∀ r, D.LocFieldBCs g1 g2 r K}
    {pr : ∀ r, FieldParams (D.Loc g1 g2 r) K} {J : ∀ r, Currents (D.Loc g1 g2 r) K} {dt : K} {σ : ∀ r, FieldState (D.Loc g1 g2 r) K}
    (hJ : ∀ r, (pr r).hybrid = true → ∀ Y0, D.SyncedFields g1 g2 o user (fun r => (σ r).yee) Y0 → ∀ i,
      (J r).J1 i = curlB1 (pr r) (Y0 r) i / (pr r).mu ∧ (J r).J2 i = curlB2 (pr r) (Y0 r) i / (pr r).mu ∧
      (J r).J3 i = curlB3 (pr r) (Y0 r) i / (pr r).mu)
    {q : ∀ r, FieldState (D.Loc g1 g2 r) K → D.ProcScript g1 g2 r S Np1 Np2 Np3 K (A r)}
    {vec : ∀ r k, KindArr S Np1 Np2 Np3 K (D.Loc g1 g2 r) k}
    (h : ∀ (σ' : ∀ r, FieldState (D.Loc g1 g2 r) K) (vec' : ∀ r k, KindArr S Np1 Np2 Np3 K (D.Loc g1 g2 r) k), (∀ r, (σ' r).flag = (σ r).flag) →
      Completes (W := D.coupledWire g1 g2 S Np1 Np2 Np3 K bcf bce) (fun r => q r (σ' r)) vec') :
    Completes (W := D.coupledWire g1 g2 S Np1 Np2 Np3 K bcf bce)
      (fun r => Script.bind (V := KindArr S Np1 Np2 Np3 K (D.Loc g1 g2 r)) (D.evolveScript g1 g2 o r (user r) (pr r) (J r) dt (σ r)) (q r)) vec := by
  simp only [evolveScript, Script.bind_def, Script.bind_assoc]
  refine D.completes_syncEM g1 g2 h1 h2 hty fun Y0 v0 s0 => ?_
  have : ∀ r, ∃ Y, evolveE (pr r) (J r) dt (Y0 r) = .ok Y := fun r => evolveE_total _ _ _ _ (fun hh => hJ r hh Y0 s0)
  choose Y1 e1 using this
  refine completes_lift e1 ?_
  refine D.completes_syncEM g1 g2 h1 h2 hty fun Y2 v2 s2 => ?_
  exact h _ _ fun r => (storeFields_rest _ _ _ _).2.1

/-- Sending the fields again after the electric field has been set locally does not change the magnetic field anywhere. -/
theorem resync_keeps_B (h1 : PeriodicEnds (o.name .left) (o.name .right) N1) (h2 : PeriodicEnds (o.name .bottom) (o.name .top) N2)
    {user : ∀ r, D.LocFieldBCs g1 g2 r K} {yee Y Y0 : ∀ r, EM (D.Loc g1 g2 r) K} {E : ∀ r, (D.Loc g1 g2 r → K) × (D.Loc g1 g2 r → K) × (D.Loc g1 g2 r → K)}
    (hY : D.SentFields g1 g2 o yee Y) (hY0 : D.SyncedFields g1 g2 o user (fun r => (Y r).setE (some (E r))) Y0) (r : R) :
    (Y0 r).B1 = (Y r).B1 ∧ (Y0 r).B2 = (Y r).B2 ∧ (Y0 r).B3 = (Y r).B3 := by
  have key : ∀ k : Fin 6, 3 ≤ k → (Y0 r).comp k = (Y r).comp k := by
    intro k hk
    funext l
    rw [syncedFields_wrap D g1 g2 h1 h2 hY0 r k l, sent_wrap D g1 g2 h1 h2 hY r k l, assembleEM_comp, assembleEM_comp]
    simp only [assemble]
    have := sent_wrap D g1 g2 h1 h2 hY (D.owner (D.toGlob g1 g2 r l)) k
      (D.toLoc g1 g2 (D.owner (D.toGlob g1 g2 r l)) (D.toGlob g1 g2 r l))
    rw [toGlob_toLoc, assembleEM_comp] at this
    simp only [assemble] at this
    rw [← this]
    fin_cases k <;> first | rfl | exact absurd hk (by decide)
  exact ⟨key 3 (by decide), key 4 (by decide), key 5 (by decide)⟩

variable [Fintype S] [Fintype (PIdx Np1 Np2 Np3)] [∀ r, Fintype (D.Loc g1 g2 r)]

theorem completes_slope (hty : FieldTypes g1 g2 o bce.1 bce.2) {c : CoupledConfig S (PIdx Np1 Np2 Np3) (ZMod N1 × ZMod N2) K}
    (hc : GridConfig g1 g2 o c) (hi : Implemented c) {hyb : S}
    {user : ∀ r, D.LocFieldBCs g1 g2 r K} {cb : ∀ r, CoupledCallbacks S (PIdx Np1 Np2 Np3) (D.Loc g1 g2 r) K} {dt : K}
    {F : ∀ r, Dist S (PIdx Np1 Np2 Np3) (D.Loc g1 g2 r) K} {σ : ∀ r, FieldState (D.Loc g1 g2 r) K} {b : Bool} (hb : ∀ r, (σ r).flag = b)
    {q : ∀ r, Dist S (PIdx Np1 Np2 Np3) (D.Loc g1 g2 r) K × FieldState (D.Loc g1 g2 r) K → D.ProcScript g1 g2 r S Np1 Np2 Np3 K (A r)}
    {vec : ∀ r k, KindArr S Np1 Np2 Np3 K (D.Loc g1 g2 r) k}
    (h : ∀ (k : ∀ r, Dist S (PIdx Np1 Np2 Np3) (D.Loc g1 g2 r) K) (σ' : ∀ r, FieldState (D.Loc g1 g2 r) K)
      (vec' : ∀ r k, KindArr S Np1 Np2 Np3 K (D.Loc g1 g2 r) k), (∀ r, (σ' r).flag = slopeFlag c b) →
      Completes (W := D.coupledWire g1 g2 S Np1 Np2 Np3 K bcf bce) (fun r => q r (k r, σ' r)) vec') :
    Completes (W := D.coupledWire g1 g2 S Np1 Np2 Np3 K bcf bce)
      (fun r => (D.slopeScript g1 g2 o c hyb r (user r) (cb r) dt (F r) (σ r)).bind (q r)) vec := by
  by_cases hp : c.solverMethodInP = "FVM" ∧ c.fieldsEnabled = true
  · simp only [slopeScript, if_pos hp, Script.bind_def, Script.bind_assoc, Script.pure_def, Script.ret_bind]
    -- what follows the field update
    have fin : ∀ (σ1 : ∀ r, FieldState (D.Loc g1 g2 r) K) (v1 : ∀ r k, KindArr S Np1 Np2 Np3 K (D.Loc g1 g2 r) k), (∀ r, (σ1 r).flag = b) → Completes (W := D.coupledWire g1 g2 S Np1 Np2 Np3 K bcf bce) (fun r =>
        (Script.lift (V := KindArr S Np1 Np2 Np3 K (D.Loc g1 g2 r)) (dfdtFVM (D.locCfg g1 g2 c r).ax c.toFVMConfig
          ⟨(cb r).Cq1, (cb r).Cq2, (cb r).Cp1 (getFields c.fieldsSolver c.solverMethodInP (σ1 r)).1,
            (cb r).Cp2 (getFields c.fieldsSolver c.solverMethodInP (getFields c.fieldsSolver c.solverMethodInP (σ1 r)).2).1,
            (cb r).Cp3 (getFields c.fieldsSolver c.solverMethodInP
              (getFields c.fieldsSolver c.solverMethodInP (getFields c.fieldsSolver c.solverMethodInP (σ1 r)).2).2).1, (cb r).source⟩ (F r))).bind
          fun k => q r (k, (getFields c.fieldsSolver c.solverMethodInP
              (getFields c.fieldsSolver c.solverMethodInP (getFields c.fieldsSolver c.solverMethodInP (σ1 r)).2).2).2)) v1 := by
      intro σ1 v1 hb1
      choose k hk using fun r => slope_total hi (D.locCfg g1 g2 c r).ax ⟨(cb r).Cq1, (cb r).Cq2,
        (cb r).Cp1 (getFields c.fieldsSolver c.solverMethodInP (σ1 r)).1,
        (cb r).Cp2 (getFields c.fieldsSolver c.solverMethodInP (getFields c.fieldsSolver c.solverMethodInP (σ1 r)).2).1,
        (cb r).Cp3 (getFields c.fieldsSolver c.solverMethodInP
          (getFields c.fieldsSolver c.solverMethodInP (getFields c.fieldsSolver c.solverMethodInP (σ1 r)).2).2).1, (cb r).source⟩ (F r)
      refine completes_lift hk (h k _ v1 fun r => ?_)
      simp only [hp.1, getFields_flag, hb1 r, Bool.not_not, slopeFlag]
      simp [hp.2]
    by_cases he : c.fieldsType = "electrodynamic" ∧ b = false
    · have e1 : ∀ r, c.fieldsType = "electrodynamic" ∧ (σ r).flag = false := fun r => ⟨he.1, by rw [hb r, he.2]⟩
      obtain ⟨m, hm⟩ := hi.recQ
      simp only [fieldScript, if_pos (e1 _), if_pos (hi.fvm he.1), Script.bind_def, Script.bind_assoc]
      refine completes_lift (fun _ => hm) ?_
      by_cases hh : c.hybrid = true
      · simp only [if_pos hh, Script.exchange_bind, Script.bind]
        refine D.completes_sent g1 g2 hty fun Y v1 hY => ?_
        refine D.completes_evolve g1 g2 hc.ends1 hc.ends2 hty ?_ fun σ' v2 hf => fin σ' v2 fun r => (hf r).trans (hb r)
        intro r _ Y0 hY0 i
        obtain ⟨b1, b2, b3⟩ := D.resync_keeps_B g1 g2 hc.ends1 hc.ends2 hY hY0 r
        simp only [curlB1, curlB2, curlB3, b1, b2, b3]
        exact ⟨rfl, rfl, rfl⟩
      · simp only [if_neg hh]
        exact D.completes_evolve g1 g2 hc.ends1 hc.ends2 hty (fun r hr => absurd (show c.hybrid = true from hr) hh)
          fun σ' v2 hf => fin σ' v2 fun r => (hf r).trans (hb r)
    · have e1 : ∀ r, ¬ (c.fieldsType = "electrodynamic" ∧ (σ r).flag = false) := fun r => by rw [hb r]; exact he
      simp only [fieldScript, if_neg (e1 _), Script.pure_def, Script.ret_bind]
      exact fin σ vec hb
  · simp only [slopeScript, if_neg hp, Script.bind_def, Script.bind_assoc, Script.pure_def, Script.ret_bind]
    choose k hk using fun r => slope_total hi (D.locCfg g1 g2 c r).ax
      ⟨(cb r).Cq1, (cb r).Cq2, fun _ _ _ => 0, fun _ _ _ => 0, fun _ _ _ => 0, (cb r).source⟩ (F r)
    refine completes_lift hk (h k σ vec fun r => ?_)
    rw [hb r, slopeFlag, if_neg hp]

theorem completes_run (hty : FieldTypes g1 g2 o bce.1 bce.2) {c : CoupledConfig S (PIdx Np1 Np2 Np3) (ZMod N1 × ZMod N2) K}
    (hc : GridConfig g1 g2 o c) (hi : Implemented c) (hyb : S) (steps : List (K × D.CoupledInput g1 g2 S Np1 Np2 Np3 K))
    (F : ∀ r, Dist S (PIdx Np1 Np2 Np3) (D.Loc g1 g2 r) K) (σ : ∀ r, FieldState (D.Loc g1 g2 r) K) (b : Bool) (hb : ∀ r, (σ r).flag = b)
    (vec : ∀ r k, KindArr S Np1 Np2 Np3 K (D.Loc g1 g2 r) k) :
    Completes (W := D.coupledWire g1 g2 S Np1 Np2 Np3 K bcf bce)
      (fun r => D.runScript g1 g2 o c hyb r (fun _ => false) steps (F r) (σ r)) vec := by
  induction steps generalizing F σ b vec with
  | nil => exact completes_ret (W := D.coupledWire g1 g2 S Np1 Np2 Np3 K bcf bce) (fun r => (F r, σ r)) vec
  | cons st rest ih =>
    obtain ⟨dt, inp⟩ := st
    simp only [runScript, Script.bind_def, stepScript, Script.bind_assoc, Bool.false_eq_true, if_false, Script.pure_def, Script.ret_bind]
    refine D.completes_syncF g1 g2 hc.ends1 hc.ends2 fun F0 v0 => ?_
    refine D.completes_slope g1 g2 hty hc hi hb fun k0 σ0 v1 hb0 => ?_
    refine D.completes_syncF g1 g2 hc.ends1 hc.ends2 fun Fh v2 => ?_
    refine D.completes_slope g1 g2 hty hc hi hb0 fun k1 σ1 v3 hb1 => ?_
    exact ih _ _ _ hb1 _

end Decomp
end Bolt
