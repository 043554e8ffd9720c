import Verif.Spec.MachineBox
import Verif.Proofs.MachineArith
import Verif.Proofs.OpenBox
import Verif.Props.BoundaryArrays

/-! Helper lemmas for runs in a box in machine arithmetic. -/

set_option linter.unusedSectionVars false

namespace Bolt

namespace Mach
open Machine

section
variable {S P K : Type} [Machine K] [AddCommGroup P] {N1 N2 : ℕ}

/-- One step of the box when no exception is raised. -/
def extValue (ext : Fin 2 → Dist S P (ZMod N1 × ZMod N2) K → Dist S P (ℤ × ℤ) K) (ax : P × P × P) (cfg : FVMConfig S K) (mq mp : Recon) (dt : K)
    (cb : Fin 2 → Callbacks S P (ℤ × ℤ) K) (f : Dist S P (ZMod N1 × ZMod N2) K) : Dist S P (ZMod N1 × ZMod N2) K :=
  fun s p i => f s p i ⊞ slopeValue ⟨ax.1, ax.2.1, ax.2.2, (1, 0), (0, 1)⟩ cfg mq mp (cb 1)
    (ext 1 fun s p i => f s p i ⊞ slopeValue ⟨ax.1, ax.2.1, ax.2.2, (1, 0), (0, 1)⟩ cfg mq mp (cb 0) (ext 0 f) s p (boxCell i) ⊠ (dt ⊘ lit 2)) s p
      (boxCell i) ⊠ dt

theorem extStep_eq (ext : Fin 2 → Dist S P (ZMod N1 × ZMod N2) K → Dist S P (ℤ × ℤ) K) (ax : P × P × P) (cfg : FVMConfig S K) {mq mp : Recon}
    (hu : Uses cfg mq mp) (dt : K) (cb : Fin 2 → Callbacks S P (ℤ × ℤ) K) (f : Dist S P (ZMod N1 × ZMod N2) K) :
    extStep ext ax cfg dt cb f = .ok (extValue ext ax cfg mq mp dt cb f) := by
  simp only [extStep, dfdtFVM_eq _ cfg hu, bind, Except.bind, pure, Except.pure]
  rfl

theorem extStep_uses {ext : Fin 2 → Dist S P (ZMod N1 × ZMod N2) K → Dist S P (ℤ × ℤ) K} {ax : P × P × P} {cfg : FVMConfig S K} {dt : K}
    {cb : Fin 2 → Callbacks S P (ℤ × ℤ) K} {f f' : Dist S P (ZMod N1 × ZMod N2) K} (h : extStep ext ax cfg dt cb f = .ok f') : ∃ mq mp, Uses cfg mq mp := by
  unfold extStep at h
  cases h0 : dfdtFVM ⟨ax.1, ax.2.1, ax.2.2, (1, 0), (0, 1)⟩ cfg (cb 0) (ext 0 f) with
  | error e => simp [h0, bind, Except.bind] at h
  | ok a => exact dfdtFVM_uses h0

/-- The first-order flux jump only reads the cell and the neighbours from which something flows in, if zero times anything is zero. -/
theorem fluxJump_pc_congr [Zero K] [LinearOrder K] (hK : ExactComparisons K) (hzero : ∀ u : K, (0 : K) ⊠ u = 0) {I J : Type} [AddCommGroup I] [AddCommGroup J]
    (e : I) (e' : J) (C x : I → K) (C' y : J → K) (l : I) (c : J) (hC : C l = C' c) (hC' : C (l + e) = C' (c + e')) (h0 : x l = y c)
    (hm : 0 < C l → x (l - e) = y (c - e')) (hp : C (l + e) < 0 → x (l + e) = y (c + e')) :
    fluxJump .piecewiseConstant e C x l = fluxJump .piecewiseConstant e' C' y c := by
  have a : leftFlux .piecewiseConstant e C x l = leftFlux .piecewiseConstant e' C' y c := by
    simp only [leftFlux]
    rw [leftState_eq, leftState_eq, ← hC, hK.lt_eq, hK.zero]
    by_cases h : 0 < C l
    · simp only [h, decide_true, if_true]
      exact congrArg _ (hm h)
    · simp only [h, decide_false]
      exact congrArg _ h0
  have b : leftFlux .piecewiseConstant e C x (l + e) = leftFlux .piecewiseConstant e' C' y (c + e') := by
    simp only [leftFlux]
    rw [leftState_eq, leftState_eq, ← hC', add_sub_cancel_right, add_sub_cancel_right, hK.lt_eq, hK.zero]
    rcases lt_trichotomy (C (l + e)) 0 with h | h | h
    · have hn : ¬ 0 < C (l + e) := not_lt.mpr h.le
      simp only [hn, decide_false]
      exact congrArg _ (hp h)
    · rw [h, hzero, hzero]
    · simp only [h, decide_true, if_true]
      exact congrArg _ h0
  rw [fluxJump_eq, fluxJump_eq, a, b]

variable {R : Type} [NeZero N1] [NeZero N2] (D : Decomp N1 N2 R) (g1 g2 : ℕ)

/-- Slopes agree in the bulk when the flux jumps do. -/
theorem slope_signed (ax : P × P × P) (cfg : FVMConfig S K) (mq mp : Recon) (r : R) (loc : Callbacks S P (D.Loc g1 g2 r) K) (glob : Callbacks S P (ℤ × ℤ) K)
    (hcb : D.CallbacksAgreeBox g1 g2 r loc glob) (x : Dist S P (D.Loc g1 g2 r) K) (y : Dist S P (ℤ × ℤ) K) (s : S) (p : P) (l : D.Loc g1 g2 r)
    (hl : D.Interior g1 g2 r l) (hin : ∀ s p, x s p l = y s p (D.signed g1 g2 r l))
    (hj : cfg.solverMethodInQ = "FVM" →
      fluxJump mq ((1, 0) : D.Loc g1 g2 r) (loc.Cq1 s p) (x s p) l = fluxJump mq ((1, 0) : ℤ × ℤ) (glob.Cq1 s p) (y s p) (D.signed g1 g2 r l) ∧
      fluxJump mq ((0, 1) : D.Loc g1 g2 r) (loc.Cq2 s p) (x s p) l = fluxJump mq ((0, 1) : ℤ × ℤ) (glob.Cq2 s p) (y s p) (D.signed g1 g2 r l)) :
    slopeValue (D.locAxes g1 g2 r ax.1 ax.2.1 ax.2.2) cfg mq mp loc x s p l =
      slopeValue ⟨ax.1, ax.2.1, ax.2.2, (1, 0), (0, 1)⟩ cfg mq mp glob y s p (D.signed g1 g2 r l) := by
  have hQ : cfg.solverMethodInQ = "FVM" →
      dfdtQ (D.locAxes g1 g2 r ax.1 ax.2.1 ax.2.2) mq cfg.dq1 cfg.dq2 loc.Cq1 loc.Cq2 x s p l =
        dfdtQ ⟨ax.1, ax.2.1, ax.2.2, (1, 0), (0, 1)⟩ mq cfg.dq1 cfg.dq2 glob.Cq1 glob.Cq2 y s p (D.signed g1 g2 r l) := by
    intro hq
    obtain ⟨e1, e2⟩ := hj hq
    simp only [dfdtQ, Decomp.locAxes]
    rw [e1, e2]
  have hP : dfdtP (D.locAxes g1 g2 r ax.1 ax.2.1 ax.2.2) mp cfg.dp1 cfg.dp2 cfg.dp3 loc.Cp1 loc.Cp2 loc.Cp3 x s p l =
      dfdtP ⟨ax.1, ax.2.1, ax.2.2, (1, 0), (0, 1)⟩ mp cfg.dp1 cfg.dp2 cfg.dp3 glob.Cp1 glob.Cp2 glob.Cp3 y s p (D.signed g1 g2 r l) := by
    have e1 : (fun p => loc.Cp1 s p l) = fun p => glob.Cp1 s p (D.signed g1 g2 r l) := by
      funext p; exact hcb.p1 s p l hl
    have e2 : (fun p => loc.Cp2 s p l) = fun p => glob.Cp2 s p (D.signed g1 g2 r l) := by
      funext p; exact hcb.p2 s p l hl
    have e3 : (fun p => loc.Cp3 s p l) = fun p => glob.Cp3 s p (D.signed g1 g2 r l) := by
      funext p; exact hcb.p3 s p l hl
    have e4 : (fun p => x s p l) = fun p => y s p (D.signed g1 g2 r l) := by funext p; exact hin s p
    simp only [dfdtP, dFluxP, Decomp.locAxes, e1, e2, e3, e4]
  have hS : loc.source x s p l = glob.source y s p (D.signed g1 g2 r l) := hcb.src x y l hl hin s p
  simp only [slopeValue, hP, hS]
  by_cases hq : cfg.solverMethodInQ = "FVM"
  · rw [hQ hq]
  · simp only [hq, if_false]

theorem slope_box (ax : P × P × P) (cfg : FVMConfig S K) (mq mp : Recon) (k1 k2 : AxisEnd) (fl1 fl2 : P → P)
    (hg : cfg.solverMethodInQ = "FVM" → BoxGhosts mq k1 g1 N1 ∧ BoxGhosts mq k2 g2 N2) (r : R) (loc : Callbacks S P (D.Loc g1 g2 r) K)
    (glob : Callbacks S P (ℤ × ℤ) K) (hcb : D.CallbacksAgreeBox g1 g2 r loc glob) (x : Dist S P (D.Loc g1 g2 r) K) (f : Dist S P (ZMod N1 × ZMod N2) K)
    (hx : ∀ s p l, x s p l = boxExt k1 k2 fl1 fl2 f s p (D.signed g1 g2 r l)) (s : S) (p : P) (l : D.Loc g1 g2 r) (hl : D.Interior g1 g2 r l) :
    slopeValue (D.locAxes g1 g2 r ax.1 ax.2.1 ax.2.2) cfg mq mp loc x s p l =
      slopeValue ⟨ax.1, ax.2.1, ax.2.2, (1, 0), (0, 1)⟩ cfg mq mp glob (boxExt k1 k2 fl1 fl2 f) s p (D.signed g1 g2 r l) := by
  refine slope_signed D g1 g2 ax cfg mq mp r loc glob hcb x _ s p l hl (fun s p => hx s p l) fun hq => ?_
  obtain ⟨gs1, gs2⟩ := hg hq
  exact ⟨fluxJump_congr mq ((1, 0) : D.Loc g1 g2 r) ((1, 0) : ℤ × ℤ) (loc.Cq1 s p) (glob.Cq1 s p) (x s p) _ l _ (hcb.q1 s p l hl).1 (hcb.q1 s p l hl).2
      (fun k hk => by rw [hx, Decomp.boxExt_add1 D g1 g2 mq k1 k2 fl1 fl2 f gs1 r l hl k hk]),
    fluxJump_congr mq ((0, 1) : D.Loc g1 g2 r) ((0, 1) : ℤ × ℤ) (loc.Cq2 s p) (glob.Cq2 s p) (x s p) _ l _ (hcb.q2 s p l hl).1 (hcb.q2 s p l hl).2
      (fun k hk => by rw [hx, Decomp.boxExt_add2 D g1 g2 mq k1 k2 fl1 fl2 f gs2 r l hl k hk])⟩

theorem slope_open [Zero K] [LinearOrder K] (hK : ExactComparisons K) (hzero : ∀ u : K, (0 : K) ⊠ u = 0) (ax : P × P × P) (cfg : FVMConfig S K) (mp : Recon)
    (r : R) (loc : Callbacks S P (D.Loc g1 g2 r) K) (glob : Callbacks S P (ℤ × ℤ) K) (hcb : D.CallbacksAgreeBox g1 g2 r loc glob)
    (x : Dist S P (D.Loc g1 g2 r) K) (y : Dist S P (ℤ × ℤ) K) (hx : D.Sees g1 g2 r loc x y) (s : S) (p : P) (l : D.Loc g1 g2 r) (hl : D.Interior g1 g2 r l) :
    slopeValue (D.locAxes g1 g2 r ax.1 ax.2.1 ax.2.2) cfg .piecewiseConstant mp loc x s p l =
      slopeValue ⟨ax.1, ax.2.1, ax.2.2, (1, 0), (0, 1)⟩ cfg .piecewiseConstant mp glob y s p (D.signed g1 g2 r l) :=
  slope_signed D g1 g2 ax cfg _ mp r loc glob hcb x _ s p l hl (fun s p => hx.inside s p l hl) fun _ =>
    ⟨fluxJump_pc_congr hK hzero _ _ _ _ _ _ _ _ (hcb.q1 s p l hl).1 (hcb.q1 s p l hl).2 (hx.inside s p l hl) (hx.left s p l hl) (hx.right s p l hl),
      fluxJump_pc_congr hK hzero _ _ _ _ _ _ _ _ (hcb.q2 s p l hl).1 (hcb.q2 s p l hl).2 (hx.inside s p l hl) (hx.bottom s p l hl) (hx.top s p l hl)⟩

end

section
variable {S K : Type} [Machine K] [Zero K] [LinearOrder K] {N1 N2 : ℕ} {R : Type} [NeZero N1] [NeZero N2] (D : Decomp N1 N2 R) (g1 g2 : ℕ) {Np1 Np2 Np3 : ℕ}

/-- One step on all processes is one step of the box, when the ghost zones show `ext` of the bulk wherever the slope looks. -/
theorem bcStep_ext (o : BCOptions) (ax : PIdx Np1 Np2 Np3 × PIdx Np1 Np2 Np3 × PIdx Np1 Np2 Np3) (cfg : FVMConfig S K) {mq mp : Recon} (hu : Uses cfg mq mp) (dt : K)
    (dat : Fin 2 → ∀ r, D.LocBCData g1 g2 r S Np1 Np2 Np3 K) (cb : Fin 2 → ∀ r, Callbacks S (PIdx Np1 Np2 Np3) (D.Loc g1 g2 r) K)
    (cbG : Fin 2 → Callbacks S (PIdx Np1 Np2 Np3) (ℤ × ℤ) K)
    (ext : Fin 2 → Dist S (PIdx Np1 Np2 Np3) (ZMod N1 × ZMod N2) K → Dist S (PIdx Np1 Np2 Np3) (ℤ × ℤ) K)
    (hext : ∀ j f s p i, ext j f s p (boxCell i) = f s p i)
    (hin : ∀ j (F F0 : ∀ r, Dist S (PIdx Np1 Np2 Np3) (D.Loc g1 g2 r) K), D.Synced g1 g2 o (dat j) F F0 → ∀ r s p l, D.Interior g1 g2 r l →
      F0 r s p l = ext j (D.assemble g1 g2 F) s p (D.signed g1 g2 r l))
    (hsl : ∀ j (F F0 : ∀ r, Dist S (PIdx Np1 Np2 Np3) (D.Loc g1 g2 r) K), D.Synced g1 g2 o (dat j) F F0 → ∀ r s p l, D.Interior g1 g2 r l →
      slopeValue (D.locAxes g1 g2 r ax.1 ax.2.1 ax.2.2) cfg mq mp (cb j r) (F0 r) s p l =
        slopeValue ⟨ax.1, ax.2.1, ax.2.2, (1, 0), (0, 1)⟩ cfg mq mp (cbG j) (ext j (D.assemble g1 g2 F)) s p (D.signed g1 g2 r l))
    (F F' : ∀ r, Dist S (PIdx Np1 Np2 Np3) (D.Loc g1 g2 r) K) (f : Dist S (PIdx Np1 Np2 Np3) (ZMod N1 × ZMod N2) K)
    (hF : D.Holds g1 g2 F f) (h : BcStep D g1 g2 o ax cfg dt dat cb F F') : D.Holds g1 g2 F' (extValue ext ax cfg mq mp dt cbG f) := by
  obtain ⟨F0, s0, Fh, s1, a, b, c, d, rfl⟩ := h
  rw [Decomp.holds_iff] at hF
  subst hF
  simp only [dfdtFVM_eq _ cfg hu, Except.ok.injEq] at b d
  have hh : D.assemble g1 g2 (fun r s p l => F0 r s p l ⊞ s0 r s p l ⊠ (dt ⊘ lit 2))
      = fun s p i => D.assemble g1 g2 F s p i ⊞
        slopeValue ⟨ax.1, ax.2.1, ax.2.2, (1, 0), (0, 1)⟩ cfg mq mp (cbG 0) (ext 0 (D.assemble g1 g2 F)) s p (boxCell i) ⊠ (dt ⊘ lit 2) := by
    rw [← Decomp.holds_iff]
    intro r s p l hl
    beta_reduce
    rw [← b r, hsl 0 F F0 a r s p l hl, hin 0 F F0 a r s p l hl, Decomp.signed_interior D g1 g2 r l hl, hext]
  intro r s p l hl
  beta_reduce
  rw [← d r, hsl 1 _ Fh c r s p l hl, hin 0 F F0 a r s p l hl, hh, Decomp.signed_interior D g1 g2 r l hl, hext]
  rfl

end

end Mach

/-- What the dump file holds when the bulk of all processes holds a distribution. -/
theorem dumped_cells {K : Type} [Machine K] {N1 N2 : ℕ} [NeZero N1] [NeZero N2] {R : Type} {D : Decomp N1 N2 R} {g1 g2 Np1 Np2 Np3 Ns : ℕ}
    [NeZero Np1] [NeZero Np2] [NeZero Np3] [NeZero Ns] (hz : D.SizesOk (D.sizes Np1 Np2 Np3 Ns g1 g2) g1 g2) {F' : R → AfArray K}
    (sF' : D.Shaped g1 g2 (Np1 * Np2 * Np3) Ns F') {f' : Dist (Fin Ns) (AslPIdx Np1 Np2 Np3) (ZMod N1 × ZMod N2) K}
    (hH : D.Holds g1 g2 (D.cellsOf g1 g2 Np1 Np2 Np3 Ns F') f') {file : Vec K}
    (hd : D.DumpsTo (D.sizes Np1 Np2 Np3 Ns g1 g2) (Np1 * Np2 * Np3) Ns F' file) :
    file.len = Np1 * Np2 * Np3 * Ns * (N1 * N2) ∧ ∀ (p1 p2 p3 s q1 q2 : ℕ) (hs : s < Ns), p1 < Np1 → p2 < Np2 → p3 < Np3 → q1 < N1 → q2 < N2 →
      file.data ((p1 + Np1 * (p2 + Np2 * p3)) + Np1 * Np2 * Np3 * (s + Ns * (q1 + N1 * q2))) =
        f' ⟨s, hs⟩ ((p1 : ZMod Np1), (p2 : ZMod Np2), (p3 : ZMod Np3)) ((q1 : ZMod N1), (q2 : ZMod N2)) := by
  let z0 : GridSizes := ⟨Np1, Np2, Np3, Ns, 0, 0, 0, 0⟩
  let u : ℕ → ℕ → ℕ → ℕ → K := fun i j x y => if hj : j < Ns then f' ⟨j, hj⟩ (z0.unrow i) ((x : ZMod N1), (y : ZMod N2)) else Machine.lit 0
  have hu : D.Bulk g1 g2 (Np1 * Np2 * Np3) Ns F' u := by
    intro r i j a b hi hj ha hb
    have e1 : ((a + g1 : ℕ) : ZMod (D.n1 r + 2 * g1)).val = a + g1 := ZMod.val_natCast_of_lt (by omega)
    have e2 : ((b + g2 : ℕ) : ZMod (D.n2 r + 2 * g2)).val = b + g2 := ZMod.val_natCast_of_lt (by omega)
    have hl := hH r ⟨j, hj⟩ (z0.unrow i) (((a + g1 : ℕ) : ZMod (D.n1 r + 2 * g1)), ((b + g2 : ℕ) : ZMod (D.n2 r + 2 * g2))) (by
      unfold Decomp.Interior; dsimp only; rw [e1, e2]; omega)
    have hlhs : D.cellsOf g1 g2 Np1 Np2 Np3 Ns F' r ⟨j, hj⟩ (z0.unrow i)
        (((a + g1 : ℕ) : ZMod (D.n1 r + 2 * g1)), ((b + g2 : ℕ) : ZMod (D.n2 r + 2 * g2))) = (F' r).get i j (a + g1) (b + g2) := by
      have hr : z0.row (z0.unrow i) = i := row_unrow (z := z0) hi
      have : D.cellsOf g1 g2 Np1 Np2 Np3 Ns F' r ⟨j, hj⟩ (z0.unrow i)
        (((a + g1 : ℕ) : ZMod (D.n1 r + 2 * g1)), ((b + g2 : ℕ) : ZMod (D.n2 r + 2 * g2))) = (F' r).get (z0.row (z0.unrow i)) j
          (((a + g1 : ℕ) : ZMod (D.n1 r + 2 * g1))).val (((b + g2 : ℕ) : ZMod (D.n2 r + 2 * g2))).val := rfl
      rw [this, e1, e2, hr]
    rw [← hlhs, hl]
    simp only [u, dif_pos hj, Decomp.toGlob, globCoord, e1, e2]
    congr 2 <;> (push_cast; ring)
  obtain ⟨hlen, hfile⟩ := D.C38_file_contents _ g1 g2 _ _ F' file hz sF' hd u hu
  refine ⟨hlen, fun p1 p2 p3 s q1 q2 hs h1 h2 h3 hq1 hq2 => ?_⟩
  have hrow : p1 + Np1 * (p2 + Np2 * p3) < Np1 * Np2 * Np3 := by
    have := AfArray.offset_lt (d3 := 1) (l := 0) h1 h2 h3 Nat.one_pos
    simpa [AfArray.offset] using this
  rw [hfile _ s q1 q2 hrow hs hq1 hq2]
  simp only [u, dif_pos hs]
  congr 1
  simp only [z0, GridSizes.unrow]
  rw [div_of_lt h1, div_of_lt h2]
  ext <;> simp

end Bolt
