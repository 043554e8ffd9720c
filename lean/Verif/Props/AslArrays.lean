import Verif.Proofs.AslArrays
import Verif.Props.ArrayProgram
import Verif.Props.ASL

/-!
# C122: the semi-Lagrangian routines on arrays
-/

set_option linter.unusedSectionVars false

namespace Bolt

open Machine PyExpr

section any
variable {K : Type} [Machine K] {z : GridSizes} [NeZero z.Np1] [NeZero z.Np2] [NeZero z.Np3] [NeZero z.Ns] [NeZero z.M1] [NeZero z.M2]

/-- C122 (positions): on an array with at least two cells along both axes the routine returns, and every cell holds the library's interpolation of its own species and
momentum, at the cell centre moved back by the velocity times the step. -/
theorem C122_interp_q (hzero : ∀ u : K, lit 0 ⊞ u = u) {kern : Kernel K} (hk : kern.ReadsInside) (k1 : 2 ≤ z.M1) (k2 : 2 ≤ z.M2) {q1 q2 : AfArray K} {q : Coords K}
    (h1 : z.HoldsCoord q1 q.1) (h2 : z.HoldsCoord q2 q.2) {A1 A2 : PyExpr K} {a1 a2 : Fin z.Ns → z.P → z.Q → K} (hA1 : HoldsVel A1 a1) (hA2 : HoldsVel A2 a2) (dt : K)
    {f : AfArray K} (hf : z.Fits f) :
    ∃ b, arrInterp2d kern q1 q2 A1 A2 dt f = .ok b ∧ z.Fits b ∧ z.cells b = Mach.fInterp2d kern q a1 a2 dt (z.cells f) := by
  have hx := newPos_holds hzero h1 hA1 dt
  have hy := newPos_holds hzero h2 hA2 dt
  obtain ⟨x, ex, -⟩ := id hx
  obtain ⟨y, ey, -⟩ := id hy
  rw [ex] at hx
  rw [ey] at hy
  obtain ⟨xs, ys, v, e1, e2, e3, hfit, hc⟩ := approxQ (c := q) (X := fun s p l => q.1 l.1.val l.2.val ⊞ neg (a1 s p l) ⊠ dt)
    (Y := fun s p l => q.2 l.1.val l.2.val ⊞ neg (a2 s p l) ⊠ dt) hk hx hy h1 h2 hf k1 k2
  refine ⟨v.reorder 3 2 0 1, ?_, hfit, hc⟩
  unfold arrInterp2d
  rw [ex, ey]
  simp only [PyExpr.array, bind, Except.bind]
  rw [e1]
  dsimp only
  rw [e2]
  dsimp only
  rw [e3]
  rfl

/-- C122 (negative): with a single cell along an axis — ghost cells included — the routine does not return. -/
theorem C122_interp_q_one_cell {kern : Kernel K} (k : z.M1 ≤ 1 ∨ z.M2 ≤ 1) {q1 q2 : AfArray K} {q : Coords K}
    (h1 : z.HoldsCoord q1 q.1) (h2 : z.HoldsCoord q2 q.2) (A1 A2 : PyExpr K) (dt : K) (f b : AfArray K) : arrInterp2d kern q1 q2 A1 A2 dt f ≠ .ok b := by
  intro h
  unfold arrInterp2d at h
  simp only [bind, Except.bind] at h
  split at h
  · cases h
  split at h
  · cases h
  split at h
  · cases h
  rename_i e1
  split at h
  · cases h
  rename_i e2
  unfold AfArray.scale0 at e1
  unfold AfArray.scale1 at e2
  split_ifs at e1 e2 with c1 c2
  have c1' : 2 ≤ q1.d2 := c1
  have c2' : 2 ≤ q2.d3 := c2
  rw [h1.1.2.2.1] at c1'
  rw [h2.1.2.2.2] at c2'
  omega

theorem interp_p_of (hzero : ∀ u : K, lit 0 ⊞ u = u) (hone : ∀ u : K, lit 1 ⊠ u = u) {kern : Kernel K} (hk : kern.ReadsInside) {L : Lay z.Cell} (ok : L.Ok)
    (sub : L.Sub (pExpanded z)) {x : AslPIn K} {a2 a3 : Dist (Fin z.Ns) z.P z.Q K} {pc2 pc3 : Fin z.Ns → z.P → K} {p2s p3s dp2 dp3 : Fin z.Ns → K}
    (hx : x.Hold a2 a3 pc2 pc3 p2s p3s dp2 dp3) {b2 b3 d2 d3 : Fin z.Ns → z.P → K} (h1 : L.Holds x.p2s fun y => b2 y.1 y.2.1) (h2 : L.Holds x.p3s fun y => b3 y.1 y.2.1)
    (h3 : L.Holds x.dp2 fun y => d2 y.1 y.2.1) (h4 : L.Holds x.dp3 fun y => d3 y.1 y.2.1) (dt : K) {f : AfArray K} (hf : z.Fits f) :
    ∃ b, arrInterpP3d kern z x dt f = .ok b ∧ z.Fits b ∧ z.cells b = Mach.fInterpP3d kern pc2 pc3 b2 b3 d2 d3 a2 a3 dt (z.cells f) := by
  have i2 := interpolant_holds hzero hone ok sub dt hx.p2c hx.A2 h1 h3
  have i3 := interpolant_holds hzero hone ok sub dt hx.p3c hx.A3 h2 h4
  obtain ⟨x2, e2, -⟩ := id i2
  obtain ⟨x3, e3, -⟩ := id i3
  rw [e2] at i2
  rw [e3] at i3
  obtain ⟨fp, ef, hfp⟩ := toP_fits hf
  obtain ⟨v, b, ev, eb, hb, hc⟩ := approxP hk i2 i3 hfp
  obtain ⟨w, ew⟩ := hx.A1
  refine ⟨b, ?_, hb, hc⟩
  unfold arrInterpP3d
  rw [ew, e2, e3]
  simp only [PyExpr.array, bind, Except.bind]
  rw [ef]
  dsimp only
  rw [ev]
  exact eb

/-- C122 (momenta, one species): the routine returns, and every cell holds the library's interpolation at its momentum moved back by the acceleration times the step. -/
theorem C122_interp_p_one_species (hzero : ∀ u : K, lit 0 ⊞ u = u) (hone : ∀ u : K, lit 1 ⊠ u = u) {kern : Kernel K} (hk : kern.ReadsInside) (one : z.Ns = 1)
    {x : AslPIn K} {a2 a3 : Dist (Fin z.Ns) z.P z.Q K} {pc2 pc3 : Fin z.Ns → z.P → K} {p2s p3s dp2 dp3 : Fin z.Ns → K} (hx : x.Hold a2 a3 pc2 pc3 p2s p3s dp2 dp3) (dt : K)
    {f : AfArray K} (hf : z.Fits f) :
    ∃ b, arrInterpP3d kern z x dt f = .ok b ∧ z.Fits b ∧
      z.cells b = Mach.fInterpP3d kern pc2 pc3 (fun s _ => p2s s) (fun s _ => p3s s) (fun s _ => dp2 s) (fun s _ => dp3 s) a2 a3 dt (z.cells f) :=
  interp_p_of hzero hone hk (speciesOnly_ok z) ⟨.inr rfl, .inr one, .inr rfl, .inr rfl⟩ hx (b2 := fun s _ => p2s s) (b3 := fun s _ => p3s s) (d2 := fun s _ => dp2 s)
    (d3 := fun s _ => dp3 s) hx.p2s hx.p3s hx.dp2 hx.dp3 dt hf

/-- The shape `(1, N_species)` read along the axis of the second momentum coordinate. -/
def sharedP2 (z : GridSizes) : Lay z.Cell := ⟨1, z.Np2, 1, 1, fun _ => 0, fun x => x.2.1.2.1.val, fun _ => 0, fun _ => 0⟩

omit [Machine K] in
theorem sharedP2_holds (h : z.Np2 = z.Ns) {m : PyExpr K} {w : Fin z.Ns → K} (hm : (speciesOnly z).Holds m fun y => w y.1) :
    (sharedP2 z).Holds m fun y => w (speciesOfP2 h y.2.1) := by
  obtain ⟨a, e, h0, h1, h2, h3, hg⟩ := hm
  exact ⟨a, e, h0, h1.trans h.symm, h2, h3, fun y => hg (speciesOfP2 h y.2.1, y.2)⟩

/-- C122 (momenta, as many species as cells along the second momentum axis): the routine returns, and the lower ends and cell sizes it uses for a cell are those of the species
whose number is the cell's index along the second momentum axis. -/
theorem C122_interp_p_mixed (hzero : ∀ u : K, lit 0 ⊞ u = u) (hone : ∀ u : K, lit 1 ⊠ u = u) {kern : Kernel K} (hk : kern.ReadsInside) (same : z.Np2 = z.Ns)
    {x : AslPIn K} {a2 a3 : Dist (Fin z.Ns) z.P z.Q K} {pc2 pc3 : Fin z.Ns → z.P → K} {p2s p3s dp2 dp3 : Fin z.Ns → K} (hx : x.Hold a2 a3 pc2 pc3 p2s p3s dp2 dp3) (dt : K)
    {f : AfArray K} (hf : z.Fits f) :
    ∃ b, arrInterpP3d kern z x dt f = .ok b ∧ z.Fits b ∧
      z.cells b = Mach.fInterpP3d kern pc2 pc3 (fun _ p => p2s (speciesOfP2 same p)) (fun _ p => p3s (speciesOfP2 same p)) (fun _ p => dp2 (speciesOfP2 same p))
        (fun _ p => dp3 (speciesOfP2 same p)) a2 a3 dt (z.cells f) := by
  refine interp_p_of hzero hone hk (L := sharedP2 z) ⟨fun _ => Nat.one_pos, fun _ => ZMod.val_lt _, fun _ => Nat.one_pos, fun _ => Nat.one_pos⟩
    ⟨.inr rfl, .inl ⟨rfl, rfl⟩, .inr rfl, .inr rfl⟩ hx (b2 := fun _ p => p2s (speciesOfP2 same p)) (b3 := fun _ p => p3s (speciesOfP2 same p))
    (d2 := fun _ p => dp2 (speciesOfP2 same p)) (d3 := fun _ p => dp3 (speciesOfP2 same p)) ?_ ?_ ?_ ?_ dt hf
  · exact sharedP2_holds same hx.p2s
  · exact sharedP2_holds same hx.p3s
  · exact sharedP2_holds same hx.dp2
  · exact sharedP2_holds same hx.dp3

/-- C122 (momenta, as many species as cells along the second momentum axis, the same momentum grid for all species): the result is right. -/
theorem C122_interp_p_shared_grid (hzero : ∀ u : K, lit 0 ⊞ u = u) (hone : ∀ u : K, lit 1 ⊠ u = u) {kern : Kernel K} (hk : kern.ReadsInside) (same : z.Np2 = z.Ns)
    {x : AslPIn K} {a2 a3 : Dist (Fin z.Ns) z.P z.Q K} {pc2 pc3 : Fin z.Ns → z.P → K} {p2s p3s dp2 dp3 : K}
    (hx : x.Hold a2 a3 pc2 pc3 (fun _ => p2s) (fun _ => p3s) (fun _ => dp2) (fun _ => dp3)) (dt : K) {f : AfArray K} (hf : z.Fits f) :
    ∃ b, arrInterpP3d kern z x dt f = .ok b ∧ z.Fits b ∧
      z.cells b = Mach.fInterpP3d kern pc2 pc3 (fun _ _ => p2s) (fun _ _ => p3s) (fun _ _ => dp2) (fun _ _ => dp3) a2 a3 dt (z.cells f) :=
  C122_interp_p_mixed hzero hone hk same hx dt hf

/-- The expression evaluates to an array of the given shape. -/
def HasShape (m : PyExpr K) (d0 d1 d2 d3 : ℕ) : Prop := ∃ a, m = .ok (.arr a) ∧ a.d0 = d0 ∧ a.d1 = d1 ∧ a.d2 = d2 ∧ a.d3 = d3

omit [Machine K] in
theorem fits_max_one (d : ℕ) (h : d ≠ 0) : AfArray.Fits d 1 ∧ max d 1 = d := ⟨by unfold AfArray.Fits; omega, by omega⟩

omit [Machine K] in
/-- The broadcast with an array `(1, N_species)`, when the axis of the second momentum coordinate has length one or the number of species. -/
theorem bin_shape (f : K → K → K) {x y : PyExpr K} {d : ℕ} (hd : d = 1 ∨ d = z.Ns) (hx : HasShape x z.Np1 d z.Np3 (z.Ns * z.M1 * z.M2)) (hy : HasShape y 1 z.Ns 1 1) :
    HasShape (bin true f x y) z.Np1 z.Ns z.Np3 (z.Ns * z.M1 * z.M2) := by
  obtain ⟨a, rfl, a0, a1, a2, a3⟩ := hx
  obtain ⟨b, rfl, b0, b1, b2, b3⟩ := hy
  have n1 : z.Np1 ≠ 0 := NeZero.ne _
  have n3 : z.Np3 ≠ 0 := NeZero.ne _
  have ns : z.Ns ≠ 0 := NeZero.ne _
  have n4 : z.Ns * z.M1 * z.M2 ≠ 0 := Nat.mul_ne_zero (Nat.mul_ne_zero ns (NeZero.ne _)) (NeZero.ne _)
  have hb : AfArray.batched f a b = .ok (AfArray.ofFn (max a.d0 b.d0) (max a.d1 b.d1) (max a.d2 b.d2) (max a.d3 b.d3) fun i j k l =>
      f (a.get (AfArray.along a.d0 i) (AfArray.along a.d1 j) (AfArray.along a.d2 k) (AfArray.along a.d3 l))
        (b.get (AfArray.along b.d0 i) (AfArray.along b.d1 j) (AfArray.along b.d2 k) (AfArray.along b.d3 l))) := by
    refine if_pos ?_
    rw [a0, a1, a2, a3, b0, b1, b2, b3]
    refine ⟨(fits_max_one _ n1).1, ?_, (fits_max_one _ n3).1, (fits_max_one _ n4).1⟩
    unfold AfArray.Fits
    rcases hd with rfl | rfl <;> omega
  refine ⟨_, show Except.map PyVal.arr (AfArray.batched f a b) = _ by rw [hb]; rfl, ?_, ?_, ?_, ?_⟩
  · change max a.d0 b.d0 = _; rw [a0, b0, (fits_max_one _ n1).2]
  · change max a.d1 b.d1 = _; rw [a1, b1]; rcases hd with rfl | rfl <;> omega
  · change max a.d2 b.d2 = _; rw [a2, b2, (fits_max_one _ n3).2]
  · change max a.d3 b.d3 = _; rw [a3, b3, (fits_max_one _ n4).2]

theorem shape_species {m : PyExpr K} {w : z.Cell → K} (h : (speciesOnly z).Holds m w) : HasShape m 1 z.Ns 1 1 := by
  obtain ⟨a, e, h0, h1, h2, h3, -⟩ := h
  exact ⟨a, e, h0, h1, h2, h3⟩

theorem shape_num {m : PyExpr K} {d0 d1 d2 d3 : ℕ} (b : Bool) (f : K → K → K) (u : K) (h : HasShape m d0 d1 d2 d3) : HasShape (bin b f (num u) m) d0 d1 d2 d3 := by
  obtain ⟨a, rfl, h⟩ := h
  exact ⟨_, rfl, h⟩

theorem interpolant_raises (hzero : ∀ u : K, lit 0 ⊞ u = u) (h1 : z.Ns ≠ 1) (h2 : z.Np2 ≠ z.Ns) (dt : K) {pc A ps dp : PyExpr K} {c : Fin z.Ns → z.P → K}
    {Af : Dist (Fin z.Ns) z.P z.Q K} {b d : z.Cell → K} (hpc : (momentumOnly z).Holds pc fun y => c y.1 y.2.1) (hA : HoldsDist A Af) (hps : (speciesOnly z).Holds ps b)
    (hdp : (speciesOnly z).Holds dp d) :
    (z.Np2 = 1 ∧ HasShape (arrInterpolant z dt pc A ps dp) z.Np1 z.Ns z.Np3 (z.Ns * z.M1 * z.M2)) ∨ (z.Np2 ≠ 1 ∧ arrInterpolant z dt pc A ps dp = .error .exception) := by
  have hnew : (qExpanded z).Holds (addAll [pc, num (neg dt) * A]) fun x => c x.1 x.2.1 ⊞ neg dt ⊠ Af x.1 x.2.1 x.2.2 :=
    add2_holds hzero hpc fun x' hx' => hx'.batchL (qExpanded_ok z) (momentumOnly_ok z) momentumOnly_sub add (Lay.Holds.numL false mul (neg dt) hA)
  obtain ⟨pn, en, p0, p1, p2, p3, -⟩ := toP_holds hnew
  have hlow : (speciesOnly z).Holds (-addAll [ps, const (1 / 2) * dp]) fun x => neg (b x ⊞ lit (1 / 2) ⊠ d x) :=
    (add2_holds hzero hps fun x' hx' => hx'.batchR (speciesOnly_ok z) (speciesOnly_ok z) (Lay.Sub.refl _) add (hdp.numL false mul (lit (1 / 2)))).un neg
  have hinv : HasShape (const 1 / dp) 1 z.Ns 1 1 := shape_num false div (lit 1) (shape_species hdp)
  unfold arrInterpolant
  rw [en]
  by_cases h : z.Np2 = 1
  · refine .inl ⟨h, bin_shape mul (.inr rfl) (shape_num true mul (lit 1) (bin_shape (d := z.Np2) (x := bin true add (const 0) (.ok (.arr pn))) add (.inl h) ?_ (shape_species hlow))) hinv⟩
    exact shape_num true add (lit 0) ⟨pn, rfl, p0, p1, p2, p3⟩
  · refine .inr ⟨h, ?_⟩
    obtain ⟨lw, el, l0, l1, l2, l3⟩ := shape_species hlow
    rw [el]
    have hb : AfArray.batched add (pn.map fun u => lit 0 ⊞ u) lw = .error .exception := by
      refine if_neg fun hf => ?_
      have hf1 : AfArray.Fits pn.d1 lw.d1 := hf.2.1
      rw [l1, p1] at hf1
      unfold AfArray.Fits at hf1
      simp only [pExpanded] at hf1
      omega
    change bin true mul (bin true mul (const 1) (Except.map PyVal.arr (AfArray.batched add (pn.map fun u => lit 0 ⊞ u) lw))) _ = _
    rw [hb]
    rfl

/-- C122 (negative): with several species, and another number of cells along the second momentum axis than species, the routine raises: the arrays of lower ends and cell sizes
hold the species along the axis on which the other arrays hold the second momentum coordinate. -/
theorem C122_interp_p_raises (hzero : ∀ u : K, lit 0 ⊞ u = u) {kern : Kernel K} (h1 : z.Ns ≠ 1) (h2 : z.Np2 ≠ z.Ns)
    {x : AslPIn K} {a2 a3 : Dist (Fin z.Ns) z.P z.Q K} {pc2 pc3 : Fin z.Ns → z.P → K} {p2s p3s dp2 dp3 : Fin z.Ns → K} (hx : x.Hold a2 a3 pc2 pc3 p2s p3s dp2 dp3) (dt : K)
    {f : AfArray K} (hf : z.Fits f) : arrInterpP3d kern z x dt f = .error .exception := by
  obtain ⟨w, ew⟩ := hx.A1
  have i2 := interpolant_raises hzero h1 h2 dt hx.p2c hx.A2 hx.p2s hx.dp2
  have i3 := interpolant_raises hzero h1 h2 dt hx.p3c hx.A3 hx.p3s hx.dp3
  unfold arrInterpP3d
  rw [ew]
  rcases i2 with ⟨h, y2, e2, s20, s21, s22, s23⟩ | ⟨-, e2⟩
  · rcases i3 with ⟨-, y3, e3, s30, s31, s32, s33⟩ | ⟨h', -⟩
    · rw [e2, e3]
      obtain ⟨fp, ef, hfp⟩ := toP_fits hf
      obtain ⟨fp', efp, f0, f1, f2, f3, -⟩ := hfp
      cases efp
      simp only [pExpanded] at f0 f1 f2 f3
      simp only [PyExpr.array, bind, Except.bind]
      rw [ef]
      dsimp only
      have ha : AfArray.approx2At kern (fp.reorder 1 2 0 3) (y2.reorder 1 2 0 3) (y3.reorder 1 2 0 3) = .ok _ :=
        if_pos ⟨⟨s21.trans s31.symm, s22.trans s32.symm, s20.trans s30.symm, s23.trans s33.symm⟩, .inl ⟨s20.trans f0.symm, s23.trans f3.symm⟩⟩
      rw [ha]
      dsimp only
      refine if_neg fun e => ?_
      have e' : fp.d0 * y2.d1 * y2.d2 * fp.d3 = z.Np1 * z.Np2 * z.Np3 * z.Ns * z.M1 * z.M2 := e
      rw [f0, s21, s22, f3, h] at e'
      have hpos : 0 < z.Np1 * z.Np3 * (z.Ns * z.M1 * z.M2) :=
        Nat.mul_pos (Nat.mul_pos (NeZero.pos _) (NeZero.pos _)) (Nat.mul_pos (Nat.mul_pos (NeZero.pos _) (NeZero.pos _)) (NeZero.pos _))
      exact h1 (Nat.eq_of_mul_eq_mul_left hpos (by linarith))
    · exact absurd h h'
  · rw [e2]
    rfl

end any

section exact
variable {K : Type} [Field K] [LinearOrder K] [IsStrictOrderedRing K] [FloorRing K]

theorem approx2_readsInside : Kernel.ReadsInside (approx2 (K := K)) := fun M1 M2 v v' x y h => approx2_congr M1 M2 v v' x y h

/-- C122 (exact arithmetic, positions): the formula is that of `f_interp_2d` in C51. -/
theorem C122_exact_q {S P : Type} {M1 M2 : ℕ} (q : Coords K) (a1 a2 : S → P → ZMod M1 × ZMod M2 → K) (dt : K) (f : Dist S P (ZMod M1 × ZMod M2) K) :
    @Mach.fInterp2d K (exactMachine K) S P approx2 M1 M2 q a1 a2 dt f = fInterp2d q a1 a2 dt f := rfl

/-- C122 (exact arithmetic, momenta): the formula is that of `f_interp_p_3d` in C51. -/
theorem C122_exact_p {S Q : Type} {Np1 Np2 Np3 : ℕ} (p2s p3s dp2 dp3 : S → K) (a1 a2 a3 : Dist S (AslPIdx Np1 Np2 Np3) Q K) (dt : K) (f : Dist S (AslPIdx Np1 Np2 Np3) Q K) :
    @Mach.fInterpP3d K (exactMachine K) S approx2 Q Np1 Np2 Np3 (fun s p => p2s s + (1 / 2 + (p.2.1.val : K)) * dp2 s) (fun s p => p3s s + (1 / 2 + (p.2.2.val : K)) * dp3 s)
      (fun s _ => p2s s) (fun s _ => p3s s) (fun s _ => dp2 s) (fun s _ => dp3 s) a2 a3 dt f = fInterpP3d p2s p3s dp2 dp3 a1 a2 a3 dt f := by
  have hl : ∀ q : ℚ, (exactMachine K).lit q = (q : K) := fun _ => rfl
  funext s p l
  simp only [Mach.fInterpP3d, fInterpP3d, hl]
  push_cast
  rfl

end exact

namespace Decomp
variable {K : Type} [Field K] [LinearOrder K] [IsStrictOrderedRing K] [FloorRing K] {N1 N2 : ℕ} {R : Type} [NeZero N1] [NeZero N2] (D : Decomp N1 N2 R)
  (g1 g2 Np1 Np2 Np3 Ns : ℕ) [NeZero Np1] [NeZero Np2] [NeZero Np3] [NeZero Ns]

/-- C122 (`op_advect_q`): on all processes of a periodic run with at least two cells along both axes (ghost cells included), the array program returns; and what every process
then holds is the cell-by-cell result of C51, for any previous content of the local vectors. -/
theorem C122_op_advect_q (hz : D.SizesOk (D.sizes Np1 Np2 Np3 Ns g1 g2) g1 g2) (k : ∀ r, 2 ≤ D.n1 r + 2 * g1 ∧ 2 ≤ D.n2 r + 2 * g2) (q1Start q2Start dq1 dq2 : K)
    {q1 q2 : R → AfArray K} (hq : ∀ r, (D.sizes Np1 Np2 Np3 Ns g1 g2 r).HoldsCoord (q1 r) (D.coords g1 g2 q1Start q2Start dq1 dq2 r).2.2.2.1 ∧
      (D.sizes Np1 Np2 Np3 Ns g1 g2 r).HoldsCoord (q2 r) (D.coords g1 g2 q1Start q2Start dq1 dq2 r).2.2.2.2)
    {A1 A2 : R → PyExpr K} {a1 a2 : ∀ r, Fin Ns → AslPIdx Np1 Np2 Np3 → D.Loc g1 g2 r → K}
    (hA1 : ∀ r, HoldsVel (z := D.sizes Np1 Np2 Np3 Ns g1 g2 r) (A1 r) (a1 r)) (hA2 : ∀ r, HoldsVel (z := D.sizes Np1 Np2 Np3 Ns g1 g2 r) (A2 r) (a2 r)) (dt : K)
    {F : R → AfArray K} (hF : D.Shaped g1 g2 (Np1 * Np2 * Np3) Ns F) :
    (∃ F', @Decomp.ArrAdvectQ K (exactMachine K) N1 N2 R D g1 g2 Np1 Np2 Np3 Ns approx2 q1 q2 A1 A2 dt F F') ∧
    ∀ F', @Decomp.ArrAdvectQ K (exactMachine K) N1 N2 R D g1 g2 Np1 Np2 Np3 Ns approx2 q1 q2 A1 A2 dt F F' → D.Shaped g1 g2 (Np1 * Np2 * Np3) Ns F' ∧
      ∀ st, D.cellsOf g1 g2 Np1 Np2 Np3 Ns F' = D.opAdvectQ g1 g2 q1Start q2Start dq1 dq2 a1 a2 dt st (D.cellsOf g1 g2 Np1 Np2 Np3 Ns F) := by
  letI M : Machine K := exactMachine K
  have hzero : ∀ u : K, lit 0 ⊞ u = u := fun u => by
    have : (lit 0 : K) = ((0 : ℚ) : K) := rfl
    change (lit 0 : K) + u = u
    rw [this]; push_cast; ring
  have step : ∀ r (G : AfArray K), (D.sizes Np1 Np2 Np3 Ns g1 g2 r).Fits G → ∃ b, arrInterp2d approx2 (q1 r) (q2 r) (A1 r) (A2 r) dt G = .ok b ∧
      (D.sizes Np1 Np2 Np3 Ns g1 g2 r).Fits b ∧ (D.sizes Np1 Np2 Np3 Ns g1 g2 r).cells b =
        fInterp2d (D.coords g1 g2 q1Start q2Start dq1 dq2 r).2.2.2 (a1 r) (a2 r) dt ((D.sizes Np1 Np2 Np3 Ns g1 g2 r).cells G) := by
    intro r G hG
    have i1 : NeZero (D.sizes Np1 Np2 Np3 Ns g1 g2 r).M1 := ⟨by have := (k r).1; simp only [GridSizes.M1, Decomp.sizes]; omega⟩
    have i2 : NeZero (D.sizes Np1 Np2 Np3 Ns g1 g2 r).M2 := ⟨by have := (k r).2; simp only [GridSizes.M2, Decomp.sizes]; omega⟩
    have i3 : NeZero (D.sizes Np1 Np2 Np3 Ns g1 g2 r).Np1 := ‹NeZero Np1›
    have i4 : NeZero (D.sizes Np1 Np2 Np3 Ns g1 g2 r).Np2 := ‹NeZero Np2›
    have i5 : NeZero (D.sizes Np1 Np2 Np3 Ns g1 g2 r).Np3 := ‹NeZero Np3›
    have i6 : NeZero (D.sizes Np1 Np2 Np3 Ns g1 g2 r).Ns := ‹NeZero Ns›
    exact C122_interp_q (z := D.sizes Np1 Np2 Np3 Ns g1 g2 r) hzero approx2_readsInside (k r).1 (k r).2 (q := (D.coords g1 g2 q1Start q2Start dq1 dq2 r).2.2.2)
      (hq r).1 (hq r).2 (hA1 r) (hA2 r) dt hG
  refine ⟨?_, ?_⟩
  · obtain ⟨G, hG⟩ := D.C25_communicates (D.sizes Np1 Np2 Np3 Ns g1 g2) g1 g2 .periodic .periodic (Np1 * Np2 * Np3) Ns (fun _ => ⟨0, fun _ => 0⟩) F hz hF
    obtain ⟨hs, -⟩ := communicates_cells (Np1 := Np1) (Np2 := Np2) (Np3 := Np3) (Ns := Ns) hz hF hG
    choose F' hF' using fun r => step r (G r) (hs r)
    exact ⟨F', _, G, hG, fun r => (hF' r).1⟩
  · rintro F' ⟨st, G, hG, h⟩
    obtain ⟨hs, hc⟩ := communicates_cells (Np1 := Np1) (Np2 := Np2) (Np3 := Np3) (Ns := Ns) hz hF hG
    refine ⟨fun r => ?_, fun st' => funext fun r => ?_⟩
    · obtain ⟨b, e, hb, -⟩ := step r (G r) (hs r)
      rw [h r] at e
      cases e
      exact hb
    · obtain ⟨b, e, -, hb⟩ := step r (G r) (hs r)
      rw [h r] at e
      cases e
      have := congrFun (hc st') r
      exact hb.trans (congrArg (fInterp2d (D.coords g1 g2 q1Start q2Start dq1 dq2 r).2.2.2 (a1 r) (a2 r) dt) this)

/-- C122 (feet of the characteristics): on the arrays of all processes, the owned cells hold the values, at the feet of their characteristics, of the Catmull-Rom interpolant
of the periodic data, when no particle moves further than the ghost width less one cell. -/
theorem C122_foot (hz : D.SizesOk (D.sizes Np1 Np2 Np3 Ns g1 g2) g1 g2) (k : ∀ r, 2 ≤ D.n1 r + 2 * g1 ∧ 2 ≤ D.n2 r + 2 * g2) (q1Start q2Start dq1 dq2 : K)
    (hd1 : dq1 ≠ 0) (hd2 : dq2 ≠ 0)
    {q1 q2 : R → AfArray K} (hq : ∀ r, (D.sizes Np1 Np2 Np3 Ns g1 g2 r).HoldsCoord (q1 r) (D.coords g1 g2 q1Start q2Start dq1 dq2 r).2.2.2.1 ∧
      (D.sizes Np1 Np2 Np3 Ns g1 g2 r).HoldsCoord (q2 r) (D.coords g1 g2 q1Start q2Start dq1 dq2 r).2.2.2.2)
    {A1 A2 : R → PyExpr K} {a1 a2 : ∀ r, Fin Ns → AslPIdx Np1 Np2 Np3 → D.Loc g1 g2 r → K} {c1 c2 : Fin Ns → AslPIdx Np1 Np2 Np3 → ZMod N1 × ZMod N2 → K}
    (hA1 : ∀ r, HoldsVel (z := D.sizes Np1 Np2 Np3 Ns g1 g2 r) (A1 r) (a1 r)) (hA2 : ∀ r, HoldsVel (z := D.sizes Np1 Np2 Np3 Ns g1 g2 r) (A2 r) (a2 r))
    (hc1 : D.VelocityAgrees g1 g2 a1 c1) (hc2 : D.VelocityAgrees g1 g2 a2 c2) (dt : K) (b1 : ∀ s p i, |c1 s p i * dt / dq1| ≤ g1 - 1) (b2 : ∀ s p i, |c2 s p i * dt / dq2| ≤ g2 - 1)
    {F F' : R → AfArray K} (hF : D.Shaped g1 g2 (Np1 * Np2 * Np3) Ns F) (f : Dist (Fin Ns) (AslPIdx Np1 Np2 Np3) (ZMod N1 × ZMod N2) K)
    (hf : D.Holds g1 g2 (D.cellsOf g1 g2 Np1 Np2 Np3 Ns F) f)
    (h : @Decomp.ArrAdvectQ K (exactMachine K) N1 N2 R D g1 g2 Np1 Np2 Np3 Ns approx2 q1 q2 A1 A2 dt F F') :
    D.Holds g1 g2 (D.cellsOf g1 g2 Np1 Np2 Np3 Ns F') (advected (fun s p i => c1 s p i * dt / dq1) (fun s p i => c2 s p i * dt / dq2) f) := by
  rw [((D.C122_op_advect_q g1 g2 Np1 Np2 Np3 Ns hz k q1Start q2Start dq1 dq2 hq hA1 hA2 dt hF).2 F' h).2 (D.cellsOf g1 g2 Np1 Np2 Np3 Ns F)]
  exact C51_interpolates_at_foot D g1 g2 q1Start q2Start dq1 dq2 a1 a2 c1 c2 dt hd1 hd2 hc1 hc2 b1 b2 _ _ f hf

end Decomp

end Bolt
