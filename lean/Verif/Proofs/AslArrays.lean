import Verif.Proofs.ArrayProgram
import Verif.Proofs.ASL
import Verif.Spec.AslArrays

set_option linter.unusedSectionVars false

namespace Bolt

open Machine PyExpr

namespace AfArray
variable {K : Type} (a : AfArray K)

theorem reorder_2310 : a.reorder 2 3 1 0 = ofFn a.d2 a.d3 a.d1 a.d0 fun i j k l => a.get l k i j := rfl
theorem reorder_3201 : a.reorder 3 2 0 1 = ofFn a.d3 a.d2 a.d0 a.d1 fun i j k l => a.get k l j i := rfl
theorem reorder_1203 : a.reorder 1 2 0 3 = ofFn a.d1 a.d2 a.d0 a.d3 fun i j k l => a.get k i j l := rfl
theorem reorder_2013 : a.reorder 2 0 1 3 = ofFn a.d2 a.d0 a.d1 a.d3 fun i j k l => a.get j k i l := rfl
theorem reorder_2301 : a.reorder 2 3 0 1 = a.reorder2301 := rfl

theorem along_lt {d i : ℕ} (h : i < d) : along d i = i := by
  unfold along; split_ifs <;> omega

end AfArray

section
variable {K : Type} [Machine K] {z : GridSizes} [NeZero z.Np1] [NeZero z.Np2] [NeZero z.Np3] [NeZero z.Ns] [NeZero z.M1] [NeZero z.M2]

theorem zmod_val_toNat {n : ℕ} [NeZero n] {a : ℤ} (h0 : 0 ≤ a) (h1 : a < n) : ((a : ZMod n)).val = a.toNat := by
  obtain ⟨m, rfl⟩ := Int.eq_ofNat_of_zero_le h0
  have : m < n := by exact_mod_cast h1
  simp [ZMod.val_natCast, Nat.mod_eq_of_lt this]

theorem add2_holds {X : Type} (hzero : ∀ u : K, lit 0 ⊞ u = u) {L : Lay X} {x y : PyExpr K} {F G : X → K} {L₁ : Lay X} (hx : L₁.Holds x F)
    (h : ∀ x', L₁.Holds x' F → L.Holds (bin true add x' y) fun i => F i ⊞ G i) : L.Holds (addAll [x, y]) fun i => F i ⊞ G i :=
  h _ ((hx.numL true add (lit 0)).congr fun i => hzero _)

/-- The new position along one axis. -/
theorem newPos_holds (hzero : ∀ u : K, lit 0 ⊞ u = u) {q : AfArray K} {c : ℕ → ℕ → K} (hq : z.HoldsCoord q c) {A : PyExpr K} {Af : Fin z.Ns → z.P → z.Q → K}
    (hA : HoldsVel A Af) (dt : K) :
    (qExpanded z).Holds (addAll [.ok (.arr q), -A * num dt]) fun x => c x.2.2.1.val x.2.2.2.val ⊞ neg (Af x.1 x.2.1 x.2.2) ⊠ dt := by
  have hq' : (positionOnly z).Holds (.ok (.arr q)) fun x => c x.2.2.1.val x.2.2.2.val :=
    ⟨q, rfl, hq.1.1, hq.1.2.1, hq.1.2.2.1, hq.1.2.2.2, fun x => hq.2 _ _ (ZMod.val_lt _) (ZMod.val_lt _)⟩
  refine add2_holds hzero hq' fun x' hx' => ?_
  rcases hA with hA | hA
  · exact hx'.batchL (qExpanded_ok z) (positionOnly_ok) (positionOnly_sub) add ((hA.un neg).numR false mul dt)
  · exact hx'.batch2 (qExpanded_ok z) (positionOnly_ok) (momentumOnly_ok z) (positionOnly_sub) (momentumOnly_sub) (.inr rfl) (.inr rfl) (.inl rfl) (.inl rfl) add
      ((hA.un neg).numR false mul dt)

/-- The interpolation in positions. -/
theorem approxQ {kern : Kernel K} (hk : kern.ReadsInside) {x y q1 q2 f : AfArray K} {c : Coords K} {X Y : Fin z.Ns → z.P → z.Q → K}
    (hx : HoldsDist (.ok (.arr x)) X) (hy : HoldsDist (.ok (.arr y)) Y) (h1 : z.HoldsCoord q1 c.1) (h2 : z.HoldsCoord q2 c.2) (hf : z.Fits f) (k1 : 2 ≤ z.M1) (k2 : 2 ≤ z.M2) :
    ∃ xs ys v, (x.reorder 2 3 1 0).scale0 (q1.reorder 2 3 1 0) = .ok xs ∧ (y.reorder 2 3 1 0).scale1 (q2.reorder 2 3 1 0) = .ok ys ∧
      AfArray.approx2At kern (f.reorder 2 3 1 0) xs ys = .ok v ∧ z.Fits (v.reorder 3 2 0 1) ∧
      z.cells (v.reorder 3 2 0 1) = fun s p l => kern z.M1 z.M2 (fun a b => z.cells f s p ((a : ZMod z.M1), (b : ZMod z.M2)))
        ((X s p l ⊟ c.1 0 0) ⊘ (c.1 1 0 ⊟ c.1 0 0)) ((Y s p l ⊟ c.2 0 0) ⊘ (c.2 0 1 ⊟ c.2 0 0)) := by
  obtain ⟨a, ea, x0, x1, x2, x3, xg⟩ := hx
  cases ea
  obtain ⟨b, eb, y0, y1, y2, y3, yg⟩ := hy
  cases eb
  obtain ⟨f0, f1, f2, f3⟩ := hf
  obtain ⟨⟨a0, a1, a2, a3⟩, ag⟩ := h1
  obtain ⟨⟨b0, b1, b2, b3⟩, bg⟩ := h2
  simp only [qExpanded] at x0 x1 x2 x3 xg y0 y1 y2 y3 yg
  refine ⟨_, _, _, if_pos (by rw [AfArray.reorder_2310]; change 2 ≤ q1.d2; omega), if_pos (by rw [AfArray.reorder_2310]; change 2 ≤ q2.d3; omega),
    if_pos ⟨⟨x2.trans y2.symm, x3.trans y3.symm, x1.trans y1.symm, x0.trans y0.symm⟩, .inl ⟨x1.trans f1.symm, x0.trans f0.symm⟩⟩, ⟨f0, f1, x2, x3⟩, ?_⟩
  funext s p l
  have r := row_lt z p
  have l1 := ZMod.val_lt l.1
  have l2 := ZMod.val_lt l.2
  have hs := s.2
  change (AfArray.reorder _ 3 2 0 1).get (z.row p) s l.1.val l.2.val = _
  rw [AfArray.reorder_3201, AfArray.get_ofFn _ _ _ _ _ _ _ _ _ (by change _ < f.d0; omega) (by change _ < f.d1; omega) (by change _ < x.d2; omega),
    AfArray.get_ofFn _ _ _ _ _ _ _ _ _ (by change _ < x.d2; omega) (by change _ < x.d3; omega) (by change _ < f.d1; omega)]
  have e1 : ∀ (g : K → K), ((x.reorder 2 3 1 0).map g).get l.1.val l.2.val (AfArray.along ((x.reorder 2 3 1 0).map g).d2 s)
      (AfArray.along ((x.reorder 2 3 1 0).map g).d3 (z.row p)) = g (X s p l) := by
    intro g
    change g ((x.reorder 2 3 1 0).get _ _ (AfArray.along x.d1 s) (AfArray.along x.d0 (z.row p))) = _
    rw [AfArray.along_lt (by omega), AfArray.along_lt (by omega), AfArray.reorder_2310, AfArray.get_ofFn _ _ _ _ _ _ _ _ _ (by omega) (by omega) (by omega)]
    exact congrArg g (xg (s, p, l))
  have e2 : ∀ (g : K → K), ((y.reorder 2 3 1 0).map g).get l.1.val l.2.val (AfArray.along ((y.reorder 2 3 1 0).map g).d2 s)
      (AfArray.along ((y.reorder 2 3 1 0).map g).d3 (z.row p)) = g (Y s p l) := by
    intro g
    change g ((y.reorder 2 3 1 0).get _ _ (AfArray.along y.d1 s) (AfArray.along y.d0 (z.row p))) = _
    rw [AfArray.along_lt (by omega), AfArray.along_lt (by omega), AfArray.reorder_2310, AfArray.get_ofFn _ _ _ _ _ _ _ _ _ (by omega) (by omega) (by omega)]
    exact congrArg g (yg (s, p, l))
  rw [e1, e2]
  have c1 : ∀ i j, i < z.M1 → j < z.M2 → (q1.reorder 2 3 1 0).get i j 0 0 = c.1 i j := fun i j hi hj => by
    rw [AfArray.reorder_2310, AfArray.get_ofFn _ _ _ _ _ _ _ _ _ (by omega) (by omega) (by omega)]; exact ag i j hi hj
  have c2 : ∀ i j, i < z.M1 → j < z.M2 → (q2.reorder 2 3 1 0).get i j 0 0 = c.2 i j := fun i j hi hj => by
    rw [AfArray.reorder_2310, AfArray.get_ofFn _ _ _ _ _ _ _ _ _ (by omega) (by omega) (by omega)]; exact bg i j hi hj
  rw [c1 0 0 (by omega) (by omega), c1 1 0 (by omega) (by omega), c2 0 0 (by omega) (by omega), c2 0 1 (by omega) (by omega)]
  change kern f.d2 f.d3 _ _ _ = _
  rw [f2, f3]
  refine hk _ _ _ _ _ _ fun m n hm hm' hn hn' => ?_
  rw [AfArray.reorder_2310, AfArray.get_ofFn _ _ _ _ _ _ _ _ _ (by omega) (by omega) (by omega)]
  simp only [GridSizes.cells]
  rw [zmod_val_toNat hm hm', zmod_val_toNat hn hn']

/-- The positions along a momentum axis, for starts and cell sizes that the broadcast combines with the p-expanded array. -/
theorem interpolant_holds (hzero : ∀ u : K, lit 0 ⊞ u = u) (hone : ∀ u : K, lit 1 ⊠ u = u) {L₁ : Lay z.Cell} (ok : L₁.Ok) (sub : L₁.Sub (pExpanded z)) (dt : K)
    {pc A ps dp : PyExpr K} {c : Fin z.Ns → z.P → K} {Af : Dist (Fin z.Ns) z.P z.Q K} {b d : z.Cell → K} (hpc : (momentumOnly z).Holds pc fun y => c y.1 y.2.1)
    (hA : HoldsDist A Af) (hps : L₁.Holds ps b) (hdp : L₁.Holds dp d) :
    (pExpanded z).Holds (arrInterpolant z dt pc A ps dp) fun x =>
      ((c x.1 x.2.1 ⊞ neg dt ⊠ Af x.1 x.2.1 x.2.2) ⊞ neg (b x ⊞ lit (1 / 2) ⊠ d x)) ⊠ (lit 1 ⊘ d x) := by
  have h1 : (qExpanded z).Holds (addAll [pc, num (neg dt) * A]) fun x => c x.1 x.2.1 ⊞ neg dt ⊠ Af x.1 x.2.1 x.2.2 :=
    add2_holds hzero hpc fun x' hx' => hx'.batchL (qExpanded_ok z) (momentumOnly_ok z) (momentumOnly_sub) add (Lay.Holds.numL false mul (neg dt) hA)
  have h2 : L₁.Holds (-addAll [ps, const (1 / 2) * dp]) fun x => neg (b x ⊞ lit (1 / 2) ⊠ d x) :=
    (add2_holds hzero hps fun x' hx' => hx'.batchR ok ok (Lay.Sub.refl _) add (hdp.numL false mul (lit (1 / 2)))).un neg
  have h3 := add2_holds hzero (toP_holds h1) fun x' hx' => hx'.batchR (pExpanded_ok z) ok sub add h2
  exact multiply2_holds hone (pExpanded_ok z) (pExpanded_ok z) ok (.inl ⟨rfl, sub⟩) h3 (hdp.numL false div (lit 1))

theorem toP_fits {f : AfArray K} (hf : z.Fits f) : ∃ fp, convertToPExpanded z f = .ok fp ∧ (pExpanded z).Holds (.ok (.arr fp)) fun x => z.cells f x.1 x.2.1 x.2.2 := by
  have hq : (qExpanded z).Holds (.ok (.arr f)) fun x => z.cells f x.1 x.2.1 x.2.2 := ⟨f, rfl, hf.1, hf.2.1, hf.2.2.1, hf.2.2.2, fun _ => rfl⟩
  have := toP_holds hq
  obtain ⟨a, ha, h⟩ := this
  change Except.map PyVal.arr (convertToPExpanded z f) = _ at ha
  cases hc : convertToPExpanded z f with
  | error e => rw [hc] at ha; cases ha
  | ok fp =>
    rw [hc] at ha
    cases ha
    exact ⟨a, rfl, a, rfl, h⟩

/-- The interpolation in momenta. -/
theorem approxP {kern : Kernel K} (hk : kern.ReadsInside) {x2 x3 fp : AfArray K} {X2 X3 F : z.Cell → K} (h2 : (pExpanded z).Holds (.ok (.arr x2)) X2)
    (h3 : (pExpanded z).Holds (.ok (.arr x3)) X3) (hf : (pExpanded z).Holds (.ok (.arr fp)) F) :
    ∃ v b, AfArray.approx2At kern (fp.reorder 1 2 0 3) (x2.reorder 1 2 0 3) (x3.reorder 1 2 0 3) = .ok v ∧ convertToQExpanded z (v.reorder 2 0 1 3) = .ok b ∧ z.Fits b ∧
      z.cells b = fun s p l => kern z.Np2 z.Np3 (fun a b => F (s, (p.1, (a : ZMod z.Np2), (b : ZMod z.Np3)), l)) (X2 (s, p, l)) (X3 (s, p, l)) := by
  obtain ⟨a, ea, x0, x1, x2', x3', xg⟩ := h2
  cases ea
  obtain ⟨b, eb, y0, y1, y2, y3, yg⟩ := h3
  cases eb
  obtain ⟨c, ec, f0, f1, f2, f3, fg⟩ := hf
  cases ec
  have ok := pExpanded_ok z
  have hv : ∃ v, AfArray.approx2At kern (fp.reorder 1 2 0 3) (x2.reorder 1 2 0 3) (x3.reorder 1 2 0 3) = .ok v ∧
      (pExpanded z).Holds (.ok (.arr (v.reorder 2 0 1 3))) fun x =>
        kern z.Np2 z.Np3 (fun a b => F (x.1, (x.2.1.1, (a : ZMod z.Np2), (b : ZMod z.Np3)), x.2.2)) (X2 x) (X3 x) := by
    refine ⟨_, if_pos ⟨⟨x1.trans y1.symm, x2'.trans y2.symm, x0.trans y0.symm, x3'.trans y3.symm⟩, .inl ⟨x0.trans f0.symm, x3'.trans f3.symm⟩⟩, _, rfl, f0, x1, x2', f3,
      fun x => ?_⟩
    have b0 := ok.h0 x
    have b1 := ok.h1 x
    have b2 := ok.h2 x
    have b3 := ok.h3 x
    rw [AfArray.reorder_2013, AfArray.get_ofFn _ _ _ _ _ _ _ _ _ (by change _ < fp.d0; omega) (by change _ < x2.d1; omega) (by change _ < x2.d2; omega),
      AfArray.get_ofFn _ _ _ _ _ _ _ _ _ (by change _ < x2.d1; omega) (by change _ < x2.d2; omega) (by change _ < fp.d0; omega)]
    have e1 : (x2.reorder 1 2 0 3).get ((pExpanded z).i1 x) ((pExpanded z).i2 x) (AfArray.along (x2.reorder 1 2 0 3).d2 ((pExpanded z).i0 x))
        (AfArray.along (x2.reorder 1 2 0 3).d3 ((pExpanded z).i3 x)) = X2 x := by
      change (x2.reorder 1 2 0 3).get _ _ (AfArray.along x2.d0 _) (AfArray.along x2.d3 _) = _
      rw [AfArray.along_lt (by omega), AfArray.along_lt (by omega), AfArray.reorder_1203, AfArray.get_ofFn _ _ _ _ _ _ _ _ _ (by omega) (by omega) (by omega), xg]
    have e2 : (x3.reorder 1 2 0 3).get ((pExpanded z).i1 x) ((pExpanded z).i2 x) (AfArray.along (x3.reorder 1 2 0 3).d2 ((pExpanded z).i0 x))
        (AfArray.along (x3.reorder 1 2 0 3).d3 ((pExpanded z).i3 x)) = X3 x := by
      change (x3.reorder 1 2 0 3).get _ _ (AfArray.along x3.d0 _) (AfArray.along x3.d3 _) = _
      rw [AfArray.along_lt (by omega), AfArray.along_lt (by omega), AfArray.reorder_1203, AfArray.get_ofFn _ _ _ _ _ _ _ _ _ (by omega) (by omega) (by omega), yg]
    rw [e1, e2]
    change kern fp.d1 fp.d2 _ _ _ = _
    rw [f1, f2]
    refine hk _ _ _ _ _ _ fun m n hm hm' hn hn' => ?_
    have hm'' : m < (z.Np2 : ℤ) := hm'
    have hn'' : n < (z.Np3 : ℤ) := hn'
    rw [AfArray.reorder_1203, AfArray.get_ofFn _ _ _ _ _ _ _ _ _ (by simp only [pExpanded] at f1; omega) (by simp only [pExpanded] at f2; omega) (by omega), ← fg]
    simp only [pExpanded]
    rw [zmod_val_toNat hm hm'', zmod_val_toNat hn hn'']
  obtain ⟨v, e, h⟩ := hv
  obtain ⟨b, hb, k0, k1, k2, k3, kg⟩ := toQ_holds h
  change Except.map PyVal.arr (convertToQExpanded z (v.reorder 2 0 1 3)) = _ at hb
  cases hc : convertToQExpanded z (v.reorder 2 0 1 3) with
  | error e => rw [hc] at hb; cases hb
  | ok w =>
    rw [hc] at hb
    cases hb
    exact ⟨v, _, e, hc, ⟨k0, k1, k2, k3⟩, funext fun s => funext fun p => funext fun l => kg (s, p, l)⟩

end

end Bolt
