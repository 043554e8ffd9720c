import Verif.Spec.ShearArrays
import Verif.Proofs.BoundaryArrays
import Verif.Proofs.ShearBox

/-! Helper lemmas: the shearing-box routine on arrays does cell by cell what `Model/ShearBox` says. -/

set_option linter.unusedSectionVars false

namespace Bolt

/-! ## loops -/

theorem WhileLoop.along {σ τ : Type} {c : σ → Prop} {b : σ → σ} {c' : τ → Prop} {b' : τ → τ} (φ : σ → τ) (I : σ → Prop) (hb : ∀ s, I s → I (b s))
    (hc : ∀ s, I s → (c s ↔ c' (φ s))) (he : ∀ s, I s → φ (b s) = b' (φ s)) {s t : σ} (h : WhileLoop c b s t) (hs : I s) :
    I t ∧ WhileLoop c' b' (φ s) (φ t) := by
  induction h with
  | done hn => exact ⟨hs, .done fun k => hn ((hc _ hs).mpr k)⟩
  | step hy _ ih =>
    obtain ⟨i, j⟩ := ih (hb _ hs)
    exact ⟨i, .step ((hc _ hs).mp hy) (he _ hs ▸ j)⟩

theorem WhileLoop.lift {σ τ : Type} {c : σ → Prop} {b : σ → σ} {c' : τ → Prop} {b' : τ → τ} (φ : σ → τ) (I : σ → Prop) (hb : ∀ s, I s → I (b s))
    (hc : ∀ s, I s → (c s ↔ c' (φ s))) (he : ∀ s, I s → φ (b s) = b' (φ s)) {u v : τ} (h : WhileLoop c' b' u v) :
    ∀ s, I s → φ s = u → ∃ t, WhileLoop c b s t ∧ I t ∧ φ t = v := by
  induction h with
  | done hn => exact fun s hs e => ⟨s, .done fun k => hn (e ▸ (hc _ hs).mp k), hs, e⟩
  | step hy _ ih =>
    intro s hs e
    obtain ⟨t, h1, h2, h3⟩ := ih (b s) (hb _ hs) (by rw [he _ hs, e])
    exact ⟨t, .step ((hc _ hs).mpr (e ▸ hy)) h1, h2, h3⟩

/-! ## slabs -/

section slabs
variable {K : Type} {z : GridSizes} [NeZero z.Np1] [NeZero z.Np2] [NeZero z.Np3] [NeZero z.Ns] [NeZero z.M1] [NeZero z.M2]

/-- First cell of the slab along the two axes, and its extents. -/
def GridSizes.lo1 (z : GridSizes) (g : ℕ) : Wall → ℕ
  | .left => 0
  | .right => z.M1 - g
  | .bottom => 0
  | .top => 0
@[inherit_doc GridSizes.lo1] def GridSizes.lo2 (z : GridSizes) (g : ℕ) : Wall → ℕ
  | .left => 0
  | .right => 0
  | .bottom => 0
  | .top => z.M2 - g
@[inherit_doc GridSizes.lo1] def GridSizes.ext1 (z : GridSizes) (g : ℕ) : Wall → ℕ
  | .left => g
  | .right => g
  | .bottom => z.M1
  | .top => z.M1
@[inherit_doc GridSizes.lo1] def GridSizes.ext2 (z : GridSizes) (g : ℕ) : Wall → ℕ
  | .left => z.M2
  | .right => z.M2
  | .bottom => g
  | .top => g

/-- The array has one element per cell of the slab. -/
def GridSizes.SlabShape (z : GridSizes) (g : ℕ) (w : Wall) (d0 d1 : ℕ) (a : AfArray K) : Prop := a.d0 = d0 ∧ a.d1 = d1 ∧ a.d2 = z.ext1 g w ∧ a.d3 = z.ext2 g w

theorem slab_bounds {g : ℕ} (w : Wall) (hg : g ≤ z.width w) : z.lo1 g w + z.ext1 g w ≤ z.M1 ∧ z.lo2 g w + z.ext2 g w ≤ z.M2 := by
  cases w <;> simp only [GridSizes.lo1, GridSizes.lo2, GridSizes.ext1, GridSizes.ext2, GridSizes.width] at * <;> omega

theorem inSlab_slab {g : ℕ} (w : Wall) (l : z.Q) (hg : g ≤ z.width w) :
    inSlab g w l ↔ (z.lo1 g w ≤ l.1.val ∧ l.1.val < z.lo1 g w + z.ext1 g w) ∧ (z.lo2 g w ≤ l.2.val ∧ l.2.val < z.lo2 g w + z.ext2 g w) := by
  have h1 := ZMod.val_lt l.1
  have h2 := ZMod.val_lt l.2
  cases w <;> simp only [GridSizes.lo1, GridSizes.lo2, GridSizes.ext1, GridSizes.ext2, GridSizes.width, inSlab] at * <;> omega

/-- The cell of the slab with a given place in it. -/
def GridSizes.slabCell (z : GridSizes) (g : ℕ) (w : Wall) (i j : ℕ) : z.Q := (((z.lo1 g w + i : ℕ) : ZMod z.M1), ((z.lo2 g w + j : ℕ) : ZMod z.M2))

theorem slabCell_val {g : ℕ} (w : Wall) (hg : g ≤ z.width w) {i j : ℕ} (hi : i < z.ext1 g w) (hj : j < z.ext2 g w) :
    (z.slabCell g w i j).1.val = z.lo1 g w + i ∧ (z.slabCell g w i j).2.val = z.lo2 g w + j := by
  have := slab_bounds (z := z) w hg
  exact ⟨ZMod.val_natCast_of_lt (by omega), ZMod.val_natCast_of_lt (by omega)⟩

theorem slabCell_in {g : ℕ} (w : Wall) (hg : g ≤ z.width w) {i j : ℕ} (hi : i < z.ext1 g w) (hj : j < z.ext2 g w) : inSlab g w (z.slabCell g w i j) := by
  rw [inSlab_slab w _ hg, (slabCell_val w hg hi hj).1, (slabCell_val w hg hi hj).2]
  omega

/-- A slab array as a function of the cells of the slab. -/
def GridSizes.slabFn (z : GridSizes) (g : ℕ) (w : Wall) (a : AfArray K) : {l : z.Q // inSlab g w l} → K :=
  fun l => a.get 0 0 (l.1.1.val - z.lo1 g w) (l.1.2.val - z.lo2 g w)

theorem some_iff {g : ℕ} (w : Wall) (hg : g ≤ z.width w) (test : K → Prop) (a : AfArray K) (ha : z.SlabShape g w 1 1 a) :
    a.Some test ↔ ∃ l, test (z.slabFn g w a l) := by
  obtain ⟨a0, a1, a2, a3⟩ := ha
  constructor
  · rintro ⟨i, j, k, l, hi, hj, hk, hl, h⟩
    rw [a0] at hi; rw [a1] at hj; rw [a2] at hk; rw [a3] at hl
    refine ⟨⟨z.slabCell g w k l, slabCell_in w hg hk hl⟩, ?_⟩
    unfold GridSizes.slabFn
    dsimp only
    rw [(slabCell_val w hg hk hl).1, (slabCell_val w hg hk hl).2, Nat.add_sub_cancel_left, Nat.add_sub_cancel_left]
    obtain rfl : i = 0 := by omega
    obtain rfl : j = 0 := by omega
    exact h
  · rintro ⟨l, h⟩
    have hl := (inSlab_slab w l.1 hg).mp l.2
    exact ⟨0, 0, _, _, by omega, by omega, by rw [a2]; omega, by rw [a3]; omega, h⟩

theorem slabFn_map {L : Type} {g : ℕ} (w : Wall) (f : K → L) (a : AfArray K) : z.slabFn g w (a.map f) = fun l => f (z.slabFn g w a l) := rfl

theorem shear_cut_slab {g : ℕ} (w : Wall) {d0 d1 : ℕ} {a : AfArray K} (ha : a.d0 = d0 ∧ a.d1 = d1 ∧ a.d2 = z.M1 ∧ a.d3 = z.M2) (hg : g ≤ z.width w) :
    ∃ c, a.cut w.axis (w.slabLo (a.dim w.axis) g) g = .ok c ∧ z.SlabShape g w d0 d1 c ∧
      ∀ i j k l, i < d0 → j < d1 → k < z.ext1 g w → l < z.ext2 g w → c.get i j k l = a.get i j (z.lo1 g w + k) (z.lo2 g w + l) := by
  obtain ⟨a0, a1, a2, a3⟩ := ha
  have hb := slab_bounds (z := z) w hg
  unfold AfArray.cut
  rw [if_pos]
  · refine ⟨_, rfl, ?_, fun i j k l hi hj hk hl => ?_⟩
    · cases w <;> simp [GridSizes.SlabShape, AfArray.ofFn, Wall.axis, GridSizes.ext1, GridSizes.ext2, a0, a1, a2, a3]
    · cases w <;> simp only [Wall.axis, Wall.slabLo, AfArray.dim, GridSizes.ext1, GridSizes.ext2, GridSizes.lo1, GridSizes.lo2, Fin.reduceEq, if_true, if_false, a2, a3] at * <;>
        refine (AfArray.get_ofFn _ _ _ _ _ _ _ _ _ (by omega) (by omega) (by omega)).trans ?_ <;> simp only [zero_add]
  · cases w <;> simp only [Wall.axis, Wall.slabLo, AfArray.dim, GridSizes.width, Fin.reduceEq, if_true, if_false, a2, a3] at * <;> omega

theorem shear_put_slab {g : ℕ} (w : Wall) {f b : AfArray K} (hf : z.Fits f) (hb : z.SlabShape g w (z.Np1 * z.Np2 * z.Np3) z.Ns b) (hg : g ≤ z.width w) :
    ∃ c, f.put w.axis (w.slabLo (f.dim w.axis) g) g b = .ok c ∧ z.Fits c ∧
      ∀ s p l, z.cells c s p l = if inSlab g w l then b.get (z.row p) s (l.1.val - z.lo1 g w) (l.2.val - z.lo2 g w) else z.cells f s p l := by
  have df := wall_dim hf w
  have lo : w.slabLo (z.width w) g + g ≤ z.width w := by cases w <;> simp only [Wall.slabLo] <;> omega
  obtain ⟨f0, f1, f2, f3⟩ := hf
  obtain ⟨b0, b1, b2, b3⟩ := hb
  unfold AfArray.put
  rw [df, if_pos]
  · refine ⟨_, rfl, ⟨f0, f1, f2, f3⟩, fun s p q => ?_⟩
    have r0 : z.row p < f.d0 := by rw [f0]; exact row_lt z p
    have r1 : (s : ℕ) < f.d1 := by rw [f1]; exact s.2
    have q1 := ZMod.val_lt q.1
    have q2 := ZMod.val_lt q.2
    have r2 : q.1.val < f.d2 := by rw [f2]; exact q1
    refine (AfArray.get_ofFn _ _ _ _ _ _ _ _ _ r0 r1 r2).trans ?_
    have hin := inSlab_iff w q hg
    by_cases h : inSlab g w q
    · rw [if_pos h]
      have h' := hin.mp h
      cases w <;> simp only [Wall.axis, Wall.slabLo, GridSizes.depth, GridSizes.width, GridSizes.lo1, GridSizes.lo2, Fin.reduceEq, if_true, if_false, Nat.sub_zero] at h' lo ⊢ <;>
        rw [if_pos h']
    · rw [if_neg h]
      have h' := fun h' => h (hin.mpr h')
      cases w <;> simp only [Wall.axis, GridSizes.depth, GridSizes.width, Fin.reduceEq, if_true, if_false] at h' lo ⊢ <;> exact if_neg h'
  · cases w <;> simp only [Wall.axis, Wall.slabLo, GridSizes.width, GridSizes.ext1, GridSizes.ext2, Fin.reduceEq, if_true, if_false] at * <;>
      exact ⟨lo, by omega, by omega, by omega, by omega⟩

end slabs

/-! ## the routine -/

section routine
variable {K : Type} [Field K] [LinearOrder K] {z : GridSizes} [NeZero z.Np1] [NeZero z.Np2] [NeZero z.Np3] [NeZero z.Ns] [NeZero z.M1] [NeZero z.M2]

theorem slabFn_start {g : ℕ} (sp : ShearParams K) (w : Wall) (c1 c2 : AfArray K) :
    z.slabFn g w (arrShearStart sp w c1 c2) = shearedStart sp w (z.slabFn g w c1) (z.slabFn g w c2) := by
  cases w <;> rfl

theorem start_shape {g : ℕ} (sp : ShearParams K) (w : Wall) {c1 c2 : AfArray K} (h1 : z.SlabShape g w 1 1 c1) (h2 : z.SlabShape g w 1 1 c2) :
    z.SlabShape g w 1 1 (arrShearStart sp w c1 c2) := by
  cases w
  · exact h2
  · exact h2
  · exact h1
  · exact h1

theorem arrShearedCoords_fn {g : ℕ} (sp : ShearParams K) (w : Wall) (hg : g ≤ z.width w) {c1 c2 : AfArray K} (h1 : z.SlabShape g w 1 1 c1)
    (h2 : z.SlabShape g w 1 1 c2) {x : AfArray K} (h : ArrShearedCoords sp w c1 c2 x) :
    z.SlabShape g w 1 1 x ∧ ShearedCoords sp w (z.slabFn g w c1) (z.slabFn g w c2) (z.slabFn g w x) := by
  obtain ⟨y, hy, hx⟩ := h
  obtain ⟨iy, ly⟩ := hy.along (z.slabFn g w) (z.SlabShape g w 1 1) (c := AfArray.Some fun v => v > (shearLimits sp w).2)
    (b := fun a => a.map fun v => afSelect (v > (shearLimits sp w).2) (v - ((shearLimits sp w).2 - (shearLimits sp w).1)) v) (b' := wrapDown (shearLimits sp w).2 ((shearLimits sp w).2 - (shearLimits sp w).1)) (c' := aboveSome (shearLimits sp w).2)
    (fun s hs => hs) (fun s hs => some_iff w hg _ s hs) (fun s _ => rfl) (start_shape sp w h1 h2)
  obtain ⟨ix, lx⟩ := hx.along (z.slabFn g w) (z.SlabShape g w 1 1) (c := AfArray.Some fun v => v < (shearLimits sp w).1)
    (b := fun a => a.map fun v => afSelect (v < (shearLimits sp w).1) (v + ((shearLimits sp w).2 - (shearLimits sp w).1)) v) (b' := wrapUp (shearLimits sp w).1 ((shearLimits sp w).2 - (shearLimits sp w).1)) (c' := belowSome (shearLimits sp w).1)
    (fun s hs => hs) (fun s hs => some_iff w hg _ s hs) (fun s _ => rfl) iy
  rw [slabFn_start] at ly
  exact ⟨ix, _, ly, lx⟩

theorem arrShearedCoords_exists {g : ℕ} (sp : ShearParams K) (w : Wall) (hg : g ≤ z.width w) {c1 c2 : AfArray K} (h1 : z.SlabShape g w 1 1 c1)
    (h2 : z.SlabShape g w 1 1 c2) {x : {l : z.Q // inSlab g w l} → K} (h : ShearedCoords sp w (z.slabFn g w c1) (z.slabFn g w c2) x) :
    ∃ a, ArrShearedCoords sp w c1 c2 a ∧ z.SlabShape g w 1 1 a ∧ z.slabFn g w a = x := by
  obtain ⟨y, hy, hx⟩ := h
  obtain ⟨b, lb, ib, eb⟩ := hy.lift (z.slabFn g w) (z.SlabShape g w 1 1) (c := AfArray.Some fun v => v > (shearLimits sp w).2)
    (b := fun a => a.map fun v => afSelect (v > (shearLimits sp w).2) (v - ((shearLimits sp w).2 - (shearLimits sp w).1)) v)
    (fun s hs => hs) (fun s hs => some_iff w hg _ s hs) (fun s _ => rfl) (arrShearStart sp w c1 c2) (start_shape sp w h1 h2) (slabFn_start sp w c1 c2)
  obtain ⟨a, la, ia, ea⟩ := hx.lift (z.slabFn g w) (z.SlabShape g w 1 1) (c := AfArray.Some fun v => v < (shearLimits sp w).1)
    (b := fun a => a.map fun v => afSelect (v < (shearLimits sp w).1) (v + ((shearLimits sp w).2 - (shearLimits sp w).1)) v)
    (fun s hs => hs) (fun s hs => some_iff w hg _ s hs) (fun s _ => rfl) b ib eb
  exact ⟨a, ⟨b, lb, la⟩, ia, ea⟩

variable [IsStrictOrderedRing K] [FloorRing K]

theorem slabFn_coord {g : ℕ} (w : Wall) (hg : g ≤ z.width w) {a c : AfArray K} {q : ℕ → ℕ → K} (ha : z.HoldsCoord a q)
    (hc : ∀ i j k l, i < 1 → j < 1 → k < z.ext1 g w → l < z.ext2 g w → c.get i j k l = a.get i j (z.lo1 g w + k) (z.lo2 g w + l)) :
    z.slabFn g w c = fun l => q l.1.1.val l.1.2.val := by
  funext l
  have hl := (inSlab_slab w l.1 hg).mp l.2
  unfold GridSizes.slabFn
  rw [hc _ _ _ _ Nat.one_pos Nat.one_pos (by omega) (by omega), ha.2 _ _ (by have := slab_bounds (z := z) w hg; omega) (by have := slab_bounds (z := z) w hg; omega),
    Nat.add_sub_cancel' hl.1.1, Nat.add_sub_cancel' hl.2.1]

/-- The interpolated slab, given the sheared coordinates. -/
theorem interp_slab {g : ℕ} (w : Wall) (h2 : 2 ≤ g) (hg : g ≤ z.width w) (hlen : 2 ≤ z.length w) {q : Coords K} {q1 q2 f : AfArray K}
    (hq1 : z.HoldsCoord q1 q.1) (hq2 : z.HoldsCoord q2 q.2) {c1 c2 s x : AfArray K}
    (i1 : z.SlabShape g w 1 1 c1) (i2 : z.SlabShape g w 1 1 c2) (ix : z.SlabShape g w 1 1 x) (is : z.SlabShape g w (z.Np1 * z.Np2 * z.Np3) z.Ns s)
    (e1 : ∀ i j k l, i < 1 → j < 1 → k < z.ext1 g w → l < z.ext2 g w → c1.get i j k l = q1.get i j (z.lo1 g w + k) (z.lo2 g w + l))
    (e2 : ∀ i j k l, i < 1 → j < 1 → k < z.ext1 g w → l < z.ext2 g w → c2.get i j k l = q2.get i j (z.lo1 g w + k) (z.lo2 g w + l))
    (es : ∀ i j k l, i < z.Np1 * z.Np2 * z.Np3 → j < z.Ns → k < z.ext1 g w → l < z.ext2 g w → s.get i j k l = f.get i j (z.lo1 g w + k) (z.lo2 g w + l)) :
    ∃ v, AfArray.interp2 s.reorder2301 (arrShearPositions w c1 c2 x).1.reorder2301 (arrShearPositions w c1 c2 x).2.reorder2301 c1.reorder2301 c2.reorder2301 = .ok v ∧
      z.SlabShape g w (z.Np1 * z.Np2 * z.Np3) z.Ns v.reorder2301 ∧
      ∀ (s' : Fin z.Ns) (p : z.P) (l : z.Q) (hl : inSlab g w l), v.reorder2301.get (z.row p) s' (l.1.val - z.lo1 g w) (l.2.val - z.lo2 g w) =
        shearedSlab g w q (z.slabFn g w x ⟨l, hl⟩) (z.cells f) s' p l := by
  have hb := slab_bounds (z := z) w hg
  have m1 : 2 ≤ z.ext1 g w := by cases w <;> simp only [GridSizes.ext1, GridSizes.width, GridSizes.length] at * <;> omega
  have m2 : 2 ≤ z.ext2 g w := by cases w <;> simp only [GridSizes.ext2, GridSizes.width, GridSizes.length] at * <;> omega
  have ip : z.SlabShape g w 1 1 (arrShearPositions w c1 c2 x).1 ∧ z.SlabShape g w 1 1 (arrShearPositions w c1 c2 x).2 := by
    cases w
    · exact ⟨i1, ix⟩
    · exact ⟨i1, ix⟩
    · exact ⟨ix, i2⟩
    · exact ⟨ix, i2⟩
  obtain ⟨⟨u0, u1, u2, u3⟩, ⟨v0, v1, v2, v3⟩⟩ := ip
  have i1' := i1
  have i2' := i2
  obtain ⟨a0, a1, a2, a3⟩ := i1
  obtain ⟨b0, b1, b2, b3⟩ := i2
  obtain ⟨s0, s1, s2, s3⟩ := is
  -- elements of a reordered slab of coordinates
  have ro : ∀ a : AfArray K, z.SlabShape g w 1 1 a → ∀ i j, i < z.ext1 g w → j < z.ext2 g w → a.reorder2301.get i j 0 0 = a.get 0 0 i j := by
    rintro a ⟨k0, k1, k2, k3⟩ i j hi hj
    exact AfArray.get_ofFn _ _ _ _ _ _ _ _ _ (by rw [k2]; exact hi) (by rw [k3]; exact hj) (by rw [k0]; exact Nat.one_pos)
  unfold AfArray.interp2
  rw [if_pos]
  · refine ⟨_, rfl, ⟨?_, ?_, ?_, ?_⟩, fun s' p l hl => ?_⟩
    · exact s0
    · exact s1
    · exact u2
    · exact u3
    have hs := (inSlab_slab w l hg).mp hl
    have r0 := row_lt z p
    have k1 : l.1.val - z.lo1 g w < z.ext1 g w := by omega
    have k2 : l.2.val - z.lo2 g w < z.ext2 g w := by omega
    refine (AfArray.get_ofFn _ _ _ _ _ _ _ _ _ (by change _ < s.d0; rw [s0]; exact r0) (by change _ < s.d1; rw [s1]; exact s'.2) (by change _ < (arrShearPositions w c1 c2 x).1.d2; rw [u2]; exact k1)).trans ?_
    refine (AfArray.get_ofFn _ _ _ _ _ _ _ _ _ (by change _ < (arrShearPositions w c1 c2 x).1.d2; rw [u2]; exact k1) (by change _ < (arrShearPositions w c1 c2 x).1.d3; rw [u3]; exact k2) (by change _ < s.d0; rw [s0]; exact r0)).trans ?_
    rw [ro _ ⟨u0, u1, u2, u3⟩ _ _ k1 k2, ro _ ⟨v0, v1, v2, v3⟩ _ _ k1 k2, ro c1 i1' 0 0 (by omega) (by omega), ro c1 i1' 1 0 (by omega) (by omega), ro c2 i2' 0 0 (by omega) (by omega),
      ro c2 i2' 0 1 (by omega) (by omega)]
    -- coordinates
    have c1e : ∀ i j, i < z.ext1 g w → j < z.ext2 g w → c1.get 0 0 i j = q.1 (z.lo1 g w + i) (z.lo2 g w + j) := fun i j hi hj => by
      rw [e1 _ _ _ _ Nat.one_pos Nat.one_pos hi hj, hq1.2 _ _ (by omega) (by omega)]
    have c2e : ∀ i j, i < z.ext1 g w → j < z.ext2 g w → c2.get 0 0 i j = q.2 (z.lo1 g w + i) (z.lo2 g w + j) := fun i j hi hj => by
      rw [e2 _ _ _ _ Nat.one_pos Nat.one_pos hi hj, hq2.2 _ _ (by omega) (by omega)]
    rw [c1e 0 0 (by omega) (by omega), c1e 1 0 (by omega) (by omega), c2e 0 0 (by omega) (by omega), c2e 0 1 (by omega) (by omega)]
    -- the signal
    have sig : ∀ a b : ℤ, 0 ≤ a → a < z.ext1 g w → 0 ≤ b → b < z.ext2 g w → s.reorder2301.get a.toNat b.toNat (z.row p) s' =
        z.cells f s' p ((((z.lo1 g w : ℕ) : ℤ) + a : ℤ), (((z.lo2 g w : ℕ) : ℤ) + b : ℤ)) := by
      intro a b ha ha' hb0 hb'
      refine (AfArray.get_ofFn _ _ _ _ _ _ _ _ _ (by rw [s2]; omega) (by rw [s3]; omega) (by rw [s0]; exact r0)).trans ?_
      rw [es _ _ _ _ r0 s'.2 (by omega) (by omega)]
      unfold GridSizes.cells
      have z1 : ((((z.lo1 g w : ℕ) : ℤ) + a : ℤ) : ZMod z.M1) = ((z.lo1 g w + a.toNat : ℕ) : ZMod z.M1) := by
        rw [← Int.cast_natCast (z.lo1 g w + a.toNat)]
        congr 1
        push_cast
        omega
      have z2 : ((((z.lo2 g w : ℕ) : ℤ) + b : ℤ) : ZMod z.M2) = ((z.lo2 g w + b.toNat : ℕ) : ZMod z.M2) := by
        rw [← Int.cast_natCast (z.lo2 g w + b.toNat)]
        congr 1
        push_cast
        omega
      dsimp only
      rw [z1, z2, ZMod.val_natCast_of_lt (by omega), ZMod.val_natCast_of_lt (by omega)]
    have dd : s.reorder2301.d0 = z.ext1 g w ∧ s.reorder2301.d1 = z.ext2 g w := ⟨s2, s3⟩
    rw [dd.1, dd.2, approx2_congr _ _ _ (fun a b => z.cells f s' p ((((z.lo1 g w : ℕ) : ℤ) + a : ℤ), (((z.lo2 g w : ℕ) : ℤ) + b : ℤ))) _ _
      fun a b ha ha' hb hb' => sig a b ha ha' hb hb']
    have p1 : z.lo1 g w + (l.1.val - z.lo1 g w) = l.1.val := by omega
    have p2 : z.lo2 g w + (l.2.val - z.lo2 g w) = l.2.val := by omega
    have cx1 := c1e _ _ k1 k2
    have cx2 := c2e _ _ k1 k2
    rw [p1, p2] at cx1 cx2
    cases w <;> simp only [arrShearPositions, GridSizes.lo1, GridSizes.lo2, GridSizes.ext1, GridSizes.ext2, shearedSlab, GridSizes.slabFn, Nat.cast_zero, zero_add, Nat.sub_zero, add_zero] at * <;> first | rw [cx1] | rw [cx2]
  · exact ⟨by change 2 ≤ c1.d2; rw [a2]; exact m1, by change 2 ≤ c2.d3; rw [b3]; exact m2, by change (arrShearPositions w c1 c2 x).1.d2 = (arrShearPositions w c1 c2 x).2.d2; rw [u2, v2], by change (arrShearPositions w c1 c2 x).1.d3 = (arrShearPositions w c1 c2 x).2.d3; rw [u3, v3],
      u0, u1, v0, v1⟩

end routine

end Bolt
