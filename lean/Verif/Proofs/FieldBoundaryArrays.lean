import Verif.Spec.FieldBoundaryArrays
import Verif.Proofs.BoundaryArrays
import Verif.Proofs.FieldArrays

/-! Helper lemmas: the field boundary routines on arrays do cell by cell what `Model/Boundaries` says. -/

set_option linter.unusedSectionVars false

namespace Bolt

variable {K : Type} {z : GridSizes} [NeZero z.M1] [NeZero z.M2]

theorem join0_rows {a b : AfArray K} (h1 : a.d1 = b.d1) (h2 : a.d2 = b.d2) (h3 : a.d3 = b.d3) :
    ∃ c, a.join0 b = .ok c ∧ c.d0 = a.d0 + b.d0 ∧ c.d1 = a.d1 ∧ c.d2 = a.d2 ∧ c.d3 = a.d3 ∧
      ∀ i j k l, i < a.d0 + b.d0 → j < a.d1 → k < a.d2 → c.get i j k l = if i < a.d0 then a.get i j k l else b.get (i - a.d0) j k l := by
  unfold AfArray.join0
  rw [if_pos ⟨h1, h2, h3⟩]
  exact ⟨_, rfl, rfl, rfl, rfl, rfl, fun i j k l hi hj hk => AfArray.get_ofFn _ _ _ _ _ _ _ _ _ hi hj hk⟩

theorem slab_iff {g : ℕ} (w : Wall) (q : z.Q) (hg : g ≤ z.width w) :
    inSlab g w q ↔ w.slabLo (z.width w) g ≤ z.depth w q ∧ z.depth w q < w.slabLo (z.width w) g + g := by
  have h1 := ZMod.val_lt q.1
  have h2 := ZMod.val_lt q.2
  cases w <;> simp only [inSlab, Wall.slabLo, GridSizes.depth, GridSizes.width] at * <;> omega

theorem em_row (a : AfArray K) (i : Fin 6) (q : z.Q) : (z.emCells a).comp i q = a.get i 0 q.1.val q.2.val := by
  fin_cases i <;> rfl

/-- Sizes of a block of `n` rows of field values. -/
def rowSizes (z : GridSizes) (n : ℕ) : GridSizes := { z with Np1 := n, Np2 := 1, Np3 := 1, Ns := 1 }

theorem mirrorRows_block {g : ℕ} (w : Wall) {n : ℕ} (hn : 0 < n) {a : AfArray K} (h0 : a.d0 = n) (h1 : a.d1 = 1) (h2 : a.d2 = z.M1) (h3 : a.d3 = z.M2)
    (hg : 2 * g ≤ z.width w) :
    ∃ c, arrMirrorSpace g w a = .ok c ∧ c.d0 = n ∧ c.d1 = 1 ∧ c.d2 = z.M1 ∧ c.d3 = z.M2 ∧
      ∀ i, i < n → ∀ q : z.Q, c.get i 0 q.1.val q.2.val = mirrorSpace g w (fun q : z.Q => a.get i 0 q.1.val q.2.val) q := by
  have i1 : NeZero (rowSizes z n).Np1 := ⟨by change n ≠ 0; omega⟩
  have i2 : NeZero (rowSizes z n).Np2 := ⟨one_ne_zero⟩
  have i3 : NeZero (rowSizes z n).Np3 := ⟨one_ne_zero⟩
  have i4 : NeZero (rowSizes z n).Ns := ⟨one_ne_zero⟩
  have i5 : NeZero (rowSizes z n).M1 := ⟨NeZero.ne z.M1⟩
  have i6 : NeZero (rowSizes z n).M2 := ⟨NeZero.ne z.M2⟩
  have hw : (rowSizes z n).width w = z.width w := by cases w <;> rfl
  obtain ⟨c, hc, ⟨c0, c1, c2, c3⟩, hcell⟩ := arrMirrorSpace_holds (z := rowSizes z n) (g := g) w (f := a)
    ⟨by rw [h0]; change n = n * 1 * 1; omega, h1, h2, h3⟩ (by rw [hw]; exact hg)
  refine ⟨c, hc, by rw [c0]; change n * 1 * 1 = n; omega, c1, c2, c3, fun i hi q => ?_⟩
  have hi' : ((i : ℕ) : ZMod n).val = i := ZMod.val_natCast_of_lt hi
  have e : (rowSizes z n).row ((i : ZMod n), 0, 0) = i := by
    change ((i : ℕ) : ZMod n).val + n * (0 + 1 * 0) = i
    rw [hi']; omega
  have := congrFun (congrFun (congrFun hcell (0 : Fin 1)) ((i : ZMod n), 0, 0)) q
  unfold GridSizes.cells at this
  rw [e] at this
  exact this

theorem arrMirrorRows_holds {g : ℕ} (w : Wall) {lo n : ℕ} (hn : 0 < n) (hl : lo + n ≤ 6) {Y : AfArray K} (hY : z.FitsEM Y) (hg : 2 * g ≤ z.width w) :
    ∃ c, arrMirrorRows g w lo n Y = .ok c ∧ z.FitsEM c ∧ ∀ i, i < 6 → ∀ q : z.Q, c.get i 0 q.1.val q.2.val =
      if lo ≤ i ∧ i < lo + n then mirrorSpace g w (fun q : z.Q => Y.get i 0 q.1.val q.2.val) q else Y.get i 0 q.1.val q.2.val := by
  obtain ⟨y0, y1, y2, y3⟩ := hY
  obtain ⟨c, hc, c0, c1, c2, c3, hget⟩ := mirrorRows_block (z := z) (g := g) w hn (a := AfArray.ofFn n Y.d1 Y.d2 Y.d3 fun i j k l => Y.get (lo + i) j k l)
    rfl y1 y2 y3 hg
  have hrows : Y.rows lo n = .ok (AfArray.ofFn n Y.d1 Y.d2 Y.d3 fun i j k l => Y.get (lo + i) j k l) := by
    unfold AfArray.rows; exact if_pos (by omega)
  refine ⟨AfArray.ofFn Y.d0 Y.d1 Y.d2 Y.d3 fun i j k l => if lo ≤ i ∧ i < lo + n then c.get (i - lo) j k l else Y.get i j k l, ?_, ⟨y0, y1, y2, y3⟩, fun i hi q => ?_⟩
  · simp only [arrMirrorRows, bind, Except.bind, hrows, hc]
    unfold AfArray.setRows
    exact if_pos ⟨by omega, c0, by rw [c1, y1], by rw [c2, y2], by rw [c3, y3]⟩
  · refine (AfArray.get_ofFn _ _ _ _ _ _ _ _ _ (by omega) (by omega) (by rw [y2]; exact ZMod.val_lt _)).trans ?_
    by_cases h : lo ≤ i ∧ i < lo + n
    · rw [if_pos h, if_pos h, hget (i - lo) (by omega) q]
      congr 1
      funext q'
      refine (AfArray.get_ofFn _ _ _ _ _ _ _ _ _ (by omega) (by omega) (by rw [y2]; exact ZMod.val_lt _)).trans ?_
      rw [show lo + (i - lo) = i by omega]
    · rw [if_neg h, if_neg h]

theorem emCells_ext {Y : AfArray K} {F : EM z.Q K} (h : ∀ i : Fin 6, ∀ q : z.Q, Y.get i 0 q.1.val q.2.val = F.comp i q) : z.emCells Y = F :=
  EM.eq_of_rows (funext (h 0)) (funext (h 1)) (funext (h 2)) (funext (h 3)) (funext (h 4)) (funext (h 5))

theorem arrMirrorFields_holds {g : ℕ} (w : Wall) (b : Bool) {Y : AfArray K} (hY : z.FitsEM Y) (hg : 2 * g ≤ z.width w) :
    ∃ c, arrMirrorFields g w b Y = .ok c ∧ z.FitsEM c ∧ z.emCells c = mirrorFields g w b (z.emCells Y) := by
  have two : ∀ w : Wall, 2 * g ≤ z.width w → ∃ c, (do let Y ← arrMirrorRows g w 0 1 Y; arrMirrorRows g w 2 1 Y : Except PyErr (AfArray K)) = .ok c ∧ z.FitsEM c ∧
      ∀ i, i < 6 → ∀ q : z.Q, c.get i 0 q.1.val q.2.val =
        if i = 0 ∨ i = 2 then mirrorSpace g w (fun q : z.Q => Y.get i 0 q.1.val q.2.val) q else Y.get i 0 q.1.val q.2.val := by
    intro w hg
    obtain ⟨c, hc, fc, gc⟩ := arrMirrorRows_holds (z := z) (g := g) w (lo := 0) (n := 1) (by omega) (by omega) hY hg
    obtain ⟨d, hd, fd, gd⟩ := arrMirrorRows_holds (z := z) (g := g) w (lo := 2) (n := 1) (by omega) (by omega) fc hg
    refine ⟨d, by simp only [bind, Except.bind, hc, hd], fd, fun i hi q => ?_⟩
    rw [gd i hi q]
    by_cases h2 : i = 2
    · subst h2
      rw [if_pos (by omega), if_pos (by omega)]
      congr 1
      funext q'
      rw [gc 2 hi q', if_neg (by omega)]
    · rw [if_neg (by omega), gc i hi q]
      by_cases h0 : i = 0
      · rw [if_pos (by omega), if_pos (by omega)]
      · rw [if_neg (by omega), if_neg (by omega)]
  unfold arrMirrorFields mirrorFields
  cases b with
  | true =>
    simp only [if_true]
    cases w with
    | left =>
      obtain ⟨c, hc, fc, gc⟩ := arrMirrorRows_holds (z := z) (g := g) .left (lo := 1) (n := 2) (by omega) (by omega) hY hg
      exact ⟨c, hc, fc, EM.eq_of_rows (funext (gc 0 (by omega))) (funext (gc 1 (by omega))) (funext (gc 2 (by omega))) (funext (gc 3 (by omega)))
        (funext (gc 4 (by omega))) (funext (gc 5 (by omega)))⟩
    | right =>
      obtain ⟨c, hc, fc, gc⟩ := arrMirrorRows_holds (z := z) (g := g) .right (lo := 1) (n := 2) (by omega) (by omega) hY hg
      exact ⟨c, hc, fc, EM.eq_of_rows (funext (gc 0 (by omega))) (funext (gc 1 (by omega))) (funext (gc 2 (by omega))) (funext (gc 3 (by omega)))
        (funext (gc 4 (by omega))) (funext (gc 5 (by omega)))⟩
    | bottom =>
      obtain ⟨c, hc, fc, gc⟩ := two .bottom hg
      exact ⟨c, hc, fc, EM.eq_of_rows (funext (gc 0 (by omega))) (funext (gc 1 (by omega))) (funext (gc 2 (by omega))) (funext (gc 3 (by omega)))
        (funext (gc 4 (by omega))) (funext (gc 5 (by omega)))⟩
    | top =>
      obtain ⟨c, hc, fc, gc⟩ := two .top hg
      exact ⟨c, hc, fc, EM.eq_of_rows (funext (gc 0 (by omega))) (funext (gc 1 (by omega))) (funext (gc 2 (by omega))) (funext (gc 3 (by omega)))
        (funext (gc 4 (by omega))) (funext (gc 5 (by omega)))⟩
  | false =>
    simp only [Bool.false_eq_true, if_false]
    obtain ⟨c, hc, c0, c1, c2, c3, gc⟩ := mirrorRows_block (z := z) (g := g) w (n := 6) (by omega) hY.1 hY.2.1 hY.2.2.1 hY.2.2.2 hg
    exact ⟨c, hc, ⟨c0, c1, c2, c3⟩, EM.eq_of_rows (funext (gc 0 (by omega))) (funext (gc 1 (by omega))) (funext (gc 2 (by omega)))
      (funext (gc 3 (by omega))) (funext (gc 4 (by omega))) (funext (gc 5 (by omega)))⟩

/-- Index of a cell of the slab inside the slab. -/
def Wall.within (w : Wall) (M g k : ℕ) (axis : Fin 4) : ℕ := if w.axis = axis then k - w.slabLo M g else k

/-- A slab of values of one component, cut out of what the user returned. -/
def IsSlab (z : GridSizes) (g : ℕ) (w : Wall) (n : ℕ) (v : AfArray K) : Prop :=
  v.d0 = n ∧ v.d1 = 1 ∧ v.d2 = (if w.axis = 2 then g else z.M1) ∧ v.d3 = (if w.axis = 3 then g else z.M2)

theorem arrWallValue_holds {x : ArrFieldBCEnv K} {env : FieldBCEnv z.M1 z.M2 K} (h : x.Hold z env) (w : Wall) (hi : x.Prescribed w) (hw : x.g ≤ z.width w)
    {Y : AfArray K} (hY : z.FitsEM Y) (c : Fin 6) :
    ∃ v, arrWallValue x w Y c = .ok v ∧ IsSlab z x.g w 1 v ∧ ∀ q : z.Q, inSlab x.g w q →
      v.get 0 0 (w.within (z.width w) x.g q.1.val 2) (w.within (z.width w) x.g q.2.val 3) = env.user w c ((z.emCells Y).comp c) q := by
  obtain ⟨y0, y1, y2, y3⟩ := hY
  have hc := c.2
  have hrow : (fieldLay z).Holds (.ok (.arr (AfArray.ofFn 1 Y.d1 Y.d2 Y.d3 fun i j k l => Y.get (c + i) j k l))) ((z.emCells Y).comp c) := by
    refine ⟨_, rfl, rfl, y1, y2, y3, fun q => ?_⟩
    refine (AfArray.get_ofFn _ _ _ _ _ _ _ _ _ Nat.one_pos (by rw [y1]; exact Nat.one_pos) (by rw [y2]; exact ZMod.val_lt _)).trans ?_
    exact (em_row (z := z) Y c q).symm
  obtain ⟨b, hb, b0, b1, b2, b3, bg⟩ := h.user w c _ _ hi hrow
  have hrows : Y.rows c 1 = .ok (AfArray.ofFn 1 Y.d1 Y.d2 Y.d3 fun i j k l => Y.get (c + i) j k l) := by
    unfold AfArray.rows; exact if_pos (by omega)
  have bd : b.dim w.axis = z.width w := by
    have b2' : b.d2 = z.M1 := b2
    have b3' : b.d3 = z.M2 := b3
    cases w <;> simp [AfArray.dim, Wall.axis, GridSizes.width, b2', b3']
  have lo : w.slabLo (z.width w) x.g + x.g ≤ z.width w := by cases w <;> simp only [Wall.slabLo] <;> omega
  have hcut : arrWallValue x w Y c = b.cut w.axis (w.slabLo (b.dim w.axis) x.g) x.g := by
    unfold arrWallValue
    rw [hrows]
    exact bind_step (f := fun v => match v with | .num _ => .error .typeError | .arr b => b.cut w.axis (w.slabLo (b.dim w.axis) x.g) x.g) hb rfl
  unfold AfArray.cut at hcut
  rw [bd, if_pos lo] at hcut
  refine ⟨_, hcut, ⟨?_, ?_, ?_, ?_⟩, fun q hq => ?_⟩
  · have b0' : b.d0 = 1 := b0
    cases w <;> simp [AfArray.ofFn, Wall.axis, b0']
  · have b1' : b.d1 = 1 := b1
    cases w <;> simp [AfArray.ofFn, Wall.axis, b1']
  · have b2' : b.d2 = z.M1 := b2
    cases w <;> simp [AfArray.ofFn, Wall.axis, b2']
  · have b3' : b.d3 = z.M2 := b3
    cases w <;> simp [AfArray.ofFn, Wall.axis, b3']
  · have h' := (slab_iff w q hw).mp hq
    have q1 := ZMod.val_lt q.1
    have b0' : b.d0 = 1 := b0
    have b1' : b.d1 = 1 := b1
    have b2' : b.d2 = z.M1 := b2
    have key : b.get 0 0 q.1.val q.2.val = env.user w c ((z.emCells Y).comp c) q := bg q
    rw [← key]
    cases w <;> simp only [Wall.axis, Wall.within, GridSizes.depth, GridSizes.width, Fin.reduceEq, if_true, if_false] at h' lo ⊢ <;>
      refine (AfArray.get_ofFn _ _ _ _ _ _ _ _ _ (by omega) (by omega) ?_).trans ?_
    all_goals first
      | omega
      | (congr 1; omega)

theorem put_slab {g : ℕ} (w : Wall) (hw : g ≤ z.width w) {Y v : AfArray K} (hY : z.FitsEM Y) (hv : IsSlab z g w 6 v) :
    ∃ c, Y.put w.axis (w.slabLo (Y.dim w.axis) g) g v = .ok c ∧ z.FitsEM c ∧ ∀ i, i < 6 → ∀ q : z.Q, c.get i 0 q.1.val q.2.val =
      if inSlab g w q then v.get i 0 (w.within (z.width w) g q.1.val 2) (w.within (z.width w) g q.2.val 3) else Y.get i 0 q.1.val q.2.val := by
  obtain ⟨y0, y1, y2, y3⟩ := hY
  obtain ⟨v0, v1, v2, v3⟩ := hv
  have yd : Y.dim w.axis = z.width w := by cases w <;> simp [AfArray.dim, Wall.axis, GridSizes.width, y2, y3]
  have lo : w.slabLo (z.width w) g + g ≤ z.width w := by cases w <;> simp only [Wall.slabLo] <;> omega
  unfold AfArray.put
  rw [yd, if_pos]
  · refine ⟨_, rfl, ⟨y0, y1, y2, y3⟩, fun i hi q => ?_⟩
    have q1 := ZMod.val_lt q.1
    refine (AfArray.get_ofFn _ _ _ _ _ _ _ _ _ (by omega) (by omega) (by omega)).trans ?_
    have hin := slab_iff w q hw
    by_cases h : inSlab g w q
    · rw [if_pos h]
      have h' := hin.mp h
      cases w <;> simp only [Wall.axis, Wall.within, GridSizes.depth, GridSizes.width, Fin.reduceEq, if_true, if_false] at h' lo ⊢ <;> rw [if_pos h']
    · rw [if_neg h]
      have h' := fun h' => h (hin.mpr h')
      cases w <;> simp only [Wall.axis, GridSizes.depth, GridSizes.width, Fin.reduceEq, if_true, if_false] at h' lo ⊢ <;> exact if_neg h'
  · refine ⟨lo, ?_, ?_, ?_, ?_⟩
    · rw [v0, y0]; cases w <;> rfl
    · rw [v1, y1]; cases w <;> rfl
    · rw [v2, y2]
    · rw [v3, y3]

theorem slab_join {g : ℕ} {w : Wall} {n m : ℕ} {a b : AfArray K} (ha : IsSlab z g w n a) (hb : IsSlab z g w m b) :
    ∃ c, a.join0 b = .ok c ∧ IsSlab z g w (n + m) c ∧
      ∀ i k l, i < n + m → k < (if w.axis = 2 then g else z.M1) → c.get i 0 k l = if i < n then a.get i 0 k l else b.get (i - n) 0 k l := by
  obtain ⟨a0, a1, a2, a3⟩ := ha
  obtain ⟨b0, b1, b2, b3⟩ := hb
  obtain ⟨c, hc, c0, c1, c2, c3, cg⟩ := join0_rows (a := a) (b := b) (by rw [a1, b1]) (by rw [a2, b2]) (by rw [a3, b3])
  refine ⟨c, hc, ⟨by rw [c0, a0, b0], by rw [c1, a1], by rw [c2, a2], by rw [c3, a3]⟩, fun i k l hi hk => ?_⟩
  rw [cg i 0 k l (by rw [a0, b0]; exact hi) (by rw [a1]; exact Nat.one_pos) (by rw [a2]; exact hk), a0]

theorem arrDirichletFields_holds {x : ArrFieldBCEnv K} {env : FieldBCEnv z.M1 z.M2 K} (h : x.Hold z env) (w : Wall) (hi : x.Prescribed w) (hw : x.g ≤ z.width w)
    {Y : AfArray K} (hY : z.FitsEM Y) :
    ∃ c, arrDirichletFields x w Y = .ok c ∧ z.FitsEM c ∧ z.emCells c = dirichletFields env w (z.emCells Y) := by
  obtain ⟨e1, he1, s1, g1⟩ := arrWallValue_holds h w hi hw hY 0
  obtain ⟨e2, he2, s2, g2⟩ := arrWallValue_holds h w hi hw hY 1
  obtain ⟨e3, he3, s3, g3⟩ := arrWallValue_holds h w hi hw hY 2
  obtain ⟨b1, hb1, t1, k1⟩ := arrWallValue_holds h w hi hw hY 3
  obtain ⟨b2, hb2, t2, k2⟩ := arrWallValue_holds h w hi hw hY 4
  obtain ⟨b3, hb3, t3, k3⟩ := arrWallValue_holds h w hi hw hY 5
  obtain ⟨b12, hb12, t12, k12⟩ := slab_join t1 t2
  obtain ⟨B, hB, tB, kB⟩ := slab_join t12 t3
  obtain ⟨e12, he12, s12, g12⟩ := slab_join s1 s2
  obtain ⟨E, hE, sE, gE⟩ := slab_join s12 s3
  obtain ⟨v, hv, sv, gv⟩ := slab_join sE tB
  obtain ⟨c, hc, fc, gc⟩ := put_slab w hw hY sv
  refine ⟨c, by simp only [arrDirichletFields, bind, Except.bind, he1, he2, he3, hb1, hb2, hb3, hb12, hB, he12, hE, hv, hc], fc, ?_⟩
  have bound : ∀ q : z.Q, inSlab x.g w q → w.within (z.width w) x.g q.1.val 2 < (if w.axis = 2 then x.g else z.M1) := by
    intro q hq
    have h' := (slab_iff w q hw).mp hq
    have q1 := ZMod.val_lt q.1
    cases w <;> simp only [Wall.axis, Wall.within, GridSizes.depth, GridSizes.width, Fin.reduceEq, if_true, if_false] at h' ⊢ <;> omega
  have row : ∀ (i : Fin 6) (q : z.Q), c.get i 0 q.1.val q.2.val = setSlab env.g w ((z.emCells Y).comp i) (env.user w i ((z.emCells Y).comp i)) q := by
    intro i q
    rw [gc i i.2 q, ← h.g]
    unfold setSlab
    by_cases hq : inSlab x.g w q
    · rw [if_pos hq, if_pos hq]
      have bq := bound q hq
      have lt := i.2
      rw [gv i _ _ (by omega) bq]
      fin_cases i
      · exact (((if_pos (by decide)).trans (gE 0 _ _ (by omega) bq)).trans ((if_pos (by decide)).trans ((g12 0 _ _ (by omega) bq).trans (if_pos (by decide))))).trans (g1 q hq)
      · exact (((if_pos (by decide)).trans (gE 1 _ _ (by omega) bq)).trans ((if_pos (by decide)).trans ((g12 1 _ _ (by omega) bq).trans (if_neg (by decide))))).trans (g2 q hq)
      · exact (((if_pos (by decide)).trans (gE 2 _ _ (by omega) bq)).trans (if_neg (by decide))).trans (g3 q hq)
      · exact (((if_neg (by decide)).trans (kB 0 _ _ (by omega) bq)).trans ((if_pos (by decide)).trans ((k12 0 _ _ (by omega) bq).trans (if_pos (by decide))))).trans (k1 q hq)
      · exact (((if_neg (by decide)).trans (kB 1 _ _ (by omega) bq)).trans ((if_pos (by decide)).trans ((k12 1 _ _ (by omega) bq).trans (if_neg (by decide))))).trans (k2 q hq)
      · exact (((if_neg (by decide)).trans (kB 2 _ _ (by omega) bq)).trans (if_neg (by decide))).trans (k3 q hq)
    · rw [if_neg hq, if_neg hq, em_row]
  exact EM.eq_of_rows (funext (row 0)) (funext (row 1)) (funext (row 2)) (funext (row 3)) (funext (row 4)) (funext (row 5))

theorem SameFields.of_ok {m : Except PyErr (AfArray K)} {F : EM z.Q K} (h : ∃ c, m = .ok c ∧ z.FitsEM c ∧ z.emCells c = F) : SameFields z m (.ok F) :=
  ⟨fun f'' e => by injection e with e; exact e ▸ h, fun e h => (by cases h)⟩

theorem SameFields.of_error {e : PyErr} : SameFields (K := K) z (.error e) (.error e) :=
  ⟨fun f'' h => (by cases h), fun e h => by injection h with h; rw [h]⟩

theorem SameFields.bind {m : Except PyErr (AfArray K)} {r : Except PyErr (EM z.Q K)} {φ : AfArray K → Except PyErr (AfArray K)} {ψ : EM z.Q K → Except PyErr (EM z.Q K)}
    (h : SameFields z m r) (hφ : ∀ a, z.FitsEM a → SameFields z (φ a) (ψ (z.emCells a))) : SameFields z (m.bind φ) (r.bind ψ) := by
  cases r with
  | error e => rw [h.2 e rfl]; exact .of_error
  | ok f' =>
    obtain ⟨c, rfl, fc, rfl⟩ := h.1 f' rfl
    exact hφ c fc

theorem arrAtWallFields_outcome {x : ArrFieldBCEnv K} {env : FieldBCEnv z.M1 z.M2 K} (h : x.Hold z env) (hw : x.WallsFit z) (b : Bool) (w : Wall) {Y : AfArray K}
    (hY : z.FitsEM Y) : SameFields z (arrAtWallFields x b w Y) (atWallFields env b w (z.emCells Y)) := by
  unfold arrAtWallFields atWallFields
  have ht' : x.touches w = env.touches w := by
    cases w <;> simp only [ArrFieldBCEnv.touches, FieldBCEnv.touches, h.start1, h.start2, h.nLocal1, h.nLocal2, h.N1, h.N2]
  rw [← ht']
  split_ifs with ht
  swap
  · exact .of_ok ⟨Y, rfl, hY, rfl⟩
  unfold arrApplyWallFields applyWallFields
  have hn : env.name w = x.name w := by rw [h.name]
  rw [hn]
  by_cases hp : x.name w = "periodic" ∨ x.name w = "none"
  · have n1 : x.name w ≠ "dirichlet" := by rcases hp with hp | hp <;> rw [hp] <;> decide
    have n2 : x.name w ≠ "mirror" := by rcases hp with hp | hp <;> rw [hp] <;> decide
    have n3 : x.name w ≠ "mirror+dirichlet" := by rcases hp with hp | hp <;> rw [hp] <;> decide
    simp only [if_neg n1, if_neg n2, if_neg n3, if_pos hp]
    exact .of_ok ⟨Y, rfl, hY, rfl⟩
  · push Not at hp
    obtain ⟨g0, gw⟩ := hw w ht hp.1 hp.2
    have hp' : ¬ (x.name w = "periodic" ∨ x.name w = "none") := fun h => h.elim hp.1 hp.2
    have dir : x.Prescribed w → ∀ a, z.FitsEM a → SameFields z (arrDirichletFields x w a) (.ok (dirichletFields env w (z.emCells a))) := fun hi a ha =>
      .of_ok (arrDirichletFields_holds h w hi (by omega) ha)
    have mir : SameFields z (arrMirrorFields x.g w b Y) (.ok (mirrorFields env.g w b (z.emCells Y))) := by
      rw [← h.g]; exact .of_ok (arrMirrorFields_holds w b hY gw)
    simp only [if_neg hp']
    split_ifs with n1 n2 n3 n4
    · exact dir (.inl n1) Y hY
    · exact mir
    · exact mir.bind (ψ := fun F => .ok (dirichletFields env w F)) (dir (.inr n3))
    · exact .of_error
    · exact .of_error

theorem arrApplyBcsFields_outcome {x : ArrFieldBCEnv K} {env : FieldBCEnv z.M1 z.M2 K} (h : x.Hold z env) (hw : x.WallsFit z) (b : Bool) {Y : AfArray K}
    (hY : z.FitsEM Y) : SameFields z (arrApplyBcsFields x b Y) (applyBcsFields env b (z.emCells Y)) :=
  (arrAtWallFields_outcome h hw b .left hY).bind fun _ h1 => (arrAtWallFields_outcome h hw b .right h1).bind fun _ h2 =>
    (arrAtWallFields_outcome h hw b .bottom h2).bind fun _ h3 => arrAtWallFields_outcome h hw b .top h3

end Bolt
