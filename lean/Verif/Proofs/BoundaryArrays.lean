import Verif.Spec.BoundaryArrays
import Verif.Proofs.ArrayProgram
import Verif.Props.ArrayProgram

/-! Helper lemmas: the boundary routines on arrays do cell by cell what `Model/Boundaries` says. -/

set_option linter.unusedSectionVars false

namespace Bolt

open Machine

variable {K : Type} {z : GridSizes} [NeZero z.Np1] [NeZero z.Np2] [NeZero z.Np3] [NeZero z.Ns] [NeZero z.M1] [NeZero z.M2]

theorem wall_dim {a : AfArray K} (h : z.Fits a) (w : Wall) : a.dim w.axis = z.width w := by
  obtain ⟨-, -, h2, h3⟩ := h
  cases w <;> simp [AfArray.dim, Wall.axis, GridSizes.width, h2, h3]

/-- Position of a cell along the normal of the wall. -/
def GridSizes.depth (z : GridSizes) : Wall → z.Q → ℕ
  | .left, q => q.1.val
  | .right, q => q.1.val
  | .bottom, q => q.2.val
  | .top, q => q.2.val

theorem depth_lt (w : Wall) (q : z.Q) : z.depth w q < z.width w := by
  cases w <;> simp only [GridSizes.depth, GridSizes.width] <;> exact ZMod.val_lt _

theorem inSlab_iff {g : ℕ} (w : Wall) (q : z.Q) (hg : g ≤ z.width w) :
    inSlab g w q ↔ w.slabLo (z.width w) g ≤ z.depth w q ∧ z.depth w q < w.slabLo (z.width w) g + g := by
  have h1 := ZMod.val_lt q.1
  have h2 := ZMod.val_lt q.2
  cases w <;> simp only [inSlab, Wall.slabLo, GridSizes.depth, GridSizes.width] at * <;> omega

theorem fits_ofFn {fn : ℕ → ℕ → ℕ → ℕ → K} {a : AfArray K} (h : z.Fits a) : z.Fits (AfArray.ofFn a.d0 a.d1 a.d2 a.d3 fn) := h

theorem arrSetSlab_holds {g : ℕ} (w : Wall) {f b : AfArray K} (hf : z.Fits f) (hb : z.Fits b) (hg : g ≤ z.width w) :
    ∃ c, arrSetSlab g w f b = .ok c ∧ z.Fits c ∧ z.cells c = fun s p => setSlab g w (z.cells f s p) (z.cells b s p) := by
  have df := wall_dim hf w
  have db := wall_dim hb w
  have lo : w.slabLo (z.width w) g + g ≤ z.width w := by cases w <;> simp only [Wall.slabLo] <;> omega
  obtain ⟨f0, f1, f2, f3⟩ := hf
  obtain ⟨b0, b1, b2, b3⟩ := hb
  unfold arrSetSlab AfArray.cut
  rw [df, db, if_pos lo]
  simp only [bind, Except.bind]
  unfold AfArray.put
  rw [df, if_pos]
  · refine ⟨_, rfl, ⟨f0, f1, f2, f3⟩, funext fun s => funext fun p => funext fun q => ?_⟩
    have r0 : z.row p < f.d0 := by rw [f0]; exact row_lt z p
    have r1 : (s : ℕ) < f.d1 := by rw [f1]; exact s.2
    have q1 := ZMod.val_lt q.1
    have q2 := ZMod.val_lt q.2
    have r2 : q.1.val < f.d2 := by rw [f2]; exact q1
    have s0 : z.row p < b.d0 := by rw [b0]; exact row_lt z p
    have s1 : (s : ℕ) < b.d1 := by rw [b1]; exact s.2
    refine (AfArray.get_ofFn _ _ _ _ _ _ _ _ _ r0 r1 r2).trans ?_
    unfold setSlab
    have hin := inSlab_iff w q hg
    by_cases h : inSlab g w q
    · rw [if_pos h]
      have h' := hin.mp h
      cases w <;> simp only [Wall.axis, GridSizes.depth, GridSizes.width, Fin.reduceEq, if_true, if_false] at h' lo ⊢ <;> rw [if_pos h'] <;>
        refine (AfArray.get_ofFn _ _ _ _ _ _ _ _ _ s0 s1 ?_).trans ?_
      all_goals first
        | omega
        | (unfold GridSizes.cells; congr 1; omega)
    · rw [if_neg h]
      have h' := fun h' => h (hin.mpr h')
      cases w <;> simp only [Wall.axis, GridSizes.depth, GridSizes.width, Fin.reduceEq, if_true, if_false] at h' lo ⊢ <;> exact if_neg h'
  · simp only [AfArray.ofFn, f0, f1, f2, f3, b0, b1, b2, b3]
    exact ⟨lo, by trivial, by trivial, by trivial, by trivial⟩

theorem arrMirrorSpace_holds {g : ℕ} (w : Wall) {f : AfArray K} (hf : z.Fits f) (hg : 2 * g ≤ z.width w) :
    ∃ c, arrMirrorSpace g w f = .ok c ∧ z.Fits c ∧ z.cells c = fun s p => mirrorSpace g w (z.cells f s p) := by
  have df := wall_dim hf w
  have lo : w.slabLo (z.width w) g + g ≤ z.width w := by cases w <;> simp only [Wall.slabLo] <;> omega
  have so : w.sourceLo (z.width w) g + g ≤ z.width w := by cases w <;> simp only [Wall.sourceLo] <;> omega
  obtain ⟨f0, f1, f2, f3⟩ := hf
  unfold arrMirrorSpace AfArray.cut
  rw [df, if_pos so]
  simp only [bind, Except.bind]
  unfold AfArray.put
  rw [df, if_pos]
  · refine ⟨_, rfl, ⟨f0, f1, f2, f3⟩, funext fun s => funext fun p => funext fun q => ?_⟩
    have r0 : z.row p < f.d0 := by rw [f0]; exact row_lt z p
    have r1 : (s : ℕ) < f.d1 := by rw [f1]; exact s.2
    have q1 := ZMod.val_lt q.1
    have q2 := ZMod.val_lt q.2
    have r2 : q.1.val < f.d2 := by rw [f2]; exact q1
    have v1 : ∀ n, n < z.M1 → ((n : ℕ) : ZMod z.M1).val = n := fun n hn => ZMod.val_natCast_of_lt hn
    have v2 : ∀ n, n < z.M2 → ((n : ℕ) : ZMod z.M2).val = n := fun n hn => ZMod.val_natCast_of_lt hn
    refine (AfArray.get_ofFn _ _ _ _ _ _ _ _ _ r0 r1 r2).trans ?_
    cases w <;> simp only [Wall.axis, Wall.slabLo, Wall.sourceLo, GridSizes.width, Fin.reduceEq, if_true, if_false, mirrorSpace, sliceSet,
      sliceFlip, sliceGet] at so lo ⊢ <;> split_ifs with h
    all_goals first
      | rfl
      | (refine (AfArray.get_ofFn _ _ _ _ _ _ _ _ _ r0 r1 ?_).trans ?_
         · first
             | exact r2
             | (simp only [AfArray.ofFn]; omega)
         · simp only [Fin.reduceEq, if_true, if_false]
           refine (AfArray.get_ofFn _ _ _ _ _ _ _ _ _ r0 r1 ?_).trans ?_
           · first
               | exact r2
               | (simp only [AfArray.ofFn]; omega)
           · unfold GridSizes.cells
             dsimp only [AfArray.ofFn]
             first
               | rw [v1 _ (by omega)]
               | rw [v2 _ (by omega)])
  · simp only [AfArray.ofFn, AfArray.flip, f0, f1, f2, f3]
    exact ⟨lo, by trivial, by trivial, by trivial, by trivial⟩


theorem arr_flipIdx_val {N : ℕ} [NeZero N] (i : ZMod N) : (flipIdx i).val = N - 1 - i.val := by
  have h := ZMod.val_lt i
  have e : flipIdx i = ((N - 1 - i.val : ℕ) : ZMod N) := by
    unfold flipIdx
    rw [Nat.cast_sub (by omega), Nat.cast_sub (by omega)]
    simp
  rw [e, ZMod.val_natCast_of_lt (by omega)]

theorem arr_flipHalves_val {N : ℕ} [NeZero N] (i : ZMod N) :
    (flipHalves i).val = if i.val < N / 2 then N / 2 - 1 - i.val else N / 2 + (N - N / 2 - 1 - (i.val - N / 2)) := by
  have h := ZMod.val_lt i
  unfold flipHalves
  split_ifs with h'
  · exact ZMod.val_natCast_of_lt (by omega)
  · exact ZMod.val_natCast_of_lt (by omega)

variable [Machine K]

theorem toP_ok {f : AfArray K} (hf : z.Fits f) : ∃ p, convertToPExpanded z f = .ok p ∧ p.d0 = z.Np1 ∧ p.d1 = z.Np2 ∧ p.d2 = z.Np3 ∧
    p.d3 = z.Ns * z.M1 * z.M2 ∧ ∀ x : z.Cell, p.get ((pExpanded z).i0 x) ((pExpanded z).i1 x) ((pExpanded z).i2 x) ((pExpanded z).i3 x) =
      z.cells f x.1 x.2.1 x.2.2 := by
  obtain ⟨p, hp, h⟩ := toP_holds (holdsDist_cells hf)
  refine ⟨p, ?_, h⟩
  change Except.map PyVal.arr (convertToPExpanded z f) = _ at hp
  cases e : convertToPExpanded z f with
  | error e' => rw [e] at hp; cases hp
  | ok a => rw [e] at hp; injection hp with hp; injection hp with hp; rw [hp]

theorem toQ_ok {p : AfArray K} {F : z.Cell → K} (h0 : p.d0 = z.Np1) (h1 : p.d1 = z.Np2) (h2 : p.d2 = z.Np3) (h3 : p.d3 = z.Ns * z.M1 * z.M2)
    (hp : ∀ x : z.Cell, p.get ((pExpanded z).i0 x) ((pExpanded z).i1 x) ((pExpanded z).i2 x) ((pExpanded z).i3 x) = F x) :
    ∃ q, convertToQExpanded z p = .ok q ∧ z.Fits q ∧ z.cells q = fun s p q => F (s, p, q) := by
  have h : (pExpanded z).Holds (.ok (.arr p)) F := ⟨p, rfl, h0, h1, h2, h3, hp⟩
  obtain ⟨q, hq, k0, k1, k2, k3, kg⟩ := toQ_holds h
  refine ⟨q, ?_, ⟨k0, k1, k2, k3⟩, funext fun s => funext fun p => funext fun x => kg (s, p, x)⟩
  change Except.map PyVal.arr (convertToQExpanded z p) = _ at hq
  cases e : convertToQExpanded z p with
  | error e' => rw [e] at hq; cases hq
  | ok a => rw [e] at hq; injection hq with hq; injection hq with hq; rw [hq]

theorem arrFlipP_holds {f : AfArray K} (hf : z.Fits f) :
    (∃ c, arrFlipP z 0 f = .ok c ∧ z.Fits c ∧ z.cells c = fun s p => z.cells f s (flipIdx p.1, p.2)) ∧
    ∃ c, arrFlipP z 1 f = .ok c ∧ z.Fits c ∧ z.cells c = fun s p => z.cells f s (p.1, flipIdx p.2.1, p.2.2) := by
  obtain ⟨p, hp, h0, h1, h2, h3, hg⟩ := toP_ok hf
  have b0 : ∀ x : z.Cell, x.2.1.1.val < p.d0 := fun x => by rw [h0]; exact ZMod.val_lt _
  have b1 : ∀ x : z.Cell, x.2.1.2.1.val < p.d1 := fun x => by rw [h1]; exact ZMod.val_lt _
  have b2 : ∀ x : z.Cell, x.2.1.2.2.val < p.d2 := fun x => by rw [h2]; exact ZMod.val_lt _
  constructor
  · obtain ⟨q, hq, hfq, hc⟩ := toQ_ok (z := z) (p := p.flip 0) (F := fun x => z.cells f x.1 (flipIdx x.2.1.1, x.2.1.2) x.2.2) h0 h1 h2 h3 (by
      intro x
      refine (AfArray.get_ofFn _ _ _ _ _ _ _ _ _ (b0 x) (b1 x) (b2 x)).trans ?_
      simp only [Fin.reduceEq, if_true, if_false]
      rw [← hg (x.1, (flipIdx x.2.1.1, x.2.1.2), x.2.2), h0]
      simp only [pExpanded, arr_flipIdx_val])
    refine ⟨q, ?_, hfq, hc⟩
    simp only [arrFlipP, bind, Except.bind, hp, hq]
  · obtain ⟨q, hq, hfq, hc⟩ := toQ_ok (z := z) (p := p.flip 1) (F := fun x => z.cells f x.1 (x.2.1.1, flipIdx x.2.1.2.1, x.2.1.2.2) x.2.2) h0 h1 h2 h3 (by
      intro x
      refine (AfArray.get_ofFn _ _ _ _ _ _ _ _ _ (b0 x) (b1 x) (b2 x)).trans ?_
      simp only [Fin.reduceEq, if_true, if_false]
      rw [← hg (x.1, (x.2.1.1, flipIdx x.2.1.2.1, x.2.1.2.2), x.2.2), h1]
      simp only [pExpanded, arr_flipIdx_val])
    refine ⟨q, ?_, hfq, hc⟩
    simp only [arrFlipP, bind, Except.bind, hp, hq]

theorem arrMirrorCartesian_holds {g : ℕ} (w : Wall) {f : AfArray K} (hf : z.Fits f) (hg : 2 * g ≤ z.width w) :
    ∃ c, arrMirrorCartesian z g w f = .ok c ∧ z.Fits c ∧ z.cells c = mirrorCartesian g w (z.cells f) := by
  obtain ⟨a, ha, fa, ca⟩ := arrMirrorSpace_holds (g := g) w hf hg
  obtain ⟨⟨b, hb, fb, cb⟩, b', hb', fb', cb'⟩ := arrFlipP_holds fa
  have wd : g ≤ z.width w := by omega
  cases w
  all_goals first
    | (obtain ⟨c, hc, fc, cc⟩ := arrSetSlab_holds (g := g) _ fa fb wd
       refine ⟨c, ?_, fc, ?_⟩
       · simp only [arrMirrorCartesian, bind, Except.bind, ha, hb, hc]
       · rw [cc, cb, ca]; rfl)
    | (obtain ⟨c, hc, fc, cc⟩ := arrSetSlab_holds (g := g) _ fa fb' wd
       refine ⟨c, ?_, fc, ?_⟩
       · simp only [arrMirrorCartesian, bind, Except.bind, ha, hb', hc]
       · rw [cc, cb', ca]; rfl)

theorem arrFlipHalves_even {f : AfArray K} (hf : z.Fits f) (he : z.Np2 % 2 = 0) :
    ∃ c, arrFlipHalves z f = .ok c ∧ z.Fits c ∧ z.cells c = fun s p => z.cells f s (p.1, flipHalves p.2.1, p.2.2) := by
  obtain ⟨p, hp, h0, h1, h2, h3, hg⟩ := toP_ok hf
  have c1 : 0 + z.Np2 / 2 ≤ p.dim 1 := by simp only [AfArray.dim, Fin.reduceEq, if_true, if_false, h1]; omega
  have c2 : z.Np2 / 2 + z.Np2 / 2 ≤ p.dim 1 := by simp only [AfArray.dim, Fin.reduceEq, if_true, if_false, h1]; omega
  unfold arrFlipHalves
  simp only [bind, Except.bind, hp]
  unfold AfArray.cut
  rw [if_pos c1]
  dsimp only
  rw [if_pos c2]
  dsimp only
  unfold AfArray.join1
  rw [if_pos ⟨rfl, rfl, rfl⟩]
  dsimp only
  refine (toQ_ok (F := fun x => z.cells f x.1 (x.2.1.1, flipHalves x.2.1.2.1, x.2.1.2.2) x.2.2) ?_ ?_ ?_ ?_ fun x => ?_)
  · exact h0
  · change z.Np2 / 2 + z.Np2 / 2 = z.Np2
    omega
  · exact h2
  · exact h3
  · have b0 : x.2.1.1.val < p.d0 := by rw [h0]; exact ZMod.val_lt _
    have b1 : x.2.1.2.1.val < z.Np2 := ZMod.val_lt _
    have b2 : x.2.1.2.2.val < p.d2 := by rw [h2]; exact ZMod.val_lt _
    refine (AfArray.get_ofFn _ _ _ _ _ _ _ _ _ b0 (show x.2.1.2.1.val < z.Np2 / 2 + z.Np2 / 2 by omega) b2).trans ?_
    rw [← hg (x.1, (x.2.1.1, flipHalves x.2.1.2.1, x.2.1.2.2), x.2.2)]
    simp only [pExpanded, arr_flipHalves_val]
    by_cases hx : x.2.1.2.1.val < z.Np2 / 2
    · rw [if_pos hx]
      refine (if_pos (show _ < z.Np2 / 2 from hx)).trans ?_
      refine (AfArray.get_ofFn _ _ _ _ _ _ _ _ _ b0 (show x.2.1.2.1.val < z.Np2 / 2 from hx) b2).trans ?_
      simp only [Fin.reduceEq, if_true, if_false]
      refine (AfArray.get_ofFn _ _ _ _ _ _ _ _ _ b0 (show z.Np2 / 2 - 1 - x.2.1.2.1.val < z.Np2 / 2 by omega) b2).trans ?_
      simp only [zero_add]
    · rw [if_neg hx]
      refine (if_neg (show ¬ _ < z.Np2 / 2 from hx)).trans ?_
      refine (AfArray.get_ofFn _ _ _ _ _ _ _ _ _ b0 (show x.2.1.2.1.val - z.Np2 / 2 < z.Np2 / 2 by omega) b2).trans ?_
      simp only [Fin.reduceEq, if_true, if_false]
      refine (AfArray.get_ofFn _ _ _ _ _ _ _ _ _ b0 (show z.Np2 / 2 - 1 - (x.2.1.2.1.val - z.Np2 / 2) < z.Np2 / 2 by omega) b2).trans ?_
      congr 1
      omega

theorem arrFlipHalves_odd {f : AfArray K} (hf : z.Fits f) (he : z.Np2 % 2 = 1) : arrFlipHalves z f = .error .exception := by
  obtain ⟨p, hp, h0, h1, h2, h3, hg⟩ := toP_ok hf
  have c1 : 0 + z.Np2 / 2 ≤ p.dim 1 := by simp only [AfArray.dim, Fin.reduceEq, if_true, if_false, h1]; omega
  have c2 : z.Np2 / 2 + z.Np2 / 2 ≤ p.dim 1 := by simp only [AfArray.dim, Fin.reduceEq, if_true, if_false, h1]; omega
  unfold arrFlipHalves
  simp only [bind, Except.bind, hp]
  unfold AfArray.cut
  rw [if_pos c1]
  dsimp only
  rw [if_pos c2]
  dsimp only
  unfold AfArray.join1
  rw [if_pos ⟨rfl, rfl, rfl⟩]
  dsimp only
  unfold convertToQExpanded AfArray.moddims
  refine if_neg fun h => ?_
  change p.d0 * (z.Np2 / 2 + z.Np2 / 2) * p.d2 * p.d3 = _ at h
  rw [h0, h2, h3] at h
  have pos : 0 < z.Np1 * z.Np3 * (z.Ns * z.M1 * z.M2) := Nat.pos_of_ne_zero (by simp [NeZero.ne])
  have : z.Np1 * z.Np3 * (z.Ns * z.M1 * z.M2) * (z.Np2 / 2 + z.Np2 / 2) = z.Np1 * z.Np3 * (z.Ns * z.M1 * z.M2) * z.Np2 := by linarith
  have := Nat.eq_of_mul_eq_mul_left pos this
  omega

theorem arrMirrorPolar_holds {g : ℕ} (w : Wall) {f : AfArray K} (hf : z.Fits f) (hg : 2 * g ≤ z.width w) :
    (∀ f', mirrorPolar g w (z.cells f) = .ok f' → ∃ c, arrMirrorPolar z g w f = .ok c ∧ z.Fits c ∧ z.cells c = f') ∧
    ∀ e, mirrorPolar g w (z.cells f) = .error e → arrMirrorPolar z g w f = .error e := by
  obtain ⟨a, ha, fa, ca⟩ := arrMirrorSpace_holds (g := g) w hf hg
  obtain ⟨-, b', hb', fb', cb'⟩ := arrFlipP_holds fa
  have wd : g ≤ z.width w := by omega
  unfold mirrorPolar
  dsimp only
  by_cases hw : (w = .left ∨ w = .right) ∧ z.Np2 % 2 = 1
  · rw [if_pos hw]
    refine ⟨fun f' h => (by cases h), fun e h => ?_⟩
    injection h with h
    subst h
    have ho := arrFlipHalves_odd fa hw.2
    rcases hw.1 with rfl | rfl <;> simp only [arrMirrorPolar, bind, Except.bind, ha, ho]
  · rw [if_neg hw]
    refine ⟨fun f' h => ?_, fun e h => by cases h⟩
    injection h with h
    subst h
    by_cases hlr : w = .left ∨ w = .right
    · obtain ⟨b, hb, fb, cb⟩ := arrFlipHalves_even fa (by have : ¬ z.Np2 % 2 = 1 := fun h => hw ⟨hlr, h⟩; omega)
      obtain ⟨c, hc, fc, cc⟩ := arrSetSlab_holds (g := g) w fa fb wd
      refine ⟨c, ?_, fc, ?_⟩
      · rcases hlr with rfl | rfl <;> simp only [arrMirrorPolar, bind, Except.bind, ha, hb, hc]
      · rw [cc, cb, ca]
        rcases hlr with rfl | rfl <;> rfl
    · obtain ⟨c, hc, fc, cc⟩ := arrSetSlab_holds (g := g) w fa fb' wd
      refine ⟨c, ?_, fc, ?_⟩
      · cases w
        · exact absurd (.inl rfl) hlr
        · exact absurd (.inr rfl) hlr
        · simp only [arrMirrorPolar, bind, Except.bind, ha, hb', hc]
        · simp only [arrMirrorPolar, bind, Except.bind, ha, hb', hc]
      · rw [cc, cb', ca]
        cases w
        · exact absurd (.inl rfl) hlr
        · exact absurd (.inr rfl) hlr
        · rfl
        · rfl


theorem tile_size_ne {a : AfArray K} (ha : z.Fits a) (hM : 1 < z.M1 * z.M2) : a.size ≠ z.Ns * z.Np1 * z.Np2 * z.Np3 := by
  obtain ⟨h0, h1, h2, h3⟩ := ha
  unfold AfArray.size
  rw [h0, h1, h2, h3]
  intro h
  have pos : 0 < z.Np1 * z.Np2 * z.Np3 * z.Ns := Nat.pos_of_ne_zero (by simp [NeZero.ne])
  have : z.Np1 * z.Np2 * z.Np3 * z.Ns * (z.M1 * z.M2) = z.Np1 * z.Np2 * z.Np3 * z.Ns * 1 := by linarith
  have := Nat.eq_of_mul_eq_mul_left pos this
  omega

theorem shapes_of_fits {f : AfArray K} (hf : z.Fits f) (h : z.M2 ≠ 1) : f.shape2 = some z.M1 ∧ f.shape3 = some z.M2 := by
  obtain ⟨h0, h1, h2, h3⟩ := hf
  simp [AfArray.shape2, AfArray.shape3, AfArray.numdims, h2, h3, h]

theorem shape3_none {f : AfArray K} (hf : z.Fits f) (h : z.M2 = 1) : f.shape3 = none := by
  obtain ⟨h0, h1, h2, h3⟩ := hf
  have : ¬ 3 < f.numdims := by
    unfold AfArray.numdims
    rw [if_neg (by simp [h3, h])]
    split_ifs <;> omega
  exact if_neg this

theorem momentumOnly_size {m : PyExpr K} {F : z.Cell → K} (h : (momentumOnly z).Holds m F) :
    ∃ a, m = .ok (.arr a) ∧ a.size = z.Ns * z.Np1 * z.Np2 * z.Np3 := by
  obtain ⟨a, ha, h0, h1, h2, h3, -⟩ := h
  refine ⟨a, ha, ?_⟩
  simp only [AfArray.size, h0, h1, h2, h3, momentumOnly]
  ring

theorem arrTileVelocity_holds {f : AfArray K} {m : PyExpr K} {F : Dist (Fin z.Ns) z.P z.Q K} (hf : z.Fits f) (hv : VelocityHolds m F)
    (hM : 1 < z.M1 * z.M2) (hfit : z.M2 = 1 → z.FullShape m) :
    ∃ v, arrTileVelocity z f m = .ok v ∧ z.Fits v ∧ z.cells v = F := by
  rcases hv with hv | hv
  · obtain ⟨a, rfl, h0, h1, h2, h3, hg⟩ := hv
    have fa : z.Fits a := ⟨h0, h1, h2, h3⟩
    refine ⟨a, ?_, fa, funext fun s => funext fun p => funext fun q => hg (s, p, q)⟩
    exact if_neg (tile_size_ne fa hM)
  · have hM2 : z.M2 ≠ 1 := by
      intro h
      obtain ⟨a, rfl, fa⟩ := hfit h
      obtain ⟨b, hb, sb⟩ := momentumOnly_size hv
      injection hb with hb
      injection hb with hb
      subst hb
      exact tile_size_ne fa hM sb
    obtain ⟨a', ha', sa⟩ := momentumOnly_size hv
    obtain ⟨a, rfl, h0, h1, h2, h3, hg⟩ := hv
    injection ha' with ha'
    injection ha' with ha'
    subst ha'
    obtain ⟨s2, s3⟩ := shapes_of_fits hf hM2
    simp only [momentumOnly] at h0 h1 h2 h3 hg
    refine ⟨a.tile 1 1 z.M1 z.M2, ?_, ⟨?_, ?_, ?_, ?_⟩, funext fun s => funext fun p => funext fun q => ?_⟩
    · have e : arrTileVelocity z f (.ok (.arr a)) = if a.size = z.Ns * z.Np1 * z.Np2 * z.Np3 then
          (match f.shape2, f.shape3 with
            | some m, some n => .ok (a.tile 1 1 m n)
            | _, _ => .error .indexError) else .ok a := rfl
      rw [e, if_pos sa, s2, s3]
    · simp [AfArray.tile, AfArray.ofFn, h0]
    · simp [AfArray.tile, AfArray.ofFn, h1]
    · simp [AfArray.tile, AfArray.ofFn, h2]
    · simp [AfArray.tile, AfArray.ofFn, h3]
    · have r0 : z.row p < a.d0 := by rw [h0]; exact row_lt z p
      have r1 : (s : ℕ) < a.d1 := by rw [h1]; exact s.2
      have r2 : q.1.val < a.d2 * z.M1 := by rw [h2, one_mul]; exact ZMod.val_lt q.1
      refine (AfArray.get_ofFn _ _ _ _ _ _ _ _ _ (by omega) (by omega) r2).trans ?_
      rw [Nat.mod_eq_of_lt r0, Nat.mod_eq_of_lt r1, h2, h3, Nat.mod_one, Nat.mod_one]
      exact hg (s, p, q)

/-- The only way in which a velocity given on the momentum cells makes the routine raise. -/
theorem arrTileVelocity_indexError {f : AfArray K} {m : PyExpr K} {F : z.Cell → K} (hf : z.Fits f) (hv : (momentumOnly z).Holds m F) (h : z.M2 = 1) :
    arrTileVelocity z f m = .error .indexError := by
  obtain ⟨a, rfl, sa⟩ := momentumOnly_size hv
  have e : arrTileVelocity z f (.ok (.arr a)) = if a.size = z.Ns * z.Np1 * z.Np2 * z.Np3 then
      (match f.shape2, f.shape3 with
        | some m, some n => .ok (a.tile 1 1 m n)
        | _, _ => .error .indexError) else .ok a := rfl
  rw [e, if_pos sa, shape3_none hf h]
  cases f.shape2 <;> rfl

theorem arrSelect_holds {f : AfArray K} {v : AfArray K} (test : K → Bool) {x : PyVal K} {U : Dist (Fin z.Ns) z.P z.Q K} (hf : z.Fits f) (hv : z.Fits v)
    (hx : HoldsDist (z := z) (.ok x) U ∨ ∃ c, x = .num c ∧ U = fun _ _ _ => c) :
    ∃ b, arrSelect (v.map test) x f = .ok b ∧ z.Fits b ∧
      z.cells b = fun s p q => if test (z.cells v s p q) = true then U s p q else z.cells f s p q := by
  obtain ⟨f0, f1, f2, f3⟩ := hf
  obtain ⟨v0, v1, v2, v3⟩ := hv
  rcases hx with ⟨a, ha, a0, a1, a2, a3, hg⟩ | ⟨c, rfl, rfl⟩
  · injection ha with ha
    subst ha
    simp only [qExpanded] at a0 a1 a2 a3 hg
    refine ⟨⟨a.d0, a.d1, a.d2, a.d3, fun n => if (v.map test).data n then a.data n else f.data n⟩, ?_, ⟨a0, a1, a2, a3⟩,
      funext fun s => funext fun p => funext fun q => ?_⟩
    · exact if_pos ⟨by rw [a0]; exact v0, by rw [a1]; exact v1, by rw [a2]; exact v2, by rw [a3]; exact v3, by rw [a0, f0], by rw [a1, f1],
        by rw [a2, f2], by rw [a3, f3]⟩
    · rw [← hg (s, p, q)]
      simp only [GridSizes.cells, AfArray.get, AfArray.map, a0, a1, a2, v0, v1, v2, f0, f1, f2]
  · refine ⟨⟨f.d0, f.d1, f.d2, f.d3, fun n => if (v.map test).data n then c else f.data n⟩, ?_, ⟨f0, f1, f2, f3⟩,
      funext fun s => funext fun p => funext fun q => ?_⟩
    · exact if_pos ⟨by rw [show (f.map fun _ => c).d0 = f.d0 from rfl, f0]; exact v0, by rw [show (f.map fun _ => c).d1 = f.d1 from rfl, f1]; exact v1,
        by rw [show (f.map fun _ => c).d2 = f.d2 from rfl, f2]; exact v2, by rw [show (f.map fun _ => c).d3 = f.d3 from rfl, f3]; exact v3, rfl, rfl, rfl, rfl⟩
    · simp only [GridSizes.cells, AfArray.get, AfArray.map, v0, v1, v2, f0, f1, f2]


section env
variable {K : Type} [Machine K] [Zero K] [LinearOrder K] {x : ArrBCEnv K} [NeZero x.z.Np1] [NeZero x.z.Np2] [NeZero x.z.Np3] [NeZero x.z.Ns]
  [NeZero x.z.M1] [NeZero x.z.M2] {env : BCEnv (Fin x.z.Ns) x.z.Np1 x.z.Np2 x.z.Np3 x.z.M1 x.z.M2 K}

theorem cells_gt_one {g : ℕ} {z : GridSizes} [NeZero z.M1] [NeZero z.M2] (w : Wall) (hg : 0 < g) (hw : 2 * g ≤ z.width w) : 1 < z.M1 * z.M2 := by
  have h1 : 0 < z.M1 := Nat.pos_of_ne_zero (NeZero.ne _)
  have h2 : 0 < z.M2 := Nat.pos_of_ne_zero (NeZero.ne _)
  cases w <;> simp only [GridSizes.width] at hw <;> nlinarith

theorem arrDirichlet_holds (hK : ExactComparisons K) (h : x.Hold env) (w : Wall) (hi : x.Inflow w) (hg : 0 < x.g) (hw : 2 * x.g ≤ x.z.width w)
    (hfit : x.z.M2 = 1 → x.z.FullShape x.vel1 ∧ x.z.FullShape x.vel2) {f : AfArray K} (hf : x.z.Fits f) :
    ∃ c, arrDirichlet x w f = .ok c ∧ x.z.Fits c ∧ x.z.cells c = dirichletF env w (x.z.cells f) := by
  have hM := cells_gt_one w hg hw
  obtain ⟨v1, e1, fv1, cv1⟩ := arrTileVelocity_holds hf (h.vel1 ⟨w, hi⟩) hM fun k => (hfit k).1
  obtain ⟨v2, e2, fv2, cv2⟩ := arrTileVelocity_holds hf (h.vel2 ⟨w, hi⟩) hM fun k => (hfit k).2
  obtain ⟨u, hu, hU⟩ : ∃ u, x.user w f = .ok u ∧
      (HoldsDist (z := x.z) (.ok u) (env.user w (x.z.cells f)) ∨ ∃ c, u = .num c ∧ env.user w (x.z.cells f) = fun _ _ _ => c) := by
    rcases h.user w f hi hf with h | ⟨c, hc, e⟩
    · obtain ⟨a, ha, h⟩ := id h
      exact ⟨_, ha, .inl ⟨a, rfl, h⟩⟩
    · exact ⟨_, hc, .inr ⟨c, rfl, e⟩⟩
  have wd : x.g ≤ x.z.width w := by omega
  have key : ∀ (test : K → Bool) (v : AfArray K), x.z.Fits v → ∃ b c, arrSelect (v.map test) u f = .ok b ∧ arrSetSlab x.g w f b = .ok c ∧ x.z.Fits c ∧
      x.z.cells c = fun s p => setSlab env.g w (x.z.cells f s p) fun q =>
        if test (x.z.cells v s p q) = true then env.user w (x.z.cells f) s p q else x.z.cells f s p q := by
    intro test v hv
    obtain ⟨b, hb, fb, cb⟩ := arrSelect_holds test hf hv hU
    obtain ⟨c, hc, fc, cc⟩ := arrSetSlab_holds w hf fb wd
    refine ⟨b, c, hb, hc, fc, ?_⟩
    rw [cc, cb, h.g]
  have t1 : ∀ a : K, lt (lit 0) a = decide (a > 0) := fun a => by rw [hK.lt_eq, hK.zero]
  have t2 : ∀ a : K, lt a (lit 0) = decide (a < 0) := fun a => by rw [hK.lt_eq, hK.zero]
  have e1' : arrTileVelocity x.z f (if x.solverMethodInQ = "FVM" then x.Cq1 else x.Aq1) = .ok v1 := e1
  have e2' : arrTileVelocity x.z f (if x.solverMethodInQ = "FVM" then x.Cq2 else x.Aq2) = .ok v2 := e2
  unfold arrDirichlet dirichletF
  rw [e1', e2', hu]
  simp only [bind, Except.bind, ← cv1, ← cv2]
  cases w
  all_goals first
    | (obtain ⟨b, c, hb, hc, fc, cc⟩ := key (fun a => lt (lit 0) a) v1 fv1
       refine ⟨c, ?_, fc, ?_⟩
       · simp only [hb, hc]
       · rw [cc]; funext s p q; simp only [t1, decide_eq_true_eq, afSelect]; done)
    | (obtain ⟨b, c, hb, hc, fc, cc⟩ := key (fun a => lt a (lit 0)) v1 fv1
       refine ⟨c, ?_, fc, ?_⟩
       · simp only [hb, hc]
       · rw [cc]; funext s p q; simp only [t2, decide_eq_true_eq, afSelect]; done)
    | (obtain ⟨b, c, hb, hc, fc, cc⟩ := key (fun a => lt (lit 0) a) v2 fv2
       refine ⟨c, ?_, fc, ?_⟩
       · simp only [hb, hc]
       · rw [cc]; funext s p q; simp only [t1, decide_eq_true_eq, afSelect]; done)
    | (obtain ⟨b, c, hb, hc, fc, cc⟩ := key (fun a => lt a (lit 0)) v2 fv2
       refine ⟨c, ?_, fc, ?_⟩
       · simp only [hb, hc]
       · rw [cc]; funext s p q; simp only [t2, decide_eq_true_eq, afSelect]; done)

omit [Machine K] [Zero K] [LinearOrder K] in
theorem SameOutcome.of_ok {z : GridSizes} {m : Except PyErr (AfArray K)} {f' : Dist (Fin z.Ns) z.P z.Q K}
    (h : ∃ c, m = .ok c ∧ z.Fits c ∧ z.cells c = f') : SameOutcome z m (.ok f') :=
  ⟨fun f'' e => by injection e with e; exact e ▸ h, fun e h => (by cases h)⟩

omit [Machine K] [Zero K] [LinearOrder K] in
theorem SameOutcome.of_error {z : GridSizes} {e : PyErr} : SameOutcome (K := K) z (.error e) (.error e) :=
  ⟨fun f'' h => (by cases h), fun e h => by injection h with h; rw [h]⟩

omit [Machine K] [Zero K] [LinearOrder K] in
theorem SameOutcome.bind {z : GridSizes} {m : Except PyErr (AfArray K)} {r : Except PyErr (Dist (Fin z.Ns) z.P z.Q K)}
    {φ : AfArray K → Except PyErr (AfArray K)} {ψ : Dist (Fin z.Ns) z.P z.Q K → Except PyErr (Dist (Fin z.Ns) z.P z.Q K)}
    (h : SameOutcome z m r) (hφ : ∀ a, z.Fits a → SameOutcome z (φ a) (ψ (z.cells a))) : SameOutcome z (m.bind φ) (r.bind ψ) := by
  cases r with
  | error e => rw [h.2 e rfl]; exact .of_error
  | ok f' =>
    obtain ⟨c, rfl, fc, rfl⟩ := h.1 f' rfl
    exact hφ c fc

theorem arrMirror_outcome (h : x.Hold env) (w : Wall) (hw : 2 * x.g ≤ x.z.width w) {f : AfArray K} (hf : x.z.Fits f) :
    SameOutcome x.z (arrMirror x w f) (mirrorF env w (x.z.cells f)) := by
  unfold arrMirror mirrorF
  rw [h.pGrid, ← h.g]
  split_ifs
  · exact .of_ok (arrMirrorCartesian_holds w hf hw)
  · exact arrMirrorPolar_holds w hf hw
  · exact .of_error

theorem touches_eq (h : x.Hold env) (w : Wall) : x.touches w = env.touches w := by
  cases w <;> simp only [ArrBCEnv.touches, BCEnv.touches, h.start1, h.start2, h.nLocal1, h.nLocal2, h.N1, h.N2]

theorem arrAtWall_outcome (hK : ExactComparisons K) (h : x.Hold env) (hw : x.WallsFit) (hv : x.VelocitiesFit) (w : Wall) {f : AfArray K} (hf : x.z.Fits f) :
    SameOutcome x.z (arrAtWall x w f) (atWall env w (x.z.cells f)) := by
  unfold arrAtWall atWall
  rw [← touches_eq h]
  split_ifs with ht
  swap
  · exact .of_ok ⟨f, rfl, hf, rfl⟩
  unfold arrApplyWall applyWall
  have hn : env.name w = x.name w := by rw [h.name]
  rw [hn]
  by_cases hp : x.name w = "periodic" ∨ x.name w = "none"
  · have n1 : x.name w ≠ "dirichlet" := by rcases hp with hp | hp <;> rw [hp] <;> decide
    have n2 : x.name w ≠ "mirror" := by rcases hp with hp | hp <;> rw [hp] <;> decide
    have n3 : x.name w ≠ "mirror+dirichlet" := by rcases hp with hp | hp <;> rw [hp] <;> decide
    simp only [if_neg n1, if_neg n2, if_neg n3, if_pos hp]
    exact .of_ok ⟨f, rfl, hf, rfl⟩
  · push Not at hp
    obtain ⟨g0, gw⟩ := hw w ht hp.1 hp.2
    have hp' : ¬ (x.name w = "periodic" ∨ x.name w = "none") := fun h => h.elim hp.1 hp.2
    have dir : x.Inflow w → ∀ a, x.z.Fits a → SameOutcome x.z (arrDirichlet x w a) (.ok (dirichletF env w (x.z.cells a))) := fun hi a ha =>
      .of_ok (arrDirichlet_holds hK h w hi g0 gw (hv w ht hi) ha)
    simp only [if_neg hp']
    split_ifs with n1 n2 n3 n4
    · exact dir (.inl n1) f hf
    · exact arrMirror_outcome h w gw hf
    · exact (arrMirror_outcome h w gw hf).bind (dir (.inr n3))
    · obtain ⟨b, hb, fb, cb⟩ := h.sheared w f n4 hf
      obtain ⟨c, hc, fc, cc⟩ := arrSetSlab_holds (g := x.g) w hf fb (by omega)
      refine .of_ok ⟨c, ?_, fc, ?_⟩
      · simp only [bind, Except.bind, hb, hc]
      · rw [cc, cb, h.g]; rfl
    · exact .of_error

theorem arrApplyBcs_outcome (hK : ExactComparisons K) (h : x.Hold env) (hw : x.WallsFit) (hv : x.VelocitiesFit) {f : AfArray K} (hf : x.z.Fits f) :
    SameOutcome x.z (arrApplyBcs x f) (applyBcsF env (x.z.cells f)) :=
  (arrAtWall_outcome hK h hw hv .left hf).bind fun _ h1 => (arrAtWall_outcome hK h hw hv .right h1).bind fun _ h2 =>
    (arrAtWall_outcome hK h hw hv .bottom h2).bind fun _ h3 => arrAtWall_outcome hK h hw hv .top h3

end env

end Bolt
