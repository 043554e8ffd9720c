import Verif.Proofs.Boundaries
import Verif.Props.Recon
import Mathlib.Tactic.LinearCombination

/-! Helper lemmas: after communication and boundary conditions every local array shows the box continued by images. -/

set_option linter.unusedSectionVars false

namespace Bolt

/-! ## images along one axis -/

theorem imageIdx_inside {N : ℕ} {c : ℤ} (h0 : 0 ≤ c) (h1 : c < N) : imageIdx N c = c ∧ ¬ reversedImage N c := by
  have e : c % (2 * N) = c := Int.emod_eq_of_lt h0 (by omega)
  simp only [imageIdx, reversedImage, e]
  rw [if_pos h1]; exact ⟨rfl, by omega⟩

theorem imageIdx_below {N : ℕ} {c : ℤ} (h0 : -(N : ℤ) ≤ c) (h1 : c < 0) : imageIdx N c = -1 - c ∧ reversedImage N c := by
  have e : c % (2 * N) = c + 2 * N := by
    rw [← Int.add_emod_right]
    exact Int.emod_eq_of_lt (by omega) (by omega)
  simp only [imageIdx, reversedImage, e]
  rw [if_neg (by omega)]; exact ⟨by ring, by omega⟩

theorem imageIdx_above {N : ℕ} {c : ℤ} (h0 : (N : ℤ) ≤ c) (h1 : c < 2 * N) :
    imageIdx N c = 2 * N - 1 - c ∧ reversedImage N c := by
  have e : c % (2 * N) = c := Int.emod_eq_of_lt (by omega) h1
  simp only [imageIdx, reversedImage, e]
  rw [if_neg (by omega)]; exact ⟨rfl, by omega⟩

theorem imageIdx_bounds {N : ℕ} [NeZero N] (c : ℤ) : 0 ≤ imageIdx N c ∧ imageIdx N c < N := by
  have hN : 0 < N := Nat.pos_of_ne_zero (NeZero.ne N)
  have a := Int.emod_nonneg c (b := 2 * N) (by omega)
  have b := Int.emod_lt_of_pos c (b := 2 * N) (by omega)
  simp only [imageIdx]
  split_ifs <;> omega

/-- Mirror symmetry about the wall at 0. -/
theorem imageIdx_reflect0 {N : ℕ} [NeZero N] (c : ℤ) :
    imageIdx N (-1 - c) = imageIdx N c ∧ (reversedImage N (-1 - c) ↔ ¬ reversedImage N c) := by
  have hN : 0 < N := Nat.pos_of_ne_zero (NeZero.ne N)
  have a := Int.emod_nonneg c (b := 2 * N) (by omega)
  have b := Int.emod_lt_of_pos c (b := 2 * N) (by omega)
  have e : (-1 - c) % (2 * N) = 2 * N - 1 - c % (2 * N) := by
    have h1 : (-1 - c) = (2 * N - 1 - c % (2 * N)) + (2 * N) * (-(c / (2 * N)) - 1) := by
      have := Int.emod_add_mul_ediv c (2 * N)
      linear_combination this
    rw [h1, Int.add_mul_emod_self_left]
    exact Int.emod_eq_of_lt (by omega) (by omega)
  simp only [imageIdx, reversedImage, e]
  constructor
  · split_ifs <;> omega
  · omega

/-- Images repeat with period `2 N`. -/
theorem imageIdx_period {N : ℕ} (c : ℤ) : imageIdx N (c + 2 * N) = imageIdx N c ∧ (reversedImage N (c + 2 * N) ↔ reversedImage N c) := by
  simp [imageIdx, reversedImage]

theorem cast_val_int {N : ℕ} [NeZero N] (a : ZMod N) : (((a.val : ℕ) : ℤ) : ZMod N) = a := by simp

namespace Decomp

variable {N1 N2 : ℕ} {R : Type} [NeZero N1] [NeZero N2] (D : Decomp N1 N2 R) (g1 g2 : ℕ) {S K : Type} {Np1 Np2 Np3 M1 M2 : ℕ}

/-- If every process holds at least `g` cells along axis 1, a process either touches the left wall or lies `g` cells away. -/
theorem start1_far (g : ℕ) (hn : ∀ r, g ≤ D.n1 r) (r : R) : D.start1 r = 0 ∨ g ≤ D.start1 r := by
  by_cases h0 : D.start1 r = 0
  · exact Or.inl h0
  right
  have hf1 := D.fits1 r
  have hf2 := D.fits2 r
  have hp1 := D.pos1 r
  have hp2 := D.pos2 r
  set i : ZMod N1 × ZMod N2 := (((D.start1 r - 1 : ℕ) : ZMod N1), ((D.start2 r : ℕ) : ZMod N2)) with hi
  have v1 : i.1.val = D.start1 r - 1 := by rw [hi]; simp only [ZMod.val_natCast]; exact Nat.mod_eq_of_lt (by omega)
  have v2 : i.2.val = D.start2 r := by rw [hi]; simp only [ZMod.val_natCast]; exact Nat.mod_eq_of_lt (by omega)
  obtain ⟨⟨a, b⟩, c, d⟩ := D.owner_bounds i
  rw [v1] at a b
  rw [v2] at c d
  by_contra hlt
  set j : ZMod N1 × ZMod N2 := (((D.start1 r : ℕ) : ZMod N1), ((D.start2 r : ℕ) : ZMod N2)) with hj
  have w1 : j.1.val = D.start1 r := by rw [hj]; simp only [ZMod.val_natCast]; exact Nat.mod_eq_of_lt (by omega)
  have w2 : j.2.val = D.start2 r := by rw [hj]; simp only [ZMod.val_natCast]; exact Nat.mod_eq_of_lt (by omega)
  have o1 : D.owner j = r := (D.owner_iff j r).mpr (by rw [w1, w2]; omega)
  have hn' := hn (D.owner i)
  have o2 : D.owner j = D.owner i := (D.owner_iff j _).mpr (by rw [w1, w2]; omega)
  rw [← o2, o1] at a
  omega

theorem end1_far (g : ℕ) (hn : ∀ r, g ≤ D.n1 r) (r : R) : D.start1 r + D.n1 r = N1 ∨ D.start1 r + D.n1 r + g ≤ N1 := by
  by_cases h0 : D.start1 r + D.n1 r = N1
  · exact Or.inl h0
  right
  have hf1 := D.fits1 r
  have hf2 := D.fits2 r
  have hp1 := D.pos1 r
  have hp2 := D.pos2 r
  set i : ZMod N1 × ZMod N2 := (((D.start1 r + D.n1 r : ℕ) : ZMod N1), ((D.start2 r : ℕ) : ZMod N2)) with hi
  have v1 : i.1.val = D.start1 r + D.n1 r := by rw [hi]; simp only [ZMod.val_natCast]; exact Nat.mod_eq_of_lt (by omega)
  have v2 : i.2.val = D.start2 r := by rw [hi]; simp only [ZMod.val_natCast]; exact Nat.mod_eq_of_lt (by omega)
  obtain ⟨⟨a, b⟩, c, d⟩ := D.owner_bounds i
  rw [v1] at a b
  rw [v2] at c d
  by_contra hlt
  set j : ZMod N1 × ZMod N2 := (((D.start1 r + D.n1 r - 1 : ℕ) : ZMod N1), ((D.start2 r : ℕ) : ZMod N2)) with hj
  have w1 : j.1.val = D.start1 r + D.n1 r - 1 := by
    rw [hj]; simp only [ZMod.val_natCast]; exact Nat.mod_eq_of_lt (by omega)
  have w2 : j.2.val = D.start2 r := by rw [hj]; simp only [ZMod.val_natCast]; exact Nat.mod_eq_of_lt (by omega)
  have o1 : D.owner j = r := (D.owner_iff j r).mpr (by rw [w1, w2]; omega)
  have hn' := hn (D.owner i)
  have hfi := D.fits1 (D.owner i)
  have o2 : D.owner j = D.owner i := (D.owner_iff j _).mpr (by rw [w1, w2]; omega)
  rw [← o2, o1] at b
  omega

theorem start2_far (g : ℕ) (hn : ∀ r, g ≤ D.n2 r) (r : R) : D.start2 r = 0 ∨ g ≤ D.start2 r := by
  by_cases h0 : D.start2 r = 0
  · exact Or.inl h0
  right
  have hf1 := D.fits1 r
  have hf2 := D.fits2 r
  have hp1 := D.pos1 r
  have hp2 := D.pos2 r
  set i : ZMod N1 × ZMod N2 := (((D.start1 r : ℕ) : ZMod N1), ((D.start2 r - 1 : ℕ) : ZMod N2)) with hi
  have v1 : i.1.val = D.start1 r := by rw [hi]; simp only [ZMod.val_natCast]; exact Nat.mod_eq_of_lt (by omega)
  have v2 : i.2.val = D.start2 r - 1 := by rw [hi]; simp only [ZMod.val_natCast]; exact Nat.mod_eq_of_lt (by omega)
  obtain ⟨⟨a, b⟩, c, d⟩ := D.owner_bounds i
  rw [v1] at a b
  rw [v2] at c d
  by_contra hlt
  set j : ZMod N1 × ZMod N2 := (((D.start1 r : ℕ) : ZMod N1), ((D.start2 r : ℕ) : ZMod N2)) with hj
  have w1 : j.1.val = D.start1 r := by rw [hj]; simp only [ZMod.val_natCast]; exact Nat.mod_eq_of_lt (by omega)
  have w2 : j.2.val = D.start2 r := by rw [hj]; simp only [ZMod.val_natCast]; exact Nat.mod_eq_of_lt (by omega)
  have o1 : D.owner j = r := (D.owner_iff j r).mpr (by rw [w1, w2]; omega)
  have hn' := hn (D.owner i)
  have o2 : D.owner j = D.owner i := (D.owner_iff j _).mpr (by rw [w1, w2]; omega)
  rw [← o2, o1] at c
  omega

theorem end2_far (g : ℕ) (hn : ∀ r, g ≤ D.n2 r) (r : R) : D.start2 r + D.n2 r = N2 ∨ D.start2 r + D.n2 r + g ≤ N2 := by
  by_cases h0 : D.start2 r + D.n2 r = N2
  · exact Or.inl h0
  right
  have hf1 := D.fits1 r
  have hf2 := D.fits2 r
  have hp1 := D.pos1 r
  have hp2 := D.pos2 r
  set i : ZMod N1 × ZMod N2 := (((D.start1 r : ℕ) : ZMod N1), ((D.start2 r + D.n2 r : ℕ) : ZMod N2)) with hi
  have v1 : i.1.val = D.start1 r := by rw [hi]; simp only [ZMod.val_natCast]; exact Nat.mod_eq_of_lt (by omega)
  have v2 : i.2.val = D.start2 r + D.n2 r := by rw [hi]; simp only [ZMod.val_natCast]; exact Nat.mod_eq_of_lt (by omega)
  obtain ⟨⟨a, b⟩, c, d⟩ := D.owner_bounds i
  rw [v1] at a b
  rw [v2] at c d
  by_contra hlt
  set j : ZMod N1 × ZMod N2 := (((D.start1 r : ℕ) : ZMod N1), ((D.start2 r + D.n2 r - 1 : ℕ) : ZMod N2)) with hj
  have w1 : j.1.val = D.start1 r := by rw [hj]; simp only [ZMod.val_natCast]; exact Nat.mod_eq_of_lt (by omega)
  have w2 : j.2.val = D.start2 r + D.n2 r - 1 := by
    rw [hj]; simp only [ZMod.val_natCast]; exact Nat.mod_eq_of_lt (by omega)
  have o1 : D.owner j = r := (D.owner_iff j r).mpr (by rw [w1, w2]; omega)
  have hn' := hn (D.owner i)
  have hfi := D.fits2 (D.owner i)
  have o2 : D.owner j = D.owner i := (D.owner_iff j _).mpr (by rw [w1, w2]; omega)
  rw [← o2, o1] at d
  omega

variable [Zero K] [LinearOrder K]

theorem momentumMirror_right {pGrid : String} {fl : Wall → PIdx Np1 Np2 Np3 → PIdx Np1 Np2 Np3} (h : MomentumMirror pGrid fl) :
    fl .right = fl .left ∧ fl .top = fl .bottom := by
  rcases h with ⟨_, rfl⟩ | ⟨_, _, rfl⟩ <;> exact ⟨rfl, rfl⟩

theorem atWall_mirror (env : BCEnv S Np1 Np2 Np3 M1 M2 K) (w : Wall) (f f' : LDist S Np1 Np2 Np3 M1 M2 K)
    {fl : Wall → PIdx Np1 Np2 Np3 → PIdx Np1 Np2 Np3} (hfl : MomentumMirror env.pGrid fl) (hname : env.name w = "mirror")
    (h : atWall env w f = .ok f') (s : S) (p : PIdx Np1 Np2 Np3) (i : ZMod M1 × ZMod M2) :
    f' s p i = if env.touches w = true ∧ inSlab env.g w i then mirrorSpace env.g w (f s (fl w p)) i else f s p i := by
  by_cases hi : env.touches w = true ∧ inSlab env.g w i
  · rw [if_pos hi]
    unfold atWall applyWall at h
    rw [if_pos hi.1, if_neg (by rw [hname]; decide), if_pos hname, mirrorF_eq env w f hfl] at h
    simp only [Except.ok.injEq] at h
    subst h
    simp [hi.2]
  · rw [if_neg hi]; exact atWall_frame env w f f' h s p i hi

theorem atWall_skip (env : BCEnv S Np1 Np2 Np3 M1 M2 K) (w : Wall) (f f' : LDist S Np1 Np2 Np3 M1 M2 K)
    (hname : env.name w = "periodic" ∨ env.name w = "none") (h : atWall env w f = .ok f') : f' = f := by
  unfold atWall applyWall at h
  have h1 : env.name w ≠ "dirichlet" := by rcases hname with e | e <;> rw [e] <;> decide
  have h2 : env.name w ≠ "mirror" := by rcases hname with e | e <;> rw [e] <;> decide
  have h3 : env.name w ≠ "mirror+dirichlet" := by rcases hname with e | e <;> rw [e] <;> decide
  rw [if_neg h1, if_neg h2, if_neg h3, if_pos hname] at h
  split_ifs at h <;> simp only [Except.ok.injEq] at h <;> exact h.symm

theorem axis1_mirror (o : BCOptions) (hg : o.nGhost = g1) (r : R) (hn : ∀ r, g1 ≤ D.n1 r) (dat : D.LocBCData g1 g2 r S Np1 Np2 Np3 K)
    {fl : Wall → PIdx Np1 Np2 Np3 → PIdx Np1 Np2 Np3} (hfl : MomentumMirror o.pGrid fl)
    (hl : o.name .left = "mirror") (hr : o.name .right = "mirror")
    (X X1 X2 : Dist S (PIdx Np1 Np2 Np3) (D.Loc g1 g2 r) K)
    (h1 : atWall (D.bcEnv g1 g2 o r dat) .left X = .ok X1) (h2 : atWall (D.bcEnv g1 g2 o r dat) .right X1 = .ok X2)
    (H : S → PIdx Np1 Np2 Np3 → ZMod N1 → ZMod (D.n2 r + 2 * g2) → K) (Good : ZMod (D.n2 r + 2 * g2) → Prop)
    (hX : ∀ s p (l : D.Loc g1 g2 r), Good l.2 → 0 ≤ globCoord (D.start1 r) g1 l.1 → globCoord (D.start1 r) g1 l.1 < N1 →
      X s p l = H s p (globCoord (D.start1 r) g1 l.1 : ℤ) l.2)
    (s : S) (p : PIdx Np1 Np2 Np3) (l : D.Loc g1 g2 r) (hl2 : Good l.2) :
    X2 s p l = H s (AxisEnd.mirror.momentum N1 (globCoord (D.start1 r) g1 l.1) (fl .left) p)
      (AxisEnd.mirror.cell N1 (globCoord (D.start1 r) g1 l.1)) l.2 := by
  have hp1 := D.pos1 r
  have hp2 := D.pos2 r
  have hf := D.fits1 r
  have hnr := hn r
  have : NeZero (D.n1 r + 2 * g1) := ⟨by omega⟩
  have hv := ZMod.val_lt l.1
  have s1 := D.start1_far g1 hn r
  have s2 := D.end1_far g1 hn r
  have e1 := fun s p i => atWall_mirror (D.bcEnv g1 g2 o r dat) .left X X1 (fl := fl) hfl hl h1 s p i
  have e2 := fun s p i => atWall_mirror (D.bcEnv g1 g2 o r dat) .right X1 X2 (fl := fl) hfl hr h2 s p i
  have t1 : (D.bcEnv g1 g2 o r dat).touches .left = true ↔ D.start1 r = 0 := by simp [BCEnv.touches, bcEnv]
  have t2 : (D.bcEnv g1 g2 o r dat).touches .right = true ↔ D.start1 r + D.n1 r = N1 := by
    simp only [BCEnv.touches, bcEnv, beq_iff_eq]; omega
  have hge : (D.bcEnv g1 g2 o r dat).g = g1 := hg
  have b1 : ∀ i : D.Loc g1 g2 r, inSlab g1 .left i ↔ i.1.val < g1 := fun i => Iff.rfl
  have b2 : ∀ i : D.Loc g1 g2 r, inSlab g1 .right i ↔ D.n1 r + g1 ≤ i.1.val := fun i => by
    have : (D.n1 r + 2 * g1 - g1) = D.n1 r + g1 := by omega
    simp only [inSlab, this]
  have vcast : ∀ k : ℕ, k < D.n1 r + 2 * g1 → ((k : ZMod (D.n1 r + 2 * g1)).val) = k := fun k hk => by
    rw [ZMod.val_natCast, Nat.mod_eq_of_lt hk]
  simp only [hge, t1, t2, b1, b2] at e1 e2
  have hgc : globCoord (D.start1 r) g1 l.1 = (D.start1 r : ℤ) + l.1.val - g1 := rfl
  simp only [AxisEnd.momentum, AxisEnd.cell]
  rcases lt_or_ge (globCoord (D.start1 r) g1 l.1) 0 with hc | hc
  · -- left ghost zone
    have hs0 : D.start1 r = 0 := by omega
    have hlv : l.1.val < g1 := by omega
    obtain ⟨i1, i2⟩ := imageIdx_below (N := N1) (c := globCoord (D.start1 r) g1 l.1) (by omega) hc
    rw [i1, if_pos i2, e2, if_neg (by omega), e1, if_pos ⟨hs0, hlv⟩]
    have := mirrorSpace_left g1 (X s (fl .left p)) l
    rw [if_pos hlv] at this
    have hb := vcast (2 * g1 - 1 - l.1.val) (by omega)
    have hgc' : globCoord (D.start1 r) g1 (((2 * g1 - 1 - l.1.val : ℕ) : ZMod (D.n1 r + 2 * g1))) = -1 - globCoord (D.start1 r) g1 l.1 := by
      rw [globCoord, globCoord, hb]; omega
    refine Eq.trans this ?_
    rw [hX s (fl .left p) (((2 * g1 - 1 - l.1.val : ℕ) : ZMod (D.n1 r + 2 * g1)), l.2) hl2 (by rw [hgc']; omega) (by rw [hgc']; omega)]
    rw [hgc']
  · rcases lt_or_ge (globCoord (D.start1 r) g1 l.1) N1 with hc' | hc'
    · obtain ⟨i1, i2⟩ := imageIdx_inside hc hc'
      rw [i1, if_neg i2, e2, if_neg (by omega), e1, if_neg (by omega)]
      exact hX s p l hl2 hc hc'
    · have hs0 : D.start1 r + D.n1 r = N1 := by omega
      have hlv : D.n1 r + g1 ≤ l.1.val := by omega
      obtain ⟨i1, i2⟩ := imageIdx_above (N := N1) (c := globCoord (D.start1 r) g1 l.1) hc' (by omega)
      rw [i1, if_pos i2, e2, if_pos ⟨hs0, hlv⟩]
      have := mirrorSpace_right g1 (by omega) (X1 s (fl .right p)) l
      have hM : D.n1 r + 2 * g1 - g1 = D.n1 r + g1 := by omega
      rw [hM, if_pos hlv] at this
      have hb := vcast (2 * (D.n1 r + g1) - 1 - l.1.val) (by omega)
      have hgc' : globCoord (D.start1 r) g1 (((2 * (D.n1 r + g1) - 1 - l.1.val : ℕ) : ZMod (D.n1 r + 2 * g1)))
          = 2 * N1 - 1 - globCoord (D.start1 r) g1 l.1 := by
        rw [globCoord, globCoord, hb]; omega
      refine Eq.trans this ?_
      rw [e1, if_neg (by simp only [hb]; omega),
        hX s (fl .right p) (((2 * (D.n1 r + g1) - 1 - l.1.val : ℕ) : ZMod (D.n1 r + 2 * g1)), l.2) hl2 (by rw [hgc']; omega) (by rw [hgc']; omega)]
      rw [hgc', (momentumMirror_right hfl).1]

theorem axis2_mirror (o : BCOptions) (hg : o.nGhost = g2) (r : R) (hn : ∀ r, g2 ≤ D.n2 r) (dat : D.LocBCData g1 g2 r S Np1 Np2 Np3 K)
    {fl : Wall → PIdx Np1 Np2 Np3 → PIdx Np1 Np2 Np3} (hfl : MomentumMirror o.pGrid fl)
    (hl : o.name .bottom = "mirror") (hr : o.name .top = "mirror")
    (X X1 X2 : Dist S (PIdx Np1 Np2 Np3) (D.Loc g1 g2 r) K)
    (h1 : atWall (D.bcEnv g1 g2 o r dat) .bottom X = .ok X1) (h2 : atWall (D.bcEnv g1 g2 o r dat) .top X1 = .ok X2)
    (H : S → PIdx Np1 Np2 Np3 → ZMod (D.n1 r + 2 * g1) → ZMod N2 → K) (Good : ZMod (D.n1 r + 2 * g1) → Prop)
    (hX : ∀ s p (l : D.Loc g1 g2 r), Good l.1 → 0 ≤ globCoord (D.start2 r) g2 l.2 → globCoord (D.start2 r) g2 l.2 < N2 →
      X s p l = H s p l.1 (globCoord (D.start2 r) g2 l.2 : ℤ))
    (s : S) (p : PIdx Np1 Np2 Np3) (l : D.Loc g1 g2 r) (hl2 : Good l.1) :
    X2 s p l = H s (AxisEnd.mirror.momentum N2 (globCoord (D.start2 r) g2 l.2) (fl .bottom) p) l.1
      (AxisEnd.mirror.cell N2 (globCoord (D.start2 r) g2 l.2)) := by
  have hp1 := D.pos2 r
  have hp2 := D.pos1 r
  have hf := D.fits2 r
  have hnr := hn r
  have : NeZero (D.n2 r + 2 * g2) := ⟨by omega⟩
  have hv := ZMod.val_lt l.2
  have s1 := D.start2_far g2 hn r
  have s2 := D.end2_far g2 hn r
  have e1 := fun s p i => atWall_mirror (D.bcEnv g1 g2 o r dat) .bottom X X1 (fl := fl) hfl hl h1 s p i
  have e2 := fun s p i => atWall_mirror (D.bcEnv g1 g2 o r dat) .top X1 X2 (fl := fl) hfl hr h2 s p i
  have t1 : (D.bcEnv g1 g2 o r dat).touches .bottom = true ↔ D.start2 r = 0 := by simp [BCEnv.touches, bcEnv]
  have t2 : (D.bcEnv g1 g2 o r dat).touches .top = true ↔ D.start2 r + D.n2 r = N2 := by
    simp only [BCEnv.touches, bcEnv, beq_iff_eq]; omega
  have hge : (D.bcEnv g1 g2 o r dat).g = g2 := hg
  have b1 : ∀ i : D.Loc g1 g2 r, inSlab g2 .bottom i ↔ i.2.val < g2 := fun i => Iff.rfl
  have b2 : ∀ i : D.Loc g1 g2 r, inSlab g2 .top i ↔ D.n2 r + g2 ≤ i.2.val := fun i => by
    have : (D.n2 r + 2 * g2 - g2) = D.n2 r + g2 := by omega
    simp only [inSlab, this]
  have vcast : ∀ k : ℕ, k < D.n2 r + 2 * g2 → ((k : ZMod (D.n2 r + 2 * g2)).val) = k := fun k hk => by
    rw [ZMod.val_natCast, Nat.mod_eq_of_lt hk]
  simp only [hge, t1, t2, b1, b2] at e1 e2
  have hgc : globCoord (D.start2 r) g2 l.2 = (D.start2 r : ℤ) + l.2.val - g2 := rfl
  simp only [AxisEnd.momentum, AxisEnd.cell]
  rcases lt_or_ge (globCoord (D.start2 r) g2 l.2) 0 with hc | hc
  · -- left ghost zone
    have hs0 : D.start2 r = 0 := by omega
    have hlv : l.2.val < g2 := by omega
    obtain ⟨i1, i2⟩ := imageIdx_below (N := N2) (c := globCoord (D.start2 r) g2 l.2) (by omega) hc
    rw [i1, if_pos i2, e2, if_neg (by omega), e1, if_pos ⟨hs0, hlv⟩]
    have := mirrorSpace_bottom g2 (X s (fl .bottom p)) l
    rw [if_pos hlv] at this
    have hb := vcast (2 * g2 - 1 - l.2.val) (by omega)
    have hgc' : globCoord (D.start2 r) g2 (((2 * g2 - 1 - l.2.val : ℕ) : ZMod (D.n2 r + 2 * g2))) = -1 - globCoord (D.start2 r) g2 l.2 := by
      rw [globCoord, globCoord, hb]; omega
    refine Eq.trans this ?_
    rw [hX s (fl .bottom p) (l.1, ((2 * g2 - 1 - l.2.val : ℕ) : ZMod (D.n2 r + 2 * g2))) hl2 (by rw [hgc']; omega) (by rw [hgc']; omega)]
    rw [hgc']
  · rcases lt_or_ge (globCoord (D.start2 r) g2 l.2) N2 with hc' | hc'
    · obtain ⟨i1, i2⟩ := imageIdx_inside hc hc'
      rw [i1, if_neg i2, e2, if_neg (by omega), e1, if_neg (by omega)]
      exact hX s p l hl2 hc hc'
    · have hs0 : D.start2 r + D.n2 r = N2 := by omega
      have hlv : D.n2 r + g2 ≤ l.2.val := by omega
      obtain ⟨i1, i2⟩ := imageIdx_above (N := N2) (c := globCoord (D.start2 r) g2 l.2) hc' (by omega)
      rw [i1, if_pos i2, e2, if_pos ⟨hs0, hlv⟩]
      have := mirrorSpace_top g2 (by omega) (X1 s (fl .top p)) l
      have hM : D.n2 r + 2 * g2 - g2 = D.n2 r + g2 := by omega
      rw [hM, if_pos hlv] at this
      have hb := vcast (2 * (D.n2 r + g2) - 1 - l.2.val) (by omega)
      have hgc' : globCoord (D.start2 r) g2 (((2 * (D.n2 r + g2) - 1 - l.2.val : ℕ) : ZMod (D.n2 r + 2 * g2)))
          = 2 * N2 - 1 - globCoord (D.start2 r) g2 l.2 := by
        rw [globCoord, globCoord, hb]; omega
      refine Eq.trans this ?_
      rw [e1, if_neg (by simp only [hb]; omega),
        hX s (fl .top p) (l.1, ((2 * (D.n2 r + g2) - 1 - l.2.val : ℕ) : ZMod (D.n2 r + 2 * g2))) hl2 (by rw [hgc']; omega) (by rw [hgc']; omega)]
      rw [hgc', (momentumMirror_right hfl).2]

theorem sync_box (o : BCOptions) (k1 k2 : AxisEnd) (h1 : AxisSetup k1 (o.name .left) (o.name .right) N1)
    (h2 : AxisSetup k2 (o.name .bottom) (o.name .top) N2) {fl : Wall → PIdx Np1 Np2 Np3 → PIdx Np1 Np2 Np3}
    (hfl : MomentumMirror o.pGrid fl) (hn : ∀ r, g1 ≤ D.n1 r ∧ g2 ≤ D.n2 r)
    (dat : ∀ r, D.LocBCData g1 g2 r S Np1 Np2 Np3 K) (F F0 : ∀ r, Dist S (PIdx Np1 Np2 Np3) (D.Loc g1 g2 r) K)
    (h : D.Synced g1 g2 o dat F F0) (r : R) (s : S) (p : PIdx Np1 Np2 Np3) (l : D.Loc g1 g2 r) :
    F0 r s p l = boxExt k1 k2 (fl .left) (fl .bottom) (D.assemble g1 g2 F) s p (D.signed g1 g2 r l) := by
  obtain ⟨bc1, bc2, st, hset, happ⟩ := h
  have hax : petscAxis o.nGhost (o.name .left) = (bc1, g1) ∧ petscAxis o.nGhost (o.name .bottom) = (bc2, g2) := by
    unfold setupBCs at hset
    split_ifs at hset
    simp only [Except.ok.injEq, Prod.mk.injEq] at hset
    exact ⟨by rw [hset.1], by rw [hset.2]⟩
  obtain ⟨X1, X2, X3, w1, w2, w3, w4⟩ := applyBcsF_ok (happ r)
  have hp1 := D.pos1 r
  have hp2 := D.pos2 r
  have hf1 := D.fits1 r
  have hf2 := D.fits2 r
  have : NeZero (D.n1 r + 2 * g1) := ⟨by omega⟩
  have : NeZero (D.n2 r + 2 * g2) := ⟨by omega⟩
  set A := D.assemble g1 g2 F with hA
  set X := D.exchange g1 g2 bc1 bc2 st F r with hX
  -- after the left and right walls
  have st1 : ∀ s p (l : D.Loc g1 g2 r), fills bc2 N2 (globCoord (D.start2 r) g2 l.2) →
      X2 s p l = A s (k1.momentum N1 (globCoord (D.start1 r) g1 l.1) (fl .left) p)
        (k1.cell N1 (globCoord (D.start1 r) g1 l.1), ((globCoord (D.start2 r) g2 l.2 : ℤ) : ZMod N2)) := by
    rcases h1 with ⟨rfl, e, e'⟩ | ⟨rfl, e, e', hN⟩ | ⟨rfl, e, e'⟩
    · have := atWall_skip _ .left X X1 (Or.inl e) w1
      have := atWall_skip _ .right X1 X2 (Or.inl e') w2
      subst X2; subst X1
      intro s p l hl
      rw [e] at hax
      have hb : bc1 = .periodic := by simpa [petscAxis] using (congrArg Prod.fst hax.1).symm
      rw [hX, exchange, if_pos ⟨Or.inl hb, hl⟩]
      rfl
    · have := atWall_skip _ .left X X1 (Or.inr e) w1
      have := atWall_skip _ .right X1 X2 (Or.inr e') w2
      subst X2; subst X1
      intro s p l hl
      rw [e] at hax
      have hb : g1 = 0 := by simpa [petscAxis] using (congrArg Prod.snd hax.1).symm
      have hv := ZMod.val_lt l.1
      have hc : fills bc1 N1 (globCoord (D.start1 r) g1 l.1) := Or.inr ⟨by rw [globCoord]; omega, by rw [globCoord]; omega⟩
      rw [hX, exchange, if_pos ⟨hc, hl⟩]
      rfl
    · rw [e] at hax
      have hb : o.nGhost = g1 := by simpa [petscAxis] using (congrArg Prod.snd hax.1)
      exact axis1_mirror D g1 g2 o hb r (fun r => (hn r).1) (dat r) hfl e e' X X1 X2 w1 w2
        (fun s p a b => A s p (a, ((globCoord (D.start2 r) g2 b : ℤ) : ZMod N2)))
        (fun b => fills bc2 N2 (globCoord (D.start2 r) g2 b))
        (fun s p l hl c0 c1 => by
          rw [hX, exchange, if_pos ⟨Or.inr ⟨c0, c1⟩, hl⟩]
          rfl)
  -- after the bottom and top walls
  simp only [boxExt, signed]
  rcases h2 with ⟨rfl, e, e'⟩ | ⟨rfl, e, e', hN⟩ | ⟨rfl, e, e'⟩
  · have := atWall_skip _ .bottom X2 X3 (Or.inl e) w3
    have := atWall_skip _ .top X3 (F0 r) (Or.inl e') w4
    rw [e] at hax
    have hb : bc2 = .periodic := by simpa [petscAxis] using (congrArg Prod.fst hax.2).symm
    rw [‹F0 r = X3›, ‹X3 = X2›, st1 s p l (Or.inl hb)]
    rfl
  · have := atWall_skip _ .bottom X2 X3 (Or.inr e) w3
    have := atWall_skip _ .top X3 (F0 r) (Or.inr e') w4
    rw [e] at hax
    have hb : g2 = 0 := by simpa [petscAxis] using (congrArg Prod.snd hax.2).symm
    have hv := ZMod.val_lt l.2
    have hc : fills bc2 N2 (globCoord (D.start2 r) g2 l.2) := Or.inr ⟨by rw [globCoord]; omega, by rw [globCoord]; omega⟩
    rw [‹F0 r = X3›, ‹X3 = X2›, st1 s p l hc]
    rfl
  · rw [e] at hax
    have hb : o.nGhost = g2 := by simpa [petscAxis] using (congrArg Prod.snd hax.2)
    exact axis2_mirror D g1 g2 o hb r (fun r => (hn r).2) (dat r) hfl e e' X2 X3 (F0 r) w3 w4
      (fun s p a b => A s (k1.momentum N1 (globCoord (D.start1 r) g1 a) (fl .left) p) (k1.cell N1 (globCoord (D.start1 r) g1 a), b))
      (fun _ => True) (fun s p l _ c0 c1 => st1 s p l (Or.inr ⟨c0, c1⟩)) s p l trivial

end Decomp

namespace Decomp

variable {N1 N2 : ℕ} {R : Type} [NeZero N1] [NeZero N2] (D : Decomp N1 N2 R) (g1 g2 : ℕ) {S P K : Type}

theorem boxExt_wrap1 {k2 : AxisEnd} {fl1 fl2 : P → P} {f : Dist S P (ZMod N1 × ZMod N2) K} {s : S} {p : P} {c d : ℤ × ℤ}
    (h1 : (c.1 : ZMod N1) = d.1) (h2 : c.2 = d.2) : boxExt .wrap k2 fl1 fl2 f s p c = boxExt .wrap k2 fl1 fl2 f s p d := by
  obtain ⟨c1, c2⟩ := c
  obtain ⟨d1, d2⟩ := d
  dsimp only at h1 h2
  subst h2
  simp only [boxExt, AxisEnd.momentum, AxisEnd.cell]
  rw [h1]

theorem boxExt_wrap2 {k1 : AxisEnd} {fl1 fl2 : P → P} {f : Dist S P (ZMod N1 × ZMod N2) K} {s : S} {p : P} {c d : ℤ × ℤ}
    (h1 : c.1 = d.1) (h2 : (c.2 : ZMod N2) = d.2) : boxExt k1 .wrap fl1 fl2 f s p c = boxExt k1 .wrap fl1 fl2 f s p d := by
  obtain ⟨c1, c2⟩ := c
  obtain ⟨d1, d2⟩ := d
  dsimp only at h1 h2
  subst h1
  simp only [boxExt, AxisEnd.momentum, AxisEnd.cell]
  rw [h2]

theorem boxExt_add1 (m : Recon) (k1 k2 : AxisEnd) (fl1 fl2 : P → P) (f : Dist S P (ZMod N1 × ZMod N2) K) (hg : BoxGhosts m k1 g1 N1)
    (r : R) (l : D.Loc g1 g2 r) (h : D.Interior g1 g2 r l) (k : ℤ) (hk : |k| ≤ m.radius) (s : S) (p : P) :
    boxExt k1 k2 fl1 fl2 f s p (D.signed g1 g2 r (l + k • ((1, 0) : D.Loc g1 g2 r)))
      = boxExt k1 k2 fl1 fl2 f s p (D.signed g1 g2 r l + k • ((1, 0) : ℤ × ℤ)) := by
  have e : l + k • ((1, 0) : D.Loc g1 g2 r) = (l.1 + (k : ZMod _), l.2) := by ext <;> simp
  rw [e]
  obtain ⟨⟨a, b⟩, c, d⟩ := h
  rw [abs_le] at hk
  have hp1 := D.pos1 r
  have : NeZero (D.n1 r + 2 * g1) := ⟨by omega⟩
  rcases hg with hg | ⟨rfl, hg, hN⟩
  · have : D.signed g1 g2 r (l.1 + (k : ZMod _), l.2) = D.signed g1 g2 r l + k • ((1, 0) : ℤ × ℤ) := by
      ext
      · simp only [signed, globCoord, Prod.fst_add, Prod.smul_fst, smul_eq_mul, mul_one]
        rw [val_add_int _ k (by omega) (by push_cast; omega)]; ring
      · simp [signed]
    rw [this]
  · subst hN
    exact boxExt_wrap1 (Subsingleton.elim _ _) (by simp [signed])

theorem boxExt_add2 (m : Recon) (k1 k2 : AxisEnd) (fl1 fl2 : P → P) (f : Dist S P (ZMod N1 × ZMod N2) K) (hg : BoxGhosts m k2 g2 N2)
    (r : R) (l : D.Loc g1 g2 r) (h : D.Interior g1 g2 r l) (k : ℤ) (hk : |k| ≤ m.radius) (s : S) (p : P) :
    boxExt k1 k2 fl1 fl2 f s p (D.signed g1 g2 r (l + k • ((0, 1) : D.Loc g1 g2 r)))
      = boxExt k1 k2 fl1 fl2 f s p (D.signed g1 g2 r l + k • ((0, 1) : ℤ × ℤ)) := by
  have e : l + k • ((0, 1) : D.Loc g1 g2 r) = (l.1, l.2 + (k : ZMod _)) := by ext <;> simp
  rw [e]
  obtain ⟨⟨a, b⟩, c, d⟩ := h
  rw [abs_le] at hk
  have hp2 := D.pos2 r
  have : NeZero (D.n2 r + 2 * g2) := ⟨by omega⟩
  rcases hg with hg | ⟨rfl, hg, hN⟩
  · have : D.signed g1 g2 r (l.1, l.2 + (k : ZMod _)) = D.signed g1 g2 r l + k • ((0, 1) : ℤ × ℤ) := by
      ext
      · simp [signed]
      · simp only [signed, globCoord, Prod.snd_add, Prod.smul_snd, smul_eq_mul, mul_one]
        rw [val_add_int _ k (by omega) (by push_cast; omega)]; ring
    rw [this]
  · subst hN
    exact boxExt_wrap2 (by simp [signed]) (Subsingleton.elim _ _)

variable [Field K] [LinearOrder K] [IsStrictOrderedRing K] [AddCommGroup P]

/-- A slope evaluation on a process agrees in the bulk with the slope of the continued distribution. -/
theorem slope_box (ax : P × P × P) (cfg : FVMConfig S K) (k1 k2 : AxisEnd) (fl1 fl2 : P → P)
    (hg : ∀ m, reconMethod cfg.reconstructionInQ = .ok m → BoxGhosts m k1 g1 N1 ∧ BoxGhosts m k2 g2 N2)
    (r : R) (loc : Callbacks S P (D.Loc g1 g2 r) K) (glob : Callbacks S P (ℤ × ℤ) K)
    (hcb : D.CallbacksAgreeBox g1 g2 r loc glob) (x : Dist S P (D.Loc g1 g2 r) K) (f : Dist S P (ZMod N1 × ZMod N2) K)
    (hx : ∀ s p l, x s p l = boxExt k1 k2 fl1 fl2 f s p (D.signed g1 g2 r l)) (k : Dist S P (D.Loc g1 g2 r) K)
    (k' : Dist S P (ℤ × ℤ) K)
    (hk : dfdtFVM (D.locAxes g1 g2 r ax.1 ax.2.1 ax.2.2) cfg loc x = .ok k)
    (hk' : dfdtFVM ⟨ax.1, ax.2.1, ax.2.2, (1, 0), (0, 1)⟩ cfg glob (boxExt k1 k2 fl1 fl2 f) = .ok k')
    (s : S) (p : P) (l : D.Loc g1 g2 r) (hl : D.Interior g1 g2 r l) : k s p l = k' s p (D.signed g1 g2 r l) := by
  obtain ⟨a, b, h1, h2, h3⟩ := dfdtFVM_ok hk
  obtain ⟨a', b', h1', h2', h3'⟩ := dfdtFVM_ok hk'
  rw [h1, h1']
  congr 1
  · rcases h2 with ⟨g, m, c, d⟩ | ⟨g, d⟩ <;> rcases h2' with ⟨g', m', c', d'⟩ | ⟨g', d'⟩
    · rw [c, Except.ok.injEq] at c'
      subst c'
      rw [d, d']
      obtain ⟨gs1, gs2⟩ := hg m c
      congr 1
      · simp only [dfdtQ, locAxes]
        have e1 := fluxDiv_congr m ((1, 0) : D.Loc g1 g2 r) ((1, 0) : ℤ × ℤ) cfg.dq1 (loc.Cq1 s p) (glob.Cq1 s p)
          (x s p) (boxExt k1 k2 fl1 fl2 f s p) l _ (hcb.q1 s p l hl).1 (hcb.q1 s p l hl).2
          (fun k hk => by rw [hx, boxExt_add1 D g1 g2 m k1 k2 fl1 fl2 f gs1 r l hl k hk])
        have e2 := fluxDiv_congr m ((0, 1) : D.Loc g1 g2 r) ((0, 1) : ℤ × ℤ) cfg.dq2 (loc.Cq2 s p) (glob.Cq2 s p)
          (x s p) (boxExt k1 k2 fl1 fl2 f s p) l _ (hcb.q2 s p l hl).1 (hcb.q2 s p l hl).2
          (fun k hk => by rw [hx, boxExt_add2 D g1 g2 m k1 k2 fl1 fl2 f gs2 r l hl k hk])
        rw [e1, e2]
      · split_ifs
        · exact hcb.src x _ l hl (fun s p => hx s p l) s p
        · rfl
    · exact absurd g g'
    · exact absurd g' g
    · rw [d, d']
  · rcases h3 with ⟨g, m, c, d⟩ | ⟨g, d⟩ <;> rcases h3' with ⟨g', m', c', d'⟩ | ⟨g', d'⟩
    · rw [c, Except.ok.injEq] at c'
      subst c'
      rw [d, d']
      have e1 : (fun p => loc.Cp1 s p l) = fun p => glob.Cp1 s p (D.signed g1 g2 r l) := by
        funext p; exact hcb.p1 s p l hl
      have e2 : (fun p => loc.Cp2 s p l) = fun p => glob.Cp2 s p (D.signed g1 g2 r l) := by
        funext p; exact hcb.p2 s p l hl
      have e3 : (fun p => loc.Cp3 s p l) = fun p => glob.Cp3 s p (D.signed g1 g2 r l) := by
        funext p; exact hcb.p3 s p l hl
      have e4 : (fun p => x s p l) = fun p => boxExt k1 k2 fl1 fl2 f s p (D.signed g1 g2 r l) := by funext p; exact hx s p l
      simp only [dfdtP, dFluxP, locAxes, e1, e2, e3, e4]
    · exact absurd g g'
    · exact absurd g' g
    · rw [d, d']

/-- In the bulk, signed coordinates are those of the cell of the box. -/
theorem signed_interior (r : R) (l : D.Loc g1 g2 r) (h : D.Interior g1 g2 r l) :
    D.signed g1 g2 r l = boxCell (D.toGlob g1 g2 r l) := by
  obtain ⟨⟨a, b⟩, c, d⟩ := h
  simp only [signed, boxCell, toGlob]
  rw [val_cast_globCoord (D.fits1 r) l.1 a b, val_cast_globCoord (D.fits2 r) l.2 c d]
  ext <;> simp only [globCoord] <;> omega

omit [Field K] [LinearOrder K] [IsStrictOrderedRing K] [AddCommGroup P] in
/-- Inside the box the continued distribution is the distribution. -/
theorem boxExt_boxCell (k1 k2 : AxisEnd) (fl1 fl2 : P → P) (f : Dist S P (ZMod N1 × ZMod N2) K) (s : S) (p : P) (i : ZMod N1 × ZMod N2) :
    boxExt k1 k2 fl1 fl2 f s p (boxCell i) = f s p i := by
  have v1 := ZMod.val_lt i.1
  have v2 := ZMod.val_lt i.2
  obtain ⟨a1, b1⟩ := imageIdx_inside (N := N1) (c := (i.1.val : ℤ)) (by omega) (by omega)
  obtain ⟨a2, b2⟩ := imageIdx_inside (N := N2) (c := (i.2.val : ℤ)) (by omega) (by omega)
  have m1 : k1.momentum N1 (i.1.val : ℤ) fl1 = id := by cases k1 <;> funext p <;> simp only [AxisEnd.momentum, id] ; rw [if_neg b1]
  have m2 : k2.momentum N2 (i.2.val : ℤ) fl2 = id := by cases k2 <;> funext p <;> simp only [AxisEnd.momentum, id] ; rw [if_neg b2]
  have c1 : k1.cell N1 (i.1.val : ℤ) = i.1 := by cases k1 <;> simp only [AxisEnd.cell, a1, cast_val_int]
  have c2 : k2.cell N2 (i.2.val : ℤ) = i.2 := by cases k2 <;> simp only [AxisEnd.cell, a2, cast_val_int]
  simp only [boxExt, boxCell, m1, m2, c1, c2, id]

theorem boxStep_ok {ext : Dist S P (ZMod N1 × ZMod N2) K → Dist S P (ℤ × ℤ) K} {ax : P × P × P} {cfg : FVMConfig S K} {dt : K}
    {cb : Fin 2 → Callbacks S P (ℤ × ℤ) K} {f f' : Dist S P (ZMod N1 × ZMod N2) K} (h : boxStep ext ax cfg dt cb f = .ok f') :
    ∃ k0 k1, dfdtFVM ⟨ax.1, ax.2.1, ax.2.2, (1, 0), (0, 1)⟩ cfg (cb 0) (ext f) = .ok k0 ∧
      dfdtFVM ⟨ax.1, ax.2.1, ax.2.2, (1, 0), (0, 1)⟩ cfg (cb 1) (ext fun s p i => f s p i + k0 s p (boxCell i) * (dt / 2)) = .ok k1 ∧
      f' = fun s p i => f s p i + k1 s p (boxCell i) * dt := by
  unfold boxStep at h
  simp only [bind, Except.bind, pure, Except.pure] at h
  cases h0 : dfdtFVM ⟨ax.1, ax.2.1, ax.2.2, (1, 0), (0, 1)⟩ cfg (cb 0) (ext f) with
  | error e => simp [h0] at h
  | ok k0 =>
    simp only [h0] at h
    cases h1 : dfdtFVM ⟨ax.1, ax.2.1, ax.2.2, (1, 0), (0, 1)⟩ cfg (cb 1) (ext fun s p i => f s p i + k0 s p (boxCell i) * (dt / 2)) with
    | error e => simp [h1] at h
    | ok k1 =>
      simp only [h1, Except.ok.injEq] at h
      exact ⟨k0, k1, rfl, h1, h.symm⟩

end Decomp

/-! ## conservation in the box -/

section conserve
variable {S P K : Type} {N1 N2 : ℕ} [NeZero N1] [NeZero N2] [Field K] [LinearOrder K] [IsStrictOrderedRing K]

/-- Upwind flux through the face at coordinate `c` along a line of data. -/
def lineFlux (m : Recon) (v : K) (y : ℤ → K) (c : ℤ) : K :=
  v * if 0 < v then (reconFaces m (1 : ℤ) y).2 (c - 1) else (reconFaces m (1 : ℤ) y).1 c

/-- Data mirrored about the face `c`, with the opposite velocity, carry the opposite flux through that face. -/
theorem lineFlux_mirror (m : Recon) (v : K) (x y : ℤ → K) (c : ℤ) (h : ∀ k, y k = x (2 * c - 1 - k)) :
    lineFlux m (-v) y c = - lineFlux m v x c := by
  have hy : y = fun k => reversed x (k - (2 * c - 1)) := by
    funext k; rw [h, reversed]; congr 1; ring
  have hf : reconFaces m (1 : ℤ) y
      = (fun i => (reconFaces m (1 : ℤ) x).2 (2 * c - 1 - i), fun i => (reconFaces m (1 : ℤ) x).1 (2 * c - 1 - i)) := by
    rw [hy, C08_shift m (1 : ℤ) (2 * c - 1) (reversed x), C08_reflection]
    ext i <;> simp only [reversed, neg_sub]
  rw [lineFlux, lineFlux, hf]
  dsimp only
  have e1 : 2 * c - 1 - (c - 1) = c := by ring
  have e2 : 2 * c - 1 - c = c - 1 := by ring
  rw [e1, e2]
  rcases lt_trichotomy v 0 with hv | hv | hv
  · rw [if_pos (by linarith), if_neg (by linarith)]; ring
  · subst hv; simp
  · rw [if_neg (by linarith), if_pos hv]; ring

theorem lineFlux_congr (m : Recon) {v w : K} {x y : ℤ → K} {c d : ℤ} (hv : v = w) (h : ∀ k, x (c + k) = y (d + k)) :
    lineFlux m v x c = lineFlux m w y d := by
  have a := (reconFaces_congr m (1 : ℤ) (1 : ℤ) x y c d (fun k _ => by simpa using h k)).1
  have b := (reconFaces_congr m (1 : ℤ) (1 : ℤ) x y (c - 1) (d - 1) (fun k _ => by
    have := h (k - 1)
    have e1 : c - 1 + k • (1 : ℤ) = c + (k - 1) := by simp; ring
    have e2 : d - 1 + k • (1 : ℤ) = d + (k - 1) := by simp; ring
    rw [e1, e2, this])).2
  rw [lineFlux, lineFlux, hv, a, b]

/-- The flux divergence along an axis of the plane, in terms of lines. -/
theorem fluxDiv_line (m : Recon) (e : ℤ × ℤ) (d : K) (C x : ℤ × ℤ → K) (o : ℤ × ℤ) (c : ℤ) :
    fluxDiv m e d C x (o + c • e) = (lineFlux m (C (o + (c + 1) • e)) (fun k => x (o + k • e)) (c + 1)
      - lineFlux m (C (o + c • e)) (fun k => x (o + k • e)) c) / d := by
  have key : ∀ c : ℤ, C (o + c • e) * leftState m e C x (o + c • e) = lineFlux m (C (o + c • e)) (fun k => x (o + k • e)) c := by
    intro c
    rw [leftState_eq, lineFlux]
    have a := (reconFaces_congr m e (1 : ℤ) x (fun k => x (o + k • e)) (o + c • e) c (fun k _ => by
      congr 1; simp only [smul_eq_mul, mul_one, add_smul]; abel)).1
    have b := (reconFaces_congr m e (1 : ℤ) x (fun k => x (o + k • e)) (o + c • e - e) (c - 1) (fun k _ => by
      congr 1; simp only [smul_eq_mul, mul_one, add_smul, sub_smul, one_smul]; abel)).2
    rw [a, b]
  rw [fluxDiv_eq, key c]
  have : o + c • e + e = o + (c + 1) • e := by rw [add_smul, one_smul]; abel
  rw [this, key (c + 1)]

/-- Telescoping: the total divergence along a row is the flux difference of its two ends. -/
theorem sum_fluxDiv_line (m : Recon) (e : ℤ × ℤ) (d : K) (C x : ℤ × ℤ → K) (o : ℤ × ℤ) (N : ℕ) :
    ∑ c ∈ Finset.range N, fluxDiv m e d C x (o + (c : ℤ) • e)
      = (lineFlux m (C (o + (N : ℤ) • e)) (fun k => x (o + k • e)) N
          - lineFlux m (C (o + (0 : ℤ) • e)) (fun k => x (o + k • e)) 0) / d := by
  simp only [fluxDiv_line]
  rw [← Finset.sum_div]
  congr 1
  have := Finset.sum_range_sub (fun c : ℕ => lineFlux m (C (o + (c : ℤ) • e)) (fun k => x (o + k • e)) c) N
  simpa using this

theorem sum_zmod {α : Type} [AddCommMonoid α] {N : ℕ} [NeZero N] (h : ℤ → α) :
    ∑ i : ZMod N, h (i.val : ℤ) = ∑ c ∈ Finset.range N, h (c : ℤ) := by
  refine Finset.sum_nbij' (fun i : ZMod N => i.val) (fun c : ℕ => (c : ZMod N)) ?_ ?_ ?_ ?_ ?_
  · intro i _; simp [ZMod.val_lt]
  · intro c _; simp
  · intro i _; simp
  · intro c hc; simp only [Finset.mem_range] at hc; simp [ZMod.val_natCast, Nat.mod_eq_of_lt hc]
  · intro i _; rfl

theorem momentum_mirror (k fl p) (hfl : ∀ p : P, fl (fl p) = p) : AxisEnd.mirror.momentum N1 k fl (fl p) =
    AxisEnd.mirror.momentum N1 (-1 - k) fl p ∧ AxisEnd.mirror.momentum N1 k fl (fl p) =
    AxisEnd.mirror.momentum N1 (2 * N1 - 1 - k) fl p := by
  obtain ⟨_, r2⟩ := imageIdx_reflect0 (N := N1) k
  have q2 := (imageIdx_period (N := N1) (-1 - k)).2
  have e : (-1 - k + 2 * N1 : ℤ) = 2 * N1 - 1 - k := by ring
  rw [e] at q2
  simp only [AxisEnd.momentum]
  by_cases hk : reversedImage N1 k
  · rw [if_pos hk, if_neg (by rw [r2]; simpa using hk), if_neg (by rw [q2, r2]; simpa using hk), hfl]
    exact ⟨rfl, rfl⟩
  · rw [if_neg hk, if_pos (by rw [r2]; exact hk), if_pos (by rw [q2, r2]; exact hk)]
    exact ⟨rfl, rfl⟩

theorem cell_mirror (k : ℤ) : AxisEnd.mirror.cell N1 k = AxisEnd.mirror.cell N1 (-1 - k) ∧
    AxisEnd.mirror.cell N1 k = AxisEnd.mirror.cell N1 (2 * N1 - 1 - k) := by
  obtain ⟨r1, _⟩ := imageIdx_reflect0 (N := N1) k
  have q1 := (imageIdx_period (N := N1) (-1 - k)).1
  have e : (-1 - k + 2 * N1 : ℤ) = 2 * N1 - 1 - k := by ring
  rw [e] at q1
  simp only [AxisEnd.cell]
  rw [q1, r1]
  exact ⟨rfl, rfl⟩

/-- The symmetry of a family of lines of data in a box direction. -/
def LineSymmetry (k : AxisEnd) (N : ℕ) (fl : P → P) (x : P → ℤ → K) : Prop :=
  match k with
  | .wrap => ∀ p c, x p (c + N) = x p c
  | .mirror => ∀ p c, x (fl p) c = x p (-1 - c) ∧ x (fl p) c = x p (2 * N - 1 - c)

theorem boxExt_symm1 (k1 k2 : AxisEnd) (fl1 fl2 : P → P) (hfl : ∀ p, fl1 (fl1 p) = p) (hcomm : ∀ p, fl1 (fl2 p) = fl2 (fl1 p))
    (f : Dist S P (ZMod N1 × ZMod N2) K) (s : S) (c2 : ℤ) :
    LineSymmetry k1 N1 fl1 (fun p c => boxExt k1 k2 fl1 fl2 f s p (c, c2)) := by
  cases k1 with
  | wrap => exact fun p c => Decomp.boxExt_wrap1 (by simp) rfl
  | mirror =>
    intro p c
    have commute : k2.momentum N2 c2 fl2 (fl1 p) = fl1 (k2.momentum N2 c2 fl2 p) := by
      cases k2
      · rfl
      · simp only [AxisEnd.momentum]; split_ifs
        · rw [hcomm]
        · rfl
    simp only [boxExt]
    rw [commute]
    obtain ⟨a, b⟩ := momentum_mirror (N1 := N1) c fl1 (k2.momentum N2 c2 fl2 p) hfl
    obtain ⟨a', b'⟩ := cell_mirror (N1 := N1) c
    constructor
    · rw [a, a']
    · rw [b, b']

theorem boxExt_symm2 (k1 k2 : AxisEnd) (fl1 fl2 : P → P) (hfl : ∀ p, fl2 (fl2 p) = p)
    (f : Dist S P (ZMod N1 × ZMod N2) K) (s : S) (c1 : ℤ) :
    LineSymmetry k2 N2 fl2 (fun p c => boxExt k1 k2 fl1 fl2 f s p (c1, c)) := by
  cases k2 with
  | wrap => exact fun p c => Decomp.boxExt_wrap2 rfl (by simp)
  | mirror =>
    intro p c
    simp only [boxExt]
    obtain ⟨a, b⟩ := momentum_mirror (N1 := N2) c fl2 p hfl
    obtain ⟨a', b'⟩ := cell_mirror (N1 := N2) c
    constructor
    · rw [a, a']
    · rw [b, b']

variable [Fintype P]

/-- Summed over momentum, as much enters as leaves through the two ends of a direction — with mirrors, nothing passes at either end. -/
theorem lines_zero (m : Recon) (k : AxisEnd) (N : ℕ) (fl : P → P) (hfl : ∀ p, fl (fl p) = p) (x : P → ℤ → K)
    (hx : LineSymmetry k N fl x) (v0 vN : P → K) (hv : WallVelocity k fl v0 vN) :
    ∑ p, lineFlux m (vN p) (x p) N = ∑ p, lineFlux m (v0 p) (x p) 0 ∧ (k = .mirror → ∑ p, lineFlux m (v0 p) (x p) 0 = 0) := by
  cases k with
  | wrap =>
    refine ⟨?_, by simp⟩
    refine Finset.sum_congr rfl fun p _ => lineFlux_congr m (hv p) fun k => ?_
    have := hx p k
    rw [zero_add, add_comm, this]
  | mirror =>
    have neg_self : ∀ F : P → K, (∀ p, F (fl p) = - F p) → ∑ p, F p = 0 := by
      intro F hF
      have h1 : ∑ p, F (fl p) = ∑ p, F p := Equiv.sum_comp (⟨fl, fl, hfl, hfl⟩ : P ≃ P) F
      simp only [hF, Finset.sum_neg_distrib] at h1
      linarith
    have z0 : ∑ p, lineFlux m (v0 p) (x p) 0 = 0 := neg_self _ (fun p => by
      rw [(hv p).1]
      exact lineFlux_mirror m _ _ _ _ (fun k => by rw [(hx p k).1]; congr 1))
    have zN : ∑ p, lineFlux m (vN p) (x p) N = 0 := neg_self _ (fun p => by
      rw [(hv p).2]
      exact lineFlux_mirror m _ _ _ _ (fun k => by rw [(hx p k).2]))
    exact ⟨by rw [z0, zN], fun _ => z0⟩

/-- The total slope of the box vanishes, apart from the source. -/
theorem box_total [AddCommGroup P] (ax : P × P × P) (cfg : FVMConfig S K) (cb : Callbacks S P (ℤ × ℤ) K) (k1 k2 : AxisEnd) (fl1 fl2 : P → P)
    (hfl1 : ∀ p, fl1 (fl1 p) = p) (hfl2 : ∀ p, fl2 (fl2 p) = p) (hcomm : ∀ p, fl1 (fl2 p) = fl2 (fl1 p))
    (f : Dist S P (ZMod N1 × ZMod N2) K) (k : Dist S P (ℤ × ℤ) K) (s : S)
    (hv1 : ∀ j : ZMod N2, WallVelocity k1 fl1 (fun p => cb.Cq1 s p (0, (j.val : ℤ))) (fun p => cb.Cq1 s p ((N1 : ℤ), (j.val : ℤ))))
    (hv2 : ∀ i : ZMod N1, WallVelocity k2 fl2 (fun p => cb.Cq2 s p ((i.val : ℤ), 0)) (fun p => cb.Cq2 s p ((i.val : ℤ), (N2 : ℤ))))
    (hsrc : cfg.sourceEnabled = true → ∑ p, ∑ i : ZMod N1 × ZMod N2, cb.source (boxExt k1 k2 fl1 fl2 f) s p (boxCell i) = 0)
    (hk : dfdtFVM ⟨ax.1, ax.2.1, ax.2.2, (1, 0), (0, 1)⟩ cfg cb (boxExt k1 k2 fl1 fl2 f) = .ok k) :
    ∑ p, ∑ i : ZMod N1 × ZMod N2, k s p (boxCell i) = 0 := by
  obtain ⟨a, b, h1, h2, h3⟩ := dfdtFVM_ok hk
  have hb : ∑ p, ∑ i : ZMod N1 × ZMod N2, b s p (boxCell i) = 0 := by
    rcases h3 with ⟨_, m, _, d⟩ | ⟨_, d⟩
    · rw [Finset.sum_comm]
      refine Finset.sum_eq_zero fun i _ => ?_
      simp only [d]
      exact sum_dfdtP _ m _ _ _ _ _ _ _ s _
    · simp [d]
  have ha : ∑ p, ∑ i : ZMod N1 × ZMod N2, a s p (boxCell i) = 0 := by
    rcases h2 with ⟨_, m, _, d⟩ | ⟨_, d⟩
    · simp only [d, dfdtQ, Finset.sum_add_distrib, Finset.sum_sub_distrib, Finset.sum_neg_distrib]
      have r1 : ∑ p, ∑ i : ZMod N1 × ZMod N2, fluxDiv m ((1, 0) : ℤ × ℤ) cfg.dq1 (cb.Cq1 s p) (boxExt k1 k2 fl1 fl2 f s p) (boxCell i)
          = 0 := by
        rw [Finset.sum_comm, Fintype.sum_prod_type, Finset.sum_comm]
        refine Finset.sum_eq_zero fun j _ => ?_
        rw [Finset.sum_comm]
        simp only [boxCell]
        have hs : ∀ p, ∑ i : ZMod N1, fluxDiv m ((1, 0) : ℤ × ℤ) cfg.dq1 (cb.Cq1 s p) (boxExt k1 k2 fl1 fl2 f s p)
            ((i.val : ℤ), (j.val : ℤ))
            = (lineFlux m (cb.Cq1 s p ((N1 : ℤ), (j.val : ℤ))) (fun k => boxExt k1 k2 fl1 fl2 f s p (k, (j.val : ℤ))) N1
              - lineFlux m (cb.Cq1 s p (0, (j.val : ℤ))) (fun k => boxExt k1 k2 fl1 fl2 f s p (k, (j.val : ℤ))) 0) / cfg.dq1 := by
          intro p
          rw [sum_zmod (fun c => fluxDiv m ((1, 0) : ℤ × ℤ) cfg.dq1 (cb.Cq1 s p) (boxExt k1 k2 fl1 fl2 f s p) (c, (j.val : ℤ)))]
          have := sum_fluxDiv_line m ((1, 0) : ℤ × ℤ) cfg.dq1 (cb.Cq1 s p) (boxExt k1 k2 fl1 fl2 f s p) (0, (j.val : ℤ)) N1
          have e0 : ∀ c : ℤ, (0, (j.val : ℤ)) + c • ((1, 0) : ℤ × ℤ) = (c, (j.val : ℤ)) := fun c => by ext <;> simp
          simp only [e0] at this
          exact this
        simp only [hs]
        rw [← Finset.sum_div, Finset.sum_sub_distrib,
          (lines_zero m k1 N1 fl1 hfl1 _ (boxExt_symm1 k1 k2 fl1 fl2 hfl1 hcomm f s (j.val : ℤ)) _ _ (hv1 j)).1]
        simp
      have r2 : ∑ p, ∑ i : ZMod N1 × ZMod N2, fluxDiv m ((0, 1) : ℤ × ℤ) cfg.dq2 (cb.Cq2 s p) (boxExt k1 k2 fl1 fl2 f s p) (boxCell i)
          = 0 := by
        rw [Finset.sum_comm, Fintype.sum_prod_type]
        refine Finset.sum_eq_zero fun i _ => ?_
        rw [Finset.sum_comm]
        simp only [boxCell]
        have hs : ∀ p, ∑ j : ZMod N2, fluxDiv m ((0, 1) : ℤ × ℤ) cfg.dq2 (cb.Cq2 s p) (boxExt k1 k2 fl1 fl2 f s p)
            ((i.val : ℤ), (j.val : ℤ))
            = (lineFlux m (cb.Cq2 s p ((i.val : ℤ), (N2 : ℤ))) (fun k => boxExt k1 k2 fl1 fl2 f s p ((i.val : ℤ), k)) N2
              - lineFlux m (cb.Cq2 s p ((i.val : ℤ), 0)) (fun k => boxExt k1 k2 fl1 fl2 f s p ((i.val : ℤ), k)) 0) / cfg.dq2 := by
          intro p
          rw [sum_zmod (fun c => fluxDiv m ((0, 1) : ℤ × ℤ) cfg.dq2 (cb.Cq2 s p) (boxExt k1 k2 fl1 fl2 f s p) ((i.val : ℤ), c))]
          have := sum_fluxDiv_line m ((0, 1) : ℤ × ℤ) cfg.dq2 (cb.Cq2 s p) (boxExt k1 k2 fl1 fl2 f s p) ((i.val : ℤ), 0) N2
          have e0 : ∀ c : ℤ, ((i.val : ℤ), 0) + c • ((0, 1) : ℤ × ℤ) = ((i.val : ℤ), c) := fun c => by ext <;> simp
          simp only [e0] at this
          exact this
        simp only [hs]
        rw [← Finset.sum_div, Finset.sum_sub_distrib,
          (lines_zero m k2 N2 fl2 hfl2 _ (boxExt_symm2 k1 k2 fl1 fl2 hfl2 f s (i.val : ℤ)) _ _ (hv2 i)).1]
        simp
      rw [r1, r2]
      by_cases hs : cfg.sourceEnabled = true
      · simp only [hs, if_true]; rw [hsrc hs]; simp
      · simp [hs]
    · simp [d]
  simp only [h1, Finset.sum_add_distrib, ha, hb, add_zero]

end conserve

end Bolt
