import Verif.Model.ShearBox
import Verif.Spec.ShearBox
import Verif.Props.Shear
import Verif.Proofs.Box
import Verif.Props.ASL
import Verif.Proofs.AslConverge

/-! Helper lemmas for the shearing box. -/

set_option linter.unusedSectionVars false

namespace Bolt

section
variable {K : Type} [Field K] [LinearOrder K] [IsStrictOrderedRing K] [FloorRing K]

/-- Interpolation in a line of `N` cells with `g ≥ 2` periodic ghost cells at both ends, at a position wrapped into the line, is
interpolation of the periodic data at the position before wrapping. -/
theorem wrapped_interp {N : ℕ} [NeZero N] (g : ℕ) (hg : 2 ≤ g) (w : ℤ → K) (c : ZMod N → K)
    (hw : ∀ b : ℤ, 0 ≤ b → b < (N + 2 * g : ℕ) → w b = c ((b - g : ℤ) : ZMod N)) (y z : K) (k : ℤ) (hy : y = z + g + k * N)
    (lo : (g : K) - 1 / 2 ≤ y) (hi : y ≤ N + g - 1 / 2) : cubicAxis (N + 2 * g) w y = catmullRom (fun b => c (b : ZMod N)) z := by
  have hg' : (2 : K) ≤ g := by exact_mod_cast hg
  have h1 : 1 ≤ y := by linarith
  have h2 : y ≤ ((N + 2 * g : ℕ) : K) - 2 := by push_cast; linarith
  rw [cubicAxis_inner _ w y h1 h2]
  have f1 : 1 ≤ ⌊y⌋ := Int.le_floor.mpr (by exact_mod_cast h1)
  have f2 : ⌊y⌋ + 2 < ((N + 2 * g : ℕ) : ℤ) := by
    have a : (⌊y⌋ : K) ≤ N + g - 1 / 2 := (Int.floor_le y).trans hi
    have b : (⌊y⌋ : K) < ((N + g : ℤ) : K) := by push_cast; linarith
    have : ⌊y⌋ < N + g := by exact_mod_cast b
    omega
  have e : catmullRom w y = catmullRom (fun b => c ((b - g : ℤ) : ZMod N)) y :=
    catmullRom_congr _ _ _ fun b h h' => hw b (by omega) (by omega)
  have e' : (fun b : ℤ => c ((b - g : ℤ) : ZMod N)) = fun b : ℤ => c ((b + (-(g : ℤ) - k * N) : ℤ) : ZMod N) := by
    funext b
    congr 1
    push_cast
    simp [sub_eq_add_neg]
  rw [e, e', catmullRom_shift (fun b : ℤ => c (b : ZMod N)), hy]
  congr 1
  push_cast
  ring

/-- The value of the slab interpolation on one line. -/
theorem slab_interp {N g n M : ℕ} [NeZero N] (hM : M = N + 2 * g) (hg : 2 ≤ g) (v : ℤ → ℤ → K) (i : ℤ) (hi : 0 ≤ i) (hi' : i < n) (c : ZMod N → K)
    (hv : ∀ b : ℤ, 0 ≤ b → b < (N + 2 * g : ℕ) → v i b = c ((b - g : ℤ) : ZMod N)) (y z : K) (k : ℤ) (hy : y = z + g + k * N)
    (lo : (g : K) - 1 / 2 ≤ y) (hi2 : y ≤ N + g - 1 / 2) :
    approx2 n M v (i : K) y = catmullRom (fun b => c (b : ZMod N)) z := by
  subst hM
  have hg' : (2 : K) ≤ g := by exact_mod_cast hg
  have c0 : (0 : K) ≤ i := by exact_mod_cast hi
  have c1 : (i : K) ≤ n - 1 := by
    have : i ≤ (n : ℤ) - 1 := by omega
    calc (i : K) ≤ ((n : ℤ) - 1 : ℤ) := by exact_mod_cast this
      _ = _ := by push_cast; ring
  rw [approx2_inside n _ v _ _ c0 c1 (by linarith) (by push_cast; linarith)]
  simp only [cubicAxis_int]
  exact wrapped_interp g hg _ c hv y z k hy lo hi2

/-- The same for a slab along the other axis. -/
theorem slab_interp' {N g n M : ℕ} [NeZero N] (hM : M = N + 2 * g) (hg : 2 ≤ g) (v : ℤ → ℤ → K) (i : ℤ) (hi : 0 ≤ i) (hi' : i < n) (c : ZMod N → K)
    (hv : ∀ b : ℤ, 0 ≤ b → b < (N + 2 * g : ℕ) → v b i = c ((b - g : ℤ) : ZMod N)) (y z : K) (k : ℤ) (hy : y = z + g + k * N)
    (lo : (g : K) - 1 / 2 ≤ y) (hi2 : y ≤ N + g - 1 / 2) :
    approx2 M n v y (i : K) = catmullRom (fun b => c (b : ZMod N)) z := by
  subst hM
  have hg' : (2 : K) ≤ g := by exact_mod_cast hg
  have c0 : (0 : K) ≤ i := by exact_mod_cast hi
  have c1 : (i : K) ≤ n - 1 := by
    have : i ≤ (n : ℤ) - 1 := by omega
    calc (i : K) ≤ ((n : ℤ) - 1 : ℤ) := by exact_mod_cast this
      _ = _ := by push_cast; ring
  rw [approx2_inside _ n v _ _ (by linarith) (by push_cast; linarith) c0 c1, cubicAxis_int]
  exact wrapped_interp g hg _ c hv y z k hy lo hi2

end

section
variable {S K : Type} {Np1 Np2 Np3 M1 M2 : ℕ} [Field K] [LinearOrder K]

theorem atWall_shear (env : BCEnv S Np1 Np2 Np3 M1 M2 K) (w : Wall) (f f' : LDist S Np1 Np2 Np3 M1 M2 K) (hname : env.name w = "shearing-box")
    (h : atWall env w f = .ok f') (s : S) (p : PIdx Np1 Np2 Np3) (i : ZMod M1 × ZMod M2) :
    f' s p i = if env.touches w = true ∧ inSlab env.g w i then env.sheared w f s p i else f s p i := by
  have e : applyWall env w f = .ok (shearingF env w f) := by
    unfold applyWall
    rw [if_neg (by rw [hname]; decide), if_neg (by rw [hname]; decide), if_neg (by rw [hname]; decide), if_neg (by rw [hname]; decide),
      if_pos hname]
  unfold atWall at h
  rw [e] at h
  split_ifs at h with ht
  · simp only [Except.ok.injEq] at h
    subst h
    simp only [shearingF, setSlab, ht, true_and]
  · simp only [Except.ok.injEq] at h
    subst h
    simp [ht]

end

section
variable {S P K : Type} {N1 N2 : ℕ} [Field K] [LinearOrder K] [FloorRing K] (δ : K) (f : Dist S P (ZMod N1 × ZMod N2) K) (s : S) (p : P) {a b : ℤ}

theorem shearExt1_left (h : a < 0) : shearExt1 δ f s p (a, b) = catmullRom (fun b => f s p ((a : ZMod N1), (b : ZMod N2))) (b - δ) := if_pos h

theorem shearExt1_right (h : (N1 : ℤ) ≤ a) : shearExt1 δ f s p (a, b) = catmullRom (fun b => f s p ((a : ZMod N1), (b : ZMod N2))) (b + δ) := by
  rw [shearExt1, if_neg (by simp only; omega), if_pos h]

theorem shearExt1_inside (h : 0 ≤ a) (h' : a < N1) : shearExt1 δ f s p (a, b) = f s p ((a : ZMod N1), (b : ZMod N2)) := by
  rw [shearExt1, if_neg (by simp only; omega), if_neg (by simp only; omega)]

theorem shearExt2_bottom (h : b < 0) : shearExt2 δ f s p (a, b) = catmullRom (fun a => f s p ((a : ZMod N1), (b : ZMod N2))) (a - δ) := if_pos h

theorem shearExt2_top (h : (N2 : ℤ) ≤ b) : shearExt2 δ f s p (a, b) = catmullRom (fun a => f s p ((a : ZMod N1), (b : ZMod N2))) (a + δ) := by
  rw [shearExt2, if_neg (by simp only; omega), if_pos h]

theorem shearExt2_inside (h : 0 ≤ b) (h' : b < N2) : shearExt2 δ f s p (a, b) = f s p ((a : ZMod N1), (b : ZMod N2)) := by
  rw [shearExt2, if_neg (by simp only; omega), if_neg (by simp only; omega)]

end

namespace Decomp

variable {N1 N2 : ℕ} {R : Type} [NeZero N1] [NeZero N2] (D : Decomp N1 N2 R) (g1 g2 : ℕ) {S K : Type} {Np1 Np2 Np3 : ℕ}
  [Field K] [LinearOrder K] [IsStrictOrderedRing K] [FloorRing K]

/-- Positions on a slab in units of cells, counted from the slab's first cell. -/
theorem scalePos_slab (q1Start q2Start dq1 dq2 : K) (hd1 : dq1 ≠ 0) (hd2 : dq2 ≠ 0) (r : R) (a b a0 b0 : ℕ) (x : K) :
    let q := (D.coords g1 g2 q1Start q2Start dq1 dq2 r).2.2.2
    scalePos (q.1 a b) (q.1 a0 b0) (q.1 (a0 + 1) b0) = a - a0 ∧ scalePos (q.2 a b) (q.2 a0 b0) (q.2 a0 (b0 + 1)) = b - b0 ∧
    scalePos x (q.1 0 b0) (q.1 1 b0) = (x - q1Start) / dq1 - D.start1 r + g1 - 1 / 2 ∧
    scalePos x (q.2 a0 0) (q.2 a0 1) = (x - q2Start) / dq2 - D.start2 r + g2 - 1 / 2 := by
  simp only [coords, calculateQ, scalePos]
  push_cast
  have e1 : ∀ u v : K, u + (v + 1) * dq1 + 1 / 2 * dq1 - (u + v * dq1 + 1 / 2 * dq1) = dq1 := fun u v => by ring
  have e2 : ∀ u v : K, u + (v + 1) * dq2 + 1 / 2 * dq2 - (u + v * dq2 + 1 / 2 * dq2) = dq2 := fun u v => by ring
  refine ⟨?_, ?_, ?_, ?_⟩
  · rw [← add_assoc, e1, div_eq_iff hd1]; ring
  · rw [← add_assoc, e2, div_eq_iff hd2]; ring
  · rw [add_zero, e1]; field_simp; ring
  · rw [add_zero, e2]; field_simp; ring

/-- What the boundary routine computes at a shearing wall: the interpolation of the slab at the displaced position (in cells), wrapped into
the domain. -/
theorem sheared_left (sp : ShearParams K) (o : BCOptions) (hL : sp.q2Start < sp.q2End) (dq1 dq2 : K) (hd1 : dq1 ≠ 0) (hd2 : 0 < dq2)
    (hext : sp.q2End = sp.q2Start + N2 * dq2) (hn : o.name .left = "shearing-box") (r : R) (dat : D.LocBCData g1 g2 r S Np1 Np2 Np3 K)
    (hdat : ShearsLike sp o.nGhost o.name (D.coords g1 g2 sp.q1Start sp.q2Start dq1 dq2 r).2.2.2 dat)
    (f : Dist S (PIdx Np1 Np2 Np3) (D.Loc g1 g2 r) K) (s : S) (p : PIdx Np1 Np2 Np3) (l : D.Loc g1 g2 r) (hl : inSlab o.nGhost .left l) :
    ∃ (y : K) (k : ℤ), dat.sheared .left f s p l =
        approx2 o.nGhost (D.n2 r + 2 * g2) (fun a b => f s p ((a : ZMod _), (b : ZMod _))) ((l.1.val : ℤ) : K) y ∧
      y = l.2.val - sp.q * sp.omega * (sp.q1End - sp.q1Start) * sp.time / dq2 + k * N2 ∧
      (g2 : K) - 1 / 2 ≤ y + D.start2 r ∧ y + D.start2 r ≤ N2 + g2 - 1 / 2 := by
  have hp1 := D.pos1 r
  have hp2 := D.pos2 r
  have : NeZero (D.n1 r + 2 * g1) := ⟨by omega⟩
  have : NeZero (D.n2 r + 2 * g2) := ⟨by omega⟩
  obtain ⟨x, hx, hsh⟩ := hdat .left hn
  obtain ⟨x', _, hu, hx'⟩ := C29_shear_wraps sp .left hL
    (fun l : {l : D.Loc g1 g2 r // inSlab o.nGhost .left l} => (D.coords g1 g2 sp.q1Start sp.q2Start dq1 dq2 r).2.2.2.1 l.1.1.val l.1.2.val)
    (fun l => (D.coords g1 g2 sp.q1Start sp.q2Start dq1 dq2 r).2.2.2.2 l.1.1.val l.1.2.val)
  rw [hu x hx] at hsh
  obtain ⟨⟨b1, b2⟩, k, hk⟩ := hx' ⟨l, hl⟩
  have sc := D.scalePos_slab g1 g2 sp.q1Start sp.q2Start dq1 dq2 hd1 hd2.ne' r l.1.val l.2.val 0 0 (x' ⟨l, hl⟩)
  have hsl := hsh f s p ⟨l, hl⟩
  simp only [shearedSlab] at hsl
  rw [sc.1, sc.2.2.2] at hsl
  refine ⟨_, k, by rw [hsl]; push_cast; rw [sub_zero], ?_, ?_, ?_⟩
  · rw [hk]
    simp only [displaced, alongHi, alongLo, coords, calculateQ, hext]
    push_cast
    field_simp
    ring
  · simp only [alongLo] at b1
    have : 0 ≤ (x' ⟨l, hl⟩ - sp.q2Start) / dq2 := div_nonneg (by linarith) hd2.le
    linarith
  · simp only [alongHi] at b2
    have : (x' ⟨l, hl⟩ - sp.q2Start) / dq2 ≤ N2 := by rw [div_le_iff₀ hd2]; linarith
    linarith

/-- The right wall. -/
theorem sheared_right (sp : ShearParams K) (o : BCOptions) (hL : sp.q2Start < sp.q2End) (dq1 dq2 : K) (hd1 : dq1 ≠ 0) (hd2 : 0 < dq2)
    (hext : sp.q2End = sp.q2Start + N2 * dq2) (hn : o.name .right = "shearing-box") (r : R) (dat : D.LocBCData g1 g2 r S Np1 Np2 Np3 K)
    (hdat : ShearsLike sp o.nGhost o.name (D.coords g1 g2 sp.q1Start sp.q2Start dq1 dq2 r).2.2.2 dat)
    (f : Dist S (PIdx Np1 Np2 Np3) (D.Loc g1 g2 r) K) (s : S) (p : PIdx Np1 Np2 Np3) (l : D.Loc g1 g2 r) (hl : inSlab o.nGhost .right l) :
    ∃ (y : K) (k : ℤ), dat.sheared .right f s p l =
        approx2 o.nGhost (D.n2 r + 2 * g2) (fun a b => f s p ((((D.n1 r + 2 * g1 - o.nGhost : ℕ) + a : ℤ) : ZMod _), (b : ZMod _)))
        (((l.1.val : ℤ) - (D.n1 r + 2 * g1 - o.nGhost : ℕ) : ℤ) : K) y ∧
      y = l.2.val + sp.q * sp.omega * (sp.q1End - sp.q1Start) * sp.time / dq2 + k * N2 ∧
      (g2 : K) - 1 / 2 ≤ y + D.start2 r ∧ y + D.start2 r ≤ N2 + g2 - 1 / 2 := by
  have hp1 := D.pos1 r
  have hp2 := D.pos2 r
  have : NeZero (D.n1 r + 2 * g1) := ⟨by omega⟩
  have : NeZero (D.n2 r + 2 * g2) := ⟨by omega⟩
  obtain ⟨x, hx, hsh⟩ := hdat .right hn
  obtain ⟨x', _, hu, hx'⟩ := C29_shear_wraps sp .right hL
    (fun l : {l : D.Loc g1 g2 r // inSlab o.nGhost .right l} => (D.coords g1 g2 sp.q1Start sp.q2Start dq1 dq2 r).2.2.2.1 l.1.1.val l.1.2.val)
    (fun l => (D.coords g1 g2 sp.q1Start sp.q2Start dq1 dq2 r).2.2.2.2 l.1.1.val l.1.2.val)
  rw [hu x hx] at hsh
  obtain ⟨⟨b1, b2⟩, k, hk⟩ := hx' ⟨l, hl⟩
  have sc := D.scalePos_slab g1 g2 sp.q1Start sp.q2Start dq1 dq2 hd1 hd2.ne' r l.1.val l.2.val (D.n1 r + 2 * g1 - o.nGhost) 0 (x' ⟨l, hl⟩)
  have hsl := hsh f s p ⟨l, hl⟩
  simp only [shearedSlab] at hsl
  rw [sc.1, sc.2.2.2] at hsl
  refine ⟨_, k, by rw [hsl]; push_cast; rfl, ?_, ?_, ?_⟩
  · rw [hk]
    simp only [displaced, alongHi, alongLo, coords, calculateQ, hext]
    push_cast
    field_simp
    ring
  · simp only [alongLo] at b1
    have : 0 ≤ (x' ⟨l, hl⟩ - sp.q2Start) / dq2 := div_nonneg (by linarith) hd2.le
    linarith
  · simp only [alongHi] at b2
    have : (x' ⟨l, hl⟩ - sp.q2Start) / dq2 ≤ N2 := by rw [div_le_iff₀ hd2]; linarith
    linarith

/-- The bottom wall. -/
theorem sheared_bottom (sp : ShearParams K) (o : BCOptions) (hL : sp.q1Start < sp.q1End) (dq1 dq2 : K) (hd1 : 0 < dq1) (hd2 : dq2 ≠ 0)
    (hext : sp.q1End = sp.q1Start + N1 * dq1) (hn : o.name .bottom = "shearing-box") (r : R) (dat : D.LocBCData g1 g2 r S Np1 Np2 Np3 K)
    (hdat : ShearsLike sp o.nGhost o.name (D.coords g1 g2 sp.q1Start sp.q2Start dq1 dq2 r).2.2.2 dat)
    (f : Dist S (PIdx Np1 Np2 Np3) (D.Loc g1 g2 r) K) (s : S) (p : PIdx Np1 Np2 Np3) (l : D.Loc g1 g2 r) (hl : inSlab o.nGhost .bottom l) :
    ∃ (y : K) (k : ℤ), dat.sheared .bottom f s p l =
        approx2 (D.n1 r + 2 * g1) o.nGhost (fun a b => f s p ((a : ZMod _), (b : ZMod _))) y ((l.2.val : ℤ) : K) ∧
      y = l.1.val - sp.q * sp.omega * (sp.q2End - sp.q2Start) * sp.time / dq1 + k * N1 ∧
      (g1 : K) - 1 / 2 ≤ y + D.start1 r ∧ y + D.start1 r ≤ N1 + g1 - 1 / 2 := by
  have hp1 := D.pos1 r
  have hp2 := D.pos2 r
  have : NeZero (D.n1 r + 2 * g1) := ⟨by omega⟩
  have : NeZero (D.n2 r + 2 * g2) := ⟨by omega⟩
  obtain ⟨x, hx, hsh⟩ := hdat .bottom hn
  obtain ⟨x', _, hu, hx'⟩ := C29_shear_wraps sp .bottom hL
    (fun l : {l : D.Loc g1 g2 r // inSlab o.nGhost .bottom l} => (D.coords g1 g2 sp.q1Start sp.q2Start dq1 dq2 r).2.2.2.1 l.1.1.val l.1.2.val)
    (fun l => (D.coords g1 g2 sp.q1Start sp.q2Start dq1 dq2 r).2.2.2.2 l.1.1.val l.1.2.val)
  rw [hu x hx] at hsh
  obtain ⟨⟨b1, b2⟩, k, hk⟩ := hx' ⟨l, hl⟩
  have sc := D.scalePos_slab g1 g2 sp.q1Start sp.q2Start dq1 dq2 hd1.ne' hd2 r l.1.val l.2.val 0 0 (x' ⟨l, hl⟩)
  have hsl := hsh f s p ⟨l, hl⟩
  simp only [shearedSlab] at hsl
  rw [sc.2.1, sc.2.2.1] at hsl
  refine ⟨_, k, by rw [hsl]; push_cast; rw [sub_zero], ?_, ?_, ?_⟩
  · rw [hk]
    simp only [displaced, alongHi, alongLo, coords, calculateQ, hext]
    push_cast
    field_simp
    ring
  · simp only [alongLo] at b1
    have : 0 ≤ (x' ⟨l, hl⟩ - sp.q1Start) / dq1 := div_nonneg (by linarith) hd1.le
    linarith
  · simp only [alongHi] at b2
    have : (x' ⟨l, hl⟩ - sp.q1Start) / dq1 ≤ N1 := by rw [div_le_iff₀ hd1]; linarith
    linarith

/-- The top wall. -/
theorem sheared_top (sp : ShearParams K) (o : BCOptions) (hL : sp.q1Start < sp.q1End) (dq1 dq2 : K) (hd1 : 0 < dq1) (hd2 : dq2 ≠ 0)
    (hext : sp.q1End = sp.q1Start + N1 * dq1) (hn : o.name .top = "shearing-box") (r : R) (dat : D.LocBCData g1 g2 r S Np1 Np2 Np3 K)
    (hdat : ShearsLike sp o.nGhost o.name (D.coords g1 g2 sp.q1Start sp.q2Start dq1 dq2 r).2.2.2 dat)
    (f : Dist S (PIdx Np1 Np2 Np3) (D.Loc g1 g2 r) K) (s : S) (p : PIdx Np1 Np2 Np3) (l : D.Loc g1 g2 r) (hl : inSlab o.nGhost .top l) :
    ∃ (y : K) (k : ℤ), dat.sheared .top f s p l =
        approx2 (D.n1 r + 2 * g1) o.nGhost (fun a b => f s p ((a : ZMod _), (((D.n2 r + 2 * g2 - o.nGhost : ℕ) + b : ℤ) : ZMod _))) y
        (((l.2.val : ℤ) - (D.n2 r + 2 * g2 - o.nGhost : ℕ) : ℤ) : K) ∧
      y = l.1.val + sp.q * sp.omega * (sp.q2End - sp.q2Start) * sp.time / dq1 + k * N1 ∧
      (g1 : K) - 1 / 2 ≤ y + D.start1 r ∧ y + D.start1 r ≤ N1 + g1 - 1 / 2 := by
  have hp1 := D.pos1 r
  have hp2 := D.pos2 r
  have : NeZero (D.n1 r + 2 * g1) := ⟨by omega⟩
  have : NeZero (D.n2 r + 2 * g2) := ⟨by omega⟩
  obtain ⟨x, hx, hsh⟩ := hdat .top hn
  obtain ⟨x', _, hu, hx'⟩ := C29_shear_wraps sp .top hL
    (fun l : {l : D.Loc g1 g2 r // inSlab o.nGhost .top l} => (D.coords g1 g2 sp.q1Start sp.q2Start dq1 dq2 r).2.2.2.1 l.1.1.val l.1.2.val)
    (fun l => (D.coords g1 g2 sp.q1Start sp.q2Start dq1 dq2 r).2.2.2.2 l.1.1.val l.1.2.val)
  rw [hu x hx] at hsh
  obtain ⟨⟨b1, b2⟩, k, hk⟩ := hx' ⟨l, hl⟩
  have sc := D.scalePos_slab g1 g2 sp.q1Start sp.q2Start dq1 dq2 hd1.ne' hd2 r l.1.val l.2.val 0 (D.n2 r + 2 * g2 - o.nGhost) (x' ⟨l, hl⟩)
  have hsl := hsh f s p ⟨l, hl⟩
  simp only [shearedSlab] at hsl
  rw [sc.2.1, sc.2.2.1] at hsl
  refine ⟨_, k, by rw [hsl]; push_cast; rfl, ?_, ?_, ?_⟩
  · rw [hk]
    simp only [displaced, alongHi, alongLo, coords, calculateQ, hext]
    push_cast
    field_simp
    ring
  · simp only [alongLo] at b1
    have : 0 ≤ (x' ⟨l, hl⟩ - sp.q1Start) / dq1 := div_nonneg (by linarith) hd1.le
    linarith
  · simp only [alongHi] at b2
    have : (x' ⟨l, hl⟩ - sp.q1Start) / dq1 ≤ N1 := by rw [div_le_iff₀ hd1]; linarith
    linarith

/-- After communication and boundary conditions in a box shearing along the second axis: every local array shows the sheared continuation of
the box, if every process owns the whole extent along the second axis. -/
theorem sync_shear2 (sp : ShearParams K) (o : BCOptions) (ho : ShearsAlong2 o.name) (hg : 2 ≤ o.nGhost) (dq1 dq2 : K) (hd1 : dq1 ≠ 0)
    (hd2 : 0 < dq2) (hext : sp.q2End = sp.q2Start + N2 * dq2) (hn : ∀ r, g1 ≤ D.n1 r) (r : R) (hr : D.n2 r = N2)
    (dat : ∀ r, D.LocBCData g1 g2 r S Np1 Np2 Np3 K)
    (hdat : ShearsLike sp o.nGhost o.name (D.coords g1 g2 sp.q1Start sp.q2Start dq1 dq2 r).2.2.2 (dat r))
    (F F0 : ∀ r, Dist S (PIdx Np1 Np2 Np3) (D.Loc g1 g2 r) K) (h : D.Synced g1 g2 o dat F F0) (s : S) (p : PIdx Np1 Np2 Np3)
    (l : D.Loc g1 g2 r) :
    F0 r s p l = shearExt1 (sp.q * sp.omega * (sp.q1End - sp.q1Start) * sp.time / dq2) (D.assemble g1 g2 F) s p (D.signed g1 g2 r l) := by
  obtain ⟨bc1, bc2, st, hset, happ⟩ := h
  have hax : petscAxis o.nGhost (o.name .left) = (bc1, g1) ∧ petscAxis o.nGhost (o.name .bottom) = (bc2, g2) := by
    unfold setupBCs at hset
    split_ifs at hset
    simp only [Except.ok.injEq, Prod.mk.injEq] at hset
    exact ⟨by rw [hset.1], by rw [hset.2]⟩
  rw [ho.left, ho.bottom] at hax
  simp only [petscAxis, Prod.mk.injEq, if_true, or_true, true_or, String.reduceEq, if_false] at hax
  obtain ⟨⟨rfl, e1⟩, rfl, e2⟩ := hax
  obtain ⟨X1, X2, X3, w1, w2, w3, w4⟩ := applyBcsF_ok (happ r)
  have q3 := atWall_skip _ .bottom X2 X3 (Or.inl ho.bottom) w3
  have q4 := atWall_skip _ .top X3 (F0 r) (Or.inl ho.top) w4
  rw [q4, q3]
  have v1 := fun s p i => atWall_shear _ .left _ X1 ho.left w1 s p i
  have v2 := fun s p i => atWall_shear _ .right X1 X2 ho.right w2 s p i
  have hp1 := D.pos1 r
  have hp2 := D.pos2 r
  have hf1 := D.fits1 r
  have hf2 := D.fits2 r
  have hs2 : D.start2 r = 0 := by omega
  have hL : sp.q2Start < sp.q2End := by
    have : (0 : K) < N2 := Nat.cast_pos.2 (NeZero.pos N2)
    rw [hext]; have := mul_pos this hd2; linarith
  have : NeZero (D.n1 r + 2 * g1) := ⟨by omega⟩
  have : NeZero (D.n2 r + 2 * g2) := ⟨by omega⟩
  have hv := ZMod.val_lt l.1
  have s1 := D.start1_far g1 hn r
  have s2 := D.end1_far g1 hn r
  have t1 : (D.bcEnv g1 g2 o r (dat r)).touches .left = true ↔ D.start1 r = 0 := by simp [BCEnv.touches, bcEnv]
  have t2 : (D.bcEnv g1 g2 o r (dat r)).touches .right = true ↔ D.start1 r + D.n1 r = N1 := by
    simp only [BCEnv.touches, bcEnv, beq_iff_eq]; omega
  have hge : (D.bcEnv g1 g2 o r (dat r)).g = g1 := e1
  have b1 : ∀ i : D.Loc g1 g2 r, inSlab g1 .left i ↔ i.1.val < g1 := fun i => Iff.rfl
  have b2 : ∀ i : D.Loc g1 g2 r, inSlab g1 .right i ↔ D.n1 r + g1 ≤ i.1.val := fun i => by
    have : (D.n1 r + 2 * g1 - g1) = D.n1 r + g1 := by omega
    simp only [inSlab, this]
  simp only [hge, t1, t2, b1, b2, exchange_periodic] at v1 v2
  have hgc : globCoord (D.start1 r) g1 l.1 = (D.start1 r : ℤ) + l.1.val - g1 := rfl
  have hgc2 : globCoord (D.start2 r) g2 l.2 = (D.start2 r : ℤ) + l.2.val - g2 := rfl
  have cast1 : ∀ a : ℤ, 0 ≤ a → a < (D.n1 r + 2 * g1 : ℕ) → (((a : ZMod (D.n1 r + 2 * g1)).val : ℕ) : ℤ) = a := fun a h h' => by
    rw [ZMod.val_intCast, Int.emod_eq_of_lt h h']
  have cast2 : ∀ a : ℤ, 0 ≤ a → a < (D.n2 r + 2 * g2 : ℕ) → (((a : ZMod (D.n2 r + 2 * g2)).val : ℕ) : ℤ) = a := fun a h h' => by
    rw [ZMod.val_intCast, Int.emod_eq_of_lt h h']
  rw [signed]
  rcases lt_or_ge (globCoord (D.start1 r) g1 l.1) 0 with hc | hc
  · have hs0 : D.start1 r = 0 := by omega
    have hlv : l.1.val < g1 := by omega
    rw [shearExt1_left _ _ _ _ hc, v2, if_neg (by omega), v1, if_pos ⟨hs0, hlv⟩]
    obtain ⟨y, k, hy, hyk, ylo, yhi⟩ := D.sheared_left g1 g2 sp o hL dq1 dq2 hd1 hd2 hext ho.left r (dat r) hdat
      (D.exchange g1 g2 .periodic .periodic st F r) s p l (by rw [e1]; exact hlv)
    refine Eq.trans hy ?_
    rw [hs2, Nat.cast_zero, add_zero] at ylo yhi
    rw [slab_interp (N := N2) (g := g2) (by rw [hr]) (by omega) _ _ (by omega) (by omega)
      (fun b => D.assemble g1 g2 F s p (((globCoord (D.start1 r) g1 l.1 : ℤ) : ZMod N1), b)) ?_ y
      ((globCoord (D.start2 r) g2 l.2 : ℤ) - sp.q * sp.omega * (sp.q1End - sp.q1Start) * sp.time / dq2) k ?_ ylo yhi]
    · intro b hb hb'
      rw [exchange_periodic, toGlob]
      simp only
      congr 2
      · rw [globCoord, globCoord, cast1 _ (by omega) (by omega)]
      · have hb'' := cast2 b hb (by rw [hr]; exact hb')
        rw [globCoord]
        congr 1
        have : (((b : ZMod (D.n2 r + 2 * g2)).val : ℕ) : ℤ) = b := hb''
        omega
    · rw [hyk, hgc2, hs2]; push_cast; ring
  · rcases lt_or_ge (globCoord (D.start1 r) g1 l.1) N1 with hc' | hc'
    · rw [shearExt1_inside _ _ _ _ hc hc', v2, if_neg (by omega), v1, if_neg (by omega)]
      rfl
    · have hs0 : D.start1 r + D.n1 r = N1 := by omega
      have hlv : D.n1 r + g1 ≤ l.1.val := by omega
      rw [shearExt1_right _ _ _ _ hc', v2, if_pos ⟨hs0, hlv⟩]
      obtain ⟨y, k, hy, hyk, ylo, yhi⟩ := D.sheared_right g1 g2 sp o hL dq1 dq2 hd1 hd2 hext ho.right r (dat r) hdat X1 s p l
        (by rw [e1]; exact (b2 l).2 hlv)
      refine Eq.trans hy ?_
      rw [hs2, Nat.cast_zero, add_zero] at ylo yhi
      rw [slab_interp (N := N2) (g := g2) (by rw [hr]) (by omega) _ _ (by omega) (by omega)
        (fun b => D.assemble g1 g2 F s p (((globCoord (D.start1 r) g1 l.1 : ℤ) : ZMod N1), b)) ?_ y
        ((globCoord (D.start2 r) g2 l.2 : ℤ) + sp.q * sp.omega * (sp.q1End - sp.q1Start) * sp.time / dq2) k ?_ ylo yhi]
      · intro b hb hb'
        have ha := cast1 l.1.val (by omega) (by omega)
        have hrow : ((((D.n1 r + 2 * g1 - o.nGhost : ℕ) : ℤ) + ((l.1.val : ℤ) - (D.n1 r + 2 * g1 - o.nGhost : ℕ)) : ℤ)) = (l.1.val : ℤ) := by omega
        rw [hrow, v1, if_neg (by intro hh; have := hh.2; simp only at this; omega), toGlob]
        simp only
        congr 2
        · rw [globCoord, globCoord, ha]
        · have hb'' := cast2 b hb (by rw [hr]; exact hb')
          rw [globCoord]
          congr 1
          have : (((b : ZMod (D.n2 r + 2 * g2)).val : ℕ) : ℤ) = b := hb''
          omega
      · rw [hyk, hgc2, hs2]; push_cast; ring

/-- After communication and boundary conditions in a box shearing along the first axis: every local array shows the sheared continuation of
the box, if every process owns the whole extent along the first axis. -/
theorem sync_shear1 (sp : ShearParams K) (o : BCOptions) (ho : ShearsAlong1 o.name) (hg : 2 ≤ o.nGhost) (dq1 dq2 : K) (hd1 : 0 < dq1)
    (hd2 : dq2 ≠ 0) (hext : sp.q1End = sp.q1Start + N1 * dq1) (hn : ∀ r, g2 ≤ D.n2 r) (r : R) (hr : D.n1 r = N1)
    (dat : ∀ r, D.LocBCData g1 g2 r S Np1 Np2 Np3 K)
    (hdat : ShearsLike sp o.nGhost o.name (D.coords g1 g2 sp.q1Start sp.q2Start dq1 dq2 r).2.2.2 (dat r))
    (F F0 : ∀ r, Dist S (PIdx Np1 Np2 Np3) (D.Loc g1 g2 r) K) (h : D.Synced g1 g2 o dat F F0) (s : S) (p : PIdx Np1 Np2 Np3)
    (l : D.Loc g1 g2 r) :
    F0 r s p l = shearExt2 (sp.q * sp.omega * (sp.q2End - sp.q2Start) * sp.time / dq1) (D.assemble g1 g2 F) s p (D.signed g1 g2 r l) := by
  obtain ⟨bc1, bc2, st, hset, happ⟩ := h
  have hax : petscAxis o.nGhost (o.name .left) = (bc1, g1) ∧ petscAxis o.nGhost (o.name .bottom) = (bc2, g2) := by
    unfold setupBCs at hset
    split_ifs at hset
    simp only [Except.ok.injEq, Prod.mk.injEq] at hset
    exact ⟨by rw [hset.1], by rw [hset.2]⟩
  rw [ho.left, ho.bottom] at hax
  simp only [petscAxis, Prod.mk.injEq, if_true, or_true, true_or, String.reduceEq, if_false] at hax
  obtain ⟨⟨rfl, e2⟩, rfl, e1⟩ := hax
  obtain ⟨X1, X2, X3, w1, w2, w3, w4⟩ := applyBcsF_ok (happ r)
  have q3 := atWall_skip _ .left _ X1 (Or.inl ho.left) w1
  have q4 := atWall_skip _ .right X1 X2 (Or.inl ho.right) w2
  rw [q4, q3] at w3
  have v1 := fun s p i => atWall_shear _ .bottom _ X3 ho.bottom w3 s p i
  have v2 := fun s p i => atWall_shear _ .top X3 (F0 r) ho.top w4 s p i
  have hp1 := D.pos2 r
  have hp2 := D.pos1 r
  have hf1 := D.fits2 r
  have hf2 := D.fits1 r
  have hs2 : D.start1 r = 0 := by omega
  have hL : sp.q1Start < sp.q1End := by
    have : (0 : K) < N1 := Nat.cast_pos.2 (NeZero.pos N1)
    rw [hext]; have := mul_pos this hd1; linarith
  have : NeZero (D.n2 r + 2 * g2) := ⟨by omega⟩
  have : NeZero (D.n1 r + 2 * g1) := ⟨by omega⟩
  have hv := ZMod.val_lt l.2
  have s1 := D.start2_far g2 hn r
  have s2 := D.end2_far g2 hn r
  have t1 : (D.bcEnv g1 g2 o r (dat r)).touches .bottom = true ↔ D.start2 r = 0 := by simp [BCEnv.touches, bcEnv]
  have t2 : (D.bcEnv g1 g2 o r (dat r)).touches .top = true ↔ D.start2 r + D.n2 r = N2 := by
    simp only [BCEnv.touches, bcEnv, beq_iff_eq]; omega
  have hge : (D.bcEnv g1 g2 o r (dat r)).g = g2 := e1
  have b1 : ∀ i : D.Loc g1 g2 r, inSlab g2 .bottom i ↔ i.2.val < g2 := fun i => Iff.rfl
  have b2 : ∀ i : D.Loc g1 g2 r, inSlab g2 .top i ↔ D.n2 r + g2 ≤ i.2.val := fun i => by
    have : (D.n2 r + 2 * g2 - g2) = D.n2 r + g2 := by omega
    simp only [inSlab, this]
  simp only [hge, t1, t2, b1, b2, exchange_periodic] at v1 v2
  have hgc : globCoord (D.start2 r) g2 l.2 = (D.start2 r : ℤ) + l.2.val - g2 := rfl
  have hgc2 : globCoord (D.start1 r) g1 l.1 = (D.start1 r : ℤ) + l.1.val - g1 := rfl
  have cast2 : ∀ a : ℤ, 0 ≤ a → a < (D.n2 r + 2 * g2 : ℕ) → (((a : ZMod (D.n2 r + 2 * g2)).val : ℕ) : ℤ) = a := fun a h h' => by
    rw [ZMod.val_intCast, Int.emod_eq_of_lt h h']
  have cast1 : ∀ a : ℤ, 0 ≤ a → a < (D.n1 r + 2 * g1 : ℕ) → (((a : ZMod (D.n1 r + 2 * g1)).val : ℕ) : ℤ) = a := fun a h h' => by
    rw [ZMod.val_intCast, Int.emod_eq_of_lt h h']
  rw [signed]
  rcases lt_or_ge (globCoord (D.start2 r) g2 l.2) 0 with hc | hc
  · have hs0 : D.start2 r = 0 := by omega
    have hlv : l.2.val < g2 := by omega
    rw [shearExt2_bottom _ _ _ _ hc, v2, if_neg (by omega), v1, if_pos ⟨hs0, hlv⟩]
    obtain ⟨y, k, hy, hyk, ylo, yhi⟩ := D.sheared_bottom g1 g2 sp o hL dq1 dq2 hd1 hd2 hext ho.bottom r (dat r) hdat
      (D.exchange g1 g2 .periodic .periodic st F r) s p l (by rw [e1]; exact hlv)
    refine Eq.trans hy ?_
    rw [hs2, Nat.cast_zero, add_zero] at ylo yhi
    rw [slab_interp' (N := N1) (g := g1) (by rw [hr]) (by omega) _ _ (by omega) (by omega)
      (fun b => D.assemble g1 g2 F s p (b, ((globCoord (D.start2 r) g2 l.2 : ℤ) : ZMod N2))) ?_ y
      ((globCoord (D.start1 r) g1 l.1 : ℤ) - sp.q * sp.omega * (sp.q2End - sp.q2Start) * sp.time / dq1) k ?_ ylo yhi]
    · intro b hb hb'
      rw [exchange_periodic, toGlob]
      simp only
      congr 2
      · have hb'' := cast1 b hb (by rw [hr]; exact hb')
        rw [globCoord]
        congr 1
        have : (((b : ZMod (D.n1 r + 2 * g1)).val : ℕ) : ℤ) = b := hb''
        omega
      · rw [globCoord, globCoord, cast2 _ (by omega) (by omega)]
    · rw [hyk, hgc2, hs2]; push_cast; ring
  · rcases lt_or_ge (globCoord (D.start2 r) g2 l.2) N2 with hc' | hc'
    · rw [shearExt2_inside _ _ _ _ hc hc', v2, if_neg (by omega), v1, if_neg (by omega)]
      rfl
    · have hs0 : D.start2 r + D.n2 r = N2 := by omega
      have hlv : D.n2 r + g2 ≤ l.2.val := by omega
      rw [shearExt2_top _ _ _ _ hc', v2, if_pos ⟨hs0, hlv⟩]
      obtain ⟨y, k, hy, hyk, ylo, yhi⟩ := D.sheared_top g1 g2 sp o hL dq1 dq2 hd1 hd2 hext ho.top r (dat r) hdat X3 s p l
        (by rw [e1]; exact (b2 l).2 hlv)
      refine Eq.trans hy ?_
      rw [hs2, Nat.cast_zero, add_zero] at ylo yhi
      rw [slab_interp' (N := N1) (g := g1) (by rw [hr]) (by omega) _ _ (by omega) (by omega)
        (fun b => D.assemble g1 g2 F s p (b, ((globCoord (D.start2 r) g2 l.2 : ℤ) : ZMod N2))) ?_ y
        ((globCoord (D.start1 r) g1 l.1 : ℤ) + sp.q * sp.omega * (sp.q2End - sp.q2Start) * sp.time / dq1) k ?_ ylo yhi]
      · intro b hb hb'
        have ha := cast2 l.2.val (by omega) (by omega)
        have hrow : ((((D.n2 r + 2 * g2 - o.nGhost : ℕ) : ℤ) + ((l.2.val : ℤ) - (D.n2 r + 2 * g2 - o.nGhost : ℕ)) : ℤ)) = (l.2.val : ℤ) := by omega
        rw [hrow, v1, if_neg (by intro hh; have := hh.2; simp only at this; omega), toGlob]
        simp only
        congr 2
        · have hb'' := cast1 b hb (by rw [hr]; exact hb')
          rw [globCoord]
          congr 1
          have : (((b : ZMod (D.n1 r + 2 * g1)).val : ℕ) : ℤ) = b := hb''
          omega
        · rw [globCoord, globCoord, ha]
      · rw [hyk, hgc2, hs2]; push_cast; ring

/-- Shifting by a few cells within the ghost zones shifts the signed coordinates. -/
theorem signed_add (m : Recon) (r : R) (l : D.Loc g1 g2 r) (h : D.Interior g1 g2 r l) (k : ℤ) (hk : |k| ≤ m.radius) :
    (m.radius ≤ g1 → D.signed g1 g2 r (l + k • ((1, 0) : D.Loc g1 g2 r)) = D.signed g1 g2 r l + k • ((1, 0) : ℤ × ℤ)) ∧
    (m.radius ≤ g2 → D.signed g1 g2 r (l + k • ((0, 1) : D.Loc g1 g2 r)) = D.signed g1 g2 r l + k • ((0, 1) : ℤ × ℤ)) := by
  have e1 : l + k • ((1, 0) : D.Loc g1 g2 r) = (l.1 + (k : ZMod _), l.2) := by ext <;> simp
  have e2 : l + k • ((0, 1) : D.Loc g1 g2 r) = (l.1, l.2 + (k : ZMod _)) := by ext <;> simp
  rw [e1, e2]
  obtain ⟨⟨a, b⟩, c, d⟩ := h
  rw [abs_le] at hk
  have hp1 := D.pos1 r
  have hp2 := D.pos2 r
  have : NeZero (D.n1 r + 2 * g1) := ⟨by omega⟩
  have : NeZero (D.n2 r + 2 * g2) := ⟨by omega⟩
  constructor <;> intro hg <;> ext
  · simp only [signed, globCoord, Prod.fst_add, Prod.smul_fst, smul_eq_mul, mul_one]
    rw [val_add_int _ k (by omega) (by push_cast; omega)]; ring
  · simp [signed]
  · simp [signed]
  · simp only [signed, globCoord, Prod.snd_add, Prod.smul_snd, smul_eq_mul, mul_one]
    rw [val_add_int _ k (by omega) (by push_cast; omega)]; ring

/-- A slope evaluation on a process that sees a distribution on the plane agrees in the bulk with the slope of that distribution. -/
theorem slope_plane {P : Type} [AddCommGroup P] (ax : P × P × P) (cfg : FVMConfig S K)
    (hg : ∀ m, reconMethod cfg.reconstructionInQ = .ok m → m.radius ≤ g1 ∧ m.radius ≤ g2)
    (r : R) (loc : Callbacks S P (D.Loc g1 g2 r) K) (glob : Callbacks S P (ℤ × ℤ) K)
    (hcb : D.CallbacksAgreeBox g1 g2 r loc glob) (x : Dist S P (D.Loc g1 g2 r) K) (X : Dist S P (ℤ × ℤ) K)
    (hx : ∀ s p l, x s p l = X s p (D.signed g1 g2 r l)) (k : Dist S P (D.Loc g1 g2 r) K) (k' : Dist S P (ℤ × ℤ) K)
    (hk : dfdtFVM (D.locAxes g1 g2 r ax.1 ax.2.1 ax.2.2) cfg loc x = .ok k)
    (hk' : dfdtFVM ⟨ax.1, ax.2.1, ax.2.2, (1, 0), (0, 1)⟩ cfg glob X = .ok k')
    (s : S) (p : P) (l : D.Loc g1 g2 r) (hl : D.Interior g1 g2 r l) : k s p l = k' s p (D.signed g1 g2 r l) := by
  obtain ⟨a, b, h1, h2, h3⟩ := dfdtFVM_ok hk
  obtain ⟨a', b', h1', h2', h3'⟩ := dfdtFVM_ok hk'
  rw [h1, h1']
  congr 1
  · rcases h2 with ⟨g, m, c, d⟩ | ⟨g, d⟩ <;> rcases h2' with ⟨g', m', c', d'⟩ | ⟨g', d'⟩
    · rw [c, Except.ok.injEq] at c'
      subst c'
      rw [d, d']
      obtain ⟨gs1, gs2⟩ := hg m c
      congr 1
      · simp only [dfdtQ, locAxes]
        have e1 := fluxDiv_congr m ((1, 0) : D.Loc g1 g2 r) ((1, 0) : ℤ × ℤ) cfg.dq1 (loc.Cq1 s p) (glob.Cq1 s p)
          (x s p) (X s p) l _ (hcb.q1 s p l hl).1 (hcb.q1 s p l hl).2
          (fun k hk => by rw [hx, (D.signed_add g1 g2 m r l hl k hk).1 gs1])
        have e2 := fluxDiv_congr m ((0, 1) : D.Loc g1 g2 r) ((0, 1) : ℤ × ℤ) cfg.dq2 (loc.Cq2 s p) (glob.Cq2 s p)
          (x s p) (X s p) l _ (hcb.q2 s p l hl).1 (hcb.q2 s p l hl).2
          (fun k hk => by rw [hx, (D.signed_add g1 g2 m r l hl k hk).2 gs2])
        rw [e1, e2]
      · split_ifs
        · exact hcb.src x _ l hl (fun s p => hx s p l) s p
        · rfl
    · exact absurd g g'
    · exact absurd g' g
    · rw [d, d']
  · rcases h3 with ⟨g, m, c, d⟩ | ⟨g, d⟩ <;> rcases h3' with ⟨g', m', c', d'⟩ | ⟨g', d'⟩
    · rw [c, Except.ok.injEq] at c'
      subst c'
      rw [d, d']
      have e1 : (fun p => loc.Cp1 s p l) = fun p => glob.Cp1 s p (D.signed g1 g2 r l) := by
        funext p; exact hcb.p1 s p l hl
      have e2 : (fun p => loc.Cp2 s p l) = fun p => glob.Cp2 s p (D.signed g1 g2 r l) := by
        funext p; exact hcb.p2 s p l hl
      have e3 : (fun p => loc.Cp3 s p l) = fun p => glob.Cp3 s p (D.signed g1 g2 r l) := by
        funext p; exact hcb.p3 s p l hl
      have e4 : (fun p => x s p l) = fun p => X s p (D.signed g1 g2 r l) := by funext p; exact hx s p l
      simp only [dfdtP, dFluxP, locAxes, e1, e2, e3, e4]
    · exact absurd g g'
    · exact absurd g' g
    · rw [d, d']

/-- One step, when communication and boundary conditions show every process the continuation `ext` of the box. -/
theorem bcStep_ext (o : BCOptions) (ext : Dist S (PIdx Np1 Np2 Np3) (ZMod N1 × ZMod N2) K → Dist S (PIdx Np1 Np2 Np3) (ℤ × ℤ) K)
    (hbox : ∀ f s p i, ext f s p (boxCell i) = f s p i)
    (ax : PIdx Np1 Np2 Np3 × PIdx Np1 Np2 Np3 × PIdx Np1 Np2 Np3) (cfg : FVMConfig S K)
    (hg : ∀ m, reconMethod cfg.reconstructionInQ = .ok m → m.radius ≤ g1 ∧ m.radius ≤ g2) (dt : K)
    (dat : Fin 2 → ∀ r, D.LocBCData g1 g2 r S Np1 Np2 Np3 K) (cb : Fin 2 → ∀ r, Callbacks S (PIdx Np1 Np2 Np3) (D.Loc g1 g2 r) K)
    (hsync : ∀ j F F0, D.Synced g1 g2 o (dat j) F F0 → ∀ r s p l, F0 r s p l = ext (D.assemble g1 g2 F) s p (D.signed g1 g2 r l))
    (cbG : Fin 2 → Callbacks S (PIdx Np1 Np2 Np3) (ℤ × ℤ) K)
    (hcb : ∀ j r, D.CallbacksAgreeBox g1 g2 r (cb j r) (cbG j))
    (F F' : ∀ r, Dist S (PIdx Np1 Np2 Np3) (D.Loc g1 g2 r) K) (f f' : Dist S (PIdx Np1 Np2 Np3) (ZMod N1 × ZMod N2) K)
    (hF : D.Holds g1 g2 F f) (h : D.BcStep g1 g2 o ax cfg dt dat cb F F')
    (h' : boxStep ext ax cfg dt cbG f = .ok f') : D.Holds g1 g2 F' f' := by
  obtain ⟨F0, s0, Fh, s1, a, b, c, d, rfl⟩ := h
  obtain ⟨l0, l1, a', b', rfl⟩ := boxStep_ok h'
  rw [holds_iff] at hF
  subst hF
  have i0 := hsync 0 F F0 a
  have e0 : ∀ r s p l, D.Interior g1 g2 r l → s0 r s p l = l0 s p (D.signed g1 g2 r l) := fun r =>
    D.slope_plane g1 g2 ax cfg hg r _ _ (hcb 0 r) _ _ (i0 r) _ _ (b r) a'
  have hh : D.assemble g1 g2 (fun r s p l => F0 r s p l + s0 r s p l * (dt / 2))
      = fun s p i => D.assemble g1 g2 F s p i + l0 s p (boxCell i) * (dt / 2) := by
    rw [← holds_iff]
    intro r s p l hl
    beta_reduce
    rw [i0, e0 r s p l hl, signed_interior D g1 g2 r l hl, hbox]
  have i1 := hsync 1 _ Fh c
  rw [hh] at i1
  have e1 : ∀ r s p l, D.Interior g1 g2 r l → s1 r s p l = l1 s p (D.signed g1 g2 r l) := fun r =>
    D.slope_plane g1 g2 ax cfg hg r _ _ (hcb 1 r) _ _ (i1 r) _ _ (d r) b'
  intro r s p l hl
  beta_reduce
  rw [i0, e1 r s p l hl, signed_interior D g1 g2 r l hl, hbox]

end Decomp

end Bolt
