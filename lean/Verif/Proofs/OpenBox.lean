import Verif.Spec.OpenBox
import Verif.Props.Box

/-! Helper lemmas: after communication and boundary conditions the cell behind each face through which something comes in shows what comes in. -/

set_option linter.unusedSectionVars false

namespace Bolt

section
variable {S K : Type} {Np1 Np2 Np3 M1 M2 : ℕ} [Zero K] [LinearOrder K]

/-- Inward velocity in a cell of the slab of a wall. -/
def InwardAt (env : BCEnv S Np1 Np2 Np3 M1 M2 K) (w : Wall) (s : S) (p : PIdx Np1 Np2 Np3) (i : ZMod M1 × ZMod M2) : Prop :=
  match w with
  | .left => 0 < env.velocity.1 s p i
  | .right => env.velocity.1 s p i < 0
  | .bottom => 0 < env.velocity.2 s p i
  | .top => env.velocity.2 s p i < 0

theorem dirichletF_inward (env : BCEnv S Np1 Np2 Np3 M1 M2 K) (w : Wall) (f : LDist S Np1 Np2 Np3 M1 M2 K) (s : S) (p : PIdx Np1 Np2 Np3)
    (i : ZMod M1 × ZMod M2) (hi : inSlab env.g w i) (hv : InwardAt env w s p i) : dirichletF env w f s p i = env.user w f s p i := by
  cases w <;> simp only [InwardAt] at hv <;> simp [dirichletF, setSlab, hi, afSelect, hv]

/-- What a wall puts into a ghost cell with inward velocity. -/
theorem atWall_in (env : BCEnv S Np1 Np2 Np3 M1 M2 K) (w : Wall) (f f' : LDist S Np1 Np2 Np3 M1 M2 K)
    {fl : Wall → PIdx Np1 Np2 Np3 → PIdx Np1 Np2 Np3} (hfl : MomentumMirror env.pGrid fl)
    (hname : env.name w ∈ ["dirichlet", "mirror", "mirror+dirichlet"]) (h : atWall env w f = .ok f') (ht : env.touches w = true) (s : S)
    (p : PIdx Np1 Np2 Np3) (i : ZMod M1 × ZMod M2) (hi : inSlab env.g w i) (hv : InwardAt env w s p i) (u : K → K)
    (hu : ∀ x, env.user w x s p i = u (x s p i)) (hc : env.name w = "dirichlet" → ∀ x y, u x = u y) :
    f' s p i = comesIn (env.name w) u (mirrorSpace env.g w (f s (fl w p)) i) := by
  unfold atWall at h
  rw [if_pos ht] at h
  unfold applyWall at h
  by_cases h1 : env.name w = "dirichlet"
  · rw [if_pos h1, Except.ok.injEq] at h
    subst h
    rw [dirichletF_inward env w f s p i hi hv, comesIn, if_pos h1, hu]
    exact hc h1 _ _
  · by_cases h2 : env.name w = "mirror"
    · rw [if_neg h1, if_pos h2, mirrorF_eq env w f hfl, Except.ok.injEq] at h
      subst h
      simp [comesIn, h2, hi]
    · have h3 : env.name w = "mirror+dirichlet" := by
        simp only [List.mem_cons, List.not_mem_nil, or_false] at hname
        tauto
      rw [if_neg h1, if_neg h2, if_pos h3, mirrorF_eq env w f hfl] at h
      simp only [bind, Except.bind, pure, Except.pure, Except.ok.injEq] at h
      subst h
      rw [dirichletF_inward env w _ s p i hi hv, hu, comesIn, if_neg h1, if_neg h2]
      simp [hi]

end

namespace Decomp

variable {N1 N2 : ℕ} {R : Type} [NeZero N1] [NeZero N2] (D : Decomp N1 N2 R) (g1 g2 : ℕ) {S K : Type} {Np1 Np2 Np3 : ℕ}

theorem openSetup_ne {lo hi : String} {N : ℕ} (h : OpenSetup lo hi N) (hc : ¬ closes lo) :
    lo ∈ ["dirichlet", "mirror", "mirror+dirichlet"] ∧ hi ∈ ["dirichlet", "mirror", "mirror+dirichlet"] := by
  rcases h with ⟨a, -⟩ | ⟨a, -⟩ | h
  · exact absurd (Or.inl a) hc
  · exact absurd (Or.inr a) hc
  · exact h

theorem openSetup_hi {lo hi : String} {N : ℕ} (h : OpenSetup lo hi N) (hc : closes lo) : hi = lo := by
  rcases h with ⟨a, b⟩ | ⟨a, b, -⟩ | ⟨h, -⟩
  · rw [a, b]
  · rw [a, b]
  · rcases hc with e | e <;> rw [e] at h <;> simp at h

theorem petscAxis_wall {n g : ℕ} {lo : String} {bc : PetscBC} (h : petscAxis n lo = (bc, g)) (hm : lo ∈ ["dirichlet", "mirror", "mirror+dirichlet"]) :
    n = g ∧ bc = .ghosted := by
  simp only [List.mem_cons, List.not_mem_nil, or_false] at hm
  rcases hm with rfl | rfl | rfl <;> simp [petscAxis] at h <;> exact ⟨h.2, h.1.symm⟩

section
variable [Zero K] [LinearOrder K]

/-- The walls of the first direction leave cells alone that are not beyond them. -/
theorem wall1_frame (o : BCOptions) (h1 : OpenSetup (o.name .left) (o.name .right) N1) {bc1 : PetscBC}
    (hax : petscAxis o.nGhost (o.name .left) = (bc1, g1)) (r : R) (dat : D.LocBCData g1 g2 r S Np1 Np2 Np3 K)
    (X X1 X2 : Dist S (PIdx Np1 Np2 Np3) (D.Loc g1 g2 r) K) (w1 : atWall (D.bcEnv g1 g2 o r dat) .left X = .ok X1)
    (w2 : atWall (D.bcEnv g1 g2 o r dat) .right X1 = .ok X2) (s : S) (p : PIdx Np1 Np2 Np3) (l : D.Loc g1 g2 r)
    (hl : closes (o.name .left) ∨ 0 ≤ (D.signed g1 g2 r l).1 ∧ (D.signed g1 g2 r l).1 < N1) : X2 s p l = X s p l := by
  by_cases hc : closes (o.name .left)
  · have e1 := atWall_skip _ .left X X1 (show (D.bcEnv g1 g2 o r dat).name .left = _ ∨ _ from hc) w1
    have e2 := atWall_skip _ .right X1 X2 (by show closes (o.name .right); rw [openSetup_hi h1 hc]; exact hc) w2
    rw [e2, e1]
  · obtain ⟨a, b⟩ := hl.resolve_left hc
    have hg := (petscAxis_wall hax (openSetup_ne h1 hc).1).1
    have hge : (D.bcEnv g1 g2 o r dat).g = g1 := hg
    have hp := D.pos1 r
    have hf := D.fits1 r
    have t1 : (D.bcEnv g1 g2 o r dat).touches .left = true ↔ D.start1 r = 0 := by simp [BCEnv.touches, bcEnv]
    have t2 : (D.bcEnv g1 g2 o r dat).touches .right = true ↔ D.start1 r + D.n1 r = N1 := by
      simp only [BCEnv.touches, bcEnv, beq_iff_eq]; omega
    simp only [signed, globCoord] at a b
    rw [atWall_frame _ _ _ _ w2 s p l (by rw [hge, t2]; simp only [inSlab]; omega),
      atWall_frame _ _ _ _ w1 s p l (by rw [hge, t1]; simp only [inSlab]; omega)]

theorem wall2_frame (o : BCOptions) (h2 : OpenSetup (o.name .bottom) (o.name .top) N2) {bc2 : PetscBC}
    (hax : petscAxis o.nGhost (o.name .bottom) = (bc2, g2)) (r : R) (dat : D.LocBCData g1 g2 r S Np1 Np2 Np3 K)
    (X X1 X2 : Dist S (PIdx Np1 Np2 Np3) (D.Loc g1 g2 r) K) (w1 : atWall (D.bcEnv g1 g2 o r dat) .bottom X = .ok X1)
    (w2 : atWall (D.bcEnv g1 g2 o r dat) .top X1 = .ok X2) (s : S) (p : PIdx Np1 Np2 Np3) (l : D.Loc g1 g2 r)
    (hl : closes (o.name .bottom) ∨ 0 ≤ (D.signed g1 g2 r l).2 ∧ (D.signed g1 g2 r l).2 < N2) : X2 s p l = X s p l := by
  by_cases hc : closes (o.name .bottom)
  · have e1 := atWall_skip _ .bottom X X1 (show (D.bcEnv g1 g2 o r dat).name .bottom = _ ∨ _ from hc) w1
    have e2 := atWall_skip _ .top X1 X2 (by show closes (o.name .top); rw [openSetup_hi h2 hc]; exact hc) w2
    rw [e2, e1]
  · obtain ⟨a, b⟩ := hl.resolve_left hc
    have hg := (petscAxis_wall hax (openSetup_ne h2 hc).1).1
    have hge : (D.bcEnv g1 g2 o r dat).g = g2 := hg
    have hp := D.pos2 r
    have hf := D.fits2 r
    have t1 : (D.bcEnv g1 g2 o r dat).touches .bottom = true ↔ D.start2 r = 0 := by simp [BCEnv.touches, bcEnv]
    have t2 : (D.bcEnv g1 g2 o r dat).touches .top = true ↔ D.start2 r + D.n2 r = N2 := by
      simp only [BCEnv.touches, bcEnv, beq_iff_eq]; omega
    simp only [signed, globCoord] at a b
    rw [atWall_frame _ _ _ _ w2 s p l (by rw [hge, t2]; simp only [inSlab]; omega),
      atWall_frame _ _ _ _ w1 s p l (by rw [hge, t1]; simp only [inSlab]; omega)]

/-- Within reach of the communication. -/
def InReach (first : String) (N : ℕ) (c : ℤ) : Prop := closes first ∨ 0 ≤ c ∧ c < N

theorem inReach_fills {n g N : ℕ} {lo : String} {bc : PetscBC} (h : petscAxis n lo = (bc, g)) {start m : ℕ} (hf : start + m ≤ N)
    (a : ZMod (m + 2 * g)) (hm : 0 < m) (hr : InReach lo N (globCoord start g a)) : fills bc N (globCoord start g a) := by
  have : NeZero (m + 2 * g) := ⟨by omega⟩
  rcases hr with (e | e) | e
  · rw [e] at h
    left
    simpa [petscAxis] using (congrArg Prod.fst h).symm
  · rw [e] at h
    have hb : g = 0 := by simpa [petscAxis] using (congrArg Prod.snd h).symm
    have hv := ZMod.val_lt a
    right
    rw [globCoord]; omega
  · exact Or.inr e

end

section
variable [Zero K] [LinearOrder K]

variable (o : BCOptions) (h1 : OpenSetup (o.name .left) (o.name .right) N1) (h2 : OpenSetup (o.name .bottom) (o.name .top) N2)
  {fl : Wall → PIdx Np1 Np2 Np3 → PIdx Np1 Np2 Np3} (hfl : MomentumMirror o.pGrid fl) (hq : o.solverMethodInQ = "FVM")
  (dat : ∀ r, D.LocBCData g1 g2 r S Np1 Np2 Np3 K) (F F0 : ∀ r, Dist S (PIdx Np1 Np2 Np3) (D.Loc g1 g2 r) K)
  (h : D.Synced g1 g2 o dat F F0) (inc : Wall → S → PIdx Np1 Np2 Np3 → ℤ × ℤ → K → K)
include h1 h2 h

/-- Cells within reach along both directions show the distribution. -/
theorem sync_reach (r : R) (s : S) (p : PIdx Np1 Np2 Np3) (l : D.Loc g1 g2 r) (r1 : InReach (o.name .left) N1 (D.signed g1 g2 r l).1)
    (r2 : InReach (o.name .bottom) N2 (D.signed g1 g2 r l).2) : F0 r s p l = D.assemble g1 g2 F s p (D.toGlob g1 g2 r l) := by
  obtain ⟨bc1, bc2, st, hset, happ⟩ := h
  have hax : petscAxis o.nGhost (o.name .left) = (bc1, g1) ∧ petscAxis o.nGhost (o.name .bottom) = (bc2, g2) := by
    unfold setupBCs at hset
    split_ifs at hset
    simp only [Except.ok.injEq, Prod.mk.injEq] at hset
    exact ⟨by rw [hset.1], by rw [hset.2]⟩
  obtain ⟨X1, X2, X3, w1, w2, w3, w4⟩ := applyBcsF_ok (happ r)
  rw [D.wall2_frame g1 g2 o h2 hax.2 r _ _ _ _ w3 w4 s p l r2, D.wall1_frame g1 g2 o h1 hax.1 r _ _ _ _ w1 w2 s p l r1, exchange, if_pos]
  exact ⟨inReach_fills hax.1 (D.fits1 r) l.1 (D.pos1 r) r1, inReach_fills hax.2 (D.fits2 r) l.2 (D.pos2 r) r2⟩

include hfl hq

theorem sync_left (r : R) {loc : Callbacks S (PIdx Np1 Np2 Np3) (D.Loc g1 g2 r) K} (hw : D.WallsAgree g1 g2 o r (dat r) loc inc) (s : S)
    (p : PIdx Np1 Np2 Np3) (l : D.Loc g1 g2 r) (hl : D.Interior g1 g2 r l) (hg : 1 ≤ g1) (hc : ¬ closes (o.name .left)) (h0 : (D.signed g1 g2 r l).1 = 0)
    (hv : 0 < (dat r).Cq1 s p (l - (1, 0))) :
    F0 r s p (l - (1, 0)) = comesIn (o.name .left) (inc .left s p (D.signed g1 g2 r l - (1, 0))) (D.assemble g1 g2 F s (fl .left p) (D.toGlob g1 g2 r l)) := by
  have hh := h
  obtain ⟨bc1, bc2, st, hset, happ⟩ := h
  have hax : petscAxis o.nGhost (o.name .left) = (bc1, g1) ∧ petscAxis o.nGhost (o.name .bottom) = (bc2, g2) := by
    unfold setupBCs at hset
    split_ifs at hset
    simp only [Except.ok.injEq, Prod.mk.injEq] at hset
    exact ⟨by rw [hset.1], by rw [hset.2]⟩
  obtain ⟨X1, X2, X3, w1, w2, w3, w4⟩ := applyBcsF_ok (happ r)
  have hp := D.pos1 r
  have hp2 := D.pos2 r
  have hf := D.fits1 r
  have hf2 := D.fits2 r
  have : NeZero (D.n1 r + 2 * g1) := ⟨by omega⟩
  have hm := openSetup_ne h1 hc
  have hge : (D.bcEnv g1 g2 o r (dat r)).g = g1 := (petscAxis_wall hax.1 hm.1).1
  obtain ⟨⟨a, b⟩, c, d⟩ := hl
  have h0' := h0
  simp only [signed, globCoord] at h0'
  have hs0 : D.start1 r = 0 := by omega
  have hv1 : l.1.val = g1 := by omega
  have hval : ((l - (1, 0) : D.Loc g1 g2 r).1.val : ℤ) = g1 - 1 := by
    have := val_add_int l.1 (-1) (by omega) (by push_cast; omega)
    rw [show (l - (1, 0) : D.Loc g1 g2 r).1 = l.1 + ((-1 : ℤ) : ZMod _) by simp [sub_eq_add_neg], this]; omega
  have hsg : D.signed g1 g2 r (l - (1, 0)) = D.signed g1 g2 r l - (1, 0) := by
    ext
    · show globCoord _ _ _ = globCoord _ _ _ - 1
      rw [globCoord, globCoord, hval]; omega
    · simp [signed]
  have i2 : 0 ≤ (D.signed g1 g2 r (l - (1, 0))).2 ∧ (D.signed g1 g2 r (l - (1, 0))).2 < N2 := by
    rw [hsg]; simp only [Prod.snd_sub, sub_zero, signed, globCoord]; constructor <;> omega
  rw [D.wall2_frame g1 g2 o h2 hax.2 r _ _ _ _ w3 w4 s p _ (Or.inr i2)]
  have t2 : (D.bcEnv g1 g2 o r (dat r)).touches .right = true ↔ D.start1 r + D.n1 r = N1 := by
    simp only [BCEnv.touches, bcEnv, beq_iff_eq]; omega
  rw [atWall_frame _ _ _ _ w2 s p _ (by rw [hge, t2]; simp only [inSlab]; omega)]
  have ht : (D.bcEnv g1 g2 o r (dat r)).touches .left = true := by simp [BCEnv.touches, bcEnv, hs0]
  have hvel : InwardAt (D.bcEnv g1 g2 o r (dat r)) .left s p (l - (1, 0)) := by
    simp only [InwardAt, BCEnv.velocity]
    rw [if_pos (show (D.bcEnv g1 g2 o r (dat r)).solverMethodInQ = "FVM" from hq)]
    exact hv
  have key := atWall_in (D.bcEnv g1 g2 o r (dat r)) .left _ X1 (fl := fl) hfl hm.1 w1 ht s p (l - (1, 0)) (by rw [hge]; simp only [inSlab]; omega) hvel
    (inc .left s p (D.signed g1 g2 r l - (1, 0))) (fun x => by rw [← hsg]; exact hw.user .left x s p _) (fun e => hw.ignores .left e s p _)
  rw [key, hge, mirrorSpace_left, if_pos (by omega)]
  have hidx : (((2 * g1 - 1 - (l - (1, 0) : D.Loc g1 g2 r).1.val : ℕ) : ZMod (D.n1 r + 2 * g1)), (l - (1, 0) : D.Loc g1 g2 r).2) = l := by
    have : 2 * g1 - 1 - (l - (1, 0) : D.Loc g1 g2 r).1.val = l.1.val := by omega
    rw [this]
    ext
    · simp
    · simp
  rw [hidx]
  have hX : D.exchange g1 g2 bc1 bc2 st F r s (fl .left p) l = D.assemble g1 g2 F s (fl .left p) (D.toGlob g1 g2 r l) := by
    rw [exchange, if_pos]
    exact ⟨Or.inr (by rw [globCoord]; omega), Or.inr (by rw [globCoord]; omega)⟩
  rw [hX]
  rfl

theorem sync_right (r : R) {loc : Callbacks S (PIdx Np1 Np2 Np3) (D.Loc g1 g2 r) K} (hw : D.WallsAgree g1 g2 o r (dat r) loc inc) (s : S)
    (p : PIdx Np1 Np2 Np3) (l : D.Loc g1 g2 r) (hl : D.Interior g1 g2 r l) (hg : 1 ≤ g1) (hc : ¬ closes (o.name .left)) (h0 : (D.signed g1 g2 r l).1 = N1 - 1)
    (hv : (dat r).Cq1 s p (l + (1, 0)) < 0) :
    F0 r s p (l + (1, 0)) = comesIn (o.name .right) (inc .right s p (D.signed g1 g2 r l + (1, 0))) (D.assemble g1 g2 F s (fl .right p) (D.toGlob g1 g2 r l)) := by
  have hh := h
  obtain ⟨bc1, bc2, st, hset, happ⟩ := h
  have hax : petscAxis o.nGhost (o.name .left) = (bc1, g1) ∧ petscAxis o.nGhost (o.name .bottom) = (bc2, g2) := by
    unfold setupBCs at hset
    split_ifs at hset
    simp only [Except.ok.injEq, Prod.mk.injEq] at hset
    exact ⟨by rw [hset.1], by rw [hset.2]⟩
  obtain ⟨X1, X2, X3, w1, w2, w3, w4⟩ := applyBcsF_ok (happ r)
  have hp := D.pos1 r
  have hp2 := D.pos2 r
  have hf := D.fits1 r
  have hf2 := D.fits2 r
  have : NeZero (D.n1 r + 2 * g1) := ⟨by omega⟩
  have hm := openSetup_ne h1 hc
  have hge : (D.bcEnv g1 g2 o r (dat r)).g = g1 := (petscAxis_wall hax.1 hm.1).1
  obtain ⟨⟨a, b⟩, c, d⟩ := hl
  have h0' := h0
  simp only [signed, globCoord] at h0'
  have hs0 : D.start1 r + D.n1 r = N1 := by omega
  have hv1 : l.1.val + 1 = D.n1 r + g1 := by omega
  have hval : ((l + (1, 0) : D.Loc g1 g2 r).1.val : ℤ) = D.n1 r + g1 := by
    have := val_add_int l.1 1 (by omega) (by push_cast; omega)
    rw [show (l + (1, 0) : D.Loc g1 g2 r).1 = l.1 + ((1 : ℤ) : ZMod _) by simp, this]; omega
  have hsg : D.signed g1 g2 r (l + (1, 0)) = D.signed g1 g2 r l + (1, 0) := by
    ext
    · show globCoord _ _ _ = globCoord _ _ _ + 1
      rw [globCoord, globCoord, hval]; omega
    · simp [signed]
  have i2 : 0 ≤ (D.signed g1 g2 r (l + (1, 0))).2 ∧ (D.signed g1 g2 r (l + (1, 0))).2 < N2 := by
    rw [hsg]; simp only [Prod.snd_add, add_zero, signed, globCoord]; constructor <;> omega
  rw [D.wall2_frame g1 g2 o h2 hax.2 r _ _ _ _ w3 w4 s p _ (Or.inr i2)]
  have ht : (D.bcEnv g1 g2 o r (dat r)).touches .right = true := by
    simp only [BCEnv.touches, bcEnv, beq_iff_eq]; omega
  have hvel : InwardAt (D.bcEnv g1 g2 o r (dat r)) .right s p (l + (1, 0)) := by
    simp only [InwardAt, BCEnv.velocity]
    rw [if_pos (show (D.bcEnv g1 g2 o r (dat r)).solverMethodInQ = "FVM" from hq)]
    exact hv
  have key := atWall_in (D.bcEnv g1 g2 o r (dat r)) .right _ X2 (fl := fl) hfl hm.2 w2 ht s p (l + (1, 0)) (by rw [hge]; simp only [inSlab]; omega) hvel
    (inc .right s p (D.signed g1 g2 r l + (1, 0))) (fun x => by rw [← hsg]; exact hw.user .right x s p _) (fun e => hw.ignores .right e s p _)
  rw [key, hge, mirrorSpace_right _ (by omega), if_pos (by omega)]
  have hidx : (((2 * (D.n1 r + 2 * g1 - g1) - 1 - (l + (1, 0) : D.Loc g1 g2 r).1.val : ℕ) : ZMod (D.n1 r + 2 * g1)), (l + (1, 0) : D.Loc g1 g2 r).2) = l := by
    have : 2 * (D.n1 r + 2 * g1 - g1) - 1 - (l + (1, 0) : D.Loc g1 g2 r).1.val = l.1.val := by omega
    rw [this]
    ext
    · simp
    · simp
  rw [hidx]
  rw [atWall_frame _ _ _ _ w1 s (fl .right p) _ (by rw [hge]; simp only [inSlab]; omega)]
  have hX : D.exchange g1 g2 bc1 bc2 st F r s (fl .right p) l = D.assemble g1 g2 F s (fl .right p) (D.toGlob g1 g2 r l) := by
    rw [exchange, if_pos]
    exact ⟨Or.inr (by rw [globCoord]; omega), Or.inr (by rw [globCoord]; omega)⟩
  rw [hX]
  rfl

theorem sync_bottom (r : R) {loc : Callbacks S (PIdx Np1 Np2 Np3) (D.Loc g1 g2 r) K} (hw : D.WallsAgree g1 g2 o r (dat r) loc inc) (s : S)
    (p : PIdx Np1 Np2 Np3) (l : D.Loc g1 g2 r) (hl : D.Interior g1 g2 r l) (hg : 1 ≤ g2) (hc : ¬ closes (o.name .bottom)) (h0 : (D.signed g1 g2 r l).2 = 0)
    (hv : 0 < (dat r).Cq2 s p (l - (0, 1))) :
    F0 r s p (l - (0, 1)) = comesIn (o.name .bottom) (inc .bottom s p (D.signed g1 g2 r l - (0, 1))) (D.assemble g1 g2 F s (fl .bottom p) (D.toGlob g1 g2 r l)) := by
  have hh := h
  obtain ⟨bc1, bc2, st, hset, happ⟩ := h
  have hax : petscAxis o.nGhost (o.name .left) = (bc1, g1) ∧ petscAxis o.nGhost (o.name .bottom) = (bc2, g2) := by
    unfold setupBCs at hset
    split_ifs at hset
    simp only [Except.ok.injEq, Prod.mk.injEq] at hset
    exact ⟨by rw [hset.1], by rw [hset.2]⟩
  obtain ⟨X1, X2, X3, w1, w2, w3, w4⟩ := applyBcsF_ok (happ r)
  have hp := D.pos2 r
  have hp2 := D.pos1 r
  have hf := D.fits2 r
  have hf2 := D.fits1 r
  have : NeZero (D.n2 r + 2 * g2) := ⟨by omega⟩
  have hm := openSetup_ne h2 hc
  have hge : (D.bcEnv g1 g2 o r (dat r)).g = g2 := (petscAxis_wall hax.2 hm.1).1
  obtain ⟨⟨a, b⟩, c, d⟩ := hl
  have h0' := h0
  simp only [signed, globCoord] at h0'
  have hs0 : D.start2 r = 0 := by omega
  have hv1 : l.2.val = g2 := by omega
  have hval : ((l - (0, 1) : D.Loc g1 g2 r).2.val : ℤ) = g2 - 1 := by
    have := val_add_int l.2 (-1) (by omega) (by push_cast; omega)
    rw [show (l - (0, 1) : D.Loc g1 g2 r).2 = l.2 + ((-1 : ℤ) : ZMod _) by simp [sub_eq_add_neg], this]; omega
  have hsg : D.signed g1 g2 r (l - (0, 1)) = D.signed g1 g2 r l - (0, 1) := by
    ext
    · simp [signed]
    · show globCoord _ _ _ = globCoord _ _ _ - 1
      rw [globCoord, globCoord, hval]; omega
  have i2 : 0 ≤ (D.signed g1 g2 r (l - (0, 1))).1 ∧ (D.signed g1 g2 r (l - (0, 1))).1 < N1 := by
    rw [hsg]; simp only [Prod.fst_sub, sub_zero, signed, globCoord]; constructor <;> omega
  have t2 : (D.bcEnv g1 g2 o r (dat r)).touches .top = true ↔ D.start2 r + D.n2 r = N2 := by
    simp only [BCEnv.touches, bcEnv, beq_iff_eq]; omega
  rw [atWall_frame _ _ _ _ w4 s p _ (by rw [hge, t2]; simp only [inSlab]; omega)]
  have ht : (D.bcEnv g1 g2 o r (dat r)).touches .bottom = true := by simp [BCEnv.touches, bcEnv, hs0]
  have hvel : InwardAt (D.bcEnv g1 g2 o r (dat r)) .bottom s p (l - (0, 1)) := by
    simp only [InwardAt, BCEnv.velocity]
    rw [if_pos (show (D.bcEnv g1 g2 o r (dat r)).solverMethodInQ = "FVM" from hq)]
    exact hv
  have key := atWall_in (D.bcEnv g1 g2 o r (dat r)) .bottom _ X3 (fl := fl) hfl hm.1 w3 ht s p (l - (0, 1)) (by rw [hge]; simp only [inSlab]; omega) hvel
    (inc .bottom s p (D.signed g1 g2 r l - (0, 1))) (fun x => by rw [← hsg]; exact hw.user .bottom x s p _) (fun e => hw.ignores .bottom e s p _)
  rw [key, hge, mirrorSpace_bottom, if_pos (by omega)]
  have hidx : ((l - (0, 1) : D.Loc g1 g2 r).1, ((2 * g2 - 1 - (l - (0, 1) : D.Loc g1 g2 r).2.val : ℕ) : ZMod (D.n2 r + 2 * g2))) = l := by
    have : 2 * g2 - 1 - (l - (0, 1) : D.Loc g1 g2 r).2.val = l.2.val := by omega
    rw [this]
    ext
    · simp
    · simp
  rw [hidx]
  rw [D.wall1_frame g1 g2 o h1 hax.1 r _ _ _ _ w1 w2 s _ l (Or.inr (by simp only [signed, globCoord]; constructor <;> omega))]
  have hX : D.exchange g1 g2 bc1 bc2 st F r s (fl .bottom p) l = D.assemble g1 g2 F s (fl .bottom p) (D.toGlob g1 g2 r l) := by
    rw [exchange, if_pos]
    exact ⟨Or.inr (by rw [globCoord]; omega), Or.inr (by rw [globCoord]; omega)⟩
  rw [hX]
  rfl

theorem sync_top (r : R) {loc : Callbacks S (PIdx Np1 Np2 Np3) (D.Loc g1 g2 r) K} (hw : D.WallsAgree g1 g2 o r (dat r) loc inc) (s : S)
    (p : PIdx Np1 Np2 Np3) (l : D.Loc g1 g2 r) (hl : D.Interior g1 g2 r l) (hg : 1 ≤ g2) (hc : ¬ closes (o.name .bottom)) (h0 : (D.signed g1 g2 r l).2 = N2 - 1)
    (hv : (dat r).Cq2 s p (l + (0, 1)) < 0) :
    F0 r s p (l + (0, 1)) = comesIn (o.name .top) (inc .top s p (D.signed g1 g2 r l + (0, 1))) (D.assemble g1 g2 F s (fl .top p) (D.toGlob g1 g2 r l)) := by
  have hh := h
  obtain ⟨bc1, bc2, st, hset, happ⟩ := h
  have hax : petscAxis o.nGhost (o.name .left) = (bc1, g1) ∧ petscAxis o.nGhost (o.name .bottom) = (bc2, g2) := by
    unfold setupBCs at hset
    split_ifs at hset
    simp only [Except.ok.injEq, Prod.mk.injEq] at hset
    exact ⟨by rw [hset.1], by rw [hset.2]⟩
  obtain ⟨X1, X2, X3, w1, w2, w3, w4⟩ := applyBcsF_ok (happ r)
  have hp := D.pos2 r
  have hp2 := D.pos1 r
  have hf := D.fits2 r
  have hf2 := D.fits1 r
  have : NeZero (D.n2 r + 2 * g2) := ⟨by omega⟩
  have hm := openSetup_ne h2 hc
  have hge : (D.bcEnv g1 g2 o r (dat r)).g = g2 := (petscAxis_wall hax.2 hm.1).1
  obtain ⟨⟨a, b⟩, c, d⟩ := hl
  have h0' := h0
  simp only [signed, globCoord] at h0'
  have hs0 : D.start2 r + D.n2 r = N2 := by omega
  have hv1 : l.2.val + 1 = D.n2 r + g2 := by omega
  have hval : ((l + (0, 1) : D.Loc g1 g2 r).2.val : ℤ) = D.n2 r + g2 := by
    have := val_add_int l.2 1 (by omega) (by push_cast; omega)
    rw [show (l + (0, 1) : D.Loc g1 g2 r).2 = l.2 + ((1 : ℤ) : ZMod _) by simp, this]; omega
  have hsg : D.signed g1 g2 r (l + (0, 1)) = D.signed g1 g2 r l + (0, 1) := by
    ext
    · simp [signed]
    · show globCoord _ _ _ = globCoord _ _ _ + 1
      rw [globCoord, globCoord, hval]; omega
  have i2 : 0 ≤ (D.signed g1 g2 r (l + (0, 1))).1 ∧ (D.signed g1 g2 r (l + (0, 1))).1 < N1 := by
    rw [hsg]; simp only [Prod.fst_add, add_zero, signed, globCoord]; constructor <;> omega
  have ht : (D.bcEnv g1 g2 o r (dat r)).touches .top = true := by
    simp only [BCEnv.touches, bcEnv, beq_iff_eq]; omega
  have hvel : InwardAt (D.bcEnv g1 g2 o r (dat r)) .top s p (l + (0, 1)) := by
    simp only [InwardAt, BCEnv.velocity]
    rw [if_pos (show (D.bcEnv g1 g2 o r (dat r)).solverMethodInQ = "FVM" from hq)]
    exact hv
  have key := atWall_in (D.bcEnv g1 g2 o r (dat r)) .top _ (F0 r) (fl := fl) hfl hm.2 w4 ht s p (l + (0, 1)) (by rw [hge]; simp only [inSlab]; omega) hvel
    (inc .top s p (D.signed g1 g2 r l + (0, 1))) (fun x => by rw [← hsg]; exact hw.user .top x s p _) (fun e => hw.ignores .top e s p _)
  rw [key, hge, mirrorSpace_top _ (by omega), if_pos (by omega)]
  have hidx : ((l + (0, 1) : D.Loc g1 g2 r).1, ((2 * (D.n2 r + 2 * g2 - g2) - 1 - (l + (0, 1) : D.Loc g1 g2 r).2.val : ℕ) : ZMod (D.n2 r + 2 * g2))) = l := by
    have : 2 * (D.n2 r + 2 * g2 - g2) - 1 - (l + (0, 1) : D.Loc g1 g2 r).2.val = l.2.val := by omega
    rw [this]
    ext
    · simp
    · simp
  rw [hidx]
  rw [atWall_frame _ _ _ _ w3 s (fl .top p) _ (by rw [hge]; simp only [inSlab]; omega)]
  rw [D.wall1_frame g1 g2 o h1 hax.1 r _ _ _ _ w1 w2 s _ l (Or.inr (by simp only [signed, globCoord]; constructor <;> omega))]
  have hX : D.exchange g1 g2 bc1 bc2 st F r s (fl .top p) l = D.assemble g1 g2 F s (fl .top p) (D.toGlob g1 g2 r l) := by
    rw [exchange, if_pos]
    exact ⟨Or.inr (by rw [globCoord]; omega), Or.inr (by rw [globCoord]; omega)⟩
  rw [hX]
  rfl

end

/-! ## what the slopes see -/

theorem openExt_inside [Zero K] {P : Type} (name : Wall → String) (fl : Wall → P → P) (inc : Wall → S → P → ℤ × ℤ → K → K)
    (f : Dist S P (ZMod N1 × ZMod N2) K) (s : S) (p : P) (c : ℤ × ℤ) (r1 : InReach (name .left) N1 c.1) (r2 : InReach (name .bottom) N2 c.2) :
    openExt name fl inc f s p c = f s p ((c.1 : ZMod N1), (c.2 : ZMod N2)) := by
  have a : ∀ {lo : String} {N : ℕ} {c : ℤ}, InReach lo N c → ¬ (¬ closes lo ∧ c < 0) ∧ ¬ (¬ closes lo ∧ N ≤ c) := by
    rintro lo N c (h | ⟨h, h'⟩)
    · exact ⟨fun k => k.1 h, fun k => k.1 h⟩
    · exact ⟨fun k => by omega, fun k => by omega⟩
  rw [openExt, if_neg (a r1).1, if_neg (a r1).2, if_neg (a r2).1, if_neg (a r2).2]

theorem openExt_boxCell [Zero K] {P : Type} (name : Wall → String) (fl : Wall → P → P) (inc : Wall → S → P → ℤ × ℤ → K → K)
    (f : Dist S P (ZMod N1 × ZMod N2) K) (s : S) (p : P) (i : ZMod N1 × ZMod N2) : openExt name fl inc f s p (boxCell i) = f s p i := by
  have v1 := ZMod.val_lt i.1
  have v2 := ZMod.val_lt i.2
  rw [openExt_inside]
  · simp only [boxCell, cast_val_int]
  · right; simp only [boxCell]; omega
  · right; simp only [boxCell]; omega

theorem signed_shift1 (r : R) (l : D.Loc g1 g2 r) (h : D.Interior g1 g2 r l) (hg : 1 ≤ g1) :
    D.signed g1 g2 r (l - (1, 0)) = D.signed g1 g2 r l - (1, 0) ∧ D.signed g1 g2 r (l + (1, 0)) = D.signed g1 g2 r l + (1, 0) := by
  obtain ⟨⟨a, b⟩, c, d⟩ := h
  have hp1 := D.pos1 r
  have : NeZero (D.n1 r + 2 * g1) := ⟨by omega⟩
  have v1 := val_add_int l.1 (-1) (by omega) (by push_cast; omega)
  have v2 := val_add_int l.1 1 (by omega) (by push_cast; omega)
  rw [show l.1 + ((-1 : ℤ) : ZMod _) = (l - (1, 0) : D.Loc g1 g2 r).1 by simp [sub_eq_add_neg]] at v1
  rw [show l.1 + ((1 : ℤ) : ZMod _) = (l + (1, 0) : D.Loc g1 g2 r).1 by simp] at v2
  constructor
  · ext
    · show globCoord _ _ _ = globCoord _ _ _ - 1
      rw [globCoord, globCoord, v1]; omega
    · simp [signed]
  · ext
    · show globCoord _ _ _ = globCoord _ _ _ + 1
      rw [globCoord, globCoord, v2]; omega
    · simp [signed]

theorem signed_shift2 (r : R) (l : D.Loc g1 g2 r) (h : D.Interior g1 g2 r l) (hg : 1 ≤ g2) :
    D.signed g1 g2 r (l - (0, 1)) = D.signed g1 g2 r l - (0, 1) ∧ D.signed g1 g2 r (l + (0, 1)) = D.signed g1 g2 r l + (0, 1) := by
  obtain ⟨⟨a, b⟩, c, d⟩ := h
  have hp1 := D.pos2 r
  have : NeZero (D.n2 r + 2 * g2) := ⟨by omega⟩
  have v1 := val_add_int l.2 (-1) (by omega) (by push_cast; omega)
  have v2 := val_add_int l.2 1 (by omega) (by push_cast; omega)
  rw [show l.2 + ((-1 : ℤ) : ZMod _) = (l - (0, 1) : D.Loc g1 g2 r).2 by simp [sub_eq_add_neg]] at v1
  rw [show l.2 + ((1 : ℤ) : ZMod _) = (l + (0, 1) : D.Loc g1 g2 r).2 by simp] at v2
  constructor
  · ext
    · simp [signed]
    · show globCoord _ _ _ = globCoord _ _ _ - 1
      rw [globCoord, globCoord, v1]; omega
  · ext
    · simp [signed]
    · show globCoord _ _ _ = globCoord _ _ _ + 1
      rw [globCoord, globCoord, v2]; omega

theorem interior_reach (r : R) (l : D.Loc g1 g2 r) (h : D.Interior g1 g2 r l) (lo lo' : String) :
    InReach lo N1 (D.signed g1 g2 r l).1 ∧ InReach lo' N2 (D.signed g1 g2 r l).2 := by
  obtain ⟨⟨a, b⟩, c, d⟩ := h
  have hf := D.fits1 r
  have hf2 := D.fits2 r
  constructor
  · right; show 0 ≤ globCoord _ _ _ ∧ globCoord _ _ _ < _
    rw [globCoord]; omega
  · right; show 0 ≤ globCoord _ _ _ ∧ globCoord _ _ _ < _
    rw [globCoord]; omega

/-- What the slope at the cells of a process depends on: the cell itself, and the neighbours from which something flows in. -/
structure Sees [Zero K] [LinearOrder K] {P : Type} (r : R) (loc : Callbacks S P (D.Loc g1 g2 r) K) (x : Dist S P (D.Loc g1 g2 r) K) (y : Dist S P (ℤ × ℤ) K) : Prop where
  inside : ∀ s p l, D.Interior g1 g2 r l → x s p l = y s p (D.signed g1 g2 r l)
  left : ∀ s p l, D.Interior g1 g2 r l → 0 < loc.Cq1 s p l → x s p (l - (1, 0)) = y s p (D.signed g1 g2 r l - (1, 0))
  right : ∀ s p l, D.Interior g1 g2 r l → loc.Cq1 s p (l + (1, 0)) < 0 → x s p (l + (1, 0)) = y s p (D.signed g1 g2 r l + (1, 0))
  bottom : ∀ s p l, D.Interior g1 g2 r l → 0 < loc.Cq2 s p l → x s p (l - (0, 1)) = y s p (D.signed g1 g2 r l - (0, 1))
  top : ∀ s p l, D.Interior g1 g2 r l → loc.Cq2 s p (l + (0, 1)) < 0 → x s p (l + (0, 1)) = y s p (D.signed g1 g2 r l + (0, 1))

section
variable [Zero K] [LinearOrder K]

theorem sync_open (o : BCOptions) (h1 : OpenSetup (o.name .left) (o.name .right) N1) (h2 : OpenSetup (o.name .bottom) (o.name .top) N2)
    {fl : Wall → PIdx Np1 Np2 Np3 → PIdx Np1 Np2 Np3} (hfl : MomentumMirror o.pGrid fl) (hq : o.solverMethodInQ = "FVM")
    (hg1 : OpenGhosts (o.name .left) g1 N1) (hg2 : OpenGhosts (o.name .bottom) g2 N2)
    (dat : ∀ r, D.LocBCData g1 g2 r S Np1 Np2 Np3 K) (F F0 : ∀ r, Dist S (PIdx Np1 Np2 Np3) (D.Loc g1 g2 r) K)
    (h : D.Synced g1 g2 o dat F F0) (inc : Wall → S → PIdx Np1 Np2 Np3 → ℤ × ℤ → K → K) (r : R)
    {loc : Callbacks S (PIdx Np1 Np2 Np3) (D.Loc g1 g2 r) K} (hw : D.WallsAgree g1 g2 o r (dat r) loc inc) :
    D.Sees g1 g2 r loc (F0 r) (openExt o.name fl inc (D.assemble g1 g2 F)) := by
  have reach := D.sync_reach g1 g2 o h1 h2 dat F F0 h r
  have cell1 : ∀ l : D.Loc g1 g2 r, D.Interior g1 g2 r l → ∀ d : ℤ, d = 1 ∨ d = -1 →
      ((D.toGlob g1 g2 r (l + (((d : ℤ) : ZMod _), 0))).1 = (((D.signed g1 g2 r l).1 + d : ℤ) : ZMod N1)) := by
    intro l hl d hd
    rcases hg1 with hg | ⟨-, -, hN⟩
    · obtain ⟨e, e'⟩ := D.signed_shift1 g1 g2 r l hl hg
      rcases hd with rfl | rfl
      · have : (l + (((1 : ℤ) : ZMod _), 0) : D.Loc g1 g2 r) = l + (1, 0) := by simp
        rw [this]
        exact congrArg (fun c : ℤ × ℤ => (c.1 : ZMod N1)) e'
      · have : (l + (((-1 : ℤ) : ZMod _), 0) : D.Loc g1 g2 r) = l - (1, 0) := by ext <;> simp [sub_eq_add_neg]
        rw [this]
        exact congrArg (fun c : ℤ × ℤ => (c.1 : ZMod N1)) e
    · subst hN; exact Subsingleton.elim _ _
  have cell2 : ∀ l : D.Loc g1 g2 r, D.Interior g1 g2 r l → ∀ d : ℤ, d = 1 ∨ d = -1 →
      ((D.toGlob g1 g2 r (l + (0, ((d : ℤ) : ZMod _)))).2 = (((D.signed g1 g2 r l).2 + d : ℤ) : ZMod N2)) := by
    intro l hl d hd
    rcases hg2 with hg | ⟨-, -, hN⟩
    · obtain ⟨e, e'⟩ := D.signed_shift2 g1 g2 r l hl hg
      rcases hd with rfl | rfl
      · have : (l + (0, ((1 : ℤ) : ZMod _)) : D.Loc g1 g2 r) = l + (0, 1) := by simp
        rw [this]
        exact congrArg (fun c : ℤ × ℤ => (c.2 : ZMod N2)) e'
      · have : (l + (0, ((-1 : ℤ) : ZMod _)) : D.Loc g1 g2 r) = l - (0, 1) := by ext <;> simp [sub_eq_add_neg]
        rw [this]
        exact congrArg (fun c : ℤ × ℤ => (c.2 : ZMod N2)) e
    · subst hN; exact Subsingleton.elim _ _
  refine ⟨?_, ?_, ?_, ?_, ?_⟩
  · intro s p l hl
    obtain ⟨a, b⟩ := D.interior_reach g1 g2 r l hl (o.name .left) (o.name .bottom)
    rw [reach s p l a b, openExt_inside _ _ _ _ _ _ _ a b]
    rfl
  · intro s p l hl hv
    obtain ⟨a, b⟩ := D.interior_reach g1 g2 r l hl (o.name .left) (o.name .bottom)
    by_cases hr : InReach (o.name .left) N1 ((D.signed g1 g2 r l).1 - 1)
    · rw [openExt_inside _ _ _ _ _ _ (D.signed g1 g2 r l - (1, 0)) hr (by simpa using b)]
      have e2 : (D.signed g1 g2 r (l - (1, 0))).2 = (D.signed g1 g2 r l).2 := by simp [signed]
      have e1 : InReach (o.name .left) N1 (D.signed g1 g2 r (l - (1, 0))).1 := by
        rcases hg1 with hg | ⟨hc, -⟩
        · rw [(D.signed_shift1 g1 g2 r l hl hg).1]; exact hr
        · exact Or.inl hc
      rw [reach s p _ e1 (by rw [e2]; exact b)]
      congr 1
      have := cell1 l hl (-1) (Or.inr rfl)
      rw [show (l + (((-1 : ℤ) : ZMod _), 0) : D.Loc g1 g2 r) = l - (1, 0) by ext <;> simp [sub_eq_add_neg]] at this
      ext1
      · rw [this]; rfl
      · simp [toGlob, signed]
    · have hc : ¬ closes (o.name .left) := fun hc => hr (Or.inl hc)
      have hg : 1 ≤ g1 := by
        rcases hg1 with hg | ⟨hc', -⟩
        · exact hg
        · exact absurd hc' hc
      have ha := a.resolve_left hc
      have h0 : (D.signed g1 g2 r l).1 = 0 := by
        by_contra hne
        exact hr (Or.inr ⟨by omega, by omega⟩)
      rw [D.sync_left g1 g2 o h1 h2 hfl hq dat F F0 h inc r hw s p l hl hg hc h0 (hw.left s p l hl h0 hv)]
      rw [openExt, if_pos ⟨hc, by show (D.signed g1 g2 r l).1 - 1 < 0; omega⟩]
      congr 2
      ext1
      · show ((D.signed g1 g2 r l).1 : ZMod N1) = ((-1 - ((D.signed g1 g2 r l).1 - 1) : ℤ) : ZMod N1)
        rw [h0]; simp
      · show ((D.signed g1 g2 r l).2 : ZMod N2) = (((D.signed g1 g2 r l).2 - 0 : ℤ) : ZMod N2)
        simp
  · intro s p l hl hv
    obtain ⟨a, b⟩ := D.interior_reach g1 g2 r l hl (o.name .left) (o.name .bottom)
    by_cases hr : InReach (o.name .left) N1 ((D.signed g1 g2 r l).1 + 1)
    · rw [openExt_inside _ _ _ _ _ _ (D.signed g1 g2 r l + (1, 0)) hr (by simpa using b)]
      have e2 : (D.signed g1 g2 r (l + (1, 0))).2 = (D.signed g1 g2 r l).2 := by simp [signed]
      have e1 : InReach (o.name .left) N1 (D.signed g1 g2 r (l + (1, 0))).1 := by
        rcases hg1 with hg | ⟨hc, -⟩
        · rw [(D.signed_shift1 g1 g2 r l hl hg).2]; exact hr
        · exact Or.inl hc
      rw [reach s p _ e1 (by rw [e2]; exact b)]
      congr 1
      have := cell1 l hl 1 (Or.inl rfl)
      rw [show (l + (((1 : ℤ) : ZMod _), 0) : D.Loc g1 g2 r) = l + (1, 0) by simp] at this
      ext1
      · rw [this]; rfl
      · simp [toGlob, signed]
    · have hc : ¬ closes (o.name .left) := fun hc => hr (Or.inl hc)
      have hg : 1 ≤ g1 := by
        rcases hg1 with hg | ⟨hc', -⟩
        · exact hg
        · exact absurd hc' hc
      have ha := a.resolve_left hc
      have h0 : (D.signed g1 g2 r l).1 = N1 - 1 := by
        by_contra hne
        exact hr (Or.inr ⟨by omega, by omega⟩)
      have hN : 0 < N1 := Nat.pos_of_ne_zero (NeZero.ne N1)
      rw [D.sync_right g1 g2 o h1 h2 hfl hq dat F F0 h inc r hw s p l hl hg hc h0 (hw.right s p l hl h0 hv)]
      rw [openExt, if_neg (by rintro ⟨-, k⟩; have : (D.signed g1 g2 r l).1 + 1 < 0 := k; omega),
        if_pos ⟨hc, by show (N1 : ℤ) ≤ (D.signed g1 g2 r l).1 + 1; omega⟩]
      congr 2
      ext1
      · show ((D.signed g1 g2 r l).1 : ZMod N1) = ((2 * N1 - 1 - ((D.signed g1 g2 r l).1 + 1) : ℤ) : ZMod N1)
        rw [h0]; congr 1; omega
      · show ((D.signed g1 g2 r l).2 : ZMod N2) = (((D.signed g1 g2 r l).2 + 0 : ℤ) : ZMod N2)
        simp
  · intro s p l hl hv
    obtain ⟨a, b⟩ := D.interior_reach g1 g2 r l hl (o.name .left) (o.name .bottom)
    by_cases hr : InReach (o.name .bottom) N2 ((D.signed g1 g2 r l).2 - 1)
    · rw [openExt_inside _ _ _ _ _ _ (D.signed g1 g2 r l - (0, 1)) (by simpa using a) hr]
      have e2 : (D.signed g1 g2 r (l - (0, 1))).1 = (D.signed g1 g2 r l).1 := by simp [signed]
      have e1 : InReach (o.name .bottom) N2 (D.signed g1 g2 r (l - (0, 1))).2 := by
        rcases hg2 with hg | ⟨hc, -⟩
        · rw [(D.signed_shift2 g1 g2 r l hl hg).1]; exact hr
        · exact Or.inl hc
      rw [reach s p _ (by rw [e2]; exact a) e1]
      congr 1
      have := cell2 l hl (-1) (Or.inr rfl)
      rw [show (l + (0, ((-1 : ℤ) : ZMod _)) : D.Loc g1 g2 r) = l - (0, 1) by ext <;> simp [sub_eq_add_neg]] at this
      ext1
      · simp [toGlob, signed]
      · rw [this]; rfl
    · have hc : ¬ closes (o.name .bottom) := fun hc => hr (Or.inl hc)
      have hg : 1 ≤ g2 := by
        rcases hg2 with hg | ⟨hc', -⟩
        · exact hg
        · exact absurd hc' hc
      have ha := b.resolve_left hc
      have h0 : (D.signed g1 g2 r l).2 = 0 := by
        by_contra hne
        exact hr (Or.inr ⟨by omega, by omega⟩)
      have a' := (D.interior_reach g1 g2 r l hl "" "").1.resolve_left (by decide)
      rw [D.sync_bottom g1 g2 o h1 h2 hfl hq dat F F0 h inc r hw s p l hl hg hc h0 (hw.bottom s p l hl h0 hv)]
      rw [openExt, if_neg (by rintro ⟨-, k⟩; have : (D.signed g1 g2 r l).1 - 0 < 0 := k; omega),
        if_neg (by rintro ⟨-, k⟩; have : (N1 : ℤ) ≤ (D.signed g1 g2 r l).1 - 0 := k; omega),
        if_pos ⟨hc, by show (D.signed g1 g2 r l).2 - 1 < 0; omega⟩]
      congr 2
      ext1
      · show ((D.signed g1 g2 r l).1 : ZMod N1) = (((D.signed g1 g2 r l).1 - 0 : ℤ) : ZMod N1)
        simp
      · show ((D.signed g1 g2 r l).2 : ZMod N2) = ((-1 - ((D.signed g1 g2 r l).2 - 1) : ℤ) : ZMod N2)
        rw [h0]; simp
  · intro s p l hl hv
    obtain ⟨a, b⟩ := D.interior_reach g1 g2 r l hl (o.name .left) (o.name .bottom)
    by_cases hr : InReach (o.name .bottom) N2 ((D.signed g1 g2 r l).2 + 1)
    · rw [openExt_inside _ _ _ _ _ _ (D.signed g1 g2 r l + (0, 1)) (by simpa using a) hr]
      have e2 : (D.signed g1 g2 r (l + (0, 1))).1 = (D.signed g1 g2 r l).1 := by simp [signed]
      have e1 : InReach (o.name .bottom) N2 (D.signed g1 g2 r (l + (0, 1))).2 := by
        rcases hg2 with hg | ⟨hc, -⟩
        · rw [(D.signed_shift2 g1 g2 r l hl hg).2]; exact hr
        · exact Or.inl hc
      rw [reach s p _ (by rw [e2]; exact a) e1]
      congr 1
      have := cell2 l hl 1 (Or.inl rfl)
      rw [show (l + (0, ((1 : ℤ) : ZMod _)) : D.Loc g1 g2 r) = l + (0, 1) by simp] at this
      ext1
      · simp [toGlob, signed]
      · rw [this]; rfl
    · have hc : ¬ closes (o.name .bottom) := fun hc => hr (Or.inl hc)
      have hg : 1 ≤ g2 := by
        rcases hg2 with hg | ⟨hc', -⟩
        · exact hg
        · exact absurd hc' hc
      have ha := b.resolve_left hc
      have h0 : (D.signed g1 g2 r l).2 = N2 - 1 := by
        by_contra hne
        exact hr (Or.inr ⟨by omega, by omega⟩)
      have hN : 0 < N2 := Nat.pos_of_ne_zero (NeZero.ne N2)
      have a' := (D.interior_reach g1 g2 r l hl "" "").1.resolve_left (by decide)
      rw [D.sync_top g1 g2 o h1 h2 hfl hq dat F F0 h inc r hw s p l hl hg hc h0 (hw.top s p l hl h0 hv)]
      rw [openExt, if_neg (by rintro ⟨-, k⟩; have : (D.signed g1 g2 r l).1 + 0 < 0 := k; omega),
        if_neg (by rintro ⟨-, k⟩; have : (N1 : ℤ) ≤ (D.signed g1 g2 r l).1 + 0 := k; omega),
        if_neg (by rintro ⟨-, k⟩; have : (D.signed g1 g2 r l).2 + 1 < 0 := k; omega),
        if_pos ⟨hc, by show (N2 : ℤ) ≤ (D.signed g1 g2 r l).2 + 1; omega⟩]
      congr 2
      ext1
      · show ((D.signed g1 g2 r l).1 : ZMod N1) = (((D.signed g1 g2 r l).1 + 0 : ℤ) : ZMod N1)
        simp
      · show ((D.signed g1 g2 r l).2 : ZMod N2) = ((2 * N2 - 1 - ((D.signed g1 g2 r l).2 + 1) : ℤ) : ZMod N2)
        rw [h0]; congr 1; omega

end

section
variable [Field K] [LinearOrder K] [IsStrictOrderedRing K]

/-- The first-order flux divergence only reads the cell and the neighbours from which something flows in. -/
theorem fluxDiv_pc_congr {I J : Type} [AddCommGroup I] [AddCommGroup J] (e : I) (e' : J) (d : K) (C x : I → K) (C' y : J → K) (l : I) (c : J)
    (hC : C l = C' c) (hC' : C (l + e) = C' (c + e')) (h0 : x l = y c) (hm : 0 < C l → x (l - e) = y (c - e'))
    (hp : C (l + e) < 0 → x (l + e) = y (c + e')) :
    fluxDiv .piecewiseConstant e d C x l = fluxDiv .piecewiseConstant e' d C' y c := by
  have a : C l * leftState .piecewiseConstant e C x l = C' c * leftState .piecewiseConstant e' C' y c := by
    rw [leftState_eq, leftState_eq, ← hC]
    by_cases h : 0 < C l
    · rw [if_pos h, if_pos h]
      exact congrArg _ (hm h)
    · rw [if_neg h, if_neg h]
      exact congrArg _ h0
  have b : C (l + e) * leftState .piecewiseConstant e C x (l + e) = C' (c + e') * leftState .piecewiseConstant e' C' y (c + e') := by
    rw [leftState_eq, leftState_eq, ← hC', add_sub_cancel_right, add_sub_cancel_right]
    rcases lt_trichotomy (C (l + e)) 0 with h | h | h
    · rw [if_neg (by linarith), if_neg (by linarith)]
      exact congrArg _ (hp h)
    · rw [h]; simp
    · rw [if_pos h, if_pos h]
      exact congrArg _ h0
  rw [fluxDiv_eq, fluxDiv_eq, a, b]

variable {P : Type} [AddCommGroup P]

theorem slope_open (ax : P × P × P) (cfg : FVMConfig S K) (hpc : cfg.reconstructionInQ = "piecewise-constant")
    (r : R) (loc : Callbacks S P (D.Loc g1 g2 r) K) (glob : Callbacks S P (ℤ × ℤ) K)
    (hcb : D.CallbacksAgreeBox g1 g2 r loc glob) (x : Dist S P (D.Loc g1 g2 r) K) (y : Dist S P (ℤ × ℤ) K)
    (hx : D.Sees g1 g2 r loc x y) (k : Dist S P (D.Loc g1 g2 r) K) (k' : Dist S P (ℤ × ℤ) K)
    (hk : dfdtFVM (D.locAxes g1 g2 r ax.1 ax.2.1 ax.2.2) cfg loc x = .ok k)
    (hk' : dfdtFVM ⟨ax.1, ax.2.1, ax.2.2, (1, 0), (0, 1)⟩ cfg glob y = .ok k')
    (s : S) (p : P) (l : D.Loc g1 g2 r) (hl : D.Interior g1 g2 r l) : k s p l = k' s p (D.signed g1 g2 r l) := by
  obtain ⟨a, b, h1, h2, h3⟩ := dfdtFVM_ok hk
  obtain ⟨a', b', h1', h2', h3'⟩ := dfdtFVM_ok hk'
  rw [h1, h1']
  congr 1
  · rcases h2 with ⟨g, m, c, d⟩ | ⟨g, d⟩ <;> rcases h2' with ⟨g', m', c', d'⟩ | ⟨g', d'⟩
    · rw [c, Except.ok.injEq] at c'
      subst c'
      have hm : m = .piecewiseConstant := by
        simp only [reconMethod, hpc, if_true, Except.ok.injEq] at c
        exact c.symm
      subst hm
      rw [d, d']
      congr 1
      · simp only [dfdtQ, locAxes]
        have e1 := fluxDiv_pc_congr ((1, 0) : D.Loc g1 g2 r) ((1, 0) : ℤ × ℤ) cfg.dq1 (loc.Cq1 s p) (x s p) (glob.Cq1 s p) (y s p) l
          (D.signed g1 g2 r l) (hcb.q1 s p l hl).1 (hcb.q1 s p l hl).2 (hx.inside s p l hl) (hx.left s p l hl) (hx.right s p l hl)
        have e2 := fluxDiv_pc_congr ((0, 1) : D.Loc g1 g2 r) ((0, 1) : ℤ × ℤ) cfg.dq2 (loc.Cq2 s p) (x s p) (glob.Cq2 s p) (y s p) l
          (D.signed g1 g2 r l) (hcb.q2 s p l hl).1 (hcb.q2 s p l hl).2 (hx.inside s p l hl) (hx.bottom s p l hl) (hx.top s p l hl)
        rw [e1, e2]
      · split_ifs
        · exact hcb.src x _ l hl (fun s p => hx.inside s p l hl) s p
        · rfl
    · exact absurd g g'
    · exact absurd g' g
    · rw [d, d']
  · rcases h3 with ⟨g, m, c, d⟩ | ⟨g, d⟩ <;> rcases h3' with ⟨g', m', c', d'⟩ | ⟨g', d'⟩
    · rw [c, Except.ok.injEq] at c'
      subst c'
      rw [d, d']
      have e1 : (fun p => loc.Cp1 s p l) = fun p => glob.Cp1 s p (D.signed g1 g2 r l) := by
        funext p; exact hcb.p1 s p l hl
      have e2 : (fun p => loc.Cp2 s p l) = fun p => glob.Cp2 s p (D.signed g1 g2 r l) := by
        funext p; exact hcb.p2 s p l hl
      have e3 : (fun p => loc.Cp3 s p l) = fun p => glob.Cp3 s p (D.signed g1 g2 r l) := by
        funext p; exact hcb.p3 s p l hl
      have e4 : (fun p => x s p l) = fun p => y s p (D.signed g1 g2 r l) := by funext p; exact hx.inside s p l hl
      simp only [dfdtP, dFluxP, locAxes, e1, e2, e3, e4]
    · exact absurd g g'
    · exact absurd g' g
    · rw [d, d']

theorem openEuler_ok {name : Wall → String} {fl : Wall → P → P} {ax : P × P × P} {cfg : FVMConfig S K} {dt : K}
    {inc : Wall → S → P → ℤ × ℤ → K → K} {cb : Callbacks S P (ℤ × ℤ) K} {y f f' : Dist S P (ZMod N1 × ZMod N2) K}
    (h : openEuler name fl ax cfg dt inc cb y f = .ok f') :
    ∃ k, dfdtFVM ⟨ax.1, ax.2.1, ax.2.2, (1, 0), (0, 1)⟩ cfg cb (openExt name fl inc y) = .ok k ∧
      f' = fun s p i => f s p i + k s p (boxCell i) * dt := by
  unfold openEuler at h
  simp only [bind, Except.bind, pure, Except.pure] at h
  cases h0 : dfdtFVM ⟨ax.1, ax.2.1, ax.2.2, (1, 0), (0, 1)⟩ cfg cb (openExt name fl inc y) with
  | error e => simp [h0] at h
  | ok k0 =>
    simp only [h0, Except.ok.injEq] at h
    exact ⟨k0, rfl, h.symm⟩

theorem openStep_ok {name : Wall → String} {fl : Wall → P → P} {ax : P × P × P} {cfg : FVMConfig S K} {dt : K}
    {inc : Fin 2 → Wall → S → P → ℤ × ℤ → K → K} {cb : Fin 2 → Callbacks S P (ℤ × ℤ) K} {f f' : Dist S P (ZMod N1 × ZMod N2) K}
    (h : openStep name fl ax cfg dt inc cb f = .ok f') :
    ∃ fh, openEuler name fl ax cfg (dt / 2) (inc 0) (cb 0) f f = .ok fh ∧ openEuler name fl ax cfg dt (inc 1) (cb 1) fh f = .ok f' := by
  unfold openStep at h
  simp only [bind, Except.bind] at h
  cases h0 : openEuler name fl ax cfg (dt / 2) (inc 0) (cb 0) f f with
  | error e => simp [h0] at h
  | ok fh =>
    simp only [h0] at h
    exact ⟨fh, rfl, h⟩

end

end Decomp

/-! ## totals -/

section totals
variable {S P K : Type} {N1 N2 : ℕ} [NeZero N1] [NeZero N2] [Field K] [LinearOrder K] [IsStrictOrderedRing K] [Fintype P]

theorem lineFlux_pc (v : K) (y : ℤ → K) (c : ℤ) : lineFlux .piecewiseConstant v y c = upwindFace v (y (c - 1)) (y c) := rfl

/-- The total rate of change in the box is what flows in through its ends, plus the source. -/
theorem openTotal_slope [AddCommGroup P] (ax : P × P × P) (cfg : FVMConfig S K) (hQ : cfg.solverMethodInQ = "FVM")
    (hpc : cfg.reconstructionInQ = "piecewise-constant") (cb : Callbacks S P (ℤ × ℤ) K) (y k : Dist S P (ℤ × ℤ) K) (s : S)
    (hk : dfdtFVM ⟨ax.1, ax.2.1, ax.2.2, (1, 0), (0, 1)⟩ cfg cb y = .ok k) :
    ∑ p, ∑ i : ZMod N1 × ZMod N2, k s p (boxCell i) = netInflow N1 N2 cfg cb y s
      + if cfg.sourceEnabled then ∑ p, ∑ i : ZMod N1 × ZMod N2, cb.source y s p (boxCell i) else 0 := by
  obtain ⟨a, b, h1, h2, h3⟩ := dfdtFVM_ok hk
  have hb : ∑ p, ∑ i : ZMod N1 × ZMod N2, b s p (boxCell i) = 0 := by
    rcases h3 with ⟨_, m, _, d⟩ | ⟨_, d⟩
    · rw [Finset.sum_comm]
      refine Finset.sum_eq_zero fun i _ => ?_
      simp only [d]
      exact sum_dfdtP _ m _ _ _ _ _ _ _ s _
    · simp [d]
  have ha : ∑ p, ∑ i : ZMod N1 × ZMod N2, a s p (boxCell i) = netInflow N1 N2 cfg cb y s
      + if cfg.sourceEnabled then ∑ p, ∑ i : ZMod N1 × ZMod N2, cb.source y s p (boxCell i) else 0 := by
    rcases h2 with ⟨_, m, hm, d⟩ | ⟨g, d⟩
    · have hm' : m = .piecewiseConstant := by
        simp only [reconMethod, hpc, if_true, Except.ok.injEq] at hm
        exact hm.symm
      subst hm'
      have r1 : ∀ p, ∑ i : ZMod N1 × ZMod N2, fluxDiv .piecewiseConstant ((1, 0) : ℤ × ℤ) cfg.dq1 (cb.Cq1 s p) (y s p) (boxCell i)
          = - ((∑ j : ZMod N2, (upwindFace (cb.Cq1 s p (0, (j.val : ℤ))) (y s p (-1, (j.val : ℤ))) (y s p (0, (j.val : ℤ)))
    - upwindFace (cb.Cq1 s p ((N1 : ℤ), (j.val : ℤ))) (y s p ((N1 : ℤ) - 1, (j.val : ℤ))) (y s p ((N1 : ℤ), (j.val : ℤ))))) / cfg.dq1) := by
        intro p
        rw [Fintype.sum_prod_type, Finset.sum_comm, Finset.sum_div, ← Finset.sum_neg_distrib]
        refine Finset.sum_congr rfl fun j _ => ?_
        simp only [boxCell]
        rw [sum_zmod (fun c => fluxDiv .piecewiseConstant ((1, 0) : ℤ × ℤ) cfg.dq1 (cb.Cq1 s p) (y s p) (c, (j.val : ℤ)))]
        have := sum_fluxDiv_line .piecewiseConstant ((1, 0) : ℤ × ℤ) cfg.dq1 (cb.Cq1 s p) (y s p) (0, (j.val : ℤ)) N1
        have e0 : ∀ c : ℤ, (0, (j.val : ℤ)) + c • ((1, 0) : ℤ × ℤ) = (c, (j.val : ℤ)) := fun c => by ext <;> simp
        simp only [e0] at this
        rw [this, lineFlux_pc, lineFlux_pc, zero_sub]
        ring
      have r2 : ∀ p, ∑ i : ZMod N1 × ZMod N2, fluxDiv .piecewiseConstant ((0, 1) : ℤ × ℤ) cfg.dq2 (cb.Cq2 s p) (y s p) (boxCell i)
          = - ((∑ i : ZMod N1, (upwindFace (cb.Cq2 s p ((i.val : ℤ), 0)) (y s p ((i.val : ℤ), -1)) (y s p ((i.val : ℤ), 0))
    - upwindFace (cb.Cq2 s p ((i.val : ℤ), (N2 : ℤ))) (y s p ((i.val : ℤ), (N2 : ℤ) - 1)) (y s p ((i.val : ℤ), (N2 : ℤ))))) / cfg.dq2) := by
        intro p
        rw [Fintype.sum_prod_type, Finset.sum_div, ← Finset.sum_neg_distrib]
        refine Finset.sum_congr rfl fun i _ => ?_
        simp only [boxCell]
        rw [sum_zmod (fun c => fluxDiv .piecewiseConstant ((0, 1) : ℤ × ℤ) cfg.dq2 (cb.Cq2 s p) (y s p) ((i.val : ℤ), c))]
        have := sum_fluxDiv_line .piecewiseConstant ((0, 1) : ℤ × ℤ) cfg.dq2 (cb.Cq2 s p) (y s p) ((i.val : ℤ), 0) N2
        have e0 : ∀ c : ℤ, ((i.val : ℤ), 0) + c • ((0, 1) : ℤ × ℤ) = ((i.val : ℤ), c) := fun c => by ext <;> simp
        simp only [e0] at this
        rw [this, lineFlux_pc, lineFlux_pc, zero_sub]
        ring
      simp only [d, dfdtQ, Finset.sum_add_distrib, Finset.sum_sub_distrib, Finset.sum_neg_distrib]
      simp only [r1, r2, netInflow]
      rw [Finset.sum_neg_distrib, Finset.sum_neg_distrib, ← Finset.sum_div, ← Finset.sum_div]
      simp only [Finset.sum_sub_distrib]
      split_ifs <;> simp <;> ring
    · exact absurd hQ g
  simp only [h1, Finset.sum_add_distrib, ha, hb, add_zero]

/-- Through a wall returning at most the mirrored value at most as much comes in as leaves. -/
theorem returned_le (fl : P → P) (hfl : ∀ p, fl (fl p) = p) (v g c : P → K) (hv : ∀ p, v (fl p) = - v p) (hc : ∀ p, c p ≤ g (fl p)) :
    ∑ p, upwindFace (v p) (c p) (g p) ≤ 0 := by
  have h1 : ∑ p, upwindFace (v p) (c p) (g p) ≤ ∑ p, upwindFace (v p) (g (fl p)) (g p) := by
    refine Finset.sum_le_sum fun p _ => ?_
    unfold upwindFace
    split_ifs with h
    · exact mul_le_mul_of_nonneg_left (hc p) h.le
    · exact le_refl _
  have h2 : ∑ p, upwindFace (v p) (g (fl p)) (g p) = 0 := by
    have e : ∀ p, upwindFace (v (fl p)) (g (fl (fl p))) (g (fl p)) = - upwindFace (v p) (g (fl p)) (g p) := by
      intro p
      rw [hfl, hv]
      unfold upwindFace
      rcases lt_trichotomy (v p) 0 with h | h | h
      · rw [if_pos (by linarith), if_neg (by linarith)]; ring
      · rw [h]; simp
      · rw [if_neg (by linarith), if_pos h]; ring
    have h3 : ∑ p, upwindFace (v (fl p)) (g (fl (fl p))) (g (fl p)) = ∑ p, upwindFace (v p) (g (fl p)) (g p) :=
      Equiv.sum_comp (⟨fl, fl, hfl, hfl⟩ : P ≃ P) (fun p => upwindFace (v p) (g (fl p)) (g p))
    simp only [e, Finset.sum_neg_distrib] at h3
    linarith
  linarith

theorem lossyWall_in {name : String} {fl : P → P} (hfl : ∀ p, fl (fl p) = p) {u : P → K → K} {v : P → K} (h : LossyWall name fl u v) (g : P → K)
    (hg : ∀ p, 0 ≤ g p) : ∑ p, upwindFace (v p) (comesIn name (u p) (g (fl p))) (g p) ≤ 0 := by
  rcases h with ⟨rfl, h⟩ | ⟨rfl, h⟩ | ⟨rfl, h, h'⟩
  · refine Finset.sum_nonpos fun p _ => ?_
    unfold upwindFace
    split_ifs with hv
    · simp [comesIn, h]
    · exact mul_nonpos_of_nonpos_of_nonneg (not_lt.mp hv) (hg p)
  · exact returned_le fl hfl v g _ h (fun p => by simp [comesIn])
  · exact returned_le fl hfl v g _ h' (fun p => by simpa [comesIn] using h p _ (hg _))

theorem lossyWall_out {name : String} {fl : P → P} (hfl : ∀ p, fl (fl p) = p) {u : P → K → K} {v : P → K} (h : LossyWall name fl u v) (g : P → K)
    (hg : ∀ p, 0 ≤ g p) : 0 ≤ ∑ p, upwindFace (v p) (g p) (comesIn name (u p) (g (fl p))) := by
  have h' : LossyWall name fl u (fun p => - v p) := by
    rcases h with ⟨a, h⟩ | ⟨a, h⟩ | ⟨a, h, h'⟩
    · exact Or.inl ⟨a, h⟩
    · exact Or.inr (Or.inl ⟨a, fun p => by simp only [h]⟩)
    · exact Or.inr (Or.inr ⟨a, h, fun p => by simp only [h']⟩)
  have := lossyWall_in hfl h' g hg
  have e : ∀ p, upwindFace (- v p) (comesIn name (u p) (g (fl p))) (g p) = - upwindFace (v p) (g p) (comesIn name (u p) (g (fl p))) := by
    intro p
    unfold upwindFace
    rcases lt_trichotomy (v p) 0 with h | h | h
    · rw [if_pos (by linarith), if_neg (by linarith)]; ring
    · rw [h]; simp
    · rw [if_neg (by linarith), if_pos h]; ring
  simp only [e, Finset.sum_neg_distrib] at this
  linarith

theorem netInflow_nonpos (name : Wall → String) (fl : Wall → P → P) (hfl : ∀ w p, fl w (fl w p) = p) (cfg : FVMConfig S K) (hd1 : 0 < cfg.dq1)
    (hd2 : 0 < cfg.dq2) (inc : Wall → S → P → ℤ × ℤ → K → K) (cb : Callbacks S P (ℤ × ℤ) K) (s : S) (hl : Lossy N1 N2 name fl s inc cb)
    (f : Dist S P (ZMod N1 × ZMod N2) K) (hf : ∀ p i, 0 ≤ f s p i) : netInflow N1 N2 cfg cb (openExt name fl inc f) s ≤ 0 := by
  have n1 : 0 < N1 := Nat.pos_of_ne_zero (NeZero.ne N1)
  have n2 : 0 < N2 := Nat.pos_of_ne_zero (NeZero.ne N2)
  obtain ⟨l1, l2⟩ := hl
  unfold netInflow
  refine add_nonpos (div_nonpos_of_nonpos_of_nonneg ?_ hd1.le) (div_nonpos_of_nonpos_of_nonneg ?_ hd2.le)
  · rw [Finset.sum_comm]
    refine Finset.sum_nonpos fun j _ => ?_
    have hj := ZMod.val_lt j
    have r2 : Decomp.InReach (name .bottom) N2 (j.val : ℤ) := Or.inr ⟨by omega, by omega⟩
    rcases l1 j with ⟨hc, hv⟩ | ⟨hc, wl, wr⟩
    · refine le_of_eq (Finset.sum_eq_zero fun p _ => ?_)
      have e : ∀ c d : ℤ, ((c : ZMod N1) = d) → openExt name fl inc f s p (c, (j.val : ℤ)) = openExt name fl inc f s p (d, (j.val : ℤ)) := by
        intro c d h
        rw [Decomp.openExt_inside _ _ _ _ _ _ _ (Or.inl hc) r2, Decomp.openExt_inside _ _ _ _ _ _ _ (Or.inl hc) r2]
        simp only [h]
      rw [hv, e (-1) ((N1 : ℤ) - 1) (by simp), e 0 (N1 : ℤ) (by simp), sub_self]
    · rw [Finset.sum_sub_distrib]
      have a := lossyWall_in (hfl .left) wl (fun p => f s p (0, j)) (fun p => hf p _)
      have b := lossyWall_out (hfl .right) wr (fun p => f s p (((N1 : ℤ) - 1 : ℤ), j)) (fun p => hf p _)
      have e1 : ∀ p, openExt name fl inc f s p (-1, (j.val : ℤ)) = comesIn (name .left) (inc .left s p (-1, (j.val : ℤ))) (f s (fl .left p) (0, j)) := by
        intro p
        rw [openExt, if_pos ⟨hc, by norm_num⟩]
        simp [cast_val_int, -ZMod.natCast_val, -Int.cast_natCast]
      have e2 : ∀ p, openExt name fl inc f s p (0, (j.val : ℤ)) = f s p (0, j) := by
        intro p
        rw [Decomp.openExt_inside _ _ _ _ _ _ _ (Or.inr ⟨le_refl _, by simp only; omega⟩) r2]
        simp [cast_val_int, -ZMod.natCast_val, -Int.cast_natCast]
      have e3 : ∀ p, openExt name fl inc f s p ((N1 : ℤ), (j.val : ℤ))
          = comesIn (name .right) (inc .right s p ((N1 : ℤ), (j.val : ℤ))) (f s (fl .right p) (((N1 : ℤ) - 1 : ℤ), j)) := by
        intro p
        rw [openExt, if_neg (by rintro ⟨-, k⟩; simp only at k; omega), if_pos ⟨hc, le_refl _⟩]
        congr 2
        ext1
        · show ((2 * N1 - 1 - N1 : ℤ) : ZMod N1) = (((N1 : ℤ) - 1 : ℤ) : ZMod N1)
          congr 1; omega
        · simp [cast_val_int, -ZMod.natCast_val, -Int.cast_natCast]
      have e4 : ∀ p, openExt name fl inc f s p ((N1 : ℤ) - 1, (j.val : ℤ)) = f s p (((N1 : ℤ) - 1 : ℤ), j) := by
        intro p
        rw [Decomp.openExt_inside _ _ _ _ _ _ _ (Or.inr ⟨by simp only; omega, by simp only; omega⟩) r2]
        simp [cast_val_int, -ZMod.natCast_val, -Int.cast_natCast]
      simp only [e1, e2, e3, e4]
      linarith
  · rw [Finset.sum_comm]
    refine Finset.sum_nonpos fun i _ => ?_
    have hi := ZMod.val_lt i
    have r1 : Decomp.InReach (name .left) N1 (i.val : ℤ) := Or.inr ⟨by omega, by omega⟩
    rcases l2 i with ⟨hc, hv⟩ | ⟨hc, wl, wr⟩
    · refine le_of_eq (Finset.sum_eq_zero fun p _ => ?_)
      have e : ∀ c d : ℤ, ((c : ZMod N2) = d) → openExt name fl inc f s p ((i.val : ℤ), c) = openExt name fl inc f s p ((i.val : ℤ), d) := by
        intro c d h
        rw [Decomp.openExt_inside _ _ _ _ _ _ _ r1 (Or.inl hc), Decomp.openExt_inside _ _ _ _ _ _ _ r1 (Or.inl hc)]
        simp only [h]
      rw [hv, e (-1) ((N2 : ℤ) - 1) (by simp), e 0 (N2 : ℤ) (by simp), sub_self]
    · rw [Finset.sum_sub_distrib]
      have a := lossyWall_in (hfl .bottom) wl (fun p => f s p (i, 0)) (fun p => hf p _)
      have b := lossyWall_out (hfl .top) wr (fun p => f s p (i, ((N2 : ℤ) - 1 : ℤ))) (fun p => hf p _)
      have e1 : ∀ p, openExt name fl inc f s p ((i.val : ℤ), -1) = comesIn (name .bottom) (inc .bottom s p ((i.val : ℤ), -1)) (f s (fl .bottom p) (i, 0)) := by
        intro p
        rw [openExt, if_neg (by rintro ⟨-, k⟩; simp only at k; omega), if_neg (by rintro ⟨-, k⟩; simp only at k; omega), if_pos ⟨hc, by norm_num⟩]
        simp [cast_val_int, -ZMod.natCast_val, -Int.cast_natCast]
      have e2 : ∀ p, openExt name fl inc f s p ((i.val : ℤ), 0) = f s p (i, 0) := by
        intro p
        rw [Decomp.openExt_inside _ _ _ _ _ _ _ r1 (Or.inr ⟨le_refl _, by simp only; omega⟩)]
        simp [cast_val_int, -ZMod.natCast_val, -Int.cast_natCast]
      have e3 : ∀ p, openExt name fl inc f s p ((i.val : ℤ), (N2 : ℤ))
          = comesIn (name .top) (inc .top s p ((i.val : ℤ), (N2 : ℤ))) (f s (fl .top p) (i, ((N2 : ℤ) - 1 : ℤ))) := by
        intro p
        rw [openExt, if_neg (by rintro ⟨-, k⟩; simp only at k; omega), if_neg (by rintro ⟨-, k⟩; simp only at k; omega),
          if_neg (by rintro ⟨-, k⟩; simp only at k; omega), if_pos ⟨hc, le_refl _⟩]
        congr 2
        ext1
        · simp [cast_val_int, -ZMod.natCast_val, -Int.cast_natCast]
        · show ((2 * N2 - 1 - N2 : ℤ) : ZMod N2) = (((N2 : ℤ) - 1 : ℤ) : ZMod N2)
          congr 1; omega
      have e4 : ∀ p, openExt name fl inc f s p ((i.val : ℤ), (N2 : ℤ) - 1) = f s p (i, ((N2 : ℤ) - 1 : ℤ)) := by
        intro p
        rw [Decomp.openExt_inside _ _ _ _ _ _ _ r1 (Or.inr ⟨by simp only; omega, by simp only; omega⟩)]
        simp [cast_val_int, -ZMod.natCast_val, -Int.cast_natCast]
      simp only [e1, e2, e3, e4]
      linarith

end totals

end Bolt
