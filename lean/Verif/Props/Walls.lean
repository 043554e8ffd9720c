import Verif.Proofs.Walls

/-!
# C27, C28, C30, C31: impermeable mirror walls, Dirichlet walls, dispatch and validation of boundary conditions
-/

set_option linter.unusedSectionVars false

namespace Bolt

/-! ## C27 -/

section C27
variable {N1 N2 : ℕ} {R : Type} [NeZero N1] [NeZero N2] (D : Decomp N1 N2 R) (g1 g2 : ℕ) {S K : Type} {Np1 Np2 Np3 : ℕ}
  [NeZero Np1] [NeZero Np2] [NeZero Np3] [Field K] [LinearOrder K] [IsStrictOrderedRing K]

/-- The face at a wall, on a process that touches it: local index of the face and direction across it; `t` is the local index along the
wall. -/
def wallFace (D : Decomp N1 N2 R) (g1 g2 : ℕ) (r : R) : Wall → ℕ → D.Loc g1 g2 r × D.Loc g1 g2 r
  | .left, t => (((g1 : ℕ), (t : ℕ)), (1, 0))
  | .right, t => (((g1 + D.n1 r : ℕ), (t : ℕ)), (1, 0))
  | .bottom, t => (((t : ℕ), (g2 : ℕ)), (0, 1))
  | .top, t => (((t : ℕ), (g2 + D.n2 r : ℕ)), (0, 1))

/-- Does process `r` own cells at the wall? -/
def ownsWall (D : Decomp N1 N2 R) (r : R) : Wall → Prop
  | .left => D.start1 r = 0
  | .right => D.start1 r + D.n1 r = N1
  | .bottom => D.start2 r = 0
  | .top => D.start2 r + D.n2 r = N2

/-- Is `t` the local index of an owned cell along the wall? -/
def alongWall (D : Decomp N1 N2 R) (g1 g2 : ℕ) (r : R) : Wall → ℕ → Prop
  | .left, t | .right, t => g2 ≤ t ∧ t < g2 + D.n2 r
  | .bottom, t | .top, t => g1 ≤ t ∧ t < g1 + D.n1 r

/-- Number of cells of process `r` across the wall. -/
def acrossWall (D : Decomp N1 N2 R) (r : R) : Wall → ℕ
  | .left | .right => D.n1 r
  | .bottom | .top => D.n2 r

/-- C27: no net flux of particles passes a mirror wall.  For every reconstruction whose stencil fits into the ghost zone (first order:
one cell), every process owning cells at the wall, every cell along the wall, any conditions on the other walls and any velocity that
is reversed together with the momentum: the flux through the wall face, summed over momentum, is zero. -/
theorem C27_mirror_walls_impermeable (o : BCOptions) {fl : Wall → PIdx Np1 Np2 Np3 → PIdx Np1 Np2 Np3} (hfl : MomentumMirror o.pGrid fl)
    (dat : ∀ r, D.LocBCData g1 g2 r S Np1 Np2 Np3 K) (F F0 : ∀ r, Dist S (PIdx Np1 Np2 Np3) (D.Loc g1 g2 r) K)
    (h : D.Synced g1 g2 o dat F F0) (r : R) (w : Wall) (hw : ownsWall D r w) (hname : o.name w = "mirror") (m : Recon)
    (hm : m.radius ≤ o.nGhost) (hn : o.nGhost ≤ acrossWall D r w) (s : S) (t : ℕ) (ht : alongWall D g1 g2 r w t)
    (C : Dist S (PIdx Np1 Np2 Np3) (D.Loc g1 g2 r) K)
    (hC : ∀ p, C s (fl w p) (wallFace D g1 g2 r w t).1 = - C s p (wallFace D g1 g2 r w t).1) :
    ∑ p, leftFlux m (wallFace D g1 g2 r w t).2 (C s p) (F0 r s p) (wallFace D g1 g2 r w t).1 = 0 := by
  obtain ⟨f, f1, f2, f3, w1, w2, w3, w4, G1, G2, fr, fbt, ft⟩ := D.synced_stages g1 g2 h r
  have hp1 := D.pos1 r
  have hp2 := D.pos2 r
  have z1 : NeZero (D.n1 r + 2 * g1) := ⟨by omega⟩
  have z2 : NeZero (D.n2 r + 2 * g2) := ⟨by omega⟩
  have hE : (D.bcEnv g1 g2 o r (dat r)).g = o.nGhost := rfl
  have hfl' : MomentumMirror (D.bcEnv g1 g2 o r (dat r)).pGrid fl := hfl
  refine mirror_flux m _ _ (fun p => C s p) (fun p => F0 r s p) (fl w) (hfl.involutive w) hC ?_
  intro p k hk0 hk1
  obtain ⟨d, rfl⟩ := Int.eq_ofNat_of_zero_le hk0
  have hd : d < o.nGhost := by omega
  cases w with
  | left =>
    have e1 := G1 (Or.inl (by rw [hname]; decide))
    simp only [ownsWall, alongWall, acrossWall] at hw ht hn
    have i1 : (wallFace D g1 g2 r .left t).1 + (-1 - (d : ℤ)) • (wallFace D g1 g2 r .left t).2 = (((g1 - 1 - d : ℕ) : ZMod _), ((t : ℕ) : ZMod _)) := by
      simp only [wallFace]
      have : ((g1 - 1 - d : ℕ) : ZMod (D.n1 r + 2 * g1)) = (g1 : ZMod (D.n1 r + 2 * g1)) - 1 - (d : ZMod _) := by
        rw [Nat.sub_sub, Nat.cast_sub (by omega)]; push_cast; ring
      rw [this]; ext <;> simp; ring
    have i2 : (wallFace D g1 g2 r .left t).1 + (d : ℤ) • (wallFace D g1 g2 r .left t).2 = (((g1 + d : ℕ) : ZMod _), ((t : ℕ) : ZMod _)) := by
      simp only [wallFace]; ext <;> simp
    rw [i1, i2]
    have v1 : ((g1 - 1 - d : ℕ) : ZMod (D.n1 r + 2 * g1)).val = g1 - 1 - d := val_natCast_lt (by omega)
    have v2 : ((g1 + d : ℕ) : ZMod (D.n1 r + 2 * g1)).val = g1 + d := val_natCast_lt (by omega)
    have v3 : ((t : ℕ) : ZMod (D.n2 r + 2 * g2)).val = t := val_natCast_lt (by omega)
    have ht' : (D.bcEnv g1 g2 o r (dat r)).touches .left = true := by simp [BCEnv.touches, Decomp.bcEnv, hw]
    rw [fbt _ _ _ (by simp only [v3]; omega) (by simp only [v3]; omega), fbt _ _ _ (by simp only [v3]; omega) (by simp only [v3]; omega),
      fr _ _ _ (by simp only [v1]; omega), fr _ _ _ (by simp only [v2]; omega)]
    rw [Decomp.atWall_mirror _ .left f f1 hfl' hname w1, Decomp.atWall_mirror _ .left f f1 hfl' hname w1, hE, e1]
    rw [if_pos ⟨ht', by simp only [inSlab, v1]; omega⟩, if_neg (by rintro ⟨_, hh⟩; simp only [inSlab, v2] at hh; omega),
      mirrorSpace_left, if_pos (by simp only [v1]; omega), v1]
    have : 2 * g1 - 1 - (g1 - 1 - d) = g1 + d := by omega
    rw [this]
  | right =>
    have e1 := G1 (Or.inr (by rw [hname]; decide))
    simp only [ownsWall, alongWall, acrossWall] at hw ht hn
    have i1 : (wallFace D g1 g2 r .right t).1 + (-1 - (d : ℤ)) • (wallFace D g1 g2 r .right t).2 = (((g1 + D.n1 r - 1 - d : ℕ) : ZMod _), ((t : ℕ) : ZMod _)) := by
      simp only [wallFace]
      have : ((g1 + D.n1 r - 1 - d : ℕ) : ZMod (D.n1 r + 2 * g1)) = ((g1 + D.n1 r : ℕ) : ZMod (D.n1 r + 2 * g1)) - 1 - (d : ZMod _) := by
        rw [Nat.sub_sub, Nat.cast_sub (by omega)]; push_cast; ring
      rw [this]; ext <;> simp; ring
    have i2 : (wallFace D g1 g2 r .right t).1 + (d : ℤ) • (wallFace D g1 g2 r .right t).2 = (((g1 + D.n1 r + d : ℕ) : ZMod _), ((t : ℕ) : ZMod _)) := by
      simp only [wallFace]; ext <;> simp
    rw [i1, i2]
    have v1 : ((g1 + D.n1 r - 1 - d : ℕ) : ZMod (D.n1 r + 2 * g1)).val = g1 + D.n1 r - 1 - d := val_natCast_lt (by omega)
    have v2 : ((g1 + D.n1 r + d : ℕ) : ZMod (D.n1 r + 2 * g1)).val = g1 + D.n1 r + d := val_natCast_lt (by omega)
    have v3 : ((t : ℕ) : ZMod (D.n2 r + 2 * g2)).val = t := val_natCast_lt (by omega)
    have ht' : (D.bcEnv g1 g2 o r (dat r)).touches .right = true := by simp [BCEnv.touches, Decomp.bcEnv, hw]
    rw [fbt _ _ _ (by simp only [v3]; omega) (by simp only [v3]; omega), fbt _ _ _ (by simp only [v3]; omega) (by simp only [v3]; omega)]
    rw [Decomp.atWall_mirror _ .right f1 f2 hfl' hname w2, Decomp.atWall_mirror _ .right f1 f2 hfl' hname w2, hE, e1]
    rw [if_neg (by rintro ⟨_, hh⟩; simp only [inSlab, v1] at hh; omega), if_pos ⟨ht', by simp only [inSlab, v2]; omega⟩,
      hfl.involutive, mirrorSpace_right _ (by omega), if_pos (by simp only [v2]; omega), v2]
    have : 2 * (D.n1 r + 2 * g1 - g1) - 1 - (g1 + D.n1 r + d) = g1 + D.n1 r - 1 - d := by omega
    rw [this]
  | bottom =>
    have e2 := G2 (Or.inl (by rw [hname]; decide))
    simp only [ownsWall, alongWall, acrossWall] at hw ht hn
    have i1 : (wallFace D g1 g2 r .bottom t).1 + (-1 - (d : ℤ)) • (wallFace D g1 g2 r .bottom t).2 = (((t : ℕ) : ZMod _), ((g2 - 1 - d : ℕ) : ZMod _)) := by
      simp only [wallFace]
      have : ((g2 - 1 - d : ℕ) : ZMod (D.n2 r + 2 * g2)) = (g2 : ZMod (D.n2 r + 2 * g2)) - 1 - (d : ZMod _) := by
        rw [Nat.sub_sub, Nat.cast_sub (by omega)]; push_cast; ring
      rw [this]; ext <;> simp; ring
    have i2 : (wallFace D g1 g2 r .bottom t).1 + (d : ℤ) • (wallFace D g1 g2 r .bottom t).2 = (((t : ℕ) : ZMod _), ((g2 + d : ℕ) : ZMod _)) := by
      simp only [wallFace]; ext <;> simp
    rw [i1, i2]
    have v1 : ((g2 - 1 - d : ℕ) : ZMod (D.n2 r + 2 * g2)).val = g2 - 1 - d := val_natCast_lt (by omega)
    have v2 : ((g2 + d : ℕ) : ZMod (D.n2 r + 2 * g2)).val = g2 + d := val_natCast_lt (by omega)
    have ht' : (D.bcEnv g1 g2 o r (dat r)).touches .bottom = true := by simp [BCEnv.touches, Decomp.bcEnv, hw]
    rw [ft _ _ _ (by simp only [v1]; omega), ft _ _ _ (by simp only [v2]; omega)]
    rw [Decomp.atWall_mirror _ .bottom f2 f3 hfl' hname w3, Decomp.atWall_mirror _ .bottom f2 f3 hfl' hname w3, hE, e2]
    rw [if_pos ⟨ht', by simp only [inSlab, v1]; omega⟩, if_neg (by rintro ⟨_, hh⟩; simp only [inSlab, v2] at hh; omega),
      mirrorSpace_bottom, if_pos (by simp only [v1]; omega), v1]
    have : 2 * g2 - 1 - (g2 - 1 - d) = g2 + d := by omega
    rw [this]
  | top =>
    have e2 := G2 (Or.inr (by rw [hname]; decide))
    simp only [ownsWall, alongWall, acrossWall] at hw ht hn
    have i1 : (wallFace D g1 g2 r .top t).1 + (-1 - (d : ℤ)) • (wallFace D g1 g2 r .top t).2 = (((t : ℕ) : ZMod _), ((g2 + D.n2 r - 1 - d : ℕ) : ZMod _)) := by
      simp only [wallFace]
      have : ((g2 + D.n2 r - 1 - d : ℕ) : ZMod (D.n2 r + 2 * g2)) = ((g2 + D.n2 r : ℕ) : ZMod (D.n2 r + 2 * g2)) - 1 - (d : ZMod _) := by
        rw [Nat.sub_sub, Nat.cast_sub (by omega)]; push_cast; ring
      rw [this]; ext <;> simp; ring
    have i2 : (wallFace D g1 g2 r .top t).1 + (d : ℤ) • (wallFace D g1 g2 r .top t).2 = (((t : ℕ) : ZMod _), ((g2 + D.n2 r + d : ℕ) : ZMod _)) := by
      simp only [wallFace]; ext <;> simp
    rw [i1, i2]
    have v1 : ((g2 + D.n2 r - 1 - d : ℕ) : ZMod (D.n2 r + 2 * g2)).val = g2 + D.n2 r - 1 - d := val_natCast_lt (by omega)
    have v2 : ((g2 + D.n2 r + d : ℕ) : ZMod (D.n2 r + 2 * g2)).val = g2 + D.n2 r + d := val_natCast_lt (by omega)
    have ht' : (D.bcEnv g1 g2 o r (dat r)).touches .top = true := by simp [BCEnv.touches, Decomp.bcEnv, hw]
    rw [Decomp.atWall_mirror _ .top f3 _ hfl' hname w4, Decomp.atWall_mirror _ .top f3 _ hfl' hname w4, hE, e2]
    rw [if_neg (by rintro ⟨_, hh⟩; simp only [inSlab, v1] at hh; omega), if_pos ⟨ht', by simp only [inSlab, v2]; omega⟩,
      hfl.involutive, mirrorSpace_top _ (by omega), if_pos (by simp only [v2]; omega), v2]
    have : 2 * (D.n2 r + 2 * g2 - g2) - 1 - (g2 + D.n2 r + d) = g2 + D.n2 r - 1 - d := by omega
    rw [this]

/-- C27: in particular for velocity equal to momentum over mass on cartesian momentum grids symmetric about zero (cell centres as in
`calculate_p.py:48-49`, velocities as in `nonrelativistic_boltzmann/advection_terms.py:94-95`). -/
theorem C27_nonrelativistic (o : BCOptions) (hcart : o.pGrid = "cartesian") (mass p1Start dp1 p2Start dp2 : K)
    (hsym1 : p1Start + Np1 * dp1 = -p1Start) (hsym2 : p2Start + Np2 * dp2 = -p2Start)
    (dat : ∀ r, D.LocBCData g1 g2 r S Np1 Np2 Np3 K) (F F0 : ∀ r, Dist S (PIdx Np1 Np2 Np3) (D.Loc g1 g2 r) K)
    (h : D.Synced g1 g2 o dat F F0) (r : R) (w : Wall) (hw : ownsWall D r w) (hname : o.name w = "mirror") (m : Recon)
    (hm : m.radius ≤ o.nGhost) (hn : o.nGhost ≤ acrossWall D r w) (s : S) (t : ℕ) (ht : alongWall D g1 g2 r w t) :
    ∑ p : PIdx Np1 Np2 Np3, leftFlux m (wallFace D g1 g2 r w t).2
      (fun _ => (match w with
        | .left | .right => p1Start + (1 / 2 + (p.1.val : K)) * dp1
        | .bottom | .top => p2Start + (1 / 2 + (p.2.1.val : K)) * dp2) / mass)
      (F0 r s p) (wallFace D g1 g2 r w t).1 = 0 := by
  refine C27_mirror_walls_impermeable D g1 g2 o (fl := flipCartesian) (Or.inl ⟨hcart, rfl⟩) dat F F0 h r w hw hname m hm hn s t ht
    (fun _ p _ => (match w with
        | .left | .right => p1Start + (1 / 2 + (p.1.val : K)) * dp1
        | .bottom | .top => p2Start + (1 / 2 + (p.2.1.val : K)) * dp2) / mass) ?_
  intro p
  cases w <;> simp only [flipCartesian, flipIdx] <;>
    first
    | rw [C26_reverses_momentum p1Start dp1 hsym1, neg_div]
    | rw [C26_reverses_momentum p2Start dp2 hsym2, neg_div]

end C27

/-! ## C28 -/

section C28
variable {S K : Type} {Np1 Np2 Np3 M1 M2 : ℕ} [Zero K] [LinearOrder K]

/-- Velocity across a wall used by the inflow test: `C_q` for the finite-volume solver, `A_q` otherwise. -/
def normalVelocity (env : BCEnv S Np1 Np2 Np3 M1 M2 K) (w : Wall) : LDist S Np1 Np2 Np3 M1 M2 K :=
  match w with
  | .left | .right => if env.solverMethodInQ = "FVM" then env.Cq1 else env.Aq1
  | .bottom | .top => if env.solverMethodInQ = "FVM" then env.Cq2 else env.Aq2

/-- The velocity points into the domain. -/
def Inward : Wall → K → Prop
  | .left, v | .bottom, v => 0 < v
  | .right, v | .top, v => v < 0

/-- C28: at a Dirichlet wall of a process that touches it, a ghost cell takes the user's value when the velocity points into the domain
and keeps its value otherwise; cells outside the wall's ghost zone keep their values. -/
theorem C28_dirichlet_prescribes_inflow (env : BCEnv S Np1 Np2 Np3 M1 M2 K) (w : Wall) (ht : env.touches w = true)
    (hname : env.name w = "dirichlet") (f : LDist S Np1 Np2 Np3 M1 M2 K) :
    ∃ f', atWall env w f = .ok f' ∧ ∀ s p i,
      (inSlab env.g w i ∧ Inward w (normalVelocity env w s p i) → f' s p i = env.user w f s p i) ∧
      (¬ (inSlab env.g w i ∧ Inward w (normalVelocity env w s p i)) → f' s p i = f s p i) := by
  refine ⟨dirichletF env w f, by rw [atWall, if_pos ht, applyWall, if_pos hname], fun s p i => ⟨?_, ?_⟩⟩
  · rintro ⟨h1, h2⟩
    have hv : env.velocity = if env.solverMethodInQ = "FVM" then (env.Cq1, env.Cq2) else (env.Aq1, env.Aq2) := rfl
    simp only [dirichletF, setSlab]
    rw [if_pos h1]
    cases w <;> simp only [Inward, normalVelocity] at h2 <;> simp only [hv] <;> split_ifs at h2 ⊢ with h3 <;> simp_all [afSelect]
  · intro h
    by_cases h1 : inSlab env.g w i
    · have h2 : ¬ Inward w (normalVelocity env w s p i) := fun h2 => h ⟨h1, h2⟩
      have hv : env.velocity = if env.solverMethodInQ = "FVM" then (env.Cq1, env.Cq2) else (env.Aq1, env.Aq2) := rfl
      simp only [dirichletF, setSlab]
      rw [if_pos h1]
      cases w <;> simp only [Inward, normalVelocity] at h2 <;> simp only [hv] <;> split_ifs at h2 ⊢ with h3 <;> simp_all [afSelect]
    · exact dirichletF_frame env w f s p i h1

/-- C28: with `mirror+dirichlet` the outgoing momenta of the ghost cells hold the mirror value instead. -/
theorem C28_mirror_dirichlet (env : BCEnv S Np1 Np2 Np3 M1 M2 K) (w : Wall) (ht : env.touches w = true)
    (hname : env.name w = "mirror+dirichlet") (f f' : LDist S Np1 Np2 Np3 M1 M2 K) (h : atWall env w f = .ok f') :
    ∃ f1, mirrorF env w f = .ok f1 ∧ ∀ s p i,
      (inSlab env.g w i ∧ Inward w (normalVelocity env w s p i) → f' s p i = env.user w f1 s p i) ∧
      (¬ (inSlab env.g w i ∧ Inward w (normalVelocity env w s p i)) → f' s p i = f1 s p i) := by
  rw [atWall, if_pos ht, applyWall, if_neg (by rw [hname]; decide), if_neg (by rw [hname]; decide), if_pos hname] at h
  cases hm : mirrorF env w f with
  | error e => simp [hm, bind, Except.bind] at h
  | ok f1 =>
    simp only [hm, bind, Except.bind, pure, Except.pure, Except.ok.injEq] at h
    refine ⟨f1, rfl, ?_⟩
    obtain ⟨f2, h2, h3⟩ := C28_dirichlet_prescribes_inflow { env with name := fun _ => "dirichlet" } w
      (by cases w <;> exact ht) rfl f1
    rw [atWall, if_pos (by cases w <;> exact ht), applyWall, if_pos rfl, Except.ok.injEq] at h2
    have : f' = f2 := by rw [← h, ← h2]; cases w <;> rfl
    subst this
    intro s p i
    have := h3 s p i
    cases w <;> exact this

end C28

/-! ## C30 -/

section C30
variable {S K : Type} {Np1 Np2 Np3 M1 M2 : ℕ} [Zero K] [LinearOrder K]

theorem atWall_iff (env : BCEnv S Np1 Np2 Np3 M1 M2 K) (w : Wall) (f f' : LDist S Np1 Np2 Np3 M1 M2 K) :
    atWall env w f = .ok f' ↔ WallEffect env w f f' := by
  unfold atWall
  constructor
  · intro h
    split_ifs at h with ht
    · unfold applyWall at h
      split_ifs at h with h1 h2 h3 h4 h5
      · simp only [Except.ok.injEq] at h; subst h; exact .dirichlet ht h1
      · exact .mirror ht h2 h
      · cases hm : mirrorF env w f with
        | error e => simp [hm, bind, Except.bind] at h
        | ok f1 =>
          simp only [hm, bind, Except.bind, pure, Except.pure, Except.ok.injEq] at h
          subst h; exact .mirrorDirichlet ht h3 hm
      · simp only [Except.ok.injEq] at h; subst h; exact .nothing ht (by simpa using h4)
      · simp only [Except.ok.injEq] at h; subst h; exact .shearing ht h5
    · simp only [Except.ok.injEq] at h; subst h; exact .elsewhere (by simpa using ht)
  · rintro (h | ⟨ht, h⟩ | ⟨ht, h⟩ | ⟨ht, h, hm⟩ | ⟨ht, h, hm⟩ | ⟨ht, h⟩)
    · rw [if_neg (by simp [h])]
    · rw [if_pos ht]
      simp only [List.mem_cons, List.not_mem_nil, or_false] at h
      unfold applyWall
      rw [if_neg (by rcases h with h | h <;> rw [h] <;> decide), if_neg (by rcases h with h | h <;> rw [h] <;> decide),
        if_neg (by rcases h with h | h <;> rw [h] <;> decide), if_pos h]
    · rw [if_pos ht, applyWall, if_pos h]
    · rw [if_pos ht, applyWall, if_neg (by rw [h]; decide), if_pos h, hm]
    · rw [if_pos ht, applyWall, if_neg (by rw [h]; decide), if_neg (by rw [h]; decide), if_pos h, hm]; rfl
    · rw [if_pos ht, applyWall, if_neg (by rw [h]; decide), if_neg (by rw [h]; decide), if_neg (by rw [h]; decide),
        if_neg (by rw [h]; decide), if_pos h]

/-- C30: applying boundary conditions yields `f'` exactly when `f'` arises from `f` by the effects of the left, right, bottom and top
walls, in this order. -/
theorem C30_dispatch (env : BCEnv S Np1 Np2 Np3 M1 M2 K) (f f' : LDist S Np1 Np2 Np3 M1 M2 K) :
    applyBcsF env f = .ok f' ↔ ∃ f1 f2 f3, WallEffect env .left f f1 ∧ WallEffect env .right f1 f2 ∧ WallEffect env .bottom f2 f3 ∧
      WallEffect env .top f3 f' := by
  simp only [← atWall_iff]
  constructor
  · exact applyBcsF_ok
  · rintro ⟨f1, f2, f3, h1, h2, h3, h4⟩
    simp only [applyBcsF, bind, Except.bind, h1, h2, h3, h4]

/-- C30: with a usable momentum grid it raises exactly when some wall that the process touches has an unknown name, and then it raises
`NotImplementedError`. -/
theorem C30_unknown_raises (env : BCEnv S Np1 Np2 Np3 M1 M2 K) {fl : Wall → PIdx Np1 Np2 Np3 → PIdx Np1 Np2 Np3}
    (hfl : MomentumMirror env.pGrid fl) (f : LDist S Np1 Np2 Np3 M1 M2 K) :
    ((∃ w, env.touches w = true ∧ env.name w ∉ knownBCs) → applyBcsF env f = .error .notImplemented) ∧
    ((¬ ∃ w, env.touches w = true ∧ env.name w ∉ knownBCs) → ∃ f', applyBcsF env f = .ok f') := by
  have known : ∀ w f, (env.touches w = true → env.name w ∈ knownBCs) → ∃ f', atWall env w f = .ok f' := by
    intro w f hk
    unfold atWall
    split_ifs with ht
    · have := hk ht
      simp only [knownBCs, List.mem_cons, List.not_mem_nil, or_false] at this
      unfold applyWall
      rw [mirrorF_eq env w f hfl]
      rcases this with h | h | h | h | h | h <;> rw [h] <;> simp [bind, Except.bind, pure, Except.pure]
    · exact ⟨f, rfl⟩
  have unknown : ∀ w f, env.touches w = true → env.name w ∉ knownBCs → atWall env w f = .error .notImplemented := by
    intro w f ht hk
    simp only [knownBCs, List.mem_cons, List.not_mem_nil, or_false, not_or] at hk
    obtain ⟨a, b, c, d, e, g⟩ := hk
    rw [atWall, if_pos ht, applyWall, if_neg a, if_neg b, if_neg c, if_neg (by rintro (h | h); exacts [d h, e h]), if_neg g]
  have step : ∀ w f, (∃ f', atWall env w f = .ok f') ∧ (env.touches w = true → env.name w ∈ knownBCs) ∨
      atWall env w f = .error .notImplemented ∧ env.touches w = true ∧ env.name w ∉ knownBCs := by
    intro w f
    by_cases h : env.touches w = true → env.name w ∈ knownBCs
    · exact Or.inl ⟨known w f h, h⟩
    · push Not at h
      exact Or.inr ⟨unknown w f h.1 h.2, h⟩
  constructor
  · rintro ⟨w, ht, hk⟩
    unfold applyBcsF
    simp only [bind, Except.bind]
    rcases step .left f with ⟨⟨f1, h1⟩, k1⟩ | ⟨h1, _⟩ <;> simp only [h1]
    rcases step .right f1 with ⟨⟨f2, h2⟩, k2⟩ | ⟨h2, _⟩ <;> simp only [h2]
    rcases step .bottom f2 with ⟨⟨f3, h3⟩, k3⟩ | ⟨h3, _⟩ <;> simp only [h3]
    rcases step .top f3 with ⟨⟨f4, h4⟩, k4⟩ | ⟨h4, _⟩ <;> simp only [h4]
    cases w
    · exact absurd (k1 ht) hk
    · exact absurd (k2 ht) hk
    · exact absurd (k3 ht) hk
    · exact absurd (k4 ht) hk
  · intro hno
    push Not at hno
    obtain ⟨f1, h1⟩ := known .left f (hno .left)
    obtain ⟨f2, h2⟩ := known .right f1 (hno .right)
    obtain ⟨f3, h3⟩ := known .bottom f2 (hno .bottom)
    obtain ⟨f4, h4⟩ := known .top f3 (hno .top)
    exact ⟨f4, by simp only [applyBcsF, bind, Except.bind, h1, h2, h3, h4]⟩

/-- C30: on a process touching no wall nothing happens, whatever the names. -/
theorem C30_inner_process (env : BCEnv S Np1 Np2 Np3 M1 M2 K) (h : ∀ w, env.touches w = false) (f : LDist S Np1 Np2 Np3 M1 M2 K) :
    applyBcsF env f = .ok f :=
  (C30_dispatch env f f).mpr ⟨f, f, f, .elsewhere (h _), .elsewhere (h _), .elsewhere (h _), .elsewhere (h _)⟩

/-- C30: who touches a wall: exactly the processes that own its cells. -/
theorem C30_touches_iff_owns {N1 N2 : ℕ} {R : Type} (D : Decomp N1 N2 R) (g1 g2 : ℕ) (o : BCOptions) (r : R)
    (dat : D.LocBCData g1 g2 r S Np1 Np2 Np3 K) (w : Wall) : (D.bcEnv g1 g2 o r dat).touches w = true ↔ ownsWall D r w := by
  have h1 := D.pos1 r
  have h2 := D.pos2 r
  have h3 := D.fits1 r
  have h4 := D.fits2 r
  cases w <;> simp only [BCEnv.touches, Decomp.bcEnv, ownsWall, beq_iff_eq] <;> omega

/-- C30: the same for the fields: unknown names raise `NotImplementedError`; known ones other than shearing-box succeed; shearing-box
raises `AttributeError`. -/
theorem C30_fields {K : Type} (env : FieldBCEnv M1 M2 K) (b : Bool) (w : Wall) (ht : env.touches w = true)
    (F : EM (ZMod M1 × ZMod M2) K) :
    (env.name w ∉ knownBCs → atWallFields env b w F = .error .notImplemented) ∧
    (env.name w = "shearing-box" → atWallFields env b w F = .error .attributeError) ∧
    (env.name w ∈ ["periodic", "none"] → atWallFields env b w F = .ok F) ∧
    (env.name w = "mirror" → atWallFields env b w F = .ok (mirrorFields env.g w b F)) ∧
    (env.name w = "dirichlet" → atWallFields env b w F = .ok (dirichletFields env w F)) ∧
    (env.name w = "mirror+dirichlet" → atWallFields env b w F = .ok (dirichletFields env w (mirrorFields env.g w b F))) := by
  rw [atWallFields, if_pos ht]
  refine ⟨fun hk => ?_, fun h => ?_, fun h => ?_, fun h => ?_, fun h => ?_, fun h => ?_⟩
  · simp only [knownBCs, List.mem_cons, List.not_mem_nil, or_false, not_or] at hk
    obtain ⟨a, b, c, d, e, g⟩ := hk
    rw [applyWallFields, if_neg a, if_neg b, if_neg c, if_neg (by rintro (h | h); exacts [d h, e h]), if_neg g]
  · simp [applyWallFields, h]
  · simp only [List.mem_cons, List.not_mem_nil, or_false] at h
    rcases h with h | h <;> simp [applyWallFields, h]
  · simp [applyWallFields, h]
  · simp [applyWallFields, h]
  · simp [applyWallFields, h]

end C30

/-! ## C31 -/

/-- The names that must be used at both ends of a direction or at none. -/
def pairedBCs : List String := ["periodic", "shearing-box", "none"]

/-- C31: the constructor rejects exactly the configurations in which a periodic, shearing-box or missing left (bottom) condition is
paired with a different right (top) condition. -/
theorem C31_validation (nGhost : ℕ) (name : Wall → String) :
    (setupBCs nGhost name = .error .exception ↔
      (name .left ∈ pairedBCs ∧ name .right ≠ name .left) ∨ (name .bottom ∈ pairedBCs ∧ name .top ≠ name .bottom)) ∧
    ((∃ x, setupBCs nGhost name = .ok x) ↔
      ¬ ((name .left ∈ pairedBCs ∧ name .right ≠ name .left) ∨ (name .bottom ∈ pairedBCs ∧ name .top ≠ name .bottom))) := by
  have key : ∀ a b : String, (a ∈ pairedBCs ∧ b ≠ a) ↔
      (a = "periodic" ∧ b ≠ "periodic") ∨ (a = "shearing-box" ∧ b ≠ "shearing-box") ∨ (a = "none" ∧ b ≠ "none") := by
    intro a b
    simp only [pairedBCs, List.mem_cons, List.not_mem_nil, or_false]
    constructor
    · rintro ⟨rfl | rfl | rfl, h⟩ <;> simp [h]
    · rintro (⟨rfl, h⟩ | ⟨rfl, h⟩ | ⟨rfl, h⟩) <;> simp [h]
  rw [key, key]
  have main : (setupBCs nGhost name = .error .exception ∧
      (((name .left = "periodic" ∧ name .right ≠ "periodic") ∨ (name .left = "shearing-box" ∧ name .right ≠ "shearing-box") ∨
        (name .left = "none" ∧ name .right ≠ "none")) ∨ ((name .bottom = "periodic" ∧ name .top ≠ "periodic") ∨
        (name .bottom = "shearing-box" ∧ name .top ≠ "shearing-box") ∨ (name .bottom = "none" ∧ name .top ≠ "none")))) ∨
      ((∃ x, setupBCs nGhost name = .ok x) ∧
      ¬ (((name .left = "periodic" ∧ name .right ≠ "periodic") ∨ (name .left = "shearing-box" ∧ name .right ≠ "shearing-box") ∨
        (name .left = "none" ∧ name .right ≠ "none")) ∨ ((name .bottom = "periodic" ∧ name .top ≠ "periodic") ∨
        (name .bottom = "shearing-box" ∧ name .top ≠ "shearing-box") ∨ (name .bottom = "none" ∧ name .top ≠ "none")))) := by
    generalize hr : setupBCs nGhost name = res
    unfold setupBCs at hr
    split_ifs at hr with h1 h2 h3 h4 h5 h6 <;> subst hr
    · exact Or.inl ⟨rfl, Or.inl (Or.inl h1)⟩
    · exact Or.inl ⟨rfl, Or.inl (Or.inr (Or.inl h2))⟩
    · exact Or.inl ⟨rfl, Or.inr (Or.inl h3)⟩
    · exact Or.inl ⟨rfl, Or.inr (Or.inr (Or.inl h4))⟩
    · exact Or.inl ⟨rfl, Or.inl (Or.inr (Or.inr h5))⟩
    · exact Or.inl ⟨rfl, Or.inr (Or.inr (Or.inr h6))⟩
    · exact Or.inr ⟨⟨_, rfl⟩, by rintro ((h | h | h) | (h | h | h)) <;> contradiction⟩
  rcases main with ⟨h, hP⟩ | ⟨⟨x, h⟩, hP⟩
  · exact ⟨iff_of_true h hP, iff_of_false (by rintro ⟨x, hx⟩; rw [h] at hx; cases hx) (not_not.mpr hP)⟩
  · exact ⟨iff_of_false (by rw [h]; intro hx; cases hx) hP, iff_of_true ⟨x, h⟩ hP⟩

/-- C31: the ghost widths chosen: none along an axis whose first condition is `none`, `N_ghost` otherwise. -/
theorem C31_ghost_widths (nGhost : ℕ) (name : Wall → String) (x : (Decomp.PetscBC × ℕ) × (Decomp.PetscBC × ℕ))
    (h : setupBCs nGhost name = .ok x) :
    x.1.2 = (if name .left = "none" then 0 else nGhost) ∧ x.2.2 = (if name .bottom = "none" then 0 else nGhost) := by
  unfold setupBCs at h
  split_ifs at h
  simp only [Except.ok.injEq] at h
  subst h
  simp only [petscAxis]
  constructor <;> split_ifs <;> rfl

/-- C31: how the axes are communicated.  For the distribution an axis is periodic exactly if its first condition is `periodic` or
`shearing-box`, absent exactly if it is `none`, and bounded otherwise; for the fields an axis with mirrors is periodic as well. -/
theorem C31_communication_types (nGhost : ℕ) (first : String) :
    ((petscAxis nGhost first).1 = .periodic ↔ first ∈ ["periodic", "shearing-box"]) ∧
    ((petscAxis nGhost first).1 = .none ↔ first = "none") ∧
    ((petscAxis nGhost first).1 = .ghosted ↔ first ∉ ["periodic", "shearing-box", "none"]) ∧
    ((petscAxisFields nGhost first).1 = .periodic ↔ first ∈ ["periodic", "shearing-box", "mirror"]) ∧
    ((petscAxisFields nGhost first).1 = .none ↔ first = "none") ∧
    ((petscAxisFields nGhost first).1 = .ghosted ↔ first ∉ ["periodic", "shearing-box", "mirror", "none"]) ∧
    (petscAxis nGhost first).2 = (if first = "none" then 0 else nGhost) ∧
    (petscAxisFields nGhost first).2 = (petscAxis nGhost first).2 := by
  by_cases h1 : first = "periodic"
  · subst h1; simp [petscAxis, petscAxisFields]
  by_cases h2 : first = "shearing-box"
  · subst h2; simp [petscAxis, petscAxisFields]
  by_cases h3 : first = "mirror"
  · subst h3; simp [petscAxis, petscAxisFields]
  by_cases h4 : first = "none"
  · subst h4; simp [petscAxis, petscAxisFields]
  simp [petscAxis, petscAxisFields, h1, h2, h3, h4]

/-- C31, negative part: the test looks at the left and bottom names only, so a periodic right wall behind a Dirichlet left wall is
accepted; and unknown names are accepted (they raise in the first step, `C30_unknown_raises`). -/
theorem C31_accepts_mismatch (nGhost : ℕ) :
    (∃ x, setupBCs nGhost (fun w => if w = .right then "periodic" else "dirichlet") = .ok x) ∧
    (∃ x, setupBCs nGhost (fun _ => "no such condition") = .ok x) := by
  constructor <;> exact ⟨_, rfl⟩

end Bolt
