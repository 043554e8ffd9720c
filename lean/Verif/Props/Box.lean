import Verif.Props.Walls

/-!
# C55, C56: runs in a box with periodic and mirror walls
-/

set_option linter.unusedSectionVars false

namespace Bolt

namespace Decomp

variable {N1 N2 : ℕ} {R : Type} [NeZero N1] [NeZero N2] (D : Decomp N1 N2 R) (g1 g2 : ℕ) {S K : Type} {Np1 Np2 Np3 : ℕ}
  [Field K] [LinearOrder K] [IsStrictOrderedRing K]

theorem bcStep_agrees (o : BCOptions) (k1 k2 : AxisEnd) (h1 : AxisSetup k1 (o.name .left) (o.name .right) N1)
    (h2 : AxisSetup k2 (o.name .bottom) (o.name .top) N2) {fl : Wall → PIdx Np1 Np2 Np3 → PIdx Np1 Np2 Np3}
    (hfl : MomentumMirror o.pGrid fl) (hn : ∀ r, g1 ≤ D.n1 r ∧ g2 ≤ D.n2 r)
    (ax : PIdx Np1 Np2 Np3 × PIdx Np1 Np2 Np3 × PIdx Np1 Np2 Np3) (cfg : FVMConfig S K)
    (hg : ∀ m, reconMethod cfg.reconstructionInQ = .ok m → BoxGhosts m k1 g1 N1 ∧ BoxGhosts m k2 g2 N2) (dt : K)
    (dat : Fin 2 → ∀ r, D.LocBCData g1 g2 r S Np1 Np2 Np3 K) (cb : Fin 2 → ∀ r, Callbacks S (PIdx Np1 Np2 Np3) (D.Loc g1 g2 r) K)
    (cbG : Fin 2 → Callbacks S (PIdx Np1 Np2 Np3) (ℤ × ℤ) K)
    (hcb : ∀ j r, D.CallbacksAgreeBox g1 g2 r (cb j r) (cbG j))
    (F F' : ∀ r, Dist S (PIdx Np1 Np2 Np3) (D.Loc g1 g2 r) K) (f f' : Dist S (PIdx Np1 Np2 Np3) (ZMod N1 × ZMod N2) K)
    (hF : D.Holds g1 g2 F f) (h : D.BcStep g1 g2 o ax cfg dt dat cb F F')
    (h' : boxStep (boxExt k1 k2 (fl .left) (fl .bottom)) ax cfg dt cbG f = .ok f') : D.Holds g1 g2 F' f' := by
  obtain ⟨F0, s0, Fh, s1, a, b, c, d, rfl⟩ := h
  obtain ⟨l0, l1, a', b', rfl⟩ := boxStep_ok h'
  rw [holds_iff] at hF
  subst hF
  have i0 := D.sync_box g1 g2 o k1 k2 h1 h2 hfl hn _ F F0 a
  have e0 : ∀ r s p l, D.Interior g1 g2 r l → s0 r s p l = l0 s p (D.signed g1 g2 r l) := fun r =>
    slope_box D g1 g2 ax cfg k1 k2 _ _ hg r _ _ (hcb 0 r) _ _ (i0 r) _ _ (b r) a'
  have hh : D.assemble g1 g2 (fun r s p l => F0 r s p l + s0 r s p l * (dt / 2))
      = fun s p i => D.assemble g1 g2 F s p i + l0 s p (boxCell i) * (dt / 2) := by
    rw [← holds_iff]
    intro r s p l hl
    beta_reduce
    rw [i0, e0 r s p l hl, signed_interior D g1 g2 r l hl, boxExt_boxCell]
  have i1 := D.sync_box g1 g2 o k1 k2 h1 h2 hfl hn _ _ Fh c
  rw [hh] at i1
  have e1 : ∀ r s p l, D.Interior g1 g2 r l → s1 r s p l = l1 s p (D.signed g1 g2 r l) := fun r =>
    slope_box D g1 g2 ax cfg k1 k2 _ _ hg r _ _ (hcb 1 r) _ _ (i1 r) _ _ (d r) b'
  intro r s p l hl
  beta_reduce
  rw [i0, e1 r s p l hl, signed_interior D g1 g2 r l hl, boxExt_boxCell]

/-- C56: in a box whose directions are periodic, mirrored, or one cell without ghost zones, a run of any number of steps on any
decomposition (every process holding at least as many cells as ghost cells, ghost zones covering the stencil) computes in the bulk of
every process exactly the undecomposed method-of-images run. -/
theorem C56_box_decomposition_independence (o : BCOptions) (k1 k2 : AxisEnd) (h1 : AxisSetup k1 (o.name .left) (o.name .right) N1)
    (h2 : AxisSetup k2 (o.name .bottom) (o.name .top) N2) {fl : Wall → PIdx Np1 Np2 Np3 → PIdx Np1 Np2 Np3}
    (hfl : MomentumMirror o.pGrid fl) (hn : ∀ r, g1 ≤ D.n1 r ∧ g2 ≤ D.n2 r)
    (ax : PIdx Np1 Np2 Np3 × PIdx Np1 Np2 Np3 × PIdx Np1 Np2 Np3) (cfg : FVMConfig S K)
    (hg : ∀ m, reconMethod cfg.reconstructionInQ = .ok m → BoxGhosts m k1 g1 N1 ∧ BoxGhosts m k2 g2 N2)
    (steps : List (K × (Fin 2 → ∀ r, D.LocBCData g1 g2 r S Np1 Np2 Np3 K) ×
      (Fin 2 → ∀ r, Callbacks S (PIdx Np1 Np2 Np3) (D.Loc g1 g2 r) K) × (Fin 2 → Callbacks S (PIdx Np1 Np2 Np3) (ℤ × ℤ) K)))
    (hcb : ∀ st ∈ steps, ∀ j r, D.CallbacksAgreeBox g1 g2 r (st.2.2.1 j r) (st.2.2.2 j))
    (F F' : ∀ r, Dist S (PIdx Np1 Np2 Np3) (D.Loc g1 g2 r) K) (f f' : Dist S (PIdx Np1 Np2 Np3) (ZMod N1 × ZMod N2) K)
    (hF : D.Holds g1 g2 F f) (h : D.BcRun g1 g2 o ax cfg (steps.map fun st => (st.1, st.2.1, st.2.2.1)) F F')
    (h' : boxRun (boxExt k1 k2 (fl .left) (fl .bottom)) ax cfg (steps.map fun st => (st.1, st.2.2.2)) f = .ok f') :
    D.Holds g1 g2 F' f' := by
  induction steps generalizing F f with
  | nil =>
    simp only [List.map_nil, BcRun, boxRun, Except.ok.injEq] at h h'
    subst h h'; exact hF
  | cons st rest ih =>
    obtain ⟨dt, dat, cb, cbG⟩ := st
    simp only [List.map_cons, BcRun] at h
    obtain ⟨G, hG, hR⟩ := h
    simp only [List.map_cons, boxRun, bind, Except.bind] at h'
    cases h0 : boxStep (boxExt k1 k2 (fl .left) (fl .bottom)) ax cfg dt cbG f with
    | error e => simp [h0] at h'
    | ok g =>
      simp only [h0] at h'
      exact ih (fun st hst => hcb st (by simp [hst])) G g
        (D.bcStep_agrees g1 g2 o k1 k2 h1 h2 hfl hn ax cfg hg dt dat cb cbG (hcb (dt, dat, cb, cbG) (by simp)) F G f g hF hG h0) hR h'

/-- The undecomposed run exists whenever the reconstruction names are implemented. -/
theorem boxRun_succeeds {P : Type} [AddCommGroup P] (ext : Dist S P (ZMod N1 × ZMod N2) K → Dist S P (ℤ × ℤ) K) (ax : P × P × P)
    (cfg : FVMConfig S K)
    (hq : cfg.reconstructionInQ = "piecewise-constant" ∨ cfg.reconstructionInQ = "minmod" ∨ cfg.reconstructionInQ = "ppm")
    (hp : cfg.reconstructionInP = "piecewise-constant" ∨ cfg.reconstructionInP = "minmod" ∨ cfg.reconstructionInP = "ppm")
    (steps : List (K × (Fin 2 → Callbacks S P (ℤ × ℤ) K))) (f : Dist S P (ZMod N1 × ZMod N2) K) :
    ∃ f', boxRun ext ax cfg steps f = .ok f' := by
  induction steps generalizing f with
  | nil => exact ⟨f, rfl⟩
  | cons st rest ih =>
    obtain ⟨dt, cb⟩ := st
    obtain ⟨k0, h0⟩ := (C09_slope_ok_iff ⟨ax.1, ax.2.1, ax.2.2, (1, 0), (0, 1)⟩ cfg (cb 0) (ext f)).mpr ⟨fun _ => hq, fun _ => hp⟩
    obtain ⟨k1, h1⟩ := (C09_slope_ok_iff ⟨ax.1, ax.2.1, ax.2.2, (1, 0), (0, 1)⟩ cfg (cb 1)
      (ext fun s p i => f s p i + k0 s p (boxCell i) * (dt / 2))).mpr ⟨fun _ => hq, fun _ => hp⟩
    obtain ⟨f', h'⟩ := ih (fun s p i => f s p i + k1 s p (boxCell i) * dt)
    refine ⟨f', ?_⟩
    simp only [boxRun, boxStep, bind, Except.bind, pure, Except.pure, h0, h1, h']

/-- The decomposed run exists: for a valid configuration communication, boundary conditions and slopes succeed on every process. -/
theorem C56_run_exists (o : BCOptions) (bc1 bc2 : PetscBC) (hset : setupBCs o.nGhost o.name = .ok ((bc1, g1), (bc2, g2)))
    {fl : Wall → PIdx Np1 Np2 Np3 → PIdx Np1 Np2 Np3} (hfl : MomentumMirror o.pGrid fl) (hknown : ∀ w, o.name w ∈ knownBCs)
    (ax : PIdx Np1 Np2 Np3 × PIdx Np1 Np2 Np3 × PIdx Np1 Np2 Np3) (cfg : FVMConfig S K)
    (hq : cfg.reconstructionInQ = "piecewise-constant" ∨ cfg.reconstructionInQ = "minmod" ∨ cfg.reconstructionInQ = "ppm")
    (hp : cfg.reconstructionInP = "piecewise-constant" ∨ cfg.reconstructionInP = "minmod" ∨ cfg.reconstructionInP = "ppm")
    (steps : List (K × (Fin 2 → ∀ r, D.LocBCData g1 g2 r S Np1 Np2 Np3 K) ×
      (Fin 2 → ∀ r, Callbacks S (PIdx Np1 Np2 Np3) (D.Loc g1 g2 r) K)))
    (F : ∀ r, Dist S (PIdx Np1 Np2 Np3) (D.Loc g1 g2 r) K) : ∃ F', D.BcRun g1 g2 o ax cfg steps F F' := by
  have sync : ∀ (dat : ∀ r, D.LocBCData g1 g2 r S Np1 Np2 Np3 K) (F : ∀ r, Dist S (PIdx Np1 Np2 Np3) (D.Loc g1 g2 r) K),
      ∃ F0, D.Synced g1 g2 o dat F F0 := by
    intro dat F
    have ok : ∀ r, ∃ f', applyBcsF (D.bcEnv g1 g2 o r (dat r)) (D.exchange g1 g2 bc1 bc2 F F r) = .ok f' := fun r =>
      (C30_unknown_raises (D.bcEnv g1 g2 o r (dat r)) (fl := fl) hfl _).2 (by
        rintro ⟨w, _, h⟩; exact h (hknown w))
    choose F0 hF0 using ok
    exact ⟨F0, bc1, bc2, F, hset, hF0⟩
  induction steps generalizing F with
  | nil => exact ⟨F, rfl⟩
  | cons st rest ih =>
    obtain ⟨dt, dat, cb⟩ := st
    have ok : ∀ r (c : Callbacks S (PIdx Np1 Np2 Np3) (D.Loc g1 g2 r) K) x,
        ∃ k, dfdtFVM (D.locAxes g1 g2 r ax.1 ax.2.1 ax.2.2) cfg c x = .ok k := fun r c x =>
      (C09_slope_ok_iff _ cfg c x).mpr ⟨fun _ => hq, fun _ => hp⟩
    obtain ⟨F0, hF0⟩ := sync (dat 0) F
    have ok0 := fun r => ok r (cb 0 r) (F0 r)
    choose s0 hs0 using ok0
    obtain ⟨Fh, hFh⟩ := sync (dat 1) (fun r s p l => F0 r s p l + s0 r s p l * (dt / 2))
    have ok1 := fun r => ok r (cb 1 r) (Fh r)
    choose s1 hs1 using ok1
    obtain ⟨F', hF'⟩ := ih (fun r s p l => F0 r s p l + s1 r s p l * dt)
    exact ⟨F', _, ⟨F0, s0, Fh, s1, hF0, hs0, hFh, hs1, rfl⟩, hF'⟩

/-! ## C55 -/

section C55
variable [NeZero Np1] [NeZero Np2] [NeZero Np3]

/-- Callback values that let no particles through the walls and create none: at the two ends of each direction the velocities are equal
(periodic) or reversed together with the momentum (mirrors), and the source, if enabled, conserves the number of particles. -/
def Closed (k1 k2 : AxisEnd) (fl1 fl2 : PIdx Np1 Np2 Np3 → PIdx Np1 Np2 Np3) (cfg : FVMConfig S K) (s : S) (N1 N2 : ℕ) [NeZero N1] [NeZero N2]
    (cb : Callbacks S (PIdx Np1 Np2 Np3) (ℤ × ℤ) K) : Prop :=
  (∀ j : ZMod N2, WallVelocity k1 fl1 (fun p => cb.Cq1 s p (0, (j.val : ℤ))) (fun p => cb.Cq1 s p ((N1 : ℤ), (j.val : ℤ)))) ∧
  (∀ i : ZMod N1, WallVelocity k2 fl2 (fun p => cb.Cq2 s p ((i.val : ℤ), 0)) (fun p => cb.Cq2 s p ((i.val : ℤ), (N2 : ℤ)))) ∧
  (cfg.sourceEnabled = true → ∀ f, ∑ p, ∑ i : ZMod N1 × ZMod N2, cb.source f s p (boxCell i) = 0)

theorem boxRun_total (k1 k2 : AxisEnd) {pGrid : String} {fl : Wall → PIdx Np1 Np2 Np3 → PIdx Np1 Np2 Np3} (hfl : MomentumMirror pGrid fl)
    (ax : PIdx Np1 Np2 Np3 × PIdx Np1 Np2 Np3 × PIdx Np1 Np2 Np3) (cfg : FVMConfig S K) (s : S)
    (steps : List (K × (Fin 2 → Callbacks S (PIdx Np1 Np2 Np3) (ℤ × ℤ) K)))
    (hcl : ∀ st ∈ steps, ∀ j, Closed k1 k2 (fl .left) (fl .bottom) cfg s N1 N2 (st.2 j))
    (f f' : Dist S (PIdx Np1 Np2 Np3) (ZMod N1 × ZMod N2) K)
    (h : boxRun (boxExt k1 k2 (fl .left) (fl .bottom)) ax cfg steps f = .ok f') : ∑ p, ∑ i, f' s p i = ∑ p, ∑ i, f s p i := by
  induction steps generalizing f with
  | nil =>
    simp only [boxRun, Except.ok.injEq] at h
    subst h; rfl
  | cons st rest ih =>
    obtain ⟨dt, cb⟩ := st
    simp only [boxRun, bind, Except.bind] at h
    cases h0 : boxStep (boxExt k1 k2 (fl .left) (fl .bottom)) ax cfg dt cb f with
    | error e => simp [h0] at h
    | ok g =>
      simp only [h0] at h
      rw [ih (fun st hst => hcl st (by simp [hst])) g h]
      obtain ⟨l0, l1, a, b, rfl⟩ := boxStep_ok h0
      obtain ⟨c1, c2, c3⟩ := hcl (dt, cb) (by simp) 1
      have := box_total ax cfg (cb 1) k1 k2 (fl .left) (fl .bottom) (hfl.involutive _) (hfl.involutive _) hfl.commute _ l1 s c1 c2
        (fun hs => c3 hs _) b
      simp only [Finset.sum_add_distrib, ← Finset.sum_mul, this, zero_mul, add_zero]

/-- C55: in a box whose directions end periodically or at two mirrors, the number of particles of every species — summed over all
momenta and all cells of all processes — is the same after any number of finite-volume steps, for every decomposition, every
reconstruction covered by the ghost zones, every force and every particle-conserving source. -/
theorem C55_box_conserves_particles (o : BCOptions) (k1 k2 : AxisEnd) (h1 : AxisSetup k1 (o.name .left) (o.name .right) N1)
    (h2 : AxisSetup k2 (o.name .bottom) (o.name .top) N2) {fl : Wall → PIdx Np1 Np2 Np3 → PIdx Np1 Np2 Np3}
    (hfl : MomentumMirror o.pGrid fl) (hn : ∀ r, g1 ≤ D.n1 r ∧ g2 ≤ D.n2 r)
    (ax : PIdx Np1 Np2 Np3 × PIdx Np1 Np2 Np3 × PIdx Np1 Np2 Np3) (cfg : FVMConfig S K)
    (hq : cfg.reconstructionInQ = "piecewise-constant" ∨ cfg.reconstructionInQ = "minmod" ∨ cfg.reconstructionInQ = "ppm")
    (hp : cfg.reconstructionInP = "piecewise-constant" ∨ cfg.reconstructionInP = "minmod" ∨ cfg.reconstructionInP = "ppm")
    (hg : ∀ m, reconMethod cfg.reconstructionInQ = .ok m → BoxGhosts m k1 g1 N1 ∧ BoxGhosts m k2 g2 N2)
    (steps : List (K × (Fin 2 → ∀ r, D.LocBCData g1 g2 r S Np1 Np2 Np3 K) ×
      (Fin 2 → ∀ r, Callbacks S (PIdx Np1 Np2 Np3) (D.Loc g1 g2 r) K) × (Fin 2 → Callbacks S (PIdx Np1 Np2 Np3) (ℤ × ℤ) K)))
    (hcb : ∀ st ∈ steps, ∀ j r, D.CallbacksAgreeBox g1 g2 r (st.2.2.1 j r) (st.2.2.2 j)) (s : S)
    (hcl : ∀ st ∈ steps, ∀ j, Closed k1 k2 (fl .left) (fl .bottom) cfg s N1 N2 (st.2.2.2 j))
    (F F' : ∀ r, Dist S (PIdx Np1 Np2 Np3) (D.Loc g1 g2 r) K)
    (h : D.BcRun g1 g2 o ax cfg (steps.map fun st => (st.1, st.2.1, st.2.2.1)) F F') :
    ∑ p, ∑ i, D.assemble g1 g2 F' s p i = ∑ p, ∑ i, D.assemble g1 g2 F s p i := by
  obtain ⟨f', hf'⟩ := boxRun_succeeds (boxExt k1 k2 (fl .left) (fl .bottom)) ax cfg hq hp (steps.map fun st => (st.1, st.2.2.2))
    (D.assemble g1 g2 F)
  have hH := C56_box_decomposition_independence D g1 g2 o k1 k2 h1 h2 hfl hn ax cfg hg steps hcb F F' _ f'
    ((holds_iff D g1 g2 F _).mpr rfl) h hf'
  rw [holds_iff] at hH
  rw [hH]
  refine boxRun_total k1 k2 hfl ax cfg s _ ?_ _ _ hf'
  intro st hst
  obtain ⟨x, hx, rfl⟩ := List.mem_map.mp hst
  exact hcl x hx

end C55

end Decomp
end Bolt
