import Verif.Props.Decomp

/-!
# C11 witness, C12: an insufficient ghost width is not detected and changes the result
-/

set_option linter.unusedSectionVars false

namespace Bolt

/-- Six cells in a row shared by two processes, three cells each. -/
def exD : Decomp 6 1 (Fin 2) where
  start1 := fun r => 3 * r.val
  start2 := fun _ => 0
  n1 := fun _ => 3
  n2 := fun _ => 1
  owner := fun i => if i.1.val < 3 then 0 else 1
  pos1 := by intro r; omega
  pos2 := by intro r; omega
  fits1 := by intro r; omega
  fits2 := by intro r; omega
  owner_iff := by
    intro i r
    have h1 := ZMod.val_lt i.1
    have h2 : i.2.val = 0 := by have := ZMod.val_lt i.2; omega
    have hr : r = 0 ∨ r = 1 := by fin_cases r <;> simp
    rcases hr with rfl | rfl <;> split_ifs <;> simp [h2] <;> omega

/-- One momentum, minmod in position, unit spacing, no fields, no source. -/
def c12Cfg : FVMConfig Unit ℚ :=
  ⟨"FVM", "FVM", "minmod", "minmod", "upwind-flux", "upwind-flux", false, false, 1, 1, fun _ => 1, fun _ => 1, fun _ => 1⟩

/-- Flow to the right through the interface between cells 5 and 0 only. -/
def c12Cb : Callbacks Unit (ZMod 1) (ZMod 6 × ZMod 1) ℚ :=
  ⟨fun _ _ i => if i.1 = 0 then 1 else 0, fun _ _ _ => 0, fun _ _ _ => 0, fun _ _ _ => 0, fun _ _ _ => 0, fun f => f⟩

/-- The same velocity on the local coordinates of each process, for ghost width `g`. -/
def c12CbLoc (g : ℕ) (r : Fin 2) : Callbacks Unit (ZMod 1) (exD.Loc g 0 r) ℚ :=
  ⟨fun s p l => c12Cb.Cq1 s p (exD.toGlob g 0 r l), fun _ _ _ => 0, fun _ _ _ => 0, fun _ _ _ => 0, fun _ _ _ => 0, fun f => f⟩

/-- Initial values `1, 0, 0, -1, -3, -1`. -/
def c12F : Dist Unit (ZMod 1) (ZMod 6 × ZMod 1) ℚ := fun _ _ i =>
  if i.1 = 0 then 1 else if i.1 = 3 then -1 else if i.1 = 4 then -3 else if i.1 = 5 then -1 else 0

/-- The bulk values of the processes, zero in ghost cells. -/
def c12FLoc (g : ℕ) : ∀ r, Dist Unit (ZMod 1) (exD.Loc g 0 r) ℚ := fun r s p l =>
  if exD.Interior g 0 r l then c12F s p (exD.toGlob g 0 r l) else 0

theorem c12_holds (g : ℕ) : exD.Holds g 0 (c12FLoc g) c12F := by
  intro r s p l hl; simp [c12FLoc, hl]

theorem c12_agree (g : ℕ) (hg : 1 ≤ g) (r : Fin 2) : exD.CallbacksAgree g 0 r (c12CbLoc g r) c12Cb where
  q1 := by
    intro s p l hl
    refine ⟨rfl, ?_⟩
    have := exD.toGlob_add1 g 0 .piecewiseConstant (Or.inl hg) r l hl 1 (by simp [Recon.radius])
    rw [one_smul, one_smul] at this
    simp only [c12CbLoc, this]
  q2 := by intro s p l hl; exact ⟨rfl, rfl⟩
  p1 := by intro s p l hl; rfl
  p2 := by intro s p l hl; rfl
  p3 := by intro s p l hl; rfl
  src := by intro f g l hl h s p; exact h s p

/-- The hypotheses of C11 are met: with two ghost cells, the decomposed minmod run of any number of steps on the example exists and
agrees with the whole-grid run. -/
example (n : ℕ) (dt : ℚ) : ∃ F' f', exD.PeriodicRun 2 0 (1, 0, 0) c12Cfg (List.replicate n (dt, fun _ r => c12CbLoc 2 r)) (c12FLoc 2) F' ∧
    runFVM ⟨1, 0, 0, (1, 0), (0, 1)⟩ c12Cfg (List.replicate n (dt, fun _ => c12Cb)) c12F = .ok f' ∧ exD.Holds 2 0 F' f' := by
  obtain ⟨F', hF'⟩ := exD.C11_run_exists 2 0 (1, 0, 0) c12Cfg (Or.inr (Or.inl rfl)) (Or.inr (Or.inl rfl))
    (List.replicate n (dt, fun _ r => c12CbLoc 2 r)) (c12FLoc 2)
  obtain ⟨f', hf'⟩ := C09_run_succeeds ⟨1, 0, 0, (1, 0), (0, 1)⟩ c12Cfg (Or.inr (Or.inl rfl)) (Or.inr (Or.inl rfl))
    (List.replicate n (dt, fun _ => c12Cb)) c12F
  refine ⟨F', f', hF', hf', ?_⟩
  refine exD.C11_decomposition_independence 2 0 (1, 0, 0) c12Cfg ?_
    (List.replicate n (dt, (fun _ r => c12CbLoc 2 r), fun _ => c12Cb)) ?_ _ _ _ _ (c12_holds 2) ?_ ?_
  · intro m hm
    have : m = .minmod := by simpa [c12Cfg, reconMethod] using hm.symm
    subst this
    exact ⟨Or.inl (by simp [Recon.radius]), Or.inr ⟨rfl, rfl⟩⟩
  · intro st hst k r
    rw [List.eq_of_mem_replicate hst]
    exact c12_agree 2 (by omega) r
  · simpa using hF'
  · simpa using hf'

/-! ## C12 -/

/-- Flux divergence along an axis whose velocity vanishes at both faces. -/
theorem fluxDiv_zero {I : Type} [AddCommGroup I] (m : Recon) (e : I) (d : ℚ) (C x : I → ℚ) (i : I) (h1 : C i = 0)
    (h2 : C (i + e) = 0) : fluxDiv m e d C x i = 0 := by
  rw [fluxDiv_eq, h1, h2]; simp

theorem c12_slope {Q : Type} [AddCommGroup Q] (e1 e2 : Q) (cb : Callbacks Unit (ZMod 1) Q ℚ) (hC2 : ∀ s p q, cb.Cq2 s p q = 0)
    (x k : Dist Unit (ZMod 1) Q ℚ) (h : dfdtFVM ⟨1, 0, 0, e1, e2⟩ c12Cfg cb x = .ok k) (s : Unit) (p : ZMod 1) (q : Q) :
    k s p q = - fluxDiv .minmod e1 1 (cb.Cq1 s p) (x s p) q := by
  obtain ⟨a, b, h1, h2, h3⟩ := dfdtFVM_ok h
  rcases h2 with ⟨_, m, h4, h5⟩ | ⟨h4, _⟩
  · have : m = .minmod := by simpa [c12Cfg, reconMethod] using h4.symm
    subst this
    rcases h3 with ⟨⟨_, h6⟩, _⟩ | ⟨_, h6⟩
    · simp [c12Cfg] at h6
    · rw [h1, h5, h6]
      simp [c12Cfg, dfdtQ, fluxDiv_zero .minmod e2 1 (cb.Cq2 s p) (x s p) q (hC2 _ _ _) (hC2 _ _ _)]
  · simp [c12Cfg] at h4

/-- The reconstructed value at the right face of a cell whose neighbours differ by `-2` and `+2`: exact. -/
theorem minmod_face_steep {I : Type} [AddCommGroup I] (e : I) (x : I → ℚ) (i : I) (h0 : x i = -1) (h1 : x (i - e) = -3)
    (h2 : x (i + e) = 1) : (reconFaces .minmod e x).2 i = 0 := by
  simp only [reconFaces, reconstructMinmod, slopeMinmod, afShift_one, afShift_neg_one, h0, h1, h2]
  rw [minmod_pos (by norm_num) (by norm_num) (by norm_num)]
  norm_num [min_def]

theorem minmod_face_flat {I : Type} [AddCommGroup I] (e : I) (x : I → ℚ) (i : I) (h : x i = x (i - e)) :
    (reconFaces .minmod e x).2 i = x i := by
  simp only [reconFaces, reconstructMinmod, slopeMinmod, afShift_one, afShift_neg_one, h]
  rw [minmod_zero (by norm_num) (by norm_num)]
  norm_num

/-- C12 (negative): the ghost width is not checked against the reconstruction.  With one ghost cell and minmod (stencil radius 2)
the two-process run goes through without an error, its callbacks agree with those of the whole-grid run and it starts from the
same data, yet after one step of any nonzero size its values differ from the whole-grid run. -/
theorem C12_insufficient_ghosts_change_result (dt : ℚ) (hdt : dt ≠ 0) :
    ∃ F' f', exD.PeriodicRun 1 0 (1, 0, 0) c12Cfg [(dt, fun _ r => c12CbLoc 1 r)] (c12FLoc 1) F' ∧
      runFVM ⟨1, 0, 0, (1, 0), (0, 1)⟩ c12Cfg [(dt, fun _ => c12Cb)] c12F = .ok f' ∧
      (∀ r, exD.CallbacksAgree 1 0 r (c12CbLoc 1 r) c12Cb) ∧ exD.Holds 1 0 (c12FLoc 1) c12F ∧
      ¬ exD.Holds 1 0 F' f' := by
  obtain ⟨F', hF'⟩ := exD.C11_run_exists 1 0 (1, 0, 0) c12Cfg (Or.inr (Or.inl rfl)) (Or.inr (Or.inl rfl))
    [(dt, fun _ r => c12CbLoc 1 r)] (c12FLoc 1)
  obtain ⟨f', hf'⟩ := C09_run_succeeds ⟨1, 0, 0, (1, 0), (0, 1)⟩ c12Cfg (Or.inr (Or.inl rfl)) (Or.inr (Or.inl rfl))
    [(dt, fun _ => c12Cb)] c12F
  refine ⟨F', f', hF', hf', fun r => c12_agree 1 le_rfl r, c12_holds 1, ?_⟩
  intro hH
  -- the whole-grid run does not change the data: the flux through the open interface is zero
  have flux : fluxDiv .minmod ((1, 0) : ZMod 6 × ZMod 1) 1 (c12Cb.Cq1 () 0) (c12F () 0) = fun _ => 0 := by
    funext i
    have face : (reconFaces .minmod ((1, 0) : ZMod 6 × ZMod 1) (c12F () 0)).2 (5, 0) = 0 := by
      refine minmod_face_steep _ _ _ ?_ ?_ ?_
      · rfl
      · rfl
      · rfl
    have z : ∀ j : ZMod 6 × ZMod 1, c12Cb.Cq1 () 0 j * leftState .minmod ((1, 0) : ZMod 6 × ZMod 1) (c12Cb.Cq1 () 0) (c12F () 0) j = 0 := by
      intro j
      by_cases hj : j.1 = 0
      · have e : j = (0, 0) := Prod.ext hj (Subsingleton.elim _ _)
        subst e
        rw [leftState_eq, if_pos (by simp [c12Cb])]
        have e2 : ((0, 0) : ZMod 6 × ZMod 1) - (1, 0) = (5, 0) := by decide
        rw [e2, face, mul_zero]
      · simp [c12Cb, hj]
    rw [fluxDiv_eq, z, z]; simp
  obtain ⟨g, k0, k1, a, b, c, d⟩ := runFVM_cons hf'
  simp only [runFVM, Except.ok.injEq] at d
  subst d
  have kz : ∀ s p q, k0 s p q = 0 := by
    intro s p q
    obtain rfl : s = () := rfl
    obtain rfl : p = 0 := Subsingleton.elim _ _
    rw [c12_slope _ _ c12Cb (fun _ _ _ => rfl) _ _ a, flux]; simp
  simp only [kz, zero_mul, add_zero] at b
  have k1z : k1 () 0 (0, 0) = 0 := by
    rw [c12_slope _ _ c12Cb (fun _ _ _ => rfl) _ _ b]
    have : (fun q => c12F () 0 q) = c12F () 0 := rfl
    simp only [this, flux]; simp
  have hf0 : g () 0 (0, 0) = 1 := by rw [c, k1z]; simp [c12F]
  -- the decomposed run on process 0
  obtain ⟨G, ⟨st0, st1, l0, l1, a', b', hG⟩, hR⟩ := hF'
  simp only [Decomp.PeriodicRun] at hR
  subst hR
  have key : ∀ (st F : ∀ r, Dist Unit (ZMod 1) (exD.Loc 1 0 r) ℚ) (k : Dist Unit (ZMod 1) (exD.Loc 1 0 0) ℚ),
      exD.assemble 1 0 F () 0 (5, 0) = -1 → exD.assemble 1 0 F () 0 (3, 0) = -1 →
      dfdtFVM (exD.locAxes 1 0 0 1 0 0) c12Cfg (c12CbLoc 1 0) (exD.exchange 1 0 .periodic .periodic st F 0) = .ok k →
      k () 0 (1, 0) = -1 := by
    intro st F k h5 h3 hk
    rw [c12_slope _ _ (c12CbLoc 1 0) (fun _ _ _ => rfl) _ _ hk, fluxDiv_eq]
    have c1 : (c12CbLoc 1 0).Cq1 () 0 (1, 0) = 1 := rfl
    have c2 : (c12CbLoc 1 0).Cq1 () 0 ((1, 0) + (1, 0)) = 0 := rfl
    rw [c1, c2, zero_mul, leftState_eq, if_pos (by rw [c1]; norm_num)]
    have x0 : exD.exchange 1 0 .periodic .periodic st F 0 () 0 (0, 0) = -1 := by
      rw [Decomp.exchange_periodic]; exact h5
    have x4 : exD.exchange 1 0 .periodic .periodic st F 0 () 0 (4, 0) = -1 := by
      rw [Decomp.exchange_periodic]; exact h3
    have i0 : ((1, 0) : exD.Loc 1 0 0) - (1, 0) = (0, 0) := by decide
    have i4 : ((0, 0) : exD.Loc 1 0 0) - (1, 0) = (4, 0) := by decide
    rw [i0, minmod_face_flat _ _ _ (by rw [i4, x0, x4]), x0]
    norm_num
  have A5 : exD.assemble 1 0 (c12FLoc 1) () 0 (5, 0) = -1 := by
    rw [(exD.holds_iff 1 0 _ _).mp (c12_holds 1)]; rfl
  have A3 : exD.assemble 1 0 (c12FLoc 1) () 0 (3, 0) = -1 := by
    rw [(exD.holds_iff 1 0 _ _).mp (c12_holds 1)]; rfl
  -- process 1 computes the right fluxes for its cells 3 and 5 in the first stage
  have l0z : ∀ l : exD.Loc 1 0 1, l = (1, 0) ∨ l = (3, 0) → l0 1 () 0 l = 0 := by
    intro l hl
    rw [c12_slope _ _ (c12CbLoc 1 1) (fun _ _ _ => rfl) _ _ (a' 1)]
    rcases hl with rfl | rfl
    · have c1 : (c12CbLoc 1 1).Cq1 () 0 (1, 0) = 0 := rfl
      have c2 : (c12CbLoc 1 1).Cq1 () 0 ((1, 0) + ((1, 0) : exD.Loc 1 0 1)) = 0 := rfl
      rw [fluxDiv_zero _ _ _ _ _ _ c1 c2, neg_zero]
    · rw [fluxDiv_eq]
      have c1 : (c12CbLoc 1 1).Cq1 () 0 (3, 0) = 0 := rfl
      have c2 : (c12CbLoc 1 1).Cq1 () 0 ((3, 0) + ((1, 0) : exD.Loc 1 0 1)) = 1 := rfl
      have i3 : ((3, 0) : exD.Loc 1 0 1) + ((1, 0) : exD.Loc 1 0 1) - ((1, 0) : exD.Loc 1 0 1) = (3, 0) := by decide
      have face : (reconFaces .minmod ((1, 0) : exD.Loc 1 0 1) (exD.exchange 1 0 .periodic .periodic st0 (c12FLoc 1) 1 () 0)).2 (3, 0) = 0 := by
        refine minmod_face_steep _ _ _ ?_ ?_ ?_ <;>
          rw [Decomp.exchange_periodic, (exD.holds_iff 1 0 _ _).mp (c12_holds 1)] <;> rfl
      rw [c1, c2, zero_mul, leftState_eq, if_pos (by rw [c2]; norm_num), i3, face]; norm_num
  have s2 := key st1 _ (l1 0) (by
      show exD.exchange 1 0 .periodic .periodic st0 (c12FLoc 1) 1 () 0 (3, 0) + l0 1 () 0 (3, 0) * (dt / 2) = -1
      rw [l0z _ (Or.inr rfl), Decomp.exchange_periodic, show exD.toGlob 1 0 1 (3, 0) = (5, 0) by decide, A5]; simp)
    (by
      show exD.exchange 1 0 .periodic .periodic st0 (c12FLoc 1) 1 () 0 (1, 0) + l0 1 () 0 (1, 0) * (dt / 2) = -1
      rw [l0z _ (Or.inl rfl), Decomp.exchange_periodic, show exD.toGlob 1 0 1 (1, 0) = (3, 0) by decide, A3]; simp) (b' 0)
  have := hH 0 () 0 (1, 0) (by decide)
  rw [show exD.toGlob 1 0 0 (1, 0) = (0, 0) by decide, hf0, hG] at this
  beta_reduce at this
  rw [s2, Decomp.exchange_periodic, show exD.toGlob 1 0 0 (1, 0) = (0, 0) by decide,
    (exD.holds_iff 1 0 _ _).mp (c12_holds 1)] at this
  have e0 : c12F () 0 (0, 0) = 1 := rfl
  rw [e0] at this
  apply hdt; linarith

end Bolt
