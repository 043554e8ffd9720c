import Verif.Props.Boundaries

/-! Helper lemmas for the boundary properties: momentum reversals, wall symmetry, wrapping loops. -/

set_option linter.unusedSectionVars false

namespace Bolt

theorem flipIdx_flipIdx {N : ℕ} (i : ZMod N) : flipIdx (flipIdx i) = i := by simp [flipIdx]

theorem flipHalves_flipHalves {N : ℕ} [NeZero N] (hE : N % 2 = 0) (i : ZMod N) : flipHalves (flipHalves i) = i := by
  apply ZMod.val_injective
  have h := ZMod.val_lt i
  have h1 := flipHalves_val hE i
  rw [flipHalves_val hE, h1]
  split_ifs <;> omega

theorem flipHalves_flipIdx {N : ℕ} [NeZero N] (hE : N % 2 = 0) (i : ZMod N) : flipHalves (flipIdx i) = flipIdx (flipHalves i) := by
  apply ZMod.val_injective
  have h := ZMod.val_lt i
  rw [flipHalves_val hE, flipIdx_val, flipIdx_val, flipHalves_val hE]
  split_ifs <;> omega

section
variable {Np1 Np2 Np3 : ℕ} [NeZero Np2]

theorem MomentumMirror.involutive {pGrid : String} {fl : Wall → PIdx Np1 Np2 Np3 → PIdx Np1 Np2 Np3} (h : MomentumMirror pGrid fl)
    (w : Wall) (p : PIdx Np1 Np2 Np3) : fl w (fl w p) = p := by
  rcases h with ⟨_, rfl⟩ | ⟨_, hE, rfl⟩ <;> cases w <;>
    simp [flipCartesian, flipPolar, flipIdx_flipIdx, flipHalves_flipHalves, *]

theorem MomentumMirror.commute {pGrid : String} {fl : Wall → PIdx Np1 Np2 Np3 → PIdx Np1 Np2 Np3} (h : MomentumMirror pGrid fl)
    (p : PIdx Np1 Np2 Np3) : fl .left (fl .bottom p) = fl .bottom (fl .left p) := by
  rcases h with ⟨_, rfl⟩ | ⟨_, hE, rfl⟩ <;> simp [flipCartesian, flipPolar, flipHalves_flipIdx, *]

end

/-- Mirrored data and velocity carry no net flux through the mirror face. -/
theorem mirror_flux {I P K : Type} [AddCommGroup I] [Field K] [LinearOrder K] [IsStrictOrderedRing K] [Fintype P] (m : Recon) (e i : I)
    (C x : P → I → K) (fl : P → P) (hfl : ∀ p, fl (fl p) = p) (hC : ∀ p, C (fl p) i = - C p i)
    (hx : ∀ p (k : ℤ), 0 ≤ k → k < m.radius → x p (i + (-1 - k) • e) = x (fl p) (i + k • e)) :
    ∑ p, leftFlux m e (C p) (x p) i = 0 := by
  set y : P → ℤ → K := fun p k => if 0 ≤ k then x p (i + k • e) else x (fl p) (i + (-1 - k) • e) with hy
  have key : ∀ p, leftFlux m e (C p) (x p) i = lineFlux m (C p i) (y p) 0 := by
    intro p
    have h1 := leftState_congr m e (1 : ℤ) (C p) (fun _ => C p i) (x p) (y p) i 0 rfl (fun k h1 h2 => by
      simp only [hy, zero_add, smul_eq_mul, mul_one]
      by_cases hk : 0 ≤ k
      · rw [if_pos hk]
      · rw [if_neg hk]
        have := hx p (-1 - k) (by omega) (by omega)
        rw [← this]; congr 3; ring)
    have h2 : leftFlux m e (C p) (x p) i = C p i * leftState m e (C p) (x p) i := rfl
    rw [h2, h1, leftState_eq, lineFlux]
  simp only [key]
  refine (lines_zero m .mirror 0 fl hfl y (fun p c => ?_) (fun p => C p i) (fun p => C p i) (fun p => ⟨hC p, hC p⟩)).2 rfl
  have : y (fl p) c = y p (-1 - c) := by
    simp only [hy, hfl]
    by_cases hc : 0 ≤ c
    · rw [if_pos hc, if_neg (by omega)]; congr 3; ring
    · rw [if_neg hc, if_pos (by omega)]
  refine ⟨this, ?_⟩
  rw [this]; congr 1

namespace Decomp

variable {N1 N2 : ℕ} {R : Type} [NeZero N1] [NeZero N2] (D : Decomp N1 N2 R) (g1 g2 : ℕ) {S K : Type} {Np1 Np2 Np3 : ℕ}
  [Zero K] [LinearOrder K]

/-- The stages of communication and boundary conditions on a process, with what the later stages leave alone. -/
theorem synced_stages {o : BCOptions} {dat : ∀ r, D.LocBCData g1 g2 r S Np1 Np2 Np3 K}
    {F F0 : ∀ r, Dist S (PIdx Np1 Np2 Np3) (D.Loc g1 g2 r) K} (h : D.Synced g1 g2 o dat F F0) (r : R) :
    ∃ f f1 f2 f3 : Dist S (PIdx Np1 Np2 Np3) (D.Loc g1 g2 r) K,
      atWall (D.bcEnv g1 g2 o r (dat r)) .left f = .ok f1 ∧ atWall (D.bcEnv g1 g2 o r (dat r)) .right f1 = .ok f2 ∧
      atWall (D.bcEnv g1 g2 o r (dat r)) .bottom f2 = .ok f3 ∧ atWall (D.bcEnv g1 g2 o r (dat r)) .top f3 = .ok (F0 r) ∧
      (o.name .left ≠ "none" ∨ o.name .right ≠ "none" → o.nGhost = g1) ∧
      (o.name .bottom ≠ "none" ∨ o.name .top ≠ "none" → o.nGhost = g2) ∧
      (∀ s p (l : D.Loc g1 g2 r), l.1.val < g1 + D.n1 r → f2 s p l = f1 s p l) ∧
      (∀ s p (l : D.Loc g1 g2 r), g2 ≤ l.2.val → l.2.val < g2 + D.n2 r → F0 r s p l = f2 s p l) ∧
      (∀ s p (l : D.Loc g1 g2 r), l.2.val < g2 + D.n2 r → F0 r s p l = f3 s p l) := by
  obtain ⟨bc1, bc2, st, hset, happ⟩ := h
  obtain ⟨f1, f2, f3, w1, w2, w3, w4⟩ := applyBcsF_ok (happ r)
  have hax : (petscAxis o.nGhost (o.name .left) = (bc1, g1) ∧ petscAxis o.nGhost (o.name .bottom) = (bc2, g2)) ∧
      (o.name .left = "none" → o.name .right = "none") ∧ (o.name .bottom = "none" → o.name .top = "none") := by
    unfold setupBCs at hset
    split_ifs at hset with c1 c2 c3 c4 c5 c6
    simp only [Except.ok.injEq, Prod.mk.injEq] at hset
    refine ⟨⟨by rw [hset.1], by rw [hset.2]⟩, fun hh => ?_, fun hh => ?_⟩
    · by_contra hc; exact c5 ⟨hh, hc⟩
    · by_contra hc; exact c6 ⟨hh, hc⟩
  obtain ⟨⟨ax1, ax2⟩, n1, n2⟩ := hax
  have gv : ∀ name, name ≠ "none" → (petscAxis o.nGhost name).2 = o.nGhost := by
    intro name hname
    simp only [petscAxis]
    rw [if_neg hname]
    split_ifs <;> rfl
  have G1 : o.name .left ≠ "none" → o.nGhost = g1 := fun hn => by rw [← gv _ hn, ax1]
  have G2 : o.name .bottom ≠ "none" → o.nGhost = g2 := fun hn => by rw [← gv _ hn, ax2]
  have hE : (D.bcEnv g1 g2 o r (dat r)).g = o.nGhost := rfl
  have fr : ∀ s p (l : D.Loc g1 g2 r), l.1.val < g1 + D.n1 r → f2 s p l = f1 s p l := by
    intro s p l hl
    by_cases hn : o.name .left = "none"
    · rw [atWall_skip _ .right f1 f2 (Or.inr (n1 hn)) w2]
    · refine atWall_frame _ .right f1 f2 w2 s p l ?_
      rw [hE, G1 hn]; rintro ⟨_, hh⟩; simp only [inSlab] at hh; omega
  have fb : ∀ s p (l : D.Loc g1 g2 r), g2 ≤ l.2.val → f3 s p l = f2 s p l := by
    intro s p l hl
    by_cases hn : o.name .bottom = "none"
    · rw [atWall_skip _ .bottom f2 f3 (Or.inr hn) w3]
    · refine atWall_frame _ .bottom f2 f3 w3 s p l ?_
      rw [hE, G2 hn]; rintro ⟨_, hh⟩; simp only [inSlab] at hh; omega
  have ft : ∀ s p (l : D.Loc g1 g2 r), l.2.val < g2 + D.n2 r → F0 r s p l = f3 s p l := by
    intro s p l hl
    by_cases hn : o.name .bottom = "none"
    · rw [atWall_skip _ .top f3 (F0 r) (Or.inr (n2 hn)) w4]
    · refine atWall_frame _ .top f3 (F0 r) w4 s p l ?_
      rw [hE, G2 hn]; rintro ⟨_, hh⟩; simp only [inSlab] at hh; omega
  exact ⟨_, f1, f2, f3, w1, w2, w3, w4, fun h => G1 (fun hh => h.elim (fun a => a hh) (fun a => a (n1 hh))),
    fun h => G2 (fun hh => h.elim (fun a => a hh) (fun a => a (n2 hh))), fr, fun s p l a b => by rw [ft s p l b, fb s p l a], ft⟩

end Decomp

end Bolt
