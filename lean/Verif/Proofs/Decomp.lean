import Verif.Spec.Decomp
import Verif.Proofs.FVM

/-! Helper lemmas for the domain decomposition: index arithmetic and locality of the stencils. -/

set_option linter.unusedSectionVars false

namespace Bolt

/-! ## index arithmetic along one axis -/

theorem toLoc1_val {N M start n g : ℕ} [NeZero N] (hM : M = n + 2 * g) (i : ZMod N)
    (h1 : start ≤ i.val) (h2 : i.val < start + n) : (toLoc1 M start g i).val = i.val - start + g := by
  have e : ((i.val : ℤ) - start + g : ℤ) = ((i.val - start + g : ℕ) : ℤ) := by omega
  rw [toLoc1, e, Int.cast_natCast, ZMod.val_natCast, Nat.mod_eq_of_lt (by omega)]

theorem globCoord_toLoc1 {N M start n g : ℕ} [NeZero N] (hM : M = n + 2 * g) (i : ZMod N)
    (h1 : start ≤ i.val) (h2 : i.val < start + n) : globCoord start g (toLoc1 M start g i) = i.val := by
  rw [globCoord, toLoc1_val hM i h1 h2]; omega

theorem cast_globCoord_toLoc1 {N M start n g : ℕ} [NeZero N] (hM : M = n + 2 * g) (i : ZMod N)
    (h1 : start ≤ i.val) (h2 : i.val < start + n) : ((globCoord start g (toLoc1 M start g i) : ℤ) : ZMod N) = i := by
  rw [globCoord_toLoc1 hM i h1 h2]; simp

theorem val_cast_globCoord {N M start n g : ℕ} [NeZero N] (hfit : start + n ≤ N) (a : ZMod M)
    (h1 : g ≤ a.val) (h2 : a.val < g + n) : ((globCoord start g a : ℤ) : ZMod N).val = start + a.val - g := by
  have e : globCoord start g a = ((start + a.val - g : ℕ) : ℤ) := by rw [globCoord]; omega
  rw [e, Int.cast_natCast, ZMod.val_natCast, Nat.mod_eq_of_lt (by omega)]

theorem toLoc1_globCoord {N M start n g : ℕ} [NeZero N] [NeZero M] (hfit : start + n ≤ N) (a : ZMod M)
    (h1 : g ≤ a.val) (h2 : a.val < g + n) : toLoc1 M start g ((globCoord start g a : ℤ) : ZMod N) = a := by
  have e : (((globCoord start g a : ℤ) : ZMod N).val : ℤ) - start + g = a.val := by
    rw [val_cast_globCoord hfit a h1 h2]; omega
  rw [toLoc1, e]; simp

theorem val_add_int {M : ℕ} [NeZero M] (a : ZMod M) (k : ℤ) (h0 : 0 ≤ a.val + k) (h1 : a.val + k < M) :
    (((a + (k : ZMod M)).val : ℕ) : ℤ) = a.val + k := by
  have e : a + (k : ZMod M) = ((a.val + k : ℤ) : ZMod M) := by push_cast; simp
  rw [e, ZMod.val_intCast, Int.emod_eq_of_lt h0 h1]

theorem cast_globCoord_add {N M start g : ℕ} [NeZero M] (a : ZMod M) (k : ℤ) (h0 : 0 ≤ a.val + k) (h1 : a.val + k < M) :
    ((globCoord start g (a + (k : ZMod M)) : ℤ) : ZMod N) = ((globCoord start g a : ℤ) : ZMod N) + (k : ZMod N) := by
  rw [globCoord, globCoord, val_add_int a k h0 h1]; push_cast; ring

/-! ## locality of the stencils -/

section stencil
variable {I J K : Type} [AddCommGroup I] [AddCommGroup J] [Field K] [LinearOrder K] [IsStrictOrderedRing K]

theorem reconFaces_congr (m : Recon) (e : I) (e' : J) (x : I → K) (y : J → K) (i : I) (j : J)
    (h : ∀ k : ℤ, |k| < m.radius → x (i + k • e) = y (j + k • e')) :
    (reconFaces m e x).1 i = (reconFaces m e' y).1 j ∧ (reconFaces m e x).2 i = (reconFaces m e' y).2 j := by
  have h0 := h 0 (by cases m <;> simp [Recon.radius])
  simp only [zero_smul, add_zero] at h0
  cases m with
  | piecewiseConstant => exact ⟨h0, h0⟩
  | minmod =>
    have h1 := h 1 (by simp [Recon.radius])
    have h2 := h (-1) (by simp [Recon.radius])
    simp only [one_smul, neg_smul, ← sub_eq_add_neg] at h1 h2
    simp [reconFaces, reconstructMinmod, slopeMinmod, h0, h1, h2]
  | ppm =>
    have h1 := h 1 (by simp [Recon.radius])
    have h2 := h (-1) (by simp [Recon.radius])
    have h3 := h 2 (by simp [Recon.radius])
    have h4 := h (-2) (by simp [Recon.radius])
    simp only [one_smul, neg_smul, ← sub_eq_add_neg, ofNat_zsmul] at h1 h2 h3 h4
    simp [reconFaces, reconstructPPM, h0, h1, h2, h3, h4]

theorem leftState_congr (m : Recon) (e : I) (e' : J) (C : I → K) (C' : J → K) (x : I → K) (y : J → K) (i : I) (j : J)
    (hC : C i = C' j) (h : ∀ k : ℤ, -(m.radius : ℤ) ≤ k → k < m.radius → x (i + k • e) = y (j + k • e')) :
    leftState m e C x i = leftState m e' C' y j := by
  rw [leftState_eq, leftState_eq, hC]
  have a := (reconFaces_congr m e e' x y i j (fun k hk => by
    rw [abs_lt] at hk; exact h k hk.1.le hk.2)).1
  have b := (reconFaces_congr m e e' x y (i - e) (j - e') (fun k hk => by
    rw [abs_lt] at hk
    have := h (k - 1) (by omega) (by omega)
    rw [sub_smul, sub_smul, one_smul, one_smul] at this
    rw [show i - e + k • e = i + (k • e - e) by abel, show j - e' + k • e' = j + (k • e' - e') by abel]
    exact this)).2
  rw [a, b]

theorem fluxDiv_congr (m : Recon) (e : I) (e' : J) (d : K) (C : I → K) (C' : J → K) (x : I → K) (y : J → K) (i : I) (j : J)
    (hC : C i = C' j) (hC' : C (i + e) = C' (j + e'))
    (h : ∀ k : ℤ, |k| ≤ m.radius → x (i + k • e) = y (j + k • e')) :
    fluxDiv m e d C x i = fluxDiv m e' d C' y j := by
  rw [fluxDiv_eq, fluxDiv_eq, hC, hC']
  rw [leftState_congr m e e' C C' x y i j hC (fun k h1 h2 => h k (by rw [abs_le]; omega))]
  rw [leftState_congr m e e' C C' x y (i + e) (j + e') hC' (fun k h1 h2 => by
    have := h (k + 1) (by rw [abs_le]; omega)
    rw [add_smul, add_smul, one_smul, one_smul] at this
    rw [show i + e + k • e = i + (k • e + e) by abel, show j + e' + k • e' = j + (k • e' + e') by abel]
    exact this)]

end stencil

namespace Decomp

variable {N1 N2 : ℕ} {R : Type} (D : Decomp N1 N2 R) (g1 g2 : ℕ)

instance (r : R) : NeZero (D.n1 r + 2 * g1) := ⟨by have := D.pos1 r; omega⟩
instance (r : R) : NeZero (D.n2 r + 2 * g2) := ⟨by have := D.pos2 r; omega⟩

variable [NeZero N1] [NeZero N2]

theorem owner_toGlob (r : R) (l : D.Loc g1 g2 r) (h : D.Interior g1 g2 r l) : D.owner (D.toGlob g1 g2 r l) = r := by
  obtain ⟨⟨a, b⟩, c, d⟩ := h
  rw [D.owner_iff]
  simp only [toGlob]
  rw [val_cast_globCoord (D.fits1 r) l.1 a b, val_cast_globCoord (D.fits2 r) l.2 c d]
  omega

theorem toLoc_toGlob (r : R) (l : D.Loc g1 g2 r) (h : D.Interior g1 g2 r l) :
    D.toLoc g1 g2 r (D.toGlob g1 g2 r l) = l := by
  obtain ⟨⟨a, b⟩, c, d⟩ := h
  simp only [toLoc, toGlob, toLoc1_globCoord (D.fits1 r) l.1 a b, toLoc1_globCoord (D.fits2 r) l.2 c d]

theorem owner_bounds (i : ZMod N1 × ZMod N2) :
    (D.start1 (D.owner i) ≤ i.1.val ∧ i.1.val < D.start1 (D.owner i) + D.n1 (D.owner i)) ∧
    (D.start2 (D.owner i) ≤ i.2.val ∧ i.2.val < D.start2 (D.owner i) + D.n2 (D.owner i)) :=
  (D.owner_iff i _).mp rfl

theorem toGlob_toLoc (i : ZMod N1 × ZMod N2) :
    D.toGlob g1 g2 (D.owner i) (D.toLoc g1 g2 (D.owner i) i) = i := by
  obtain ⟨⟨a, b⟩, c, d⟩ := D.owner_bounds i
  simp only [toLoc, toGlob, cast_globCoord_toLoc1 rfl i.1 a b, cast_globCoord_toLoc1 rfl i.2 c d]

theorem interior_toLoc (i : ZMod N1 × ZMod N2) : D.Interior g1 g2 (D.owner i) (D.toLoc g1 g2 (D.owner i) i) := by
  obtain ⟨⟨a, b⟩, c, d⟩ := D.owner_bounds i
  simp only [Interior, toLoc, toLoc1_val rfl i.1 a b, toLoc1_val rfl i.2 c d]
  omega

variable {S P K : Type}

theorem assemble_toGlob (F : ∀ r, Dist S P (D.Loc g1 g2 r) K) (r : R) (s : S) (p : P) (l : D.Loc g1 g2 r)
    (h : D.Interior g1 g2 r l) : D.assemble g1 g2 F s p (D.toGlob g1 g2 r l) = F r s p l := by
  have key : ∀ r', r' = r → F r' s p (D.toLoc g1 g2 r' (D.toGlob g1 g2 r l)) = F r s p l := by
    rintro r' rfl; rw [toLoc_toGlob D g1 g2 _ l h]
  exact key _ (owner_toGlob D g1 g2 r l h)

theorem holds_iff (F : ∀ r, Dist S P (D.Loc g1 g2 r) K) (f : Dist S P (ZMod N1 × ZMod N2) K) :
    D.Holds g1 g2 F f ↔ D.assemble g1 g2 F = f := by
  constructor
  · intro h
    funext s p i
    simp only [assemble]
    rw [h _ s p _ (interior_toLoc D g1 g2 i), toGlob_toLoc]
  · rintro rfl r s p l hl
    rw [assemble_toGlob D g1 g2 F r s p l hl]

theorem exchange_periodic (st F : ∀ r, Dist S P (D.Loc g1 g2 r) K) (r : R) (s : S) (p : P) (l : D.Loc g1 g2 r) :
    D.exchange g1 g2 .periodic .periodic st F r s p l = D.assemble g1 g2 F s p (D.toGlob g1 g2 r l) := by
  simp [exchange, fills]

theorem toGlob_add1 (m : Recon) (hg : GhostsSuffice m g1 N1) (r : R) (l : D.Loc g1 g2 r) (h : D.Interior g1 g2 r l) (k : ℤ)
    (hk : |k| ≤ m.radius) :
    D.toGlob g1 g2 r (l + k • ((1, 0) : D.Loc g1 g2 r)) = D.toGlob g1 g2 r l + k • ((1, 0) : ZMod N1 × ZMod N2) := by
  have e : l + k • ((1, 0) : D.Loc g1 g2 r) = (l.1 + (k : ZMod _), l.2) := by ext <;> simp
  rw [e]
  obtain ⟨⟨a, b⟩, c, d⟩ := h
  rw [abs_le] at hk
  simp only [toGlob]
  ext
  · simp only [Prod.fst_add, Prod.smul_fst, zsmul_one]
    rcases hg with hg | ⟨hg, hN⟩
    · rw [cast_globCoord_add _ k (by omega) (by push_cast; omega)]
    · subst hN; exact Subsingleton.elim _ _
  · simp

theorem toGlob_add2 (m : Recon) (hg : GhostsSuffice m g2 N2) (r : R) (l : D.Loc g1 g2 r) (h : D.Interior g1 g2 r l) (k : ℤ)
    (hk : |k| ≤ m.radius) :
    D.toGlob g1 g2 r (l + k • ((0, 1) : D.Loc g1 g2 r)) = D.toGlob g1 g2 r l + k • ((0, 1) : ZMod N1 × ZMod N2) := by
  have e : l + k • ((0, 1) : D.Loc g1 g2 r) = (l.1, l.2 + (k : ZMod _)) := by ext <;> simp
  rw [e]
  obtain ⟨⟨a, b⟩, c, d⟩ := h
  rw [abs_le] at hk
  simp only [toGlob]
  ext
  · simp
  · simp only [Prod.snd_add, Prod.smul_snd, zsmul_one]
    rcases hg with hg | ⟨hg, hN⟩
    · rw [cast_globCoord_add _ k (by omega) (by push_cast; omega)]
    · subst hN; exact Subsingleton.elim _ _

variable [Field K] [LinearOrder K] [IsStrictOrderedRing K] [AddCommGroup P]

/-- A slope evaluation on a process agrees in the bulk with the slope on the whole grid. -/
theorem slope_agrees (ax : P × P × P) (cfg : FVMConfig S K)
    (hg : ∀ m, reconMethod cfg.reconstructionInQ = .ok m → GhostsSuffice m g1 N1 ∧ GhostsSuffice m g2 N2)
    (r : R) (loc : Callbacks S P (D.Loc g1 g2 r) K) (glob : Callbacks S P (ZMod N1 × ZMod N2) K)
    (hcb : D.CallbacksAgree g1 g2 r loc glob) (x : Dist S P (D.Loc g1 g2 r) K) (f : Dist S P (ZMod N1 × ZMod N2) K)
    (hx : ∀ s p l, x s p l = f s p (D.toGlob g1 g2 r l)) (k : Dist S P (D.Loc g1 g2 r) K)
    (k' : Dist S P (ZMod N1 × ZMod N2) K)
    (hk : dfdtFVM (D.locAxes g1 g2 r ax.1 ax.2.1 ax.2.2) cfg loc x = .ok k)
    (hk' : dfdtFVM ⟨ax.1, ax.2.1, ax.2.2, (1, 0), (0, 1)⟩ cfg glob f = .ok k')
    (s : S) (p : P) (l : D.Loc g1 g2 r) (hl : D.Interior g1 g2 r l) : k s p l = k' s p (D.toGlob g1 g2 r l) := by
  obtain ⟨a, b, h1, h2, h3⟩ := dfdtFVM_ok hk
  obtain ⟨a', b', h1', h2', h3'⟩ := dfdtFVM_ok hk'
  rw [h1, h1']
  congr 1
  · rcases h2 with ⟨g, m, c, d⟩ | ⟨g, d⟩ <;> rcases h2' with ⟨g', m', c', d'⟩ | ⟨g', d'⟩
    · rw [c, Except.ok.injEq] at c'
      subst c'
      rw [d, d']
      obtain ⟨gs1, gs2⟩ := hg m c
      congr 1
      · simp only [dfdtQ, locAxes]
        have e1 := fluxDiv_congr m ((1, 0) : D.Loc g1 g2 r) ((1, 0) : ZMod N1 × ZMod N2) cfg.dq1 (loc.Cq1 s p) (glob.Cq1 s p)
          (x s p) (f s p) l _ (hcb.q1 s p l hl).1 (hcb.q1 s p l hl).2
          (fun k hk => by rw [hx, toGlob_add1 D g1 g2 m gs1 r l hl k hk])
        have e2 := fluxDiv_congr m ((0, 1) : D.Loc g1 g2 r) ((0, 1) : ZMod N1 × ZMod N2) cfg.dq2 (loc.Cq2 s p) (glob.Cq2 s p)
          (x s p) (f s p) l _ (hcb.q2 s p l hl).1 (hcb.q2 s p l hl).2
          (fun k hk => by rw [hx, toGlob_add2 D g1 g2 m gs2 r l hl k hk])
        rw [e1, e2]
      · split_ifs
        · exact hcb.src x f l hl (fun s p => hx s p l) s p
        · rfl
    · exact absurd g g'
    · exact absurd g' g
    · rw [d, d']
  · rcases h3 with ⟨g, m, c, d⟩ | ⟨g, d⟩ <;> rcases h3' with ⟨g', m', c', d'⟩ | ⟨g', d'⟩
    · rw [c, Except.ok.injEq] at c'
      subst c'
      rw [d, d']
      have e1 : (fun p => loc.Cp1 s p l) = fun p => glob.Cp1 s p (D.toGlob g1 g2 r l) := by
        funext p; exact hcb.p1 s p l hl
      have e2 : (fun p => loc.Cp2 s p l) = fun p => glob.Cp2 s p (D.toGlob g1 g2 r l) := by
        funext p; exact hcb.p2 s p l hl
      have e3 : (fun p => loc.Cp3 s p l) = fun p => glob.Cp3 s p (D.toGlob g1 g2 r l) := by
        funext p; exact hcb.p3 s p l hl
      have e4 : (fun p => x s p l) = fun p => f s p (D.toGlob g1 g2 r l) := by funext p; exact hx s p l
      simp only [dfdtP, dFluxP, locAxes, e1, e2, e3, e4]
    · exact absurd g g'
    · exact absurd g' g
    · rw [d, d']

end Decomp
end Bolt
