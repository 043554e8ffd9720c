import Verif.Props.AslRunArrays
import Verif.Props.AslArraysExample
import Verif.Props.CollisionArraysExample

/-!
# C123: corollaries, collisions of the bundled system, and a run that meets the hypotheses
-/

set_option linter.unusedSectionVars false

namespace Bolt

open Machine PyExpr

variable {K : Type} [Field K] [LinearOrder K] [IsStrictOrderedRing K] [FloorRing K] {N1 N2 : ℕ} [NeZero N1] [NeZero N2]
  (Np1 Np2 Np3 Ns : ℕ) [NeZero Np1] [NeZero Np2] [NeZero Np3] [NeZero Ns]

/-- C123 (decomposition): two semi-Lagrangian runs on arrays, with different process grids, ghost widths and contents of the ghost cells, both return, and whatever they return
are the parts of one and the same global distribution. -/
theorem C123_decomposition_independence {R R' : Type} (D : Decomp N1 N2 R) (D' : Decomp N1 N2 R') (g1 g2 g1' g2' : ℕ)
    (hz : D.SizesOk (D.sizes Np1 Np2 Np3 Ns g1 g2) g1 g2) (hz' : D'.SizesOk (D'.sizes Np1 Np2 Np3 Ns g1' g2') g1' g2')
    (k : ∀ r, 2 ≤ D.n1 r + 2 * g1 ∧ 2 ≤ D.n2 r + 2 * g2) (k' : ∀ r, 2 ≤ D'.n1 r + 2 * g1' ∧ 2 ≤ D'.n2 r + 2 * g2')
    (q1Start q2Start dq1 dq2 : K) (hd1 : dq1 ≠ 0) (hd2 : dq2 ≠ 0) (x : AslRunIn R K) (x' : AslRunIn R' K) (hi : x.instantaneous = x'.instantaneous)
    (he : x.sourceEnabled = x'.sourceEnabled) (A1 A2 : K → ∀ r, Fin Ns → AslPIdx Np1 Np2 Np3 → D.Loc g1 g2 r → K)
    (A1' A2' : K → ∀ r, Fin Ns → AslPIdx Np1 Np2 Np3 → D'.Loc g1' g2' r → K) (a1 a2 : K → Fin Ns → AslPIdx Np1 Np2 Np3 → ZMod N1 × ZMod N2 → K)
    (hA1 : ∀ t, D.VelocityAgrees g1 g2 (A1 t) (a1 t)) (hA2 : ∀ t, D.VelocityAgrees g1 g2 (A2 t) (a2 t))
    (hA1' : ∀ t, D'.VelocityAgrees g1' g2' (A1' t) (a1 t)) (hA2' : ∀ t, D'.VelocityAgrees g1' g2' (A2' t) (a2 t))
    (src : K → ∀ r, Dist (Fin Ns) (AslPIdx Np1 Np2 Np3) (D.Loc g1 g2 r) K → Bool → Dist (Fin Ns) (AslPIdx Np1 Np2 Np3) (D.Loc g1 g2 r) K)
    (src' : K → ∀ r, Dist (Fin Ns) (AslPIdx Np1 Np2 Np3) (D'.Loc g1' g2' r) K → Bool → Dist (Fin Ns) (AslPIdx Np1 Np2 Np3) (D'.Loc g1' g2' r) K)
    (c : K → ZMod N1 × ZMod N2 → (Fin Ns → AslPIdx Np1 Np2 Np3 → K) → Bool → Fin Ns → AslPIdx Np1 Np2 Np3 → K) (hsrc : D.SourceAgrees g1 g2 src c)
    (hsrc' : D'.SourceAgrees g1' g2' src' c) (hx : D.AslRunHolds g1 g2 Np1 Np2 Np3 Ns q1Start q2Start dq1 dq2 x A1 A2 src)
    (hx' : D'.AslRunHolds g1' g2' Np1 Np2 Np3 Ns q1Start q2Start dq1 dq2 x' A1' A2' src') (steps : List (Scheme × K))
    (hb1 : ∀ m ∈ steps, ∀ t s p i, |a1 t s p i * m.2 / dq1| ≤ min g1 g1' - 1) (hb2 : ∀ m ∈ steps, ∀ t s p i, |a2 t s p i * m.2 / dq2| ≤ min g2 g2' - 1)
    (t : K) (F : R → AfArray K) (F' : R' → AfArray K) (f : Dist (Fin Ns) (AslPIdx Np1 Np2 Np3) (ZMod N1 × ZMod N2) K)
    (hF : D.ArrStands g1 g2 Np1 Np2 Np3 Ns F f) (hF' : D'.ArrStands g1' g2' Np1 Np2 Np3 Ns F' f) :
    (∃ G, @Decomp.ArrAslRun K (exactMachine K) R N1 N2 D g1 g2 Np1 Np2 Np3 Ns approx2 x steps t F G) ∧
    (∃ G, @Decomp.ArrAslRun K (exactMachine K) R' N1 N2 D' g1' g2' Np1 Np2 Np3 Ns approx2 x' steps t F' G) ∧
    ∀ G G', @Decomp.ArrAslRun K (exactMachine K) R N1 N2 D g1 g2 Np1 Np2 Np3 Ns approx2 x steps t F G →
      @Decomp.ArrAslRun K (exactMachine K) R' N1 N2 D' g1' g2' Np1 Np2 Np3 Ns approx2 x' steps t F' G' →
      ∃ g, D.ArrStands g1 g2 Np1 Np2 Np3 Ns G g ∧ D'.ArrStands g1' g2' Np1 Np2 Np3 Ns G' g := by
  have l1 : ((min g1 g1' : ℕ) : K) - 1 ≤ g1 - 1 := by gcongr; exact min_le_left _ _
  have l1' : ((min g1 g1' : ℕ) : K) - 1 ≤ g1' - 1 := by gcongr; exact min_le_right _ _
  have l2 : ((min g2 g2' : ℕ) : K) - 1 ≤ g2 - 1 := by gcongr; exact min_le_left _ _
  have l2' : ((min g2 g2' : ℕ) : K) - 1 ≤ g2' - 1 := by gcongr; exact min_le_right _ _
  obtain ⟨e, u⟩ := D.C123_whole_run g1 g2 Np1 Np2 Np3 Ns hz k q1Start q2Start dq1 dq2 hd1 hd2 x A1 A2 a1 a2 hA1 hA2 src c hsrc hx steps
    (fun m hm t s p i => (hb1 m hm t s p i).trans l1) (fun m hm t s p i => (hb2 m hm t s p i).trans l2) t F f hF
  obtain ⟨e', u'⟩ := D'.C123_whole_run g1' g2' Np1 Np2 Np3 Ns hz' k' q1Start q2Start dq1 dq2 hd1 hd2 x' A1' A2' a1 a2 hA1' hA2' src' c hsrc' hx' steps
    (fun m hm t s p i => (hb1 m hm t s p i).trans l1') (fun m hm t s p i => (hb2 m hm t s p i).trans l2') t F' f hF'
  refine ⟨e, e', fun G G' h h' => ⟨_, u G h, ?_⟩⟩
  rw [hi, he]
  exact u' G' h'

section bgk
variable {R : Type} (D : Decomp N1 N2 R) (g1 g2 : ℕ) (red : List K → K) (fn : ElemFns K) (pr : CollisionNumbers K)

/-- A run of the bundled nonrelativistic system without fields: free streaming, and relaxation to the local Maxwellian. -/
def bgkRunIn (q1 q2 : R → AfArray K) (y : R → CollisionArrays K) (inst en : Bool) : AslRunIn R K :=
  ⟨q1, q2, fun _ r => (y r).v1, fun _ r => (y r).v2, inst, en, fun _ r b a => @arrBgk K (exactMachine K) red fn pr (y r) b (ofArr a)⟩

/-- The collision operator at one position of the grid. -/
def cellBgk (mass dp1 dp2 dp3 : Fin Ns → K) (co : PCoords (Fin Ns) (AslPIdx Np1 Np2 Np3) K) (tau : Dist (Fin Ns) (AslPIdx Np1 Np2 Np3) (ZMod N1 × ZMod N2) K)
    (i : ZMod N1 × ZMod N2) (g : Fin Ns → AslPIdx Np1 Np2 Np3 → K) (b : Bool) : Fin Ns → AslPIdx Np1 Np2 Np3 → K := fun s p =>
  @Mach.bgk _ _ _ K (exactMachine K) fn pr ((⟨Np1, Np2, Np3, Ns, 1, 1, 0, 0⟩ : GridSizes).sums red) co (fun s => dp3 s * dp2 s * dp1 s) mass
    (fun s p (_ : Unit) => tau s p i) b (fun s p _ => g s p) s p ()

theorem cellBgk_local {S P Q K : Type} [M : Machine K] (fn : ElemFns K) (pr : CollisionNumbers K) (Sm : Mach.Sums S P K) (co : PCoords S P K) (w mass : S → K) (b : Bool)
    (tau G : Dist S P Q K) (tau' : S → P → K) (s : S) (p : P) (q : Q) (ht : ∀ p, tau s p q = tau' s p) :
    Mach.bgk fn pr Sm co w mass tau b G s p q = Mach.bgk fn pr Sm co w mass (fun s p (_ : Unit) => tau' s p) b (fun s p _ => G s p q) s p () :=
  C116_collisions_are_local fn pr Sm co w mass b tau G _ _ s q () (fun _ => rfl) ht p

theorem arrBgk_holds {K : Type} [M : Machine K] {z : GridSizes} [NeZero z.Np1] [NeZero z.Np2] [NeZero z.Np3] [NeZero z.M1] [NeZero z.M2] [NeZero z.Ns]
    (hone : ∀ u : K, lit 1 ⊠ u = u) (red : List K → K) (fn : ElemFns K) (pr : CollisionNumbers K) (hp : pr.pdim ≠ 0) (x : CollisionArrays K)
    (mass dp1 dp2 dp3 : Fin z.Ns → K) (co : PCoords (Fin z.Ns) z.P K) (hx : x.Hold mass dp1 dp2 dp3 co) (tau : Dist (Fin z.Ns) z.P z.Q K) (ht : TauHolds x.tau tau)
    (b : Bool) {a : AfArray K} (ha : z.Fits a) :
    HoldsDist (arrBgk red fn pr x b (ofArr a)) (Mach.bgk fn pr (z.sums red) co (fun s => dp3 s ⊠ dp2 s ⊠ dp1 s) mass tau b (z.cells a)) := by
  cases b with
  | false => exact C116_collision_term hone red fn pr hp x mass dp1 dp2 dp3 co hx tau ht _ _ (holdsDist_cells ha)
  | true =>
    obtain ⟨v, et⟩ : ∃ v, x.tau = .ok v := by
      rcases ht with ⟨c, hc, -⟩ | ⟨b, hb, -⟩
      exacts [⟨_, hc⟩, ⟨_, hb⟩]
    exact C116_local_maxwellian hone red fn pr hp x mass dp1 dp2 dp3 co hx v et _ _ (holdsDist_cells ha)

/-- C123 (collisions of the bundled system): with the bundled advection and collision functions, given arrays of masses, cell sizes, velocities and relaxation times that agree
with those of the whole grid in the owned cells, a semi-Lagrangian run on arrays returns, and all it can return are the parts of the whole grid's run with the bundled collision
operator in each position cell. -/
theorem C123_bgk_run (hp : pr.pdim ≠ 0) (hz : D.SizesOk (D.sizes Np1 Np2 Np3 Ns g1 g2) g1 g2) (k : ∀ r, 2 ≤ D.n1 r + 2 * g1 ∧ 2 ≤ D.n2 r + 2 * g2)
    (q1Start q2Start dq1 dq2 : K) (hd1 : dq1 ≠ 0) (hd2 : dq2 ≠ 0) (q1 q2 : R → AfArray K) (y : R → CollisionArrays K) (inst en : Bool)
    (hq1 : ∀ r, (D.sizes Np1 Np2 Np3 Ns g1 g2 r).HoldsCoord (q1 r) (D.coords g1 g2 q1Start q2Start dq1 dq2 r).2.2.2.1)
    (hq2 : ∀ r, (D.sizes Np1 Np2 Np3 Ns g1 g2 r).HoldsCoord (q2 r) (D.coords g1 g2 q1Start q2Start dq1 dq2 r).2.2.2.2)
    (mass dp1 dp2 dp3 : Fin Ns → K) (co : PCoords (Fin Ns) (AslPIdx Np1 Np2 Np3) K)
    (hy : ∀ r, (y r).Hold (z := D.sizes Np1 Np2 Np3 Ns g1 g2 r) mass dp1 dp2 dp3 co) (tauLoc : ∀ r, Dist (Fin Ns) (AslPIdx Np1 Np2 Np3) (D.Loc g1 g2 r) K)
    (tau : Dist (Fin Ns) (AslPIdx Np1 Np2 Np3) (ZMod N1 × ZMod N2) K) (ht : ∀ r, TauHolds (z := D.sizes Np1 Np2 Np3 Ns g1 g2 r) (y r).tau (tauLoc r))
    (hT : D.Holds g1 g2 tauLoc tau) (steps : List (Scheme × K)) (hb1 : ∀ m ∈ steps, ∀ s p, |co.p1 s p * m.2 / dq1| ≤ g1 - 1)
    (hb2 : ∀ m ∈ steps, ∀ s p, |co.p2 s p * m.2 / dq2| ≤ g2 - 1) (t : K) (F : R → AfArray K)
    (f : Dist (Fin Ns) (AslPIdx Np1 Np2 Np3) (ZMod N1 × ZMod N2) K) (hF : D.ArrStands g1 g2 Np1 Np2 Np3 Ns F f) :
    (∃ F', @Decomp.ArrAslRun K (exactMachine K) R N1 N2 D g1 g2 Np1 Np2 Np3 Ns approx2 (bgkRunIn red fn pr q1 q2 y inst en) steps t F F') ∧
    ∀ F', @Decomp.ArrAslRun K (exactMachine K) R N1 N2 D g1 g2 Np1 Np2 Np3 Ns approx2 (bgkRunIn red fn pr q1 q2 y inst en) steps t F F' →
      D.ArrStands g1 g2 Np1 Np2 Np3 Ns F' (wholeAslRun (fun _ s p _ => co.p1 s p) (fun _ s p _ => co.p2 s p) dq1 dq2 inst en
        (fun _ => cellBgk Np1 Np2 Np3 Ns red fn pr mass dp1 dp2 dp3 co tau) steps t f) := by
  let M : Machine K := exactMachine K
  have hone : ∀ u : K, lit 1 ⊠ u = u := fun u => by
    change ((1 : ℚ) : K) * u = u
    rw [Rat.cast_one, one_mul]
  have i1 : ∀ r, NeZero (D.sizes Np1 Np2 Np3 Ns g1 g2 r).Np1 := fun _ => ‹NeZero Np1›
  have i2 : ∀ r, NeZero (D.sizes Np1 Np2 Np3 Ns g1 g2 r).Np2 := fun _ => ‹NeZero Np2›
  have i3 : ∀ r, NeZero (D.sizes Np1 Np2 Np3 Ns g1 g2 r).Np3 := fun _ => ‹NeZero Np3›
  have i4 : ∀ r, NeZero (D.sizes Np1 Np2 Np3 Ns g1 g2 r).Ns := fun _ => ‹NeZero Ns›
  have i5 : ∀ r, NeZero (D.sizes Np1 Np2 Np3 Ns g1 g2 r).M1 := fun r => ⟨by have := (k r).1; simp only [Decomp.sizes, GridSizes.M1]; omega⟩
  have i6 : ∀ r, NeZero (D.sizes Np1 Np2 Np3 Ns g1 g2 r).M2 := fun r => ⟨by have := (k r).2; simp only [Decomp.sizes, GridSizes.M2]; omega⟩
  refine D.C123_whole_run g1 g2 Np1 Np2 Np3 Ns hz k q1Start q2Start dq1 dq2 hd1 hd2 (bgkRunIn red fn pr q1 q2 y inst en) (fun _ _ s p _ => co.p1 s p)
    (fun _ _ s p _ => co.p2 s p) (fun _ s p _ => co.p1 s p) (fun _ s p _ => co.p2 s p) (fun _ _ _ _ _ _ => rfl) (fun _ _ _ _ _ _ => rfl)
    (fun _ r g b => Mach.bgk fn pr ((D.sizes Np1 Np2 Np3 Ns g1 g2 r).sums red) co (fun s => dp3 s * dp2 s * dp1 s) mass (tauLoc r) b g)
    (fun _ => cellBgk Np1 Np2 Np3 Ns red fn pr mass dp1 dp2 dp3 co tau) ?_ ?_ steps
    (fun m hm _ s p _ => hb1 m hm s p) (fun m hm _ s p _ => hb2 m hm s p) t F f hF
  · intro _ r G b s p l hl
    exact cellBgk_local (M := M) fn pr ((D.sizes Np1 Np2 Np3 Ns g1 g2 r).sums red) co (fun s => dp3 s * dp2 s * dp1 s) mass b (tauLoc r) G
      (fun s p => tau s p (D.toGlob g1 g2 r l)) s p l (fun p => hT r s p l hl)
  · refine ⟨hq1, hq2, fun _ r => .inr (hy r).v1, fun _ r => .inr (hy r).v2, fun _ r b a ha _ => ?_⟩
    exact arrBgk_holds (z := D.sizes Np1 Np2 Np3 Ns g1 g2 r) hone red fn pr hp (y r) mass dp1 dp2 dp3 co (hy r) (tauLoc r) (ht r) b ha

end bgk

/-- Two processes, two species, six momentum cells, two ghost cells, a Strang step followed by a step of the last scheme, velocities of at most one cell per step, and
collisions with a relaxation time that varies over position: the arrays of the hypotheses exist, so the run returns and holds the parts of the whole grid's run. -/
example (red : List ℚ → ℚ) (fn : ElemFns ℚ) (u1 u2 u3 : Fin 2 → AslPIdx 2 3 1 → ℚ) (b1 : ∀ s p, |u1 s p| ≤ 1) (b2 : ∀ s p, |u2 s p| ≤ 1) (mass dp1 dp2 dp3 : Fin 2 → ℚ)
    (tau f : Dist (Fin 2) (AslPIdx 2 3 1) (ZMod 4 × ZMod 3) ℚ) (inst en : Bool) :
    ∃ (q1 q2 : Fin 2 → AfArray ℚ) (y : Fin 2 → CollisionArrays ℚ) (F F' : Fin 2 → AfArray ℚ), exS.ArrStands 2 2 2 3 1 2 F f ∧
      @Decomp.ArrAslRun ℚ (exactMachine ℚ) _ _ _ exS 2 2 2 3 1 2 approx2 (bgkRunIn red fn ⟨3, 1⟩ q1 q2 y inst en) [(.strang, 1), (.jia, 1 / 2)] 0 F F' ∧
      exS.ArrStands 2 2 2 3 1 2 F' (wholeAslRun (fun _ s p _ => u1 s p) (fun _ s p _ => u2 s p) 1 1 inst en
        (fun _ => cellBgk 2 3 1 2 red fn ⟨3, 1⟩ mass dp1 dp2 dp3 ⟨u1, u2, u3⟩ tau) [(.strang, 1), (.jia, 1 / 2)] 0 f) := by
  let M : Machine ℚ := exactMachine ℚ
  have hz : exS.SizesOk (exS.sizes 2 3 1 2 2 2) 2 2 :=
    ⟨fun _ => rfl, fun _ => rfl, fun _ => rfl, fun _ => rfl, fun h => by omega, fun h => by omega⟩
  have i1 : ∀ r, NeZero (exS.sizes 2 3 1 2 2 2 r).M1 := fun r => ⟨by simp [GridSizes.M1, Decomp.sizes, exS]⟩
  have i2 : ∀ r, NeZero (exS.sizes 2 3 1 2 2 2 r).M2 := fun r => ⟨by simp [GridSizes.M2, Decomp.sizes, exS]⟩
  have i3 : ∀ r, NeZero (exS.sizes 2 3 1 2 2 2 r).Np1 := fun _ => (inferInstance : NeZero 2)
  have i4 : ∀ r, NeZero (exS.sizes 2 3 1 2 2 2 r).Np2 := fun _ => (inferInstance : NeZero 3)
  have i5 : ∀ r, NeZero (exS.sizes 2 3 1 2 2 2 r).Np3 := fun _ => (inferInstance : NeZero 1)
  have i6 : ∀ r, NeZero (exS.sizes 2 3 1 2 2 2 r).Ns := fun _ => (inferInstance : NeZero 2)
  obtain ⟨F, sF, hF⟩ := C113_blocks_exist exS 2 2 2 3 1 2 f
  choose q1 hq1 using fun r => C122_coord_exists (exS.sizes 2 3 1 2 2 2 r) (exS.coords 2 2 (0 : ℚ) 0 1 1 r).2.2.2.1
  choose q2 hq2 using fun r => C122_coord_exists (exS.sizes 2 3 1 2 2 2 r) (exS.coords 2 2 (0 : ℚ) 0 1 1 r).2.2.2.2
  choose T hT using fun r => exists_holdsDist (z := exS.sizes 2 3 1 2 2 2 r) (fun s p l => tau s p (exS.toGlob 2 2 r l))
  choose y hy ey using fun r => exists_collisionArrays (z := exS.sizes 2 3 1 2 2 2 r) mass dp1 dp2 dp3 ⟨u1, u2, u3⟩ (.ok (.arr (T r)))
  have k : ∀ r, 2 ≤ exS.n1 r + 2 * 2 ∧ 2 ≤ exS.n2 r + 2 * 2 := fun r => by omega
  have hs : ∀ m ∈ [((.strang : Scheme), (1 : ℚ)), (.jia, 1 / 2)], |m.2| ≤ 1 := by
    intro m hm
    simp only [List.mem_cons, List.not_mem_nil, or_false] at hm
    rcases hm with rfl | rfl
    · norm_num
    · rw [abs_of_pos] <;> norm_num
  have bd : ∀ (u : ℚ), |u| ≤ 1 → ∀ m ∈ [((.strang : Scheme), (1 : ℚ)), (.jia, 1 / 2)], |u * m.2 / 1| ≤ ((2 : ℕ) : ℚ) - 1 := by
    intro u hu m hm
    rw [div_one, abs_mul]
    refine (mul_le_mul hu (hs m hm) (abs_nonneg _) zero_le_one).trans ?_
    norm_num
  obtain ⟨⟨F', hF'⟩, hu⟩ := C123_bgk_run 2 3 1 2 exS 2 2 red fn ⟨3, 1⟩ (by decide) hz k 0 0 1 1 one_ne_zero one_ne_zero q1 q2 y inst en hq1 hq2 mass dp1 dp2 dp3 ⟨u1, u2, u3⟩
    hy (fun r s p l => tau s p (exS.toGlob 2 2 r l)) tau (fun r => .inr (by rw [ey r]; exact hT r)) (fun _ _ _ _ _ => rfl) [(.strang, 1), (.jia, 1 / 2)]
    (fun m hm s p => bd _ (b1 s p) m hm) (fun m hm s p => bd _ (b2 s p) m hm) 0 F f ⟨sF, hF⟩
  exact ⟨q1, q2, y, F, F', ⟨sF, hF⟩, hF', hu F' hF'⟩

end Bolt
