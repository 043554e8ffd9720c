import Verif.Proofs.CollisionArrays
import Verif.Props.FieldArrays
import Verif.Props.MachineCoupled
import Verif.Props.Nonrel

/-!
# C116: the collision operator on arrays

The bundled collision operator computes, on arrays and in any arithmetic, the cell-by-cell formula; which relaxation times it accepts; that it acts within one species
and one position cell; and what this means for a run of the bundled system on several processes.
-/

set_option linter.unusedSectionVars false

namespace Bolt

open Machine PyExpr

section
variable {K : Type} [Machine K] {z : GridSizes} [NeZero z.Np1] [NeZero z.Np2] [NeZero z.Np3] [NeZero z.M1] [NeZero z.M2] [NeZero z.Ns]

/-- C116 (local Maxwellian): with arrays of masses and cell sizes per species and velocities per momentum cell, the array the collision operator relaxes to has the
shape of the distribution and holds in each cell the Maxwellian with the density, bulk velocity and temperature of that species in that position cell. It is what
the operator returns for instantaneous collisions, whatever the relaxation time. -/
theorem C116_local_maxwellian (hone : ∀ u : K, lit 1 ⊠ u = u) (red : List K → K) (fn : ElemFns K) (pr : CollisionNumbers K) (hp : pr.pdim ≠ 0)
    (x : CollisionArrays K) (mass dp1 dp2 dp3 : Fin z.Ns → K) (co : PCoords (Fin z.Ns) z.P K) (hx : x.Hold mass dp1 dp2 dp3 co) (t : PyVal K) (ht : x.tau = .ok t)
    (m : PyExpr K) (f : Dist (Fin z.Ns) z.P z.Q K) (hf : HoldsDist m f) :
    HoldsDist (arrBgk red fn pr x true m) (Mach.localMaxwellian fn pr (z.sums red) co (fun s => dp3 s ⊠ dp2 s ⊠ dp1 s) mass f) := by
  let cfg : FVMConfig (Fin z.Ns) K := ⟨"", "", "", "", "", "", false, false, lit 0, lit 0, dp1, dp2, dp3⟩
  have hn : (momentLay z).Holds (arrDensity red x.dp1 x.dp2 x.dp3 m) fun y => Mach.density (z.sums red) (Mach.measure cfg) f y.1 y.2 :=
    arrIntegral_holds red hf (measure_holds (cfg := cfg) hx.dp1 hx.dp2 hx.dp3)
  let U1 : Fin z.Ns → z.Q → K := fun s q =>
    Mach.bulk (Mach.density (z.sums red) (Mach.measure cfg) f s q) (Mach.momV (z.sums red) co.p1 (Mach.measure cfg) f s q)
  let U2 : Fin z.Ns → z.Q → K := fun s q =>
    Mach.bulk (Mach.density (z.sums red) (Mach.measure cfg) f s q) (Mach.momV (z.sums red) co.p2 (Mach.measure cfg) f s q)
  let U3 : Fin z.Ns → z.Q → K := fun s q =>
    Mach.bulk (Mach.density (z.sums red) (Mach.measure cfg) f s q) (Mach.momV (z.sums red) co.p3 (Mach.measure cfg) f s q)
  have u1 : (momentLay z).Holds (arrMomV red x.dp1 x.dp2 x.dp3 x.v1 m / (arrDensity red x.dp1 x.dp2 x.dp3 m + const collisionFloor)) fun y => U1 y.1 y.2 :=
    bulk_holds hn (arrMomV_holds (cfg := cfg) red hf hx.v1 hx.dp1 hx.dp2 hx.dp3)
  have u2 : (momentLay z).Holds (arrMomV red x.dp1 x.dp2 x.dp3 x.v2 m / (arrDensity red x.dp1 x.dp2 x.dp3 m + const collisionFloor)) fun y => U2 y.1 y.2 :=
    bulk_holds hn (arrMomV_holds (cfg := cfg) red hf hx.v2 hx.dp1 hx.dp2 hx.dp3)
  have u3 : (momentLay z).Holds (arrMomV red x.dp1 x.dp2 x.dp3 x.v3 m / (arrDensity red x.dp1 x.dp2 x.dp3 m + const collisionFloor)) fun y => U3 y.1 y.2 :=
    bulk_holds hn (arrMomV_holds (cfg := cfg) red hf hx.v3 hx.dp1 hx.dp2 hx.dp3)
  have hE := arrEnergy_holds (cfg := cfg) red fn hf hx.v1 hx.v2 hx.v3 hx.dp1 hx.dp2 hx.dp3
  let T : Fin z.Ns → z.Q → K := fun s q => Mach.temperature fn pr (mass s) (Mach.density (z.sums red) (Mach.measure cfg) f s q) (U1 s q) (U2 s q) (U3 s q)
    (Mach.energy fn (z.sums red) co (Mach.measure cfg) f s q)
  have hT : (momentLay z).Holds (arrTemperature fn pr x.mass _ _ _ _ _) fun y => T y.1 y.2 := arrTemperature_holds fn pr hone hp hx.mass hn u1 u2 u3 hE
  have key := arrMaxwellian_holds fn pr hx.mass hx.v1 hx.v2 hx.v3 hn hT u1 u2 u3
  obtain ⟨a, ha, hd⟩ := key
  refine ⟨a, ?_, hd⟩
  unfold arrBgk
  dsimp only
  rw [ha, ht]
  rfl

/-- The operator without instantaneous collisions, in terms of what it returns with them. -/
theorem arrBgk_false (red : List K → K) (fn : ElemFns K) (pr : CollisionNumbers K) (x : CollisionArrays K) (t : PyVal K) (ht : x.tau = .ok t) (m : PyExpr K)
    (a : AfArray K) (ha : arrBgk red fn pr x true m = .ok (.arr a)) : arrBgk red fn pr x false m = -(m - .ok (.arr a)) / .ok t := by
  unfold arrBgk at ha ⊢
  dsimp only at ha ⊢
  rw [ht] at ha ⊢
  revert ha
  generalize arrMaxwellian fn pr _ _ _ _ _ _ _ _ _ = e
  intro ha
  cases e with
  | error e => exact absurd ha (by intro h; cases h)
  | ok v =>
    have : v = .arr a := Except.ok.inj ha
    subst this
    rfl

/-- C116 (collisions on arrays): with a relaxation time that is a number or an array of the shape of the distribution, the collision term has the shape of the
distribution and holds `-(f - f_MB) / tau` cell by cell. -/
theorem C116_collision_term (hone : ∀ u : K, lit 1 ⊠ u = u) (red : List K → K) (fn : ElemFns K) (pr : CollisionNumbers K) (hp : pr.pdim ≠ 0)
    (x : CollisionArrays K) (mass dp1 dp2 dp3 : Fin z.Ns → K) (co : PCoords (Fin z.Ns) z.P K) (hx : x.Hold mass dp1 dp2 dp3 co)
    (tau : Dist (Fin z.Ns) z.P z.Q K) (ht : TauHolds x.tau tau) (m : PyExpr K) (f : Dist (Fin z.Ns) z.P z.Q K) (hf : HoldsDist m f) :
    HoldsDist (arrBgk red fn pr x false m) (Mach.bgk fn pr (z.sums red) co (fun s => dp3 s ⊠ dp2 s ⊠ dp1 s) mass tau false f) := by
  obtain ⟨t, et⟩ : ∃ t, x.tau = .ok t := by
    rcases ht with ⟨c, hc, -⟩ | ⟨a, ha, -⟩
    exacts [⟨_, hc⟩, ⟨_, ha⟩]
  have hM := C116_local_maxwellian hone red fn pr hp x mass dp1 dp2 dp3 co hx t et m f hf
  obtain ⟨a, ha, hd⟩ := id hM
  rw [arrBgk_false red fn pr x t et m a ha, ← ha]
  have hneg := (Lay.Holds.bin Machine.sub hf hM).un neg
  rcases ht with ⟨c, hc, hv⟩ | hv
  · rw [← et, hc]
    exact (hneg.numR false div c).congr fun y => by
      unfold Mach.bgk
      rw [if_pos rfl, hv]
  · rw [← et]
    exact Lay.Holds.bin div hneg hv

/-- C116 (which relaxation times are accepted): if `params.tau` returns an array, the collision term is computed exactly when that array has the shape of the
distribution; any other array raises. An array that depends on positions only, or on momenta only, is not repeated along the other axes. -/
theorem C116_tau_shapes (hone : ∀ u : K, lit 1 ⊠ u = u) (red : List K → K) (fn : ElemFns K) (pr : CollisionNumbers K) (hp : pr.pdim ≠ 0)
    (x : CollisionArrays K) (mass dp1 dp2 dp3 : Fin z.Ns → K) (co : PCoords (Fin z.Ns) z.P K) (hx : x.Hold mass dp1 dp2 dp3 co) (b : AfArray K)
    (ht : x.tau = .ok (.arr b)) (m : PyExpr K) (f : Dist (Fin z.Ns) z.P z.Q K) (hf : HoldsDist m f) :
    ((∃ v, arrBgk red fn pr x false m = .ok v) ↔ z.Fits b) ∧ (¬ z.Fits b → arrBgk red fn pr x false m = .error .exception) := by
  have hM := C116_local_maxwellian hone red fn pr hp x mass dp1 dp2 dp3 co hx _ ht m f hf
  have bad : ¬ z.Fits b → arrBgk red fn pr x false m = .error .exception := by
    intro hb
    obtain ⟨a, ha, hd⟩ := id hM
    rw [arrBgk_false red fn pr x _ ht m a ha, ← ha]
    obtain ⟨c, hc, c0, c1, c2, c3, -⟩ := (Lay.Holds.bin Machine.sub hf hM).un neg
    have e : -(m - arrBgk red fn pr x true m) = .ok (.arr c) := hc
    rw [e]
    change Except.map PyVal.arr (c.zipWith div b) = _
    have : c.zipWith div b = .error .exception := if_neg fun h => hb ⟨h.1.symm.trans c0, h.2.1.symm.trans c1, h.2.2.1.symm.trans c2, h.2.2.2.symm.trans c3⟩
    rw [this]
    rfl
  refine ⟨⟨fun ⟨v, hv⟩ => ?_, fun hb => ?_⟩, bad⟩
  · by_contra hb
    rw [bad hb] at hv
    cases hv
  · obtain ⟨v, hv, -⟩ := C116_collision_term hone red fn pr hp x mass dp1 dp2 dp3 co hx (z.cells b) (.inr (by rw [ht]; exact holdsDist_cells hb)) m f hf
    exact ⟨_, hv⟩

/-- C116 (relaxation times of the examples): `c * p1**0 * q1**0` decorated with `af.broadcast` has the shape of the distribution, so it is accepted, with the value
`c * p1**0 * q1**0` of the cell. Without the decorator it raises as soon as there is more than one position cell. -/
theorem C116_tau_of_coordinates (pow0 : K → K) (c : K) (x1 y1 : PyExpr K) (p1 : Fin z.Ns → z.P → K) (q1 : z.Q → K)
    (hx : (momentumOnly z).Holds x1 fun y => p1 y.1 y.2.1) (hy : (positionOnly z).Holds y1 fun y => q1 y.2.2) :
    TauHolds (arrTau true pow0 c x1 y1) (fun s p q => c ⊠ pow0 (p1 s p) ⊠ pow0 (q1 q)) ∧
      (1 < z.M1 * z.M2 → arrTau false pow0 c x1 y1 = .error .exception) := by
  refine ⟨.inr (((hx.un pow0).numL true mul c).batch2 (qExpanded_ok z) (momentumOnly_ok z) positionOnly_ok momentumOnly_sub positionOnly_sub
    (.inl rfl) (.inl rfl) (.inr rfl) (.inr rfl) mul (hy.un pow0)), fun hM => ?_⟩
  obtain ⟨a, ha, a0, a1, a2, a3, -⟩ := (hx.un pow0).numL false mul c
  obtain ⟨b, hb, b0, b1, b2, b3, -⟩ := hy.un pow0
  unfold arrTau
  have e : bin false mul (num c) (un pow0 x1) = .ok (.arr a) := ha
  rw [e, hb]
  change Except.map PyVal.arr (a.zipWith mul b) = _
  have : a.zipWith mul b = .error .exception := if_neg fun h => by
    have h2 : 1 = z.M1 := a2.symm.trans (h.2.2.1.trans b2)
    have h3 : 1 = z.M2 := a3.symm.trans (h.2.2.2.trans b3)
    rw [← h2, ← h3] at hM
    omega
  rw [this]
  rfl

/-- C116 (no momentum dimension): with `p_dim = 0` every evaluation of the collision operator raises `ZeroDivisionError`. -/
theorem C116_zero_dimensions (red : List K → K) (fn : ElemFns K) (pr : CollisionNumbers K) (hp : pr.pdim = 0) (x : CollisionArrays K)
    (mass dp1 dp2 dp3 : Fin z.Ns → K) (co : PCoords (Fin z.Ns) z.P K) (hx : x.Hold mass dp1 dp2 dp3 co) (flag : Bool) (m : PyExpr K)
    (f : Dist (Fin z.Ns) z.P z.Q K) (hf : HoldsDist m f) : arrBgk red fn pr x flag m = .error .zeroDivision := by
  let cfg : FVMConfig (Fin z.Ns) K := ⟨"", "", "", "", "", "", false, false, lit 0, lit 0, dp1, dp2, dp3⟩
  have o : oneOverPDim pr = (.error .zeroDivision : PyExpr K) := if_pos hp
  have hn : (momentLay z).Holds (arrDensity red x.dp1 x.dp2 x.dp3 m) fun y => Mach.density (z.sums red) (Mach.measure cfg) f y.1 y.2 :=
    arrIntegral_holds red hf (measure_holds (cfg := cfg) hx.dp1 hx.dp2 hx.dp3)
  unfold arrBgk
  dsimp only
  have hT : ∀ u1 u2 u3 E : PyExpr K, arrTemperature fn pr x.mass (arrDensity red x.dp1 x.dp2 x.dp3 m) u1 u2 u3 E = .error .zeroDivision := by
    intro u1 u2 u3 E
    unfold arrTemperature
    rw [o]
    rfl
  rw [hT]
  obtain ⟨a, ha, -⟩ := hn
  obtain ⟨b, hb, -⟩ := hx.mass
  unfold arrMaxwellian
  dsimp only
  rw [if_neg (by omega), if_neg (by omega), ha, hb]
  rfl

end

/-- C116 (locality): the collision term of a species in a position cell depends on that species in that position cell only, whatever the arithmetic. -/
theorem C116_collisions_are_local {S P Q Q' K : Type} [Machine K] (fn : ElemFns K) (pr : CollisionNumbers K) (Sm : Mach.Sums S P K) (co : PCoords S P K)
    (w mass : S → K) (flag : Bool) (tau f : Dist S P Q K) (tau' f' : Dist S P Q' K) (s : S) (q : Q) (q' : Q') (hf : ∀ p, f s p q = f' s p q')
    (ht : ∀ p, tau s p q = tau' s p q') (p : P) :
    Mach.bgk fn pr Sm co w mass tau flag f s p q = Mach.bgk fn pr Sm co w mass tau' flag f' s p q' := by
  have hM : ∀ p, Mach.localMaxwellian fn pr Sm co w mass f s p q = Mach.localMaxwellian fn pr Sm co w mass f' s p q' := by
    intro p
    unfold Mach.localMaxwellian Mach.density Mach.energy Mach.momV
    simp only [hf]
  unfold Mach.bgk
  cases flag
  · simp only [if_pos]
    rw [hf, ht, hM]
  · simpa using hM p

/-- C116 (exact arithmetic): with real numbers, exact sums and the functions of analysis this is the collision operator of the other claims on collisions. -/
theorem C116_exact {S P Q : Type} [Fintype P] [M : Machine ℝ] (hM : M = exactMachine ℝ) (pdim : ℕ) (k : ℝ) (mass w : S → ℝ) (co : PCoords S P ℝ)
    (tau f : Dist S P Q ℝ) (flag : Bool) (overS : (S → ℝ) → ℝ) :
    Mach.bgk realFns ⟨pdim, k⟩ ⟨fun g => ∑ p, g p, overS⟩ co w mass tau flag f = bgk ⟨pdim, mass, k, tau⟩ co w flag f := by
  subst hM
  have ea : ∀ a b : ℝ, (exactMachine ℝ).add a b = a + b := fun _ _ => rfl
  have es : ∀ a b : ℝ, (exactMachine ℝ).sub a b = a - b := fun _ _ => rfl
  have em : ∀ a b : ℝ, (exactMachine ℝ).mul a b = a * b := fun _ _ => rfl
  have ed : ∀ a b : ℝ, (exactMachine ℝ).div a b = a / b := fun _ _ => rfl
  have en : ∀ a : ℝ, (exactMachine ℝ).neg a = -a := fun _ => rfl
  have hl : ∀ q : ℚ, (exactMachine ℝ).lit q = (q : ℝ) := fun _ => rfl
  have hfl : ((collisionFloor : ℚ) : ℝ) = bgkEps := by unfold collisionFloor bgkEps; push_cast; rfl
  have hmax : @Mach.localMaxwellian S P Q ℝ (exactMachine ℝ) realFns ⟨pdim, k⟩ ⟨fun g => ∑ p, g p, overS⟩ co w mass f =
      localMaxwellian ⟨pdim, mass, k, tau⟩ co w f := by
    funext s p q
    unfold Mach.localMaxwellian localMaxwellian Mach.maxwellian maxwellian Mach.gaussian Mach.bulk bgkBulk Mach.temperature bgkTemperature Mach.density density
      Mach.energy energy Mach.momV momV1 momV2 momV3 integralOverV
    simp only [ea, es, em, ed, en, hl, hfl, realFns]
    push_cast
    rfl
  unfold Mach.bgk bgk
  rw [hmax]
  rfl

section runs
variable {K : Type} [Machine K] (red : List K → K) {N1 N2 : ℕ} {R : Type} {D : Decomp N1 N2 R} {g1 g2 Np1 Np2 Np3 Ns : ℕ} [NeZero Np1] [NeZero Np2] [NeZero Np3]
  [NeZero Ns] [NeZero N1] [NeZero N2] (fn : ElemFns K) (pr : CollisionNumbers K)

/-- C116 (the bundled system on a process): arrays of charges, masses and cell sizes per species, of velocities per momentum cell and an accepted relaxation time
meet every requirement of a coupled run. -/
theorem C116_bundled_inputs {z : GridSizes} [NeZero z.Np1] [NeZero z.Np2] [NeZero z.Np3] [NeZero z.M1] [NeZero z.M2] [NeZero z.Ns]
    (hone : ∀ u : K, lit 1 ⊠ u = u) (hp : pr.pdim ≠ 0) {Q : Type} (c : CoupledConfig (Fin z.Ns) z.P Q K) (mass : Fin z.Ns → K)
    (x : CollisionArrays K) (charge : PyExpr K) (hx : x.Hold mass c.dp1 c.dp2 c.dp3 c.coords) (hc : (speciesOnly z).Holds charge fun y => c.charge y.1)
    (tau : Dist (Fin z.Ns) z.P z.Q K) (ht : c.sourceEnabled = true → TauHolds x.tau tau) :
    CoupledInputsHold c (x.callbacks red fn pr charge) (bundledCb fn pr (z.sums red) z.Q c.charge mass c.dp1 c.dp2 c.dp3 c.coords tau) :=
  ⟨fun _ => .inr hx.v1, fun _ => .inr hx.v2,
    fun _ hs a ha => C116_collision_term hone red fn pr hp x mass c.dp1 c.dp2 c.dp3 c.coords hx tau (ht hs) _ _ (holdsDist_cells ha),
    fun _ E F hE => C115_lorentz_force _ _ _ _ _ c.charge mass c.coords.p1 c.coords.p2 c.coords.p3 hc hx.mass hx.v1 hx.v2 hx.v3 E F hE,
    fun _ => ⟨hx.dp1, hx.dp2, hx.dp3⟩, fun _ => hc, fun _ => ⟨hx.v1, hx.v2, hx.v3⟩⟩

/-- C116 (agreement with the whole grid): the bundled system on a process agrees with the bundled system on the whole grid as soon as the relaxation times agree in
the cells the process owns. -/
theorem C116_bundled_agree {S P : Type} (Sm : Mach.Sums S P K) (e m dp1 dp2 dp3 : S → K) (co : PCoords S P K) (r : R) (tauLoc : Dist S P (D.Loc g1 g2 r) K)
    (tau : Dist S P (ZMod N1 × ZMod N2) K) (ht : ∀ s p l, D.Interior g1 g2 r l → tauLoc s p l = tau s p (D.toGlob g1 g2 r l)) :
    D.CoupledAgree g1 g2 r (bundledCb fn pr Sm (D.Loc g1 g2 r) e m dp1 dp2 dp3 co tauLoc) (bundledCb fn pr Sm (ZMod N1 × ZMod N2) e m dp1 dp2 dp3 co tau) where
  q1 := fun _ _ _ _ => ⟨rfl, rfl⟩
  q2 := fun _ _ _ _ => ⟨rfl, rfl⟩
  p1 := fun F G s p l _ h => by
    have h0 : F.E1 l = G.E1 (D.toGlob g1 g2 r l) := h 0
    have h4 : F.B2 l = G.B2 (D.toGlob g1 g2 r l) := h 4
    have h5 : F.B3 l = G.B3 (D.toGlob g1 g2 r l) := h 5
    simp only [bundledCb, h0, h4, h5]
  p2 := fun F G s p l _ h => by
    have h0 : F.E2 l = G.E2 (D.toGlob g1 g2 r l) := h 1
    have h4 : F.B1 l = G.B1 (D.toGlob g1 g2 r l) := h 3
    have h5 : F.B3 l = G.B3 (D.toGlob g1 g2 r l) := h 5
    simp only [bundledCb, h0, h4, h5]
  p3 := fun F G s p l _ h => by
    have h0 : F.E3 l = G.E3 (D.toGlob g1 g2 r l) := h 2
    have h4 : F.B1 l = G.B1 (D.toGlob g1 g2 r l) := h 3
    have h5 : F.B2 l = G.B2 (D.toGlob g1 g2 r l) := h 4
    simp only [bundledCb, h0, h4, h5]
  src := fun f g l hl h s p => C116_collisions_are_local fn pr Sm co _ m false tauLoc f tau g s l _ (fun p => h s p) (fun p => ht s p l hl) p

/-- C116 (runs of the bundled system): a run with collisions, the Lorentz force and electrodynamic fields, computed by the processes on their arrays in any arithmetic,
leaves in the dumped files exactly the numbers the cell-by-cell formulas give on the whole grid, for every number of processes. Nothing is assumed of the callbacks:
only which numbers the parameter arrays hold. -/
theorem C116_dumped_bundled_run (hone : ∀ u : K, lit 1 ⊠ u = u) (hz : D.SizesOk (D.sizes Np1 Np2 Np3 Ns g1 g2) g1 g2) {o : BCOptions}
    {c : CoupledConfig (Fin Ns) (AslPIdx Np1 Np2 Np3) (ZMod N1 × ZMod N2) K} (hc : GridConfig g1 g2 o c)
    (hax : c.ax = gridAxes Np1 Np2 Np3 N1 N2) (hi : Implemented c)
    (hon : c.solverMethodInQ = "FVM" ∨ (c.solverMethodInP = "FVM" ∧ c.fieldsEnabled = true)) (hp : pr.pdim ≠ 0)
    (mass : Fin Ns → K) (tau : Dist (Fin Ns) (AslPIdx Np1 Np2 Np3) (ZMod N1 × ZMod N2) K) (x : R → CollisionArrays K) (charge : R → PyExpr K)
    (hx : ∀ r, (x r).Hold (z := D.sizes Np1 Np2 Np3 Ns g1 g2 r) mass c.dp1 c.dp2 c.dp3 c.coords)
    (hch : ∀ r, (speciesOnly (D.sizes Np1 Np2 Np3 Ns g1 g2 r)).Holds (charge r) fun y => c.charge y.1)
    (ht : c.sourceEnabled = true → ∀ r, ∃ tauLoc, TauHolds (z := D.sizes Np1 Np2 Np3 Ns g1 g2 r) (x r).tau tauLoc ∧
      ∀ s p l, D.Interior g1 g2 r l → tauLoc s p l = tau s p (D.toGlob g1 g2 r l))
    (dts : List K) (F F' : R → AfArray K) (hF : D.Shaped g1 g2 (Np1 * Np2 * Np3) Ns F) (σ σ' : R → ArrFieldState K)
    (hσ : ∀ r, (D.sizes Np1 Np2 Np3 Ns g1 g2 r).FitsState (σ r))
    (st st' : Dist (Fin Ns) (AslPIdx Np1 Np2 Np3) (ZMod N1 × ZMod N2) K × FieldState (ZMod N1 × ZMod N2) K)
    (hf : D.Holds g1 g2 (D.cellsOf g1 g2 Np1 Np2 Np3 Ns F) st.1) (hs : D.FieldsHold g1 g2 (D.stateOf g1 g2 Np1 Np2 Np3 Ns σ) st.2)
    (h : ArrRunCoupled red D g1 g2 Np1 Np2 Np3 Ns o c (dts.map fun dt => (dt, fun _ r => (x r).callbacks red fn pr (charge r))) F σ F' σ')
    (h' : Mach.runCoupled (arrSums Np1 Np2 Np3 Ns red) c (dts.map fun dt => (dt, fun _ =>
      bundledCb fn pr (arrSums Np1 Np2 Np3 Ns red) (ZMod N1 × ZMod N2) c.charge mass c.dp1 c.dp2 c.dp3 c.coords tau)) st = .ok st')
    (file fields : Vec K) (hd : D.DumpsTo (D.sizes Np1 Np2 Np3 Ns g1 g2) (Np1 * Np2 * Np3) Ns F' file)
    (hdE : D.DumpsTo (D.sizes Np1 Np2 Np3 Ns g1 g2) 6 1 (fun r => (σ' r).yee) fields) :
    (file.len = Np1 * Np2 * Np3 * Ns * (N1 * N2) ∧ ∀ (p1 p2 p3 s q1 q2 : ℕ) (hs : s < Ns), p1 < Np1 → p2 < Np2 → p3 < Np3 → q1 < N1 → q2 < N2 →
      file.data ((p1 + Np1 * (p2 + Np2 * p3)) + Np1 * Np2 * Np3 * (s + Ns * (q1 + N1 * q2))) =
        st'.1 ⟨s, hs⟩ ((p1 : ZMod Np1), (p2 : ZMod Np2), (p3 : ZMod Np3)) ((q1 : ZMod N1), (q2 : ZMod N2))) ∧
    (fields.len = 6 * (N1 * N2) ∧ ∀ (i : Fin 6) (q1 q2 : ℕ), q1 < N1 → q2 < N2 →
      fields.data (i + 6 * (q1 + N1 * q2)) = st'.2.yee.comp i ((q1 : ZMod N1), (q2 : ZMod N2))) := by
  have inst1 : ∀ r, NeZero (D.sizes Np1 Np2 Np3 Ns g1 g2 r).M1 := fun r => ⟨by have := D.pos1 r; simp only [GridSizes.M1, Decomp.sizes]; omega⟩
  have inst2 : ∀ r, NeZero (D.sizes Np1 Np2 Np3 Ns g1 g2 r).M2 := fun r => ⟨by have := D.pos2 r; simp only [GridSizes.M2, Decomp.sizes]; omega⟩
  have i1 : ∀ r, NeZero (D.sizes Np1 Np2 Np3 Ns g1 g2 r).Np1 := fun _ => ‹NeZero Np1›
  have i2 : ∀ r, NeZero (D.sizes Np1 Np2 Np3 Ns g1 g2 r).Np2 := fun _ => ‹NeZero Np2›
  have i3 : ∀ r, NeZero (D.sizes Np1 Np2 Np3 Ns g1 g2 r).Np3 := fun _ => ‹NeZero Np3›
  have i4 : ∀ r, NeZero (D.sizes Np1 Np2 Np3 Ns g1 g2 r).Ns := fun _ => ‹NeZero Ns›
  have loc : ∀ r, ∃ tauLoc : Dist (Fin Ns) (AslPIdx Np1 Np2 Np3) (D.Loc g1 g2 r) K,
      (c.sourceEnabled = true → TauHolds (z := D.sizes Np1 Np2 Np3 Ns g1 g2 r) (x r).tau tauLoc) ∧
      ∀ s p l, D.Interior g1 g2 r l → tauLoc s p l = tau s p (D.toGlob g1 g2 r l) := by
    intro r
    by_cases hs : c.sourceEnabled = true
    · obtain ⟨t, h1, h2⟩ := ht hs r
      exact ⟨t, fun _ => h1, h2⟩
    · exact ⟨fun s p l => tau s p (D.toGlob g1 g2 r l), fun h => absurd h hs, fun _ _ _ _ => rfl⟩
  choose tauLoc htl hta using loc
  let steps : List (K × (Fin 2 → R → ArrCallbacks K) × (Fin 2 → ∀ r, CoupledCallbacks (Fin Ns) (AslPIdx Np1 Np2 Np3) (D.Loc g1 g2 r) K) ×
      (Fin 2 → CoupledCallbacks (Fin Ns) (AslPIdx Np1 Np2 Np3) (ZMod N1 × ZMod N2) K)) :=
    dts.map fun dt => (dt, fun _ r => (x r).callbacks red fn pr (charge r),
      fun _ r => bundledCb fn pr (arrSums Np1 Np2 Np3 Ns red) (D.Loc g1 g2 r) c.charge mass c.dp1 c.dp2 c.dp3 c.coords (tauLoc r),
      fun _ => bundledCb fn pr (arrSums Np1 Np2 Np3 Ns red) (ZMod N1 × ZMod N2) c.charge mass c.dp1 c.dp2 c.dp3 c.coords tau)
  refine C115_dumped_coupled_run red hone hz hc hax hi hon steps ?_ ?_ F F' hF σ σ' hσ st st' hf hs ?_ ?_ file fields hd hdE
  · intro st hst
    obtain ⟨dt, -, rfl⟩ := List.mem_map.mp hst
    intro _ r
    exact C116_bundled_inputs red fn pr (z := D.sizes Np1 Np2 Np3 Ns g1 g2 r) hone hp c mass (x r) (charge r) (hx r) (hch r) (tauLoc r) (htl r)
  · intro st hst
    obtain ⟨dt, -, rfl⟩ := List.mem_map.mp hst
    intro _ r
    exact C116_bundled_agree fn pr _ _ _ _ _ _ _ r (tauLoc r) tau (hta r)
  · simp only [steps, List.map_map]; exact h
  · simp only [steps, List.map_map]; exact h'

end runs

end Bolt
