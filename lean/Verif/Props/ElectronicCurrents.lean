import Verif.Model.Electronic
import Verif.Props.FVM
import Mathlib.Analysis.Real.Pi.Bounds

/-!
# C84: transport and reported currents of the electronic system

Electrons are advected with the band velocity; the moments `j_x`, `j_y` weight the distribution with the momentum coordinates instead.
-/

set_option linter.unusedSectionVars false

namespace Bolt

variable {S P Q K : Type} [Fintype P] [AddCommGroup P] [AddCommGroup Q] [Field K] [LinearOrder K] [IsStrictOrderedRing K]

/-- Number of electrons per cell: the distribution summed over momentum. -/
def electrons (f : Dist S P Q K) (s : S) (q : Q) : K := ∑ p, f s p q

/-- Electrons crossing the left interface of cell `q` along the axis `e` per unit time and area, when the electrons of momentum cell `p`
move with velocity `vel s p` and the state at the interface is reconstructed from the upwind side with method `m`. -/
def electronFlux (m : Recon) (e : Q) (vel : S → P → K) (f : Dist S P Q K) (s : S) (q : Q) : K :=
  ∑ p, vel s p * (if 0 < vel s p then (reconFaces m e (f s p)).2 (q - e) else (reconFaces m e (f s p)).1 q)

/-- C84: without collisions the number of electrons in a cell changes only by the flux of electrons moving with the band velocity through its
four faces; electric and magnetic fields do not enter. -/
theorem C84_continuity (ax : Axes P Q) (cfg : FVMConfig S K) (hq : cfg.solverMethodInQ = "FVM") (hs : cfg.sourceEnabled = false)
    (e c B3 : K) (vel1 vel2 p1 : S → P → K) (E1 E2 : Q → K) (src : Dist S P Q K → Dist S P Q K) (f k : Dist S P Q K)
    (h : dfdtFVM ax cfg (electronicCallbacks e c B3 vel1 vel2 p1 E1 E2 src) f = .ok k) :
    ∃ m, reconMethod cfg.reconstructionInQ = .ok m ∧ ∀ s q, electrons k s q =
      (electronFlux m ax.q1 vel1 f s q - electronFlux m ax.q1 vel1 f s (q + ax.q1)) / cfg.dq1 +
      (electronFlux m ax.q2 vel2 f s q - electronFlux m ax.q2 vel2 f s (q + ax.q2)) / cfg.dq2 := by
  obtain ⟨a, b, h1, h2, h3⟩ := dfdtFVM_ok h
  rcases h2 with ⟨-, m, hm, ha⟩ | ⟨hn, -⟩
  swap
  · exact absurd hq hn
  refine ⟨m, hm, fun s q => ?_⟩
  have hb : ∑ p, b s p q = 0 := by
    rcases h3 with ⟨_, m, _, h4⟩ | ⟨_, h4⟩
    · simp [h4, sum_dfdtP]
    · simp [h4]
  have key : ∀ (e : Q) (vel : S → P → K) (q : Q), ∑ p, leftFlux m e (fun _ => vel s p) (f s p) q = electronFlux m e vel f s q := by
    intro e vel q
    simp only [electronFlux, leftFlux, leftState_eq]
  simp only [electrons, h1, Finset.sum_add_distrib, hb, add_zero, ha, hs, Bool.false_eq_true, if_false, C04_slope_is_flux_difference,
    electronicCallbacks, Finset.sum_const_zero, ← Finset.sum_div, Finset.sum_sub_distrib, key]

/-- C84: over a whole midpoint step the electrons gained by a cell are those that crossed its faces with the band velocity, computed with the
distribution at half time. -/
theorem C84_step (ax : Axes P Q) (cfg : FVMConfig S K) (hq : cfg.solverMethodInQ = "FVM") (hs : cfg.sourceEnabled = false)
    (e c B3 : K) (vel1 vel2 p1 : S → P → K) (E1 E2 : Fin 2 → Q → K) (src : Dist S P Q K → Dist S P Q K) (dt : K) (f f' : Dist S P Q K)
    (h : runFVM ax cfg [(dt, fun k => electronicCallbacks e c B3 vel1 vel2 p1 (E1 k) (E2 k) src)] f = .ok f') :
    ∃ m half, reconMethod cfg.reconstructionInQ = .ok m ∧
      (∀ s q, electrons half s q = electrons f s q + dt / 2 *
        ((electronFlux m ax.q1 vel1 f s q - electronFlux m ax.q1 vel1 f s (q + ax.q1)) / cfg.dq1 +
         (electronFlux m ax.q2 vel2 f s q - electronFlux m ax.q2 vel2 f s (q + ax.q2)) / cfg.dq2)) ∧
      ∀ s q, electrons f' s q = electrons f s q + dt *
        ((electronFlux m ax.q1 vel1 half s q - electronFlux m ax.q1 vel1 half s (q + ax.q1)) / cfg.dq1 +
         (electronFlux m ax.q2 vel2 half s q - electronFlux m ax.q2 vel2 half s (q + ax.q2)) / cfg.dq2) := by
  simp only [runFVM, timestepFVM, bind, Except.bind, pure, Except.pure] at h
  cases hk0 : dfdtFVM ax cfg (electronicCallbacks e c B3 vel1 vel2 p1 (E1 0) (E2 0) src) f with
  | error err => simp [hk0] at h
  | ok k0 =>
    simp only [hk0] at h
    cases hk1 : dfdtFVM ax cfg (electronicCallbacks e c B3 vel1 vel2 p1 (E1 1) (E2 1) src) (fun s p q => f s p q + k0 s p q * (dt / 2)) with
    | error err => simp [hk1] at h
    | ok k1 =>
      simp only [hk1, Except.ok.injEq] at h
      subst h
      obtain ⟨m, hm, h0⟩ := C84_continuity ax cfg hq hs e c B3 vel1 vel2 p1 (E1 0) (E2 0) src f k0 hk0
      obtain ⟨m', hm', h1⟩ := C84_continuity ax cfg hq hs e c B3 vel1 vel2 p1 (E1 1) (E2 1) src _ k1 hk1
      rw [hm, Except.ok.injEq] at hm'
      subst hm'
      refine ⟨m, fun s p q => f s p q + k0 s p q * (dt / 2), hm, fun s q => ?_, fun s q => ?_⟩
      · rw [← h0 s q, electrons, electrons, electrons, Finset.sum_add_distrib, ← Finset.sum_mul]; ring
      · rw [← h1 s q, electrons, electrons, electrons, Finset.sum_add_distrib, ← Finset.sum_mul]; ring

/-- Particle current of the band velocity: what a detector of moving charge would measure, up to a factor. -/
def bandCurrent (vel : S → P → K) (f : Dist S P Q K) (s : S) (q : Q) : K := ∑ p, f s p q * vel s p

theorem jPrefactor_pos : (0 : K) < jPrefactor := by
  unfold jPrefactor; positivity

/-- C84: the constant in the currents is `4 / h²` with `h = 2 π ħ`, `ħ = 1.0545718e-4` and π taken to ten decimals. -/
theorem C84_prefactor : 4 < (jPrefactor : ℝ) * (2 * Real.pi * 0.00010545718) ^ 2 ∧ (jPrefactor : ℝ) * (2 * Real.pi * 0.00010545718) ^ 2 < 4 * (1 + 1 / 10 ^ 10) := by
  have h1 := Real.pi_gt_d20
  have h2 := Real.pi_lt_d20
  have e : (jPrefactor : ℝ) * (2 * Real.pi * 0.00010545718) ^ 2 = 4 * (Real.pi / 3.1415926535) ^ 2 := by
    unfold jPrefactor; ring
  rw [e]
  have h3 : 1 < Real.pi / 3.1415926535 := by rw [lt_div_iff₀ (by norm_num)]; linarith
  have h4 : Real.pi / 3.1415926535 < 1 + 1 / 10 ^ 11 * 3 := by rw [div_lt_iff₀ (by norm_num)]; linarith
  generalize Real.pi / 3.1415926535 = y at h3 h4
  constructor <;> nlinarith

/-- C84: on a Cartesian momentum grid the moment `j_x` is a constant multiple of the particle current for every distribution exactly if the
momentum coordinate is that multiple of the band velocity in every momentum cell (as for a parabolic band, not for graphene). -/
theorem C84_current_iff (cfg : FVMConfig S K) (c : PCoords S P K) (mu : K) (s : S) (q : Q) (hm : cfg.measure s ≠ 0) (vel1 : S → P → K) (a : K) :
    (∀ f : Dist S P Q K, ∀ r, computeMoments "cartesian" mu cfg c jX f = .ok r → r s q = a * bandCurrent vel1 f s q) ↔
      ∀ p, jPrefactor * cfg.measure s * c.p1 s p = a * vel1 s p := by
  classical
  constructor
  · intro h p
    have := h (fun _ p' _ => if p' = p then 1 else 0) _ (by rw [computeMoments, if_pos rfl])
    simp only [jX, integralOverV, bandCurrent, ite_mul, one_mul, zero_mul, Finset.sum_ite_eq', Finset.mem_univ, if_true] at this
    linear_combination this
  · intro h f r hr
    rw [computeMoments, if_pos rfl, Except.ok.injEq] at hr
    subst hr
    simp only [jX, integralOverV, bandCurrent, Finset.sum_mul, Finset.mul_sum]
    refine Finset.sum_congr rfl fun p _ => ?_
    linear_combination f s p q * h p

/-- C84: on a polar momentum grid the first coordinate is the magnitude of the momentum, so `j_x` is the same multiple of the total
magnitude: it is never negative, and zero only where there are no electrons. -/
theorem C84_polar_current (cfg : FVMConfig S K) (c : PCoords S P K) (mu : K) (s : S) (q : Q) (hm : 0 < cfg.measure s) (hmu : 0 < mu)
    (hp : ∀ p, 0 < c.p1 s p) (f : Dist S P Q K) (hf : ∀ p, 0 ≤ f s p q) (r : S → Q → K)
    (hr : computeMoments "polar2D" mu cfg c jX f = .ok r) : 0 ≤ r s q ∧ (r s q = 0 ↔ ∀ p, f s p q = 0) := by
  rw [computeMoments, if_neg (by decide), if_pos rfl, Except.ok.injEq] at hr
  subst hr
  have hj := jPrefactor_pos (K := K)
  have hn : ∀ p ∈ Finset.univ, 0 ≤ f s p q * jPrefactor * c.p1 s p := fun p _ =>
    mul_nonneg (mul_nonneg (hf p) hj.le) (hp p).le
  simp only [jX, integralOverV]
  refine ⟨mul_nonneg hmu.le (mul_nonneg (Finset.sum_nonneg hn) hm.le), ?_⟩
  rw [mul_eq_zero, mul_eq_zero, or_iff_right hmu.ne', or_iff_left hm.ne', Finset.sum_eq_zero_iff_of_nonneg hn]
  refine forall_congr' fun p => ?_
  simp [hj.ne', (hp p).ne']

/-- C84: in particular a distribution that is the same in opposite directions carries no current, but `j_x` reports one. -/
theorem C84_polar_reports_current (cfg : FVMConfig S K) (c : PCoords S P K) (mu : K) (s : S) (q : Q) (hm : 0 < cfg.measure s) (hmu : 0 < mu)
    (hp : ∀ p, 0 < c.p1 s p) (vel1 : S → P → K) (opp : P ≃ P) (hv : ∀ p, vel1 s (opp p) = -vel1 s p) (f : Dist S P Q K)
    (hf : ∀ p, 0 ≤ f s p q) (hiso : ∀ p, f s (opp p) q = f s p q) (hne : ∃ p, f s p q ≠ 0) :
    bandCurrent vel1 f s q = 0 ∧ ∃ r, computeMoments "polar2D" mu cfg c jX f = .ok r ∧ 0 < r s q := by
  constructor
  · have : bandCurrent vel1 f s q = -bandCurrent vel1 f s q := by
      conv_lhs => rw [bandCurrent, ← Equiv.sum_comp opp]
      simp only [hv, hiso, mul_neg, Finset.sum_neg_distrib, bandCurrent]
    linarith
  · refine ⟨_, by rw [computeMoments, if_neg (by decide), if_pos rfl], ?_⟩
    have := C84_polar_current cfg c mu s q hm hmu hp f hf _ (by rw [computeMoments, if_neg (by decide), if_pos rfl])
    refine lt_of_le_of_ne this.1 (Ne.symm fun h => ?_)
    obtain ⟨p, hp⟩ := hne
    exact hp (this.2.mp h p)

/-- C84: the two components of the reported current in a polar grid are the magnitude and the angle of the momentum, each averaged; the
density carries the factor `initial_mu` in place of the Jacobian `p`. -/
theorem C84_polar_moments (cfg : FVMConfig S K) (c : PCoords S P K) (mu : K) (f : Dist S P Q K) (s : S) (q : Q) :
    (∃ r, computeMoments "polar2D" mu cfg c elecDensity f = .ok r ∧ r s q = mu * ((∑ p, f s p q) * (cfg.dp3 s * cfg.dp2 s * cfg.dp1 s))) ∧
    (∃ r, computeMoments "polar2D" mu cfg c jY f = .ok r ∧
      r s q = mu * jPrefactor * (∑ p, f s p q * c.p2 s p) * (cfg.dp3 s * cfg.dp2 s * cfg.dp1 s)) := by
  constructor
  · exact ⟨_, by rw [computeMoments, if_neg (by decide), if_pos rfl], rfl⟩
  · refine ⟨_, by rw [computeMoments, if_neg (by decide), if_pos rfl], ?_⟩
    simp only [jY, integralOverV, FVMConfig.measure]
    rw [show ∑ p, f s p q * jPrefactor * c.p2 s p = jPrefactor * ∑ p, f s p q * c.p2 s p by
      rw [Finset.mul_sum]; exact Finset.sum_congr rfl fun p _ => by ring]
    ring

/-! ### a concrete case -/

/-- Minmod in position and momentum, unit spacing, no collisions. -/
def c84Cfg : FVMConfig Unit ℚ :=
  ⟨"FVM", "FVM", "minmod", "minmod", "upwind-flux", "upwind-flux", false, true, 1, 1, fun _ => 1, fun _ => 1, fun _ => 1⟩

/-- Two directions, to the right and to the left, with unit speed and momentum of magnitude 3 on a polar grid. -/
example (f : Dist Unit (ZMod 2) (ZMod 5 × ZMod 4) ℚ) (dt : ℚ) (E1 E2 : Fin 2 → ZMod 5 × ZMod 4 → ℚ) :
    (∃ f', runFVM ⟨1, 0, 0, (1, 0), (0, 1)⟩ c84Cfg [(dt, fun k => electronicCallbacks 1 1 1 (fun _ p => if p = 0 then 1 else -1)
      (fun _ _ => 0) (fun _ _ => 3) (E1 k) (E2 k) id)] f = .ok f') ∧
    (∃ r, computeMoments "polar2D" (1 / 2) c84Cfg ⟨fun _ _ => 3, fun _ p => p.val, fun _ _ => 0⟩ jX
        (fun (_ : Unit) (_ : ZMod 2) (_ : ZMod 5 × ZMod 4) => (1 : ℚ)) = .ok r ∧ 0 < r () 0) ∧
    bandCurrent (fun (_ : Unit) (p : ZMod 2) => if p = 0 then (1 : ℚ) else -1) (fun _ _ (_ : ZMod 5 × ZMod 4) => (1 : ℚ)) () 0 = 0 := by
  refine ⟨⟨_, rfl⟩, ?_⟩
  have h := C84_polar_reports_current (Q := ZMod 5 × ZMod 4) c84Cfg ⟨fun _ _ => 3, fun _ p => p.val, fun _ _ => 0⟩ (1 / 2) () 0
    (by norm_num [FVMConfig.measure, c84Cfg]) (by norm_num) (fun _ => by norm_num) (fun (_ : Unit) (p : ZMod 2) => if p = 0 then (1 : ℚ) else -1)
    (Equiv.addRight 1) (fun p => by
      have h2 : ∀ p : ZMod 2, p + 1 = 0 ↔ ¬ p = 0 := by decide
      by_cases hp : p = 0 <;> simp [h2, hp]) (fun _ _ _ => 1) (fun _ => by norm_num) (fun _ => rfl) ⟨0, by norm_num⟩
  exact ⟨h.2, h.1⟩

/-- A band of constant speed: momenta 1 and 2 move equally fast, so no factor makes `j_x` the particle current. -/
example (a : ℚ) : ∃ f : Dist Unit (ZMod 2) (ZMod 5 × ZMod 4) ℚ, ∀ r,
    computeMoments "cartesian" 1 c84Cfg ⟨fun _ p => p.val + 1, fun _ _ => 0, fun _ _ => 0⟩ jX f = .ok r →
    r () 0 ≠ a * bandCurrent (fun _ _ => 1) f () 0 := by
  by_contra hcon
  push Not at hcon
  have := (C84_current_iff (Q := ZMod 5 × ZMod 4) c84Cfg ⟨fun _ (p : ZMod 2) => p.val + 1, fun _ _ => 0, fun _ _ => 0⟩ 1 () 0
    (by norm_num [FVMConfig.measure, c84Cfg]) (fun _ _ => 1) a).mp (fun f r hr => by
      obtain ⟨r', h1, h2⟩ := hcon f
      rw [h1, Except.ok.injEq] at hr
      rw [← hr, h2])
  have h0 := this 0
  have h1 := this 1
  have hj := jPrefactor_pos (K := ℚ)
  have e0 : (0 : ZMod 2).val = 0 := rfl
  have e1 : (1 : ZMod 2).val = 1 := rfl
  simp only [FVMConfig.measure, c84Cfg, e0, e1, Nat.cast_zero, Nat.cast_one] at h0 h1
  nlinarith

end Bolt
