import Verif.Model.MachineFields
import Verif.Proofs.Rounding
import Verif.Proofs.CoupledDecomp
import Verif.Spec.Rounding
import Verif.Spec.Fields

/-! Helper lemmas about the field solver with machine arithmetic. -/

set_option linter.unusedSectionVars false

namespace Bolt
namespace Mach

open Machine

/-! ### any arithmetic -/

section lawless
variable {K : Type} [Machine K] {N1 N2 : ℕ} {R : Type} (D : Decomp N1 N2 R) (g1 g2 : ℕ) [NeZero N1] [NeZero N2]

theorem evolveE_box {r : R} {pr : FieldParams (D.Loc g1 g2 r) K} {prG : FieldParams (ZMod N1 × ZMod N2) K}
    (hp : D.SameParams g1 g2 r pr prG) {F : EM (D.Loc g1 g2 r) K} {G : EM (ZMod N1 × ZMod N2) K} {l : D.Loc g1 g2 r}
    (h : D.EMBox g1 g2 1 r F G l) (J : Currents (D.Loc g1 g2 r) K) (JG : Currents (ZMod N1 × ZMod N2) K)
    (hJ : J.J1 l = JG.J1 (D.toGlob g1 g2 r l) ∧ J.J2 l = JG.J2 (D.toGlob g1 g2 r l) ∧ J.J3 l = JG.J3 (D.toGlob g1 g2 r l)) (dt : K)
    (c : Fin 6) : (evolveE pr J dt F).comp c l = (evolveE prG JG dt G).comp c (D.toGlob g1 g2 r l) := by
  obtain ⟨rfl, q1, q2⟩ := hp
  have h0 := h.at0
  have e0 := h0 0; have e1 := h0 1; have e2 := h0 2; have e3 := h0 3; have e4 := h0 4; have e5 := h0 5
  simp only [EM.comp] at e0 e1 e2 e3 e4 e5
  obtain ⟨j1, j2, j3⟩ := hJ
  fin_cases c <;> simp [evolveE, pushE, EM.comp, curlB1, curlB2, curlB3, q1, q2, afShift_q1, afShift_q2, e0, e1, e2, e3, e4, e5, j1, j2, j3,
    h.B1, h.B2, h.B3]

theorem evolveB_box {r : R} {pr : FieldParams (D.Loc g1 g2 r) K} {prG : FieldParams (ZMod N1 × ZMod N2) K}
    (hp : D.SameParams g1 g2 r pr prG) {F : EM (D.Loc g1 g2 r) K} {G : EM (ZMod N1 × ZMod N2) K} {l : D.Loc g1 g2 r}
    (h : D.EMBox g1 g2 1 r F G l) (dt : K) (c : Fin 6) :
    (evolveB pr dt F).comp c l = (evolveB prG dt G).comp c (D.toGlob g1 g2 r l) := by
  obtain ⟨rfl, q1, q2⟩ := hp
  have h0 := h.at0
  have e0 := h0 0; have e1 := h0 1; have e2 := h0 2; have e3 := h0 3; have e4 := h0 4; have e5 := h0 5
  simp only [EM.comp] at e0 e1 e2 e3 e4 e5
  fin_cases c <;> simp [evolveB, EM.comp, curlE1, curlE2, curlE3, q1, q2, afShift_q1, afShift_q2, e0, e1, e2, e3, e4, e5,
    h.E1, h.E2, h.E3]

/-- One field step on all processes is one field step on the whole grid, bit for bit. -/
theorem fdtdStep_holds {o : BCOptions} (h1 : PeriodicEnds (o.name .left) (o.name .right) N1)
    (h2 : PeriodicEnds (o.name .bottom) (o.name .top) N2)
    (k1 : 1 ≤ g1 ∨ (g1 = 0 ∧ N1 = 1)) (k2 : 1 ≤ g2 ∨ (g2 = 0 ∧ N2 = 1)) {user : ∀ r, D.LocFieldBCs g1 g2 r K}
    {pr : ∀ r, FieldParams (D.Loc g1 g2 r) K} {prG : FieldParams (ZMod N1 × ZMod N2) K} (hp : ∀ r, D.SameParams g1 g2 r (pr r) prG)
    {J : ∀ r, Currents (D.Loc g1 g2 r) K} {JG : Currents (ZMod N1 × ZMod N2) K} {dt : K} (hJ : ∀ r l, D.Interior g1 g2 r l →
      (J r).J1 l = JG.J1 (D.toGlob g1 g2 r l) ∧ (J r).J2 l = JG.J2 (D.toGlob g1 g2 r l) ∧ (J r).J3 l = JG.J3 (D.toGlob g1 g2 r l))
    {Y Y' : ∀ r, EM (D.Loc g1 g2 r) K} {G : EM (ZMod N1 × ZMod N2) K} (hY : ∀ r, D.EMHolds g1 g2 r (Y r) G)
    (h : FdtdStep D g1 g2 o user pr J dt Y Y') : ∀ r, D.EMHolds g1 g2 r (Y' r) (fdtd prG JG dt G) := by
  obtain ⟨Y0, Y2, s0, s2, e2⟩ := h
  have y0 : ∀ r, D.EMFull g1 g2 r (Y0 r) G := fun r c l => by
    rw [D.syncedFields_wrap g1 g2 h1 h2 s0 r c l, (D.emHolds_iff g1 g2 _ _).mp hY]
  have y1 : ∀ r, D.EMHolds g1 g2 r (evolveE (pr r) (J r) dt (Y0 r)) (evolveE prG JG dt G) := fun r c l hl =>
    evolveE_box D g1 g2 (hp r) ((y0 r).box 1 k1 k2 l hl) _ _ (hJ r l hl) dt c
  have y2 : ∀ r, D.EMFull g1 g2 r (Y2 r) (evolveE prG JG dt G) := fun r c l => by
    rw [D.syncedFields_wrap g1 g2 h1 h2 s2 r c l, (D.emHolds_iff g1 g2 _ _).mp y1]
  intro r c l hl
  rw [e2 r]
  exact evolveB_box D g1 g2 (hp r) ((y2 r).box 1 k1 k2 l hl) dt c

end lawless

/-! ### rounding -/

section rounded
variable {K : Type} [Field K] [LinearOrder K] [IsStrictOrderedRing K] {rnd : K → K} [M : Machine K] (hM : M = roundedMachine rnd) {u : K}
  (hr : AccurateTo u rnd)
include hM hr

/-- `b + (-dt) * ((x - y) / d)` in machine arithmetic. -/
theorem pushB_app (b dt x y d : K) :
    App u 4 (b ⊞ neg dt ⊠ ((x ⊟ y) ⊘ d)) (b + -dt * ((x - y) / d)) (|b| + |x - y| / |d| * |dt|) := by
  simp only [r_add hM, r_mul hM, r_neg hM, r_div hM, r_sub hM]
  refine App.round hr.1 hr.2 (App.add hr.1 ((app_exact hr.1 b).mono hr.1 (by omega)) (App.round hr.1 hr.2 ?_))
  have := (((app_exact hr.1 (x - y)).round hr.1 hr.2).div hr.1 d).round hr.1 hr.2 |>.mulc hr.1 (-dt)
  rwa [abs_neg, mul_comm, mul_comm _ (-dt)] at this

/-- `b + (-dt) * (-(x - y) / d)` in machine arithmetic. -/
theorem pushB_app' (b dt x y d : K) :
    App u 4 (b ⊞ neg dt ⊠ (neg (x ⊟ y) ⊘ d)) (b + -dt * (-(x - y) / d)) (|b| + |x - y| / |d| * |dt|) := by
  simp only [r_add hM, r_mul hM, r_neg hM, r_div hM, r_sub hM]
  refine App.round hr.1 hr.2 (App.add hr.1 ((app_exact hr.1 b).mono hr.1 (by omega)) (App.round hr.1 hr.2 ?_))
  have := ((((app_exact hr.1 (x - y)).round hr.1 hr.2).neg hr.1).div hr.1 d).round hr.1 hr.2 |>.mulc hr.1 (-dt)
  rwa [abs_neg, mul_comm, mul_comm _ (-dt)] at this

/-- `e + (a * ((x - y) / d) - j * dt / eps)` in machine arithmetic. -/
theorem pushE_app (e a dt x y d j eps : K) :
    App u 5 (e ⊞ (a ⊠ ((x ⊟ y) ⊘ d) ⊟ j ⊠ dt ⊘ eps)) (e + (a * ((x - y) / d) - j * dt / eps))
      (|e| + (|x - y| / |d| * |a| + |j * dt| / |eps|)) := by
  simp only [r_add hM, r_mul hM, r_div hM, r_sub hM]
  refine App.round hr.1 hr.2 (App.add hr.1 ((app_exact hr.1 e).mono hr.1 (by omega)) (App.round hr.1 hr.2 (App.sub hr.1 ?_ ?_)))
  · have := ((((app_exact hr.1 (x - y)).round hr.1 hr.2).div hr.1 d).round hr.1 hr.2 |>.mulc hr.1 a).round hr.1 hr.2
    rwa [mul_comm _ a, mul_comm _ a] at this
  · exact (((app_exact hr.1 (j * dt)).round hr.1 hr.2).div hr.1 eps).round hr.1 hr.2 |>.mono hr.1 (by omega)

theorem pushE_app' (e a dt x y d j eps : K) :
    App u 5 (e ⊞ (a ⊠ (neg (x ⊟ y) ⊘ d) ⊟ j ⊠ dt ⊘ eps)) (e + (a * (-(x - y) / d) - j * dt / eps))
      (|e| + (|x - y| / |d| * |a| + |j * dt| / |eps|)) := by
  simp only [r_add hM, r_mul hM, r_div hM, r_sub hM, r_neg hM]
  refine App.round hr.1 hr.2 (App.add hr.1 ((app_exact hr.1 e).mono hr.1 (by omega)) (App.round hr.1 hr.2 (App.sub hr.1 ?_ ?_)))
  · have := (((((app_exact hr.1 (x - y)).round hr.1 hr.2).neg hr.1).div hr.1 d).round hr.1 hr.2 |>.mulc hr.1 a).round hr.1 hr.2
    rwa [mul_comm _ a, mul_comm _ a] at this
  · exact (((app_exact hr.1 (j * dt)).round hr.1 hr.2).div hr.1 eps).round hr.1 hr.2 |>.mono hr.1 (by omega)

end rounded

section pow
variable {K : Type} [Field K] [LinearOrder K] [IsStrictOrderedRing K]

theorem pow4_le {u : K} (h0 : 0 ≤ u) (h1 : u ≤ 1 / 8) : (1 + u) ^ 4 - 1 ≤ 5 * u := by
  have : u * u ≤ 1 / 8 * u := mul_le_mul_of_nonneg_right h1 h0
  have h3 : u * u * u ≤ 1 / 8 * (1 / 8 * u) := by nlinarith [mul_nonneg h0 h0]
  have h4 : u * u * u * u ≤ 1 / 8 * (1 / 8 * (1 / 8 * u)) := by nlinarith [mul_nonneg (mul_nonneg h0 h0) h0]
  linarith [show (1 + u) ^ 4 - 1 = 4 * u + 6 * (u * u) + 4 * (u * u * u) + u * u * u * u by ring]

theorem pow5_le {u : K} (h0 : 0 ≤ u) (h1 : u ≤ 1 / 8) : (1 + u) ^ 5 - 1 ≤ 7 * u := by
  have h4 := pow4_le h0 h1
  have : u * u ≤ 1 / 8 * u := mul_le_mul_of_nonneg_right h1 h0
  have e : (1 + u) ^ 5 - 1 = ((1 + u) ^ 4 - 1) * (1 + u) + u := by ring
  have : ((1 + u) ^ 4 - 1) * (1 + u) ≤ 5 * u * (1 + u) := mul_le_mul_of_nonneg_right h4 (by linarith)
  linarith [show 5 * u * (1 + u) = 5 * u + 5 * (u * u) by ring]

end pow

end Mach
end Bolt
