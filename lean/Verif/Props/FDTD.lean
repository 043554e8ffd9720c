import Verif.Proofs.Fields
import Verif.Spec.Fields
import Mathlib.Data.ZMod.Basic
import Mathlib.Tactic.NormNum
import Mathlib.Tactic.Positivity

/-!
# C13, C15, C16, C17, C54: the FDTD solver
-/

set_option linter.unusedSectionVars false

namespace Bolt

open Finset

variable {Q K : Type} [AddCommGroup Q] [Field K] [LinearOrder K] [Fintype Q]

/-- C13: the discrete divergence of `B` is unchanged by any sequence of FDTD steps, whatever the currents, step sizes and (hybrid
model) electric fields assigned between steps. -/
theorem C13_divB_preserved (pr : FieldParams Q K) (steps : List (FDTDStep Q K)) (F F' : EM Q K)
    (h : runFDTD pr steps F = .ok F') : divB pr F' = divB pr F := by
  refine runFDTD_invariant pr (fun G => divB pr G = divB pr F) ?_ steps F F' rfl h
  intro st G G' hG hs
  obtain ⟨F1, h1, rfl⟩ := fdtd_ok hs
  rw [id, divB_evolveB, ← hG, ← divB_setE pr G st.newE]
  rcases evolveE_ok h1 with ⟨_, rfl⟩ | ⟨_, rfl⟩
  · rfl
  · rfl

/-- C13: a magnetic field without monopoles stays so for ever. -/
theorem C13_divB_zero_preserved (pr : FieldParams Q K) (steps : List (FDTDStep Q K)) (F F' : EM Q K)
    (h : runFDTD pr steps F = .ok F') (h0 : ∀ i, divB pr F i = 0) : ∀ i, divB pr F' i = 0 := by
  rw [C13_divB_preserved pr steps F F' h]; exact h0

/-- Outside the hybrid model an FDTD run never raises, so the theorems about successful runs are about all runs. -/
theorem C13_run_succeeds (pr : FieldParams Q K) (hh : pr.hybrid = false) (steps : List (FDTDStep Q K)) (F : EM Q K) :
    ∃ F', runFDTD pr steps F = .ok F' := by
  induction steps generalizing F with
  | nil => exact ⟨F, rfl⟩
  | cons st rest ih =>
    simp only [runFDTD, fdtd_eq pr hh, bind, Except.bind]
    exact ih _

/-- C15: one FDTD step changes `div E` by exactly `-(dt / eps) div J` in every cell. -/
theorem C15_divE_step (pr : FieldParams Q K) (hh : pr.hybrid = false) (J : Currents Q K) (dt : K) (F F' : EM Q K)
    (h : fdtd pr id J dt F = .ok F') (i : Q) : divE pr F' i = divE pr F i - dt / pr.eps * divJ pr J i := by
  rw [fdtd_eq pr hh, Except.ok.injEq] at h
  rw [← h, divE_evolveB, divE_addCurlB, divJ]

/-- C15: over a whole run the changes add up. -/
theorem C15_divE_run (pr : FieldParams Q K) (hh : pr.hybrid = false) (steps : List (FDTDStep Q K))
    (hE : ∀ st ∈ steps, st.newE = none) (F F' : EM Q K) (h : runFDTD pr steps F = .ok F') (i : Q) :
    divE pr F' i = divE pr F i - (steps.map fun st => st.dt / pr.eps * divJ pr st.J i).sum := by
  induction steps generalizing F with
  | nil => simp only [runFDTD, Except.ok.injEq] at h; simp [h]
  | cons st rest ih =>
    simp only [runFDTD, bind, Except.bind] at h
    cases h1 : fdtd pr id st.J st.dt (F.setE st.newE) with
    | error e => simp [h1] at h
    | ok G =>
      simp only [h1] at h
      rw [ih (fun s hs => hE s (by simp [hs])) G h, C15_divE_step pr hh st.J st.dt _ G h1]
      rw [hE st (by simp)]
      simp only [EM.setE, List.map_cons, List.sum_cons]
      ring

/-- C15: in vacuum `div E` is constant. -/
theorem C15_divE_vacuum (pr : FieldParams Q K) (hh : pr.hybrid = false) (n : ℕ) (dt : K) (F F' : EM Q K)
    (h : runFDTD pr (vacuumSteps n dt) F = .ok F') (i : Q) : divE pr F' i = divE pr F i := by
  rw [C15_divE_run pr hh _ (fun st hst => by rw [List.eq_of_mem_replicate hst]) F F' h]
  have : ((vacuumSteps n dt : List (FDTDStep Q K)).map fun st => st.dt / pr.eps * divJ pr st.J i).sum = 0 := by
    apply List.sum_eq_zero
    intro x hx
    obtain ⟨st, hst, rfl⟩ := List.mem_map.mp hx
    rw [List.eq_of_mem_replicate hst]
    simp [divJ, Currents.zero]
  rw [this, sub_zero]

/-! ## C16: staggered energy -/

/-- One vacuum step. -/
def vac (pr : FieldParams Q K) (dt : K) (F : EM Q K) : EM Q K := evolveB pr dt (addCurlB pr Currents.zero dt F)

theorem run_vacuum (pr : FieldParams Q K) (hh : pr.hybrid = false) (n : ℕ) (dt : K) (F : EM Q K) :
    runFDTD pr (vacuumSteps n dt) F = .ok ((vac pr dt)^[n] F) := by
  induction n generalizing F with
  | zero => rfl
  | succ n ih =>
    rw [vacuumSteps, List.replicate_succ, runFDTD]
    simp only [EM.setE, fdtd_eq pr hh, bind, Except.bind]
    rw [Function.iterate_succ_apply, ← ih]; rfl

theorem energy_step (pr : FieldParams Q K) (he : pr.eps ≠ 0) (hm : pr.mu ≠ 0) (dt : K) (F : EM Q K) :
    staggeredEnergy pr (vac pr dt F) (vac pr dt (vac pr dt F)) = staggeredEnergy pr F (vac pr dt F) := by
  -- G = E(n+2) + E(n+1)
  have key := sum_curl pr (vac pr dt F)
    ⟨fun i => (vac pr dt (vac pr dt F)).E1 i + (vac pr dt F).E1 i, fun i => (vac pr dt (vac pr dt F)).E2 i + (vac pr dt F).E2 i,
     fun i => (vac pr dt (vac pr dt F)).E3 i + (vac pr dt F).E3 i, fun _ => 0, fun _ => 0, fun _ => 0⟩
  rw [← sub_eq_zero] at key ⊢
  rw [staggeredEnergy, staggeredEnergy, ← sum_sub_distrib]
  rw [← sum_sub_distrib] at key
  rw [← mul_zero (dt / pr.mu), ← key, mul_sum]
  refine sum_congr rfl fun i _ => ?_
  have e1 : (vac pr dt (vac pr dt F)).E1 i = (vac pr dt F).E1 i + dt / (pr.mu * pr.eps) * curlB1 pr (vac pr dt F) i := by
    rw [vac]; simp [evolveB, addCurlB, Currents.zero]
  have e2 : (vac pr dt (vac pr dt F)).E2 i = (vac pr dt F).E2 i + dt / (pr.mu * pr.eps) * curlB2 pr (vac pr dt F) i := by
    rw [vac]; simp [evolveB, addCurlB, Currents.zero]
  have e3 : (vac pr dt (vac pr dt F)).E3 i = (vac pr dt F).E3 i + dt / (pr.mu * pr.eps) * curlB3 pr (vac pr dt F) i := by
    rw [vac]; simp [evolveB, addCurlB, Currents.zero]
  have b : ∀ G : EM Q K, (vac pr dt G).B1 i = G.B1 i - dt * curlE1 pr (vac pr dt G) i
      ∧ (vac pr dt G).B2 i = G.B2 i - dt * curlE2 pr (vac pr dt G) i
      ∧ (vac pr dt G).B3 i = G.B3 i - dt * curlE3 pr (vac pr dt G) i := fun G => by
    refine ⟨?_, ?_, ?_⟩ <;> simp only [vac, evolveB, addCurlB, curlE1, curlE2, curlE3] <;> ring
  obtain ⟨p1, p2, p3⟩ := b F
  obtain ⟨r1, r2, r3⟩ := b (vac pr dt F)
  have c1 : curlE1 pr ⟨fun i => (vac pr dt (vac pr dt F)).E1 i + (vac pr dt F).E1 i, fun i => (vac pr dt (vac pr dt F)).E2 i + (vac pr dt F).E2 i,
     fun i => (vac pr dt (vac pr dt F)).E3 i + (vac pr dt F).E3 i, fun _ => 0, fun _ => 0, fun _ => 0⟩ i
      = curlE1 pr (vac pr dt (vac pr dt F)) i + curlE1 pr (vac pr dt F) i := by
    simp only [curlE1, afShift_fwd]; ring
  have c2 : curlE2 pr ⟨fun i => (vac pr dt (vac pr dt F)).E1 i + (vac pr dt F).E1 i, fun i => (vac pr dt (vac pr dt F)).E2 i + (vac pr dt F).E2 i,
     fun i => (vac pr dt (vac pr dt F)).E3 i + (vac pr dt F).E3 i, fun _ => 0, fun _ => 0, fun _ => 0⟩ i
      = curlE2 pr (vac pr dt (vac pr dt F)) i + curlE2 pr (vac pr dt F) i := by
    simp only [curlE2, afShift_fwd]; ring
  have c3 : curlE3 pr ⟨fun i => (vac pr dt (vac pr dt F)).E1 i + (vac pr dt F).E1 i, fun i => (vac pr dt (vac pr dt F)).E2 i + (vac pr dt F).E2 i,
     fun i => (vac pr dt (vac pr dt F)).E3 i + (vac pr dt F).E3 i, fun _ => 0, fun _ => 0, fun _ => 0⟩ i
      = curlE3 pr (vac pr dt (vac pr dt F)) i + curlE3 pr (vac pr dt F) i := by
    simp only [curlE3, afShift_fwd]; ring
  rw [c1, c2, c3]
  dsimp only
  generalize curlE1 pr (vac pr dt (vac pr dt F)) i = u1 at *
  generalize curlE2 pr (vac pr dt (vac pr dt F)) i = u2 at *
  generalize curlE3 pr (vac pr dt (vac pr dt F)) i = u3 at *
  generalize curlE1 pr (vac pr dt F) i = v1 at *
  generalize curlE2 pr (vac pr dt F) i = v2 at *
  generalize curlE3 pr (vac pr dt F) i = v3 at *
  rw [e1, e2, e3, r1, r2, r3, show F.B1 i = (vac pr dt F).B1 i + dt * v1 by rw [p1]; ring,
    show F.B2 i = (vac pr dt F).B2 i + dt * v2 by rw [p2]; ring,
    show F.B3 i = (vac pr dt F).B3 i + dt * v3 by rw [p3]; ring]
  field_simp
  ring

/-- C16: in vacuum, with a constant step, the staggered energy is the same after any number of steps. -/
theorem C16_energy_conserved (pr : FieldParams Q K) (hh : pr.hybrid = false) (he : pr.eps ≠ 0) (hm : pr.mu ≠ 0) (dt : K)
    (F : EM Q K) (n m : ℕ) (Fn Fn' Fm Fm' : EM Q K)
    (hn : runFDTD pr (vacuumSteps n dt) F = .ok Fn) (hn' : runFDTD pr (vacuumSteps (n + 1) dt) F = .ok Fn')
    (hm1 : runFDTD pr (vacuumSteps m dt) F = .ok Fm) (hm' : runFDTD pr (vacuumSteps (m + 1) dt) F = .ok Fm') :
    staggeredEnergy pr Fn Fn' = staggeredEnergy pr Fm Fm' := by
  have key : ∀ k, staggeredEnergy pr ((vac pr dt)^[k] F) ((vac pr dt)^[k + 1] F) = staggeredEnergy pr F (vac pr dt F) := by
    intro k
    induction k with
    | zero => rfl
    | succ k ih =>
      rw [← ih]
      have := energy_step pr he hm dt ((vac pr dt)^[k] F)
      simpa only [Function.iterate_succ_apply'] using this
  rw [run_vacuum pr hh, Except.ok.injEq] at hn hn' hm1 hm'
  subst hn hn' hm1 hm'
  rw [key, key]

/-! ## C54: stability -/

variable [IsStrictOrderedRing K]

theorem sum_diff_sq (e : Q) (x : Q → K) : ∑ i, (x i - x (i - e)) ^ 2 ≤ 4 * ∑ i, x i ^ 2 := by
  have h1 : ∑ i, x (i - e) ^ 2 = ∑ i, x i ^ 2 := Equiv.sum_comp (Equiv.subRight e) (fun i => x i ^ 2)
  have h2 : ∑ i, (x i - x (i - e)) ^ 2 ≤ ∑ i, (2 * x i ^ 2 + 2 * x (i - e) ^ 2) :=
    sum_le_sum fun i _ => by nlinarith [sq_nonneg (x i + x (i - e))]
  rw [sum_add_distrib, ← mul_sum, ← mul_sum, h1] at h2
  linarith

theorem curlE_bound (pr : FieldParams Q K) (F : EM Q K) :
    ∑ i, (curlE1 pr F i ^ 2 + curlE2 pr F i ^ 2 + curlE3 pr F i ^ 2)
      ≤ 4 * (1 / pr.dq1 ^ 2 + 1 / pr.dq2 ^ 2) * normE2 F := by
  have hc : 0 ≤ 1 / pr.dq1 ^ 2 + 1 / pr.dq2 ^ 2 := by positivity
  have h : ∀ i, curlE1 pr F i ^ 2 + curlE2 pr F i ^ 2 + curlE3 pr F i ^ 2 ≤
      1 / pr.dq2 ^ 2 * (F.E3 i - F.E3 (i - pr.q2)) ^ 2 + 1 / pr.dq1 ^ 2 * (F.E3 i - F.E3 (i - pr.q1)) ^ 2
      + (1 / pr.dq1 ^ 2 + 1 / pr.dq2 ^ 2) * ((F.E2 i - F.E2 (i - pr.q1)) ^ 2 + (F.E1 i - F.E1 (i - pr.q2)) ^ 2) := by
    intro i
    simp only [curlE1, curlE2, curlE3, afShift_fwd, div_eq_mul_inv]
    have e : ∀ a : K, 1 * (a ^ 2)⁻¹ = (a⁻¹) ^ 2 := fun a => by rw [one_mul, inv_pow]
    rw [e, e]
    nlinarith [sq_nonneg (pr.dq1⁻¹ * (F.E1 i - F.E1 (i - pr.q2)) + pr.dq2⁻¹ * (F.E2 i - F.E2 (i - pr.q1)))]
  refine (sum_le_sum fun i _ => h i).trans ?_
  rw [sum_add_distrib, sum_add_distrib, ← mul_sum, ← mul_sum, ← mul_sum, sum_add_distrib, normE2, sum_add_distrib, sum_add_distrib]
  have a := sum_diff_sq pr.q2 F.E3
  have b := sum_diff_sq pr.q1 F.E3
  have c := sum_diff_sq pr.q1 F.E2
  have d := sum_diff_sq pr.q2 F.E1
  have p1 : 0 ≤ 1 / pr.dq1 ^ 2 := by positivity
  have p2 : 0 ≤ 1 / pr.dq2 ^ 2 := by positivity
  have := mul_le_mul_of_nonneg_left a p2
  have := mul_le_mul_of_nonneg_left b p1
  have := mul_le_mul_of_nonneg_left (add_le_add c d) hc
  linarith

theorem energy_lower (pr : FieldParams Q K) (hm : 0 < pr.mu) (dt : K) (F : EM Q K) :
    (pr.eps - dt ^ 2 / pr.mu * (1 / pr.dq1 ^ 2 + 1 / pr.dq2 ^ 2)) * normE2 (vac pr dt F)
      + (1 / (4 * pr.mu)) * ∑ i, ((F.B1 i + (vac pr dt F).B1 i) ^ 2 + (F.B2 i + (vac pr dt F).B2 i) ^ 2 + (F.B3 i + (vac pr dt F).B3 i) ^ 2)
      ≤ staggeredEnergy pr F (vac pr dt F) := by
  have b : ∀ i, (vac pr dt F).B1 i = F.B1 i - dt * curlE1 pr (vac pr dt F) i
      ∧ (vac pr dt F).B2 i = F.B2 i - dt * curlE2 pr (vac pr dt F) i
      ∧ (vac pr dt F).B3 i = F.B3 i - dt * curlE3 pr (vac pr dt F) i := fun i => by
    refine ⟨?_, ?_, ?_⟩ <;> simp only [vac, evolveB, addCurlB, curlE1, curlE2, curlE3] <;> ring
  have e : staggeredEnergy pr F (vac pr dt F) = pr.eps * normE2 (vac pr dt F)
      + (1 / (4 * pr.mu)) * ∑ i, ((F.B1 i + (vac pr dt F).B1 i) ^ 2 + (F.B2 i + (vac pr dt F).B2 i) ^ 2 + (F.B3 i + (vac pr dt F).B3 i) ^ 2)
      - dt ^ 2 / (4 * pr.mu) * ∑ i, (curlE1 pr (vac pr dt F) i ^ 2 + curlE2 pr (vac pr dt F) i ^ 2 + curlE3 pr (vac pr dt F) i ^ 2) := by
    rw [normE2, mul_sum, mul_sum, mul_sum, ← sum_add_distrib, ← sum_sub_distrib, staggeredEnergy]
    refine sum_congr rfl fun i _ => ?_
    obtain ⟨b1, b2, b3⟩ := b i
    rw [b1, b2, b3]
    field_simp
    ring
  rw [e]
  have hb := curlE_bound pr (vac pr dt F)
  have hp : 0 ≤ dt ^ 2 / (4 * pr.mu) := by positivity
  have := mul_le_mul_of_nonneg_left hb hp
  have r : dt ^ 2 / (4 * pr.mu) * (4 * (1 / pr.dq1 ^ 2 + 1 / pr.dq2 ^ 2) * normE2 (vac pr dt F))
      = dt ^ 2 / pr.mu * (1 / pr.dq1 ^ 2 + 1 / pr.dq2 ^ 2) * normE2 (vac pr dt F) := by
    field_simp
  rw [r] at this
  linarith

/-- C54: under the Courant condition `dt² (1/dq1² + 1/dq2²) < eps mu` the vacuum fields stay bounded for ever: one bound serves
every step count. -/
theorem C54_fdtd_stable (pr : FieldParams Q K) (hh : pr.hybrid = false) (he : 0 < pr.eps) (hm : 0 < pr.mu) (dt : K)
    (hcfl : dt ^ 2 * (1 / pr.dq1 ^ 2 + 1 / pr.dq2 ^ 2) < pr.eps * pr.mu) (F : EM Q K) :
    ∃ M : K, ∀ n F', runFDTD pr (vacuumSteps n dt) F = .ok F' → normE2 F' + normB2 F' ≤ M := by
  have key : ∀ k, staggeredEnergy pr ((vac pr dt)^[k] F) ((vac pr dt)^[k + 1] F) = staggeredEnergy pr F (vac pr dt F) := fun k =>
    C16_energy_conserved pr hh he.ne' hm.ne' dt F k 0 _ _ _ _ (run_vacuum pr hh k dt F) (run_vacuum pr hh (k + 1) dt F)
      (run_vacuum pr hh 0 dt F) (run_vacuum pr hh 1 dt F)
  set H := staggeredEnergy pr F (vac pr dt F) with hH
  set a := pr.eps - dt ^ 2 / pr.mu * (1 / pr.dq1 ^ 2 + 1 / pr.dq2 ^ 2) with ha
  have ha0 : 0 < a := by
    have : a = (pr.eps * pr.mu - dt ^ 2 * (1 / pr.dq1 ^ 2 + 1 / pr.dq2 ^ 2)) / pr.mu := by rw [ha]; field_simp
    rw [this]; exact div_pos (by linarith) hm
  set c := 4 * (1 / pr.dq1 ^ 2 + 1 / pr.dq2 ^ 2) with hc
  have hc0 : 0 ≤ c := by positivity
  have bound : ∀ k, normE2 ((vac pr dt)^[k + 1] F) ≤ H / a ∧
      normB2 ((vac pr dt)^[k + 1] F) ≤ 2 * pr.mu * H + dt ^ 2 / 2 * (c * (H / a)) := by
    intro k
    have hk := key k
    rw [Function.iterate_succ_apply'] at hk ⊢
    generalize (vac pr dt)^[k] F = G at hk ⊢
    have hl := energy_lower pr hm dt G
    rw [hk, ← ha] at hl
    set S := ∑ i, ((G.B1 i + (vac pr dt G).B1 i) ^ 2 + (G.B2 i + (vac pr dt G).B2 i) ^ 2 + (G.B3 i + (vac pr dt G).B3 i) ^ 2) with hS
    have hS0 : 0 ≤ S := sum_nonneg fun i _ => by positivity
    have hE0 : 0 ≤ normE2 (vac pr dt G) := sum_nonneg fun i _ => by positivity
    have hm4 : 0 < 1 / (4 * pr.mu) := by positivity
    have h1 : normE2 (vac pr dt G) ≤ H / a := by
      rw [le_div_iff₀ ha0]; nlinarith [mul_nonneg hm4.le hS0]
    refine ⟨h1, ?_⟩
    have h2 : S ≤ 4 * pr.mu * H := by
      have : 1 / (4 * pr.mu) * S ≤ H := by nlinarith [mul_nonneg ha0.le hE0]
      rw [div_mul_eq_mul_div, one_mul, div_le_iff₀ (by positivity)] at this
      linarith
    have hb := curlE_bound pr (vac pr dt G)
    rw [← hc] at hb
    have b : ∀ i, (vac pr dt G).B1 i = G.B1 i - dt * curlE1 pr (vac pr dt G) i
        ∧ (vac pr dt G).B2 i = G.B2 i - dt * curlE2 pr (vac pr dt G) i
        ∧ (vac pr dt G).B3 i = G.B3 i - dt * curlE3 pr (vac pr dt G) i := fun i => by
      refine ⟨?_, ?_, ?_⟩ <;> simp only [vac, evolveB, addCurlB, curlE1, curlE2, curlE3] <;> ring
    have h3 : normB2 (vac pr dt G) ≤ ∑ i, (1 / 2 * ((G.B1 i + (vac pr dt G).B1 i) ^ 2 + (G.B2 i + (vac pr dt G).B2 i) ^ 2
          + (G.B3 i + (vac pr dt G).B3 i) ^ 2)
        + dt ^ 2 / 2 * (curlE1 pr (vac pr dt G) i ^ 2 + curlE2 pr (vac pr dt G) i ^ 2 + curlE3 pr (vac pr dt G) i ^ 2)) := by
      refine sum_le_sum fun i _ => ?_
      obtain ⟨b1, b2, b3⟩ := b i
      have e : ∀ x y u : K, y = x - dt * u → y ^ 2 ≤ 1 / 2 * (x + y) ^ 2 + dt ^ 2 / 2 * u ^ 2 := fun x y u h => by
        have : dt * u = x - y := by rw [h]; ring
        have : dt ^ 2 * u ^ 2 = (x - y) ^ 2 := by rw [← this]; ring
        nlinarith [sq_nonneg x, sq_nonneg y]
      have := e _ _ _ b1; have := e _ _ _ b2; have := e _ _ _ b3
      linarith
    rw [sum_add_distrib, ← mul_sum, ← mul_sum, ← hS] at h3
    have hp : 0 ≤ dt ^ 2 / 2 := by positivity
    have := mul_le_mul_of_nonneg_left hb hp
    have := mul_le_mul_of_nonneg_left (mul_le_mul_of_nonneg_left h1 hc0) hp
    linarith
  refine ⟨max (normE2 F + normB2 F) (H / a + (2 * pr.mu * H + dt ^ 2 / 2 * (c * (H / a)))), fun n F' hF' => ?_⟩
  rw [run_vacuum pr hh, Except.ok.injEq] at hF'
  subst hF'
  cases n with
  | zero => exact le_max_left _ _
  | succ k => exact (add_le_add (bound k).1 (bound k).2).trans (le_max_right _ _)

/-! ## C17: reversibility -/

omit [LinearOrder K] [IsStrictOrderedRing K] [Fintype Q] in
theorem evolveB_neg (pr : FieldParams Q K) (dt : K) (F : EM Q K) : evolveB pr (-dt) (evolveB pr dt F) = F := by
  ext i <;> simp [evolveB, curlE1, curlE2, curlE3]

omit [LinearOrder K] [IsStrictOrderedRing K] [Fintype Q] in
theorem addCurlB_neg (pr : FieldParams Q K) (J : Currents Q K) (dt : K) (F : EM Q K) :
    addCurlB pr J (-dt) (addCurlB pr J dt F) = F := by
  ext i <;> simp [addCurlB, curlB1, curlB2, curlB3] <;> ring

/-- C17: undoing a step — the magnetic update and then the electric update, with `-dt` and the same currents — restores the
fields exactly. -/
theorem C17_reversible (pr : FieldParams Q K) (hh : pr.hybrid = false) (J : Currents Q K) (dt : K) (F F' : EM Q K)
    (h : fdtd pr id J dt F = .ok F') : evolveE pr J (-dt) (evolveB pr (-dt) F') = .ok F := by
  rw [fdtd_eq pr hh, Except.ok.injEq] at h
  subst h
  rw [evolveB_neg, evolveE, if_neg (by simp [hh]), addCurlB_neg]

/-- C17: for any currents and any step size an FDTD step is a bijection on fields: no two states are merged and every state
has a predecessor. -/
theorem C17_bijective (pr : FieldParams Q K) (hh : pr.hybrid = false) (J : Currents Q K) (dt : K) :
    ∃ step : EM Q K → EM Q K, Function.Bijective step ∧ ∀ F, fdtd pr id J dt F = .ok (step F) := by
  refine ⟨fun F => evolveB pr dt (addCurlB pr J dt F), ⟨?_, ?_⟩, fdtd_eq pr hh J dt⟩
  · refine Function.LeftInverse.injective (g := fun F => addCurlB pr J (-dt) (evolveB pr (-dt) F)) fun F => ?_
    simp only [evolveB_neg, addCurlB_neg]
  · intro G
    refine ⟨addCurlB pr J (-dt) (evolveB pr (-dt) G), ?_⟩
    have h1 := addCurlB_neg pr J (-dt) (evolveB pr (-dt) G)
    have h2 := evolveB_neg pr (-dt) G
    simp only [neg_neg] at h1 h2
    simp only [h1, h2]

/-! ## A concrete case -/

/-- A 3 × 2 grid with unequal spacings. -/
def exPr : FieldParams (ZMod 3 × ZMod 2) ℚ := ⟨(1, 0), (0, 1), 1, 2, 3, 5, false⟩

/-- Fields that vary in both directions. -/
def exEM : EM (ZMod 3 × ZMod 2) ℚ :=
  ⟨fun i => if i = (0, 0) then 1 else 0, fun i => if i = (1, 0) then 2 else 0, fun i => if i = (2, 1) then 3 else 0,
   fun i => if i = (0, 1) then 4 else 0, fun _ => 7, fun i => if i = (1, 1) then 5 else 0⟩

/-- The theorems are not vacuous: the run exists, the CFL condition holds, the divergences are not zero, and the fields do change. -/
example : (∃ F', runFDTD exPr (vacuumSteps 5 1) exEM = .ok F') ∧ exPr.hybrid = false ∧
    (1 : ℚ) ^ 2 * (1 / exPr.dq1 ^ 2 + 1 / exPr.dq2 ^ 2) < exPr.eps * exPr.mu ∧
    divB exPr exEM (0, 1) ≠ 0 ∧ divE exPr exEM (0, 0) ≠ 0 ∧ (vac exPr 1 exEM).E1 (1, 1) ≠ exEM.E1 (1, 1) := by
  refine ⟨C13_run_succeeds exPr rfl _ _, rfl, by norm_num [exPr], ?_, ?_, ?_⟩
  · have h1 : ((0, 1) : ZMod 3 × ZMod 2) - (1, 0) ≠ (0, 1) := by decide
    simp [divB, exPr, exEM]
  · have h1 : ((0, 0) : ZMod 3 × ZMod 2) + (1, 0) ≠ (0, 0) := by decide
    have h2 : ((0, 0) : ZMod 3 × ZMod 2) + (0, 1) ≠ (1, 0) := by decide
    have h3 : ((0, 0) : ZMod 3 × ZMod 2) ≠ (1, 0) := by decide
    simp only [divE, exPr, exEM, afShift_back]
    rw [if_neg h1, if_neg h2, if_neg h3]
    norm_num
  · have h1 : ((1, 1) : ZMod 3 × ZMod 2) + (0, 1) ≠ (1, 1) := by decide
    simp only [vac, evolveB, addCurlB, curlB1, Currents.zero, exPr, exEM, afShift_back]
    rw [if_neg h1]
    norm_num

end Bolt
