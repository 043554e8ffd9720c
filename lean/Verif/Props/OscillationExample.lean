import Verif.Props.Oscillation

/-!
# Concrete cases for C109 and C110: a cold uniform plasma displaced by an electric field
-/

namespace Bolt

open Finset

/-- Electrons (charge -1, mass 1) at two positions, a momentum grid of `4 n + 9` cells along p1, centred on zero velocity; one cell along p2 and p3. -/
noncomputable def c110Cfg (n : ℕ) : CoupledConfig Unit (PIdx (4 * n + 9) 1 1) (ZMod 2 × ZMod 1) ℝ where
  solverMethodInQ := "FVM"
  solverMethodInP := "FVM"
  reconstructionInQ := "ppm"
  reconstructionInP := "piecewise-constant"
  riemannInQ := "upwind-flux"
  riemannInP := "upwind-flux"
  sourceEnabled := false
  fieldsEnabled := true
  dq1 := 1
  dq2 := 1
  dp1 := fun _ => 1
  dp2 := fun _ => 1
  dp3 := fun _ => 1
  ax := ⟨(1, 0, 0), (0, 1, 0), (0, 0, 1), (1, 0), (0, 1)⟩
  fieldsType := "electrodynamic"
  fieldsSolver := "fdtd"
  charge := fun _ => -1
  coords := gridCoords (4 * n + 9) 1 1 (1 / 2) (fun _ => -(4 * n + 9) / 2) (fun _ => -1 / 2) (fun _ => -1 / 2) (fun _ => 1) (fun _ => 1) (fun _ => 1)
  eps := 1
  mu := 1
  hybrid := false
  Te := 0

/-- All electrons are at rest. -/
noncomputable def c110F (n : ℕ) : Dist Unit (PIdx (4 * n + 9) 1 1) (ZMod 2 × ZMod 1) ℝ := fun _ p _ => if p.1.val = 2 * n + 4 then 1 else 0

/-- A uniform electric field along q1. -/
noncomputable def c110Ini : InitFns (ZMod 2 × ZMod 1) ℝ := ⟨some (fun _ => 1, fun _ => 0, fun _ => 0), none, some (fun _ => 0, fun _ => 0, fun _ => 0), none, none⟩

theorem c110_run (n : ℕ) (src) : ∃ st, VlasovMaxwellRun (c110Cfg n) (fun _ => 1) (c110Cfg n).coords src (fun _ σ => σ) () c110Ini (fun _ => 1 / 2) st ∧
    (st 0).1 = c110F n ∧ (st 0).2.yee = EM.const 1 0 0 0 0 0 ∧ (∀ t, InvariantAlong t (st 0).1 (st 0).2) := by
  obtain ⟨σ, hσ⟩ : ∃ σ, initFields (c110Cfg n).fieldParams c110Ini = .ok σ := ⟨_, rfl⟩
  have hd : ElectrodynamicFVM (c110Cfg n) := ⟨rfl, rfl, rfl, rfl⟩
  have ex : ∀ x, ∃ y, stepCoupled (c110Cfg n) (fun _ σ => σ) (fun _ => nonrelCallbacks (c110Cfg n).charge (fun _ => 1) (c110Cfg n).coords (c110Cfg n).coords src)
      () (1 / 2) x = .ok y := by
    intro x
    obtain ⟨r0, h0⟩ := dfdtCoupled_exists (c110Cfg n) hd rfl ⟨.ppm, rfl⟩ ⟨.piecewiseConstant, rfl⟩ (fun _ σ => σ)
      (nonrelCallbacks (c110Cfg n).charge (fun _ => 1) (c110Cfg n).coords (c110Cfg n).coords src) () (1 / 2) x.1 x.1 x.2
    obtain ⟨r1, h1⟩ := dfdtCoupled_exists (c110Cfg n) hd rfl ⟨.ppm, rfl⟩ ⟨.piecewiseConstant, rfl⟩ (fun _ σ => σ)
      (nonrelCallbacks (c110Cfg n).charge (fun _ => 1) (c110Cfg n).coords (c110Cfg n).coords src) () (1 / 2)
      (fun s p q => x.1 s p q + r0.1 s p q * (1 / 2 / 2)) (fun s p q => x.1 s p q + r0.1 s p q * (1 / 2 / 2)) r0.2
    simp only [stepCoupled, bind, Except.bind, pure, Except.pure, h0, h1]
    exact ⟨_, rfl⟩
  choose nxt hn using ex
  let st : ℕ → Dist Unit (PIdx (4 * n + 9) 1 1) (ZMod 2 × ZMod 1) ℝ × FieldState (ZMod 2 × ZMod 1) ℝ := fun k => Nat.rec (c110F n, σ) (fun _ x => nxt x) k
  refine ⟨st, ⟨hd, rfl, rfl, rfl, fun _ => ⟨one_pos, one_pos, one_pos⟩, fun _ => one_pos, one_ne_zero, ⟨rfl, rfl, rfl⟩, ⟨_, _, _, rfl⟩, hσ, fun k => hn (st k)⟩, rfl, ?_, ?_⟩
  · cases hσ
    rfl
  · cases hσ
    intro t
    refine ⟨fun _ _ _ => rfl, fun k i => ?_, fun o k i => ?_⟩
    · fin_cases k <;> rfl
    · change (EM.comp (if o = 0 then _ else _) k _) = EM.comp (if o = 0 then _ else _) k _
      split_ifs
      · fin_cases k <;> rfl
      · fin_cases k <;> rfl

theorem c110_clear (n : ℕ) : ClearOfEdges 0 (2 * n + 4) (c110F n) := by
  intro s p q h
  simp only [momentumIndex, Matrix.cons_val_zero] at h
  refine if_neg ?_
  omega

theorem c110_frequency (n : ℕ) : plasmaFrequencySq (c110Cfg n) (fun _ => 1) (c110F n) = 1 := by
  have h2 : 2 * n + 4 < 4 * n + 9 := by omega
  have key : ∑ p : PIdx (4 * n + 9) 1 1, c110F n () p 0 = 1 := by
    rw [sum_eq_single (((2 * n + 4 : ℕ) : ZMod (4 * n + 9)), 0, 0)]
    · simp only [c110F]
      rw [if_pos (ZMod.val_cast_of_lt h2)]
    · rintro ⟨a, b, d⟩ - hne
      refine if_neg fun h => hne ?_
      have : a = ((2 * n + 4 : ℕ) : ZMod (4 * n + 9)) := by
        rw [← h, ZMod.natCast_zmod_val]
      exact Prod.ext this (Subsingleton.elim _ _)
    · exact fun h => absurd (mem_univ _) h
  simp [plasmaFrequencySq, c110Cfg, key]

theorem c110_confined (n : ℕ) : Confined (c110Cfg n) 2 (c110F n) := by
  intro j
  fin_cases j
  · have h : ![4 * n + 9, 1, 1] (0 : Fin 3) ≠ 1 := by simp
    change (if ![4 * n + 9, 1, 1] (0 : Fin 3) = 1 then _ else _)
    rw [if_neg h]
    intro s p q hp
    refine c110_clear n s p q ?_
    have hp' : momentumIndex 0 p < 2 ∨ ![4 * n + 9, 1, 1] 0 ≤ momentumIndex 0 p + 2 := hp
    omega
  · intro s p
    have : p.2.1.val = 0 := by have := ZMod.val_lt p.2.1; omega
    simp [-ZMod.natCast_val, velocity, c110Cfg, gridCoords, this]
    norm_num
  · intro s p
    have : p.2.2.val = 0 := by have := ZMod.val_lt p.2.2; omega
    simp [-ZMod.natCast_val, velocity, c110Cfg, gridCoords, this]
    norm_num

/-- C110, the hypotheses: for any number of steps there is a momentum grid on which the cold plasma meets all of them, and the field at least one of the last three steps has
grown by the factor `(1 + 1/80)^n`, up to a constant that does not depend on the number of steps nor on the run. -/
example (n : ℕ) (src) : ∃ st, VlasovMaxwellRun (c110Cfg n) (fun _ => 1) (c110Cfg n).coords src (fun _ σ => σ) () c110Ini (fun _ => 1 / 2) st ∧
    reconMethod (c110Cfg n).reconstructionInQ = .ok .ppm ∧ (∀ t, InvariantAlong t (st 0).1 (st 0).2) ∧ (∀ k i, (st 0).2.yee.magnetic k i = 0) ∧
    plasmaFrequencySq (c110Cfg n) (fun _ => 1) (st 0).1 * (1 / 2) ^ 2 = 1 / 4 ∧ ClearOfEdges 0 (2 * n + 4) (st 0).1 ∧
    (∀ i, (st 0).2.yee.electric 0 i = 1) ∧ Confined (c110Cfg n) 2 (st 0).1 := by
  obtain ⟨st, R, hf, hy, hu⟩ := c110_run n src
  refine ⟨st, R, rfl, hu, fun k i => ?_, ?_, ?_, fun i => ?_, ?_⟩
  · rw [hy]; fin_cases k <;> rfl
  · rw [hf, c110_frequency]; norm_num
  · rw [hf]; exact c110_clear n
  · rw [hy]; rfl
  · rw [hf]; exact c110_confined n

theorem c110_density (n : ℕ) : ∑ p : PIdx (4 * n + 9) 1 1, c110F n () p 0 = 1 := by
  have := c110_frequency n
  simpa [plasmaFrequencySq, c110Cfg] using this

/-- C109, a disagreement with conservation of energy: in the first step of the cold plasma the energy of particles and fields together rises from 1 to 47/32. -/
example (n : ℕ) (src) : ∃ st, VlasovMaxwellRun (c110Cfg n) (fun _ => 1) (c110Cfg n).coords src (fun _ σ => σ) () c110Ini (fun _ => 1 / 2) st ∧
    (let energy := fun k => kineticEnergy (c110Cfg n) (fun _ => 1) (st k).1 +
      fieldEnergy (c110Cfg n).eps (c110Cfg n).mu (st k).2.yee.electric (st k).2.yee.magnetic (st k).2.yee.magnetic
     energy 0 = 1 ∧ energy 1 = 47 / 32) := by
  obtain ⟨st, R, hf, hy, hu⟩ := c110_run n src
  have hB : ∀ k i, (st 0).2.yee.magnetic k i = 0 := fun k i => by rw [hy]; fin_cases k <;> rfl
  have hE0 : ∀ k i, (st 0).2.yee.electric k i = ![1, 0, 0] k := fun k i => by rw [hy]; fin_cases k <;> rfl
  have hq : ∀ x : ℝ, ∑ _q : ZMod 2 × ZMod 1, x = 2 * x := by
    intro x
    rw [sum_const, card_univ, nsmul_eq_mul]
    norm_num [ZMod.card]
  have e0 : kineticEnergy (c110Cfg n) (fun _ => 1) (st 0).1 +
      fieldEnergy (c110Cfg n).eps (c110Cfg n).mu (st 0).2.yee.electric (st 0).2.yee.magnetic (st 0).2.yee.magnetic = 1 := by
    have k0 : kineticEnergy (c110Cfg n) (fun _ => 1) (st 0).1 = 0 := by
      rw [hf]
      refine sum_eq_zero fun q _ => sum_eq_zero fun s _ => sum_eq_zero fun p _ => ?_
      by_cases h : p.1.val = 2 * n + 4
      · have v : ∀ k, velocity (c110Cfg n) k s p = 0 := by
          have h2 : p.2.1.val = 0 := by have := ZMod.val_lt p.2.1; omega
          have h3 : p.2.2.val = 0 := by have := ZMod.val_lt p.2.2; omega
          intro k
          fin_cases k
          · simp [-ZMod.natCast_val, velocity, c110Cfg, gridCoords, h]
            ring
          · simp [-ZMod.natCast_val, velocity, c110Cfg, gridCoords, h2]
            norm_num
          · simp [-ZMod.natCast_val, velocity, c110Cfg, gridCoords, h3]
            norm_num
        simp [v]
      · simp [c110F, h]
    rw [k0, zero_add]
    simp only [fieldEnergy, hE0, hB, Fin.sum_univ_three, Matrix.cons_val_zero, Matrix.cons_val_one, Matrix.cons_val, hq, c110Cfg]
    norm_num
  refine ⟨st, R, e0, ?_⟩
  obtain ⟨fh, hh, h1, -⟩ := C109_first_step R (r := .ppm) rfl hu (by rw [hf]; exact c110_confined n)
  refine h1.trans ?_
  simp only [e0, R.seen]
  obtain ⟨a1, a2, -⟩ := C110_recurrence R (r := .ppm) rfl hu hB 0 0 (by rw [hf]; exact fun s p q h => c110_clear n s p q (by omega)) 0
  have hJ : currentDensity (c110Cfg n) (fun _ => c110F n) 0 0 = 0 := by
    refine sum_eq_zero fun s _ => ?_
    rw [sum_eq_zero, mul_zero]
    intro p _
    by_cases h : p.1.val = 2 * n + 4
    · have : velocity (c110Cfg n) 0 s p = 0 := by
        simp [-ZMod.natCast_val, velocity, c110Cfg, gridCoords, h]
        ring
      rw [this, zero_mul]
    · simp [c110F, h]
  simp only [R.seen, hJ, uniform_start R hu, hE0, zero_add, hf, c110_frequency, Matrix.cons_val_zero] at a1 a2
  have o1 : ∀ q, ((st 1).2.heap (st 1).2.cc).electric 0 q = 15 / 16 := by
    intro q
    rw [(uniform_value (R.uniform hu 1)).2.2.2 _ 0 q, a2, a1]
    norm_num [c110Cfg]
  have heat : numericalHeating (c110Cfg n) (fun _ => 1) fh ((st 1).2.heap (st 1).2.cc).electric ((st 1).2.heap (st 1).2.cc).magnetic = 15 / 16 := by
    have term : ∀ q s p, (∑ k, if ![4 * n + 9, 1, 1] k = 1 then 0 else
      |lorentz ((c110Cfg n).charge s) ((fun _ => 1 : Unit → ℝ) s) (fun j => ((st 1).2.heap (st 1).2.cc).electric j q) (fun j => ((st 1).2.heap (st 1).2.cc).magnetic j q)
        (fun j => velocity (c110Cfg n) j s p) k| * ![(c110Cfg n).dp1 s, (c110Cfg n).dp2 s, (c110Cfg n).dp3 s] k) = 15 / 16 := by
      intro q s p
      have z := (no_magnetic R (r := .ppm) rfl hu hB 1).2
      simp only [Fin.sum_univ_three, Matrix.cons_val_zero, Matrix.cons_val_one, Matrix.cons_val, lorentz, z, o1]
      simp [c110Cfg]
      norm_num
    simp only [numericalHeating, term]
    have d : ∀ q, ∑ p, fh () p q = 1 := by
      intro q
      rw [sum_congr rfl fun p _ => (uniform_step R (r := .ppm) rfl hu 0 hh).1 () p q, (uniform_density R (r := .ppm) rfl hu hB 0 ()).2 fh hh, hf, c110_density]
    simp only [univ_unique, sum_singleton, ← mul_sum, ← sum_mul, PUnit.default_eq_unit, d, hq]
    norm_num [c110Cfg]
  rw [heat]
  norm_num

end Bolt
