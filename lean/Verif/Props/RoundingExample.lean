import Verif.Props.RoundingDrift
import Verif.Props.DecompExample

/-!
# C107: double precision, concrete runs, and what rounding does break
-/

set_option linter.unusedSectionVars false

namespace Bolt

open Machine Finset

/-! ## double precision -/

/-- Rounding to 53 binary digits has unit roundoff `2^-53`. -/
theorem C107_double_accurate : AccurateTo (1 / 2 ^ 53) rndDouble := by
  refine ⟨by norm_num, fun x => ?_⟩
  by_cases hx : x = 0
  · subst hx; simp [rndDouble]
  have hp : 0 < |x| := abs_pos.mpr hx
  set e : ℤ := Int.log 2 |x| - 52 with he
  have h2 : (0 : ℚ) < 2 ^ e := zpow_pos (by norm_num) e
  have hr : |x / 2 ^ e - round (x / 2 ^ e)| ≤ 1 / 2 := abs_sub_round _
  have hl : (2 : ℚ) ^ Int.log 2 |x| ≤ |x| := by exact_mod_cast Int.zpow_log_le_self (b := 2) (by norm_num) hp
  have e1 : rndDouble x - x = -((x / 2 ^ e - round (x / 2 ^ e)) * 2 ^ e) := by
    rw [rndDouble, ← he, sub_mul, div_mul_cancel₀ _ h2.ne']; ring
  rw [e1, abs_neg, abs_mul, abs_of_pos h2]
  have e2 : (2 : ℚ) ^ e = 2 ^ Int.log 2 |x| / 2 ^ 52 := by
    rw [he, zpow_sub₀ (by norm_num)]; norm_num
  calc |x / 2 ^ e - round (x / 2 ^ e)| * 2 ^ e ≤ 1 / 2 * 2 ^ e := mul_le_mul_of_nonneg_right hr h2.le
    _ = 1 / 2 ^ 53 * 2 ^ Int.log 2 |x| := by rw [e2]; ring
    _ ≤ 1 / 2 ^ 53 * |x| := mul_le_mul_of_nonneg_left hl (by norm_num)

/-- Every number with at most 53 significant binary digits is represented exactly. -/
theorem C107_double_exact (m e : ℤ) (hm : |m| < 2 ^ 53) : Representable rndDouble (m * 2 ^ e) := by
  unfold Representable
  by_cases h0 : m = 0
  · subst h0; simp [rndDouble]
  have hx : |(m : ℚ) * 2 ^ e| = |(m : ℚ)| * 2 ^ e := by rw [abs_mul, abs_of_pos (zpow_pos (by norm_num) e : (0 : ℚ) < 2 ^ e)]
  have hpos : (0 : ℚ) < |(m : ℚ) * 2 ^ e| := by
    rw [hx]; exact mul_pos (abs_pos.mpr (by exact_mod_cast h0)) (zpow_pos (by norm_num) e)
  set l := Int.log 2 |(m : ℚ) * 2 ^ e| with hl
  have hle : l - 52 ≤ e := by
    have hlt : |(m : ℚ) * 2 ^ e| < ((2 : ℕ) : ℚ) ^ (e + 53) := by
      have hm' : |(m : ℚ)| < 2 ^ 53 := by
        have : ((|m| : ℤ) : ℚ) < ((2 ^ 53 : ℤ) : ℚ) := Int.cast_lt.mpr hm
        rw [Int.cast_abs] at this
        exact this.trans_le (by norm_num)
      have hp : (0 : ℚ) < 2 ^ e := zpow_pos (by norm_num) e
      rw [hx, Nat.cast_ofNat, zpow_add₀ (by norm_num), mul_comm]
      exact mul_lt_mul_of_pos_left (by exact_mod_cast hm') hp
    have := (Int.lt_zpow_iff_log_lt (b := 2) (by norm_num) hpos).mp hlt
    omega
  obtain ⟨n, hn⟩ := Int.eq_ofNat_of_zero_le (sub_nonneg.mpr hle)
  have e1 : (m : ℚ) * 2 ^ e / 2 ^ (l - 52) = ((m * 2 ^ n : ℤ) : ℚ) := by
    rw [mul_div_assoc, ← zpow_sub₀ (by norm_num), hn]
    push_cast; simp
  rw [rndDouble, ← hl, e1, round_intCast, ← e1, div_mul_cancel₀ _ (zpow_ne_zero _ (by norm_num))]

theorem rndDouble_one : Representable rndDouble 1 := by simpa using C107_double_exact 1 0 (by norm_num)
theorem rndDouble_two : Representable rndDouble 2 := by simpa using C107_double_exact 2 0 (by norm_num)

/-- Double precision arithmetic on rational numbers. -/
@[reducible] def doubleMachine : Machine ℚ := roundedMachine rndDouble

/-- `1/10` is not a double: rounding is not vacuous. -/
example : ¬ Representable rndDouble (1 / 10) := by unfold Representable; decide +kernel

/-! ## concrete runs -/

section runs

/-- A run succeeds when both reconstruction names are implemented ones, whatever the arithmetic. -/
theorem mach_run_succeeds {S P Q K : Type} [AddCommGroup P] [AddCommGroup Q] [Machine K] (ax : Axes P Q) (cfg : FVMConfig S K) {mq mp : Recon}
    (hmq : reconMethod cfg.reconstructionInQ = .ok mq) (hmp : reconMethod cfg.reconstructionInP = .ok mp)
    (steps : List (K × (Fin 2 → Callbacks S P Q K))) (f : Dist S P Q K) : ∃ f', Mach.runFVM ax cfg steps f = .ok f' := by
  induction steps generalizing f with
  | nil => exact ⟨f, rfl⟩
  | cons st rest ih =>
    rw [Mach.runFVM_cons ax cfg (mq := mq) (mp := mp) ⟨fun _ => hmq, fun _ => hmp⟩]
    exact ih _

/-- So does a run on many processes. -/
theorem mach_periodicRun_exists {S P K R : Type} [AddCommGroup P] [Machine K] {N1 N2 : ℕ} [NeZero N1] [NeZero N2] (D : Decomp N1 N2 R)
    (g1 g2 : ℕ) (ax : P × P × P) (cfg : FVMConfig S K) {mq mp : Recon}
    (hmq : reconMethod cfg.reconstructionInQ = .ok mq) (hmp : reconMethod cfg.reconstructionInP = .ok mp)
    (steps : List (K × (Fin 2 → ∀ r, Callbacks S P (D.Loc g1 g2 r) K))) (F : ∀ r, Dist S P (D.Loc g1 g2 r) K) :
    ∃ F', Mach.PeriodicRun D g1 g2 ax cfg steps F F' := by
  induction steps generalizing F with
  | nil => exact ⟨F, rfl⟩
  | cons st rest ih =>
    obtain ⟨dt, cb⟩ := st
    obtain ⟨F', hF'⟩ := ih _
    exact ⟨F', _, ⟨F, F, _, _, fun r => Mach.dfdtFVM_eq _ cfg (mq := mq) (mp := mp) ⟨fun _ => hmq, fun _ => hmp⟩ _ _,
      fun r => Mach.dfdtFVM_eq _ cfg (mq := mq) (mp := mp) ⟨fun _ => hmq, fun _ => hmp⟩ _ _, rfl⟩, hF'⟩

/-- The hypotheses of `C107_bitwise_decomposition_independence` are met in double precision: on the two processes of `exD`, with two
ghost cells, the minmod run of any number of steps of any length has, in every cell, exactly the double the whole-grid run has. -/
example (n : ℕ) (dt : ℚ) : letI := doubleMachine
    ∃ F' f', Mach.PeriodicRun exD 2 0 (1, 0, 0) c12Cfg (List.replicate n (dt, fun _ r => c12CbLoc 2 r)) (c12FLoc 2) F' ∧
    Mach.runFVM ⟨1, 0, 0, (1, 0), (0, 1)⟩ c12Cfg (List.replicate n (dt, fun _ => c12Cb)) c12F = .ok f' ∧ exD.Holds 2 0 F' f' := by
  letI := doubleMachine
  obtain ⟨F', hF'⟩ := mach_periodicRun_exists exD 2 0 (1, 0, 0) c12Cfg (mq := .minmod) (mp := .minmod) rfl rfl
    (List.replicate n (dt, fun _ r => c12CbLoc 2 r)) (c12FLoc 2)
  obtain ⟨f', hf'⟩ := mach_run_succeeds ⟨1, 0, 0, (1, 0), (0, 1)⟩ c12Cfg (mq := .minmod) (mp := .minmod) rfl rfl
    (List.replicate n (dt, fun _ => c12Cb)) c12F
  refine ⟨F', f', hF', hf', ?_⟩
  refine C107_bitwise_decomposition_independence exD 2 0 (1, 0, 0) c12Cfg ?_
    (List.replicate n (dt, (fun _ r => c12CbLoc 2 r), fun _ => c12Cb)) ?_ _ _ _ _ (c12_holds 2) ?_ ?_
  · intro m hm
    have : m = .minmod := by simpa [c12Cfg, reconMethod] using hm.symm
    subst this
    exact ⟨Or.inl (by simp [Recon.radius]), Or.inr ⟨rfl, rfl⟩⟩
  · intro st hst k r
    rw [List.eq_of_mem_replicate hst]
    exact c12_agree 2 (by omega) r
  · simpa using hF'
  · simpa using hf'

/-- Three cells, unit velocity along the first axis, first order. -/
def rdCfg (m : String) : FVMConfig Unit ℚ :=
  ⟨"FVM", "FVM", m, m, "upwind-flux", "upwind-flux", false, false, 1, 1, fun _ => 1, fun _ => 1, fun _ => 1⟩
def rdCb : Callbacks Unit (ZMod 1) (ZMod 3 × ZMod 1) ℚ :=
  ⟨fun _ _ _ => 1, fun _ _ _ => 0, fun _ _ _ => 0, fun _ _ _ => 0, fun _ _ _ => 0, fun f => f⟩
def rdF : Dist Unit (ZMod 1) (ZMod 3 × ZMod 1) ℚ := fun _ _ i => if i.1 = 0 then 1 else 0
def rdAx : Axes (ZMod 1) (ZMod 3 × ZMod 1) := ⟨0, 0, 0, (1, 0), (0, 1)⟩

/-- The hypotheses of `C107_first_order_drift_run` are met: doubles, Courant number 1/10, any number of steps. -/
example (n : ℕ) : letI := doubleMachine
    ∃ f', Mach.runFVM rdAx (rdCfg "piecewise-constant") (List.replicate n (1 / 10, fun _ => rdCb)) rdF = .ok f' ∧
      ∀ A, (∀ k < n, ∀ g, Mach.runFVM rdAx (rdCfg "piecewise-constant") (List.replicate k (1 / 10, fun _ => rdCb)) rdF = .ok g →
        ∑ q, |g () 0 q| ≤ A) → |∑ q, f' () 0 q - 1| ≤ n * (80 * (1 / 2 ^ 53) * A) := by
  letI := doubleMachine
  obtain ⟨f', hf'⟩ := mach_run_succeeds rdAx (rdCfg "piecewise-constant") (mq := .piecewiseConstant) (mp := .piecewiseConstant) rfl rfl
    (List.replicate n (1 / 10, fun _ => rdCb)) rdF
  refine ⟨f', hf', fun A hA => ?_⟩
  have h := C107_first_order_drift_run (M := doubleMachine) rfl (by norm_num) C107_double_accurate rndDouble_two rdAx
    (rdCfg "piecewise-constant") rfl rfl rfl rfl (List.replicate n (1 / 10, fun _ => rdCb)) 1 0 ?_ ?_ rdF f' hf' () 0 A ?_
  · have s : ∑ q, rdF () 0 q = 1 := by decide +kernel
    rw [s, List.length_replicate] at h
    exact h
  · intro st hst k s p q
    rw [List.eq_of_mem_replicate hst]; simp [rdCb]
  · intro st hst
    rw [List.eq_of_mem_replicate hst]; norm_num [rdCfg]
  · intro k hk g hg
    rw [List.length_replicate] at hk
    rw [List.take_replicate, min_eq_left hk.le] at hg
    exact hA k hk g hg

/-- C107 (negative): the number of particles is not conserved exactly: with doubles, in a step so short that the loss of the full cell
is rounded away while the gain of the empty cell is not, the total grows. -/
theorem C107_conservation_not_exact : letI := doubleMachine
    ∃ f', Mach.timestepFVM (fun _ => Mach.dfdtFVM rdAx (rdCfg "piecewise-constant") rdCb) (1 / 2 ^ 60) rdF = .ok f' ∧
      ∑ q, rdF () 0 q < ∑ q, f' () 0 q := by
  letI := doubleMachine
  refine ⟨_, Mach.timestepFVM_eq rdAx (rdCfg "piecewise-constant") (mq := .piecewiseConstant) (mp := .piecewiseConstant)
    ⟨fun _ => rfl, fun _ => rfl⟩ _ (fun _ => rdCb) rdF, ?_⟩
  decide +kernel

/-- The hypotheses of `C107_uniform_state_kept` are met, with ppm. -/
example (n : ℕ) (dt : ℚ) : letI := doubleMachine
    Mach.runFVM rdAx (rdCfg "ppm") (List.replicate n (dt, fun _ => rdCb)) (fun _ _ _ => 3 / 4) = .ok fun _ _ _ => 3 / 4 := by
  letI := doubleMachine
  obtain ⟨f', hf'⟩ := mach_run_succeeds rdAx (rdCfg "ppm") (mq := .ppm) (mp := .ppm) rfl rfl
    (List.replicate n (dt, fun _ => rdCb)) (fun _ _ _ => 3 / 4)
  rw [hf', C107_uniform_state_kept (M := doubleMachine) rfl (by norm_num) C107_double_accurate rndDouble_one rdAx (rdCfg "ppm") rfl rfl _
    ?_ _ f' (fun _ _ _ _ => rfl) ?_ hf']
  · intro st hst k s p q q'
    rw [List.eq_of_mem_replicate hst]; exact ⟨rfl, rfl⟩
  · intro s p q
    have := C107_double_exact 3 (-2) (by norm_num)
    rwa [show ((3 : ℤ) : ℚ) * 2 ^ (-2 : ℤ) = 3 / 4 by norm_num] at this

/-- A state of numbers that are not representable is not kept: the first addition of zero already rounds it. -/
example : letI := doubleMachine
    ∃ f', Mach.timestepFVM (fun _ => Mach.dfdtFVM rdAx (rdCfg "piecewise-constant") rdCb) 1 (fun _ _ _ => 3 / 10) = .ok f' ∧
      f' () 0 (0, 0) ≠ 3 / 10 := by
  letI := doubleMachine
  refine ⟨_, Mach.timestepFVM_eq rdAx (rdCfg "piecewise-constant") (mq := .piecewiseConstant) (mp := .piecewiseConstant)
    ⟨fun _ => rfl, fun _ => rfl⟩ _ (fun _ => rdCb) _, ?_⟩
  decide +kernel

/-- The same two cells with a force: momentum fluxes included. -/
def rdCfgP : FVMConfig Unit ℚ :=
  ⟨"FVM", "FVM", "minmod", "ppm", "upwind-flux", "upwind-flux", false, true, 1, 1, fun _ => 1, fun _ => 1, fun _ => 1⟩
def rdCbP : Callbacks Unit (ZMod 2) (ZMod 3 × ZMod 1) ℚ :=
  ⟨fun _ _ _ => 1, fun _ _ _ => 0, fun _ p _ => if p = 0 then 1 else -2, fun _ _ _ => 0, fun _ _ _ => 0, fun f => f⟩
def rdFP : Dist Unit (ZMod 2) (ZMod 3 × ZMod 1) ℚ := fun _ p i => if i.1 = 0 ∧ p = 0 then 1 else 0

/-- The hypotheses of `C107_conservation_up_to_rounding` are met. -/
example (dt : ℚ) : letI := doubleMachine
    ∃ k0 f', Mach.dfdtFVM ⟨1, 0, 0, (1, 0), (0, 1)⟩ rdCfgP rdCbP rdFP = .ok k0 ∧
      Mach.timestepFVM (fun _ => Mach.dfdtFVM ⟨1, 0, 0, (1, 0), (0, 1)⟩ rdCfgP rdCbP) dt rdFP = .ok f' ∧ AccurateTo (1 / 2 ^ 53) rndDouble ∧
      Representable rndDouble 1 ∧ reconMethod rdCfgP.reconstructionInQ = .ok .minmod ∧ reconMethod rdCfgP.reconstructionInP = .ok .ppm := by
  letI := doubleMachine
  have hU : Mach.Uses rdCfgP .minmod .ppm := ⟨fun _ => rfl, fun _ => rfl⟩
  exact ⟨_, _, Mach.dfdtFVM_eq _ rdCfgP hU rdCbP rdFP, Mach.timestepFVM_eq _ rdCfgP hU dt (fun _ => rdCbP) rdFP, C107_double_accurate,
    rndDouble_one, rfl, rfl⟩

/-- A useless machine. -/
@[reducible] def badMachine : Machine ℚ :=
  ⟨fun _ _ => 17, fun _ _ => 17, fun _ _ => 17, fun _ _ => 17, fun _ => 17, fun _ => 17, fun _ _ => 17, fun _ => 17,
    fun _ _ => true, fun _ _ => true, fun _ => 17⟩

/-- The hypotheses of `C107_damage_spreads_slowly` are met by a machine that answers 17 to every question, on a line of 64 cells: one
damaged cell does not reach a cell 32 cells away in five minmod steps. -/
example (damage : ℚ) (dt : ℚ) :
    letI := badMachine
    ∀ f' g', Mach.runFVM (⟨0, 0, 0, (1, 0), (0, 1)⟩ : Axes (ZMod 1) (ZMod 64 × ZMod 1)) (rdCfg "minmod")
        (List.replicate 5 (dt, fun _ => ⟨fun _ _ _ => 1, fun _ _ _ => 0, fun _ _ _ => 0, fun _ _ _ => 0, fun _ _ _ => 0, fun f => f⟩))
        (fun _ _ i => if i.1 = 0 then damage else 1) = .ok f' →
      Mach.runFVM (⟨0, 0, 0, (1, 0), (0, 1)⟩ : Axes (ZMod 1) (ZMod 64 × ZMod 1)) (rdCfg "minmod")
        (List.replicate 5 (dt, fun _ => ⟨fun _ _ _ => 1, fun _ _ _ => 0, fun _ _ _ => 0, fun _ _ _ => 0, fun _ _ _ => 0, fun f => f⟩))
        (fun _ _ _ => 1) = .ok g' → f' () 0 (32, 0) = g' () 0 (32, 0) := by
  letI := badMachine
  intro f' g' hf hg
  refine C107_damage_spreads_slowly _ (rdCfg "minmod") .minmod rfl _ ?_ _ _ f' g' hf hg (32, 0) ?_ () 0
  · intro st hst k
    rw [List.eq_of_mem_replicate hst]
    intro f g q h s p; exact h s p
  · intro a b hab s p
    have ha : |a| ≤ 20 := by
      have := abs_nonneg b
      simp only [List.length_replicate, Recon.radius] at hab
      norm_num at hab
      omega
    rw [if_neg]
    simp only [Prod.fst_add, Prod.smul_mk, smul_zero, add_zero, zsmul_eq_mul, mul_one]
    intro h0
    have : ((32 + a : ℤ) : ZMod 64) = 0 := by push_cast; exact h0
    rw [ZMod.intCast_zmod_eq_zero_iff_dvd] at this
    rw [abs_le] at ha
    omega

end runs

end Bolt
