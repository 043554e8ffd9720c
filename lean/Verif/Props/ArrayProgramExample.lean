import Verif.Props.ArrayProgram
import Verif.Props.RoundingExample

/-!
# C113: the hypotheses are met — double precision, two species, two processes
-/

set_option linter.unusedSectionVars false

namespace Bolt

open Machine PyExpr

/-! ### machine numbers as the carrier -/

/-- Machine arithmetic on the machine numbers themselves: the results of exact operations are rounded, and the numbers are those rounding leaves alone. -/
@[reducible] def storedMachine (rnd : ℚ → ℚ) (h : ∀ x, rnd (rnd x) = rnd x) : Machine { u : ℚ // rnd u = u } where
  add a b := ⟨rnd (a.1 + b.1), h _⟩
  sub a b := ⟨rnd (a.1 - b.1), h _⟩
  mul a b := ⟨rnd (a.1 * b.1), h _⟩
  div a b := ⟨rnd (a.1 / b.1), h _⟩
  neg a := ⟨rnd (-a.1), h _⟩
  abs a := ⟨rnd |a.1|, h _⟩
  minof a b := if a.1 ≤ b.1 then a else b
  sign a := ⟨rnd (afSign a.1), h _⟩
  lt a b := decide (a.1 < b.1)
  le a b := decide (a.1 ≤ b.1)
  lit q := ⟨rnd q, h _⟩

/-- Rounding a double changes nothing. -/
theorem rndDouble_idem (x : ℚ) : rndDouble (rndDouble x) = rndDouble x := by
  by_cases hx : x = 0
  · subst hx; simp [rndDouble]
  have hp : 0 < |x| := abs_pos.mpr hx
  have hlt : |x| < (2 : ℚ) ^ (Int.log 2 |x| + 1) := by exact_mod_cast Int.lt_zpow_succ_log_self (b := 2) (by norm_num) |x|
  set e : ℤ := Int.log 2 |x| - 52 with he
  have h2 : (0 : ℚ) < 2 ^ e := zpow_pos (by norm_num) e
  have hq : |x / 2 ^ e| < 2 ^ 53 := by
    rw [abs_div, abs_of_pos h2, div_lt_iff₀ h2]
    refine hlt.trans_le (le_of_eq ?_)
    rw [show Int.log 2 |x| + 1 = 53 + e by omega, zpow_add₀ (by norm_num)]; norm_num
  have hr : |(round (x / 2 ^ e) : ℤ)| ≤ 2 ^ 53 := by
    have h1 : |x / 2 ^ e - round (x / 2 ^ e)| ≤ 1 / 2 := abs_sub_round _
    have h3 : |((round (x / 2 ^ e) : ℤ) : ℚ)| < 2 ^ 53 + 1 := by
      rw [abs_lt] at hq ⊢; rw [abs_le] at h1; constructor <;> linarith [h1.1, h1.2, hq.1, hq.2]
    have h4 : ((|round (x / 2 ^ e)| : ℤ) : ℚ) < ((2 ^ 53 + 1 : ℤ) : ℚ) := by
      rw [Int.cast_abs]; refine h3.trans_le ?_; norm_num
    have := Int.cast_lt.mp h4
    omega
  have e1 : rndDouble x = round (x / 2 ^ e) * 2 ^ e := by rw [rndDouble, ← he]
  rw [e1]
  rcases hr.lt_or_eq with h | h
  · exact C107_double_exact _ _ h
  · rcases abs_eq (by norm_num : (0 : ℤ) ≤ 2 ^ 53) |>.mp h with h | h
    · have := C107_double_exact 1 (e + 53) (by norm_num)
      rw [h]
      have w : ((2 ^ 53 : ℤ) : ℚ) * 2 ^ e = (1 : ℤ) * 2 ^ (e + 53) := by rw [zpow_add₀ (by norm_num)]; push_cast; norm_num; ring
      rw [w]; exact this
    · have := C107_double_exact (-1) (e + 53) (by norm_num)
      rw [h]
      have w : ((-2 ^ 53 : ℤ) : ℚ) * 2 ^ e = (-1 : ℤ) * 2 ^ (e + 53) := by rw [zpow_add₀ (by norm_num)]; push_cast; norm_num; ring
      rw [w]; exact this

/-- The doubles (without overflow and underflow). -/
abbrev Dbl : Type := { u : ℚ // rndDouble u = u }

instance : Machine Dbl := storedMachine rndDouble rndDouble_idem

/-- `hone` holds for double precision; addition of doubles does round. -/
theorem dbl_one_mul (u : Dbl) : lit 1 ⊠ u = u := by
  apply Subtype.ext
  change rndDouble (rndDouble ((1 : ℚ)) * u.1) = u.1
  rw [show rndDouble 1 = 1 from rndDouble_one, one_mul, u.2]

example : ((lit (1 / 10) ⊞ lit (2 / 10) : Dbl)).1 ≠ ((lit (3 / 10) : Dbl)).1 := by decide +kernel

/-! ### every distribution is held by an array, every callback by input arrays -/

section exist
variable {K : Type} [Machine K] {z : GridSizes} [NeZero z.Np1] [NeZero z.Np2] [NeZero z.Np3] [NeZero z.M1] [NeZero z.M2] [NeZero z.Ns]

theorem Lay.Ok.exists_array {X : Type} {L : Lay X} (hL : L.Ok) (F : X → K)
    (h : ∀ x y, L.i0 x = L.i0 y → L.i1 x = L.i1 y → L.i2 x = L.i2 y → L.i3 x = L.i3 y → F x = F y) :
    ∃ a : AfArray K, L.Holds (.ok (.arr a)) F := by
  classical
  refine ⟨AfArray.ofFn L.d0 L.d1 L.d2 L.d3 fun i j k l =>
    if h : ∃ x, L.i0 x = i ∧ L.i1 x = j ∧ L.i2 x = k ∧ L.i3 x = l then F h.choose else lit 0, _, rfl, rfl, rfl, rfl, rfl, fun x => ?_⟩
  rw [AfArray.get_ofFn _ _ _ _ _ _ _ _ _ (hL.h0 x) (hL.h1 x) (hL.h2 x)]
  have hx : ∃ y, L.i0 y = L.i0 x ∧ L.i1 y = L.i1 x ∧ L.i2 y = L.i2 x ∧ L.i3 y = L.i3 x := ⟨x, rfl, rfl, rfl, rfl⟩
  rw [dif_pos hx]
  exact h _ _ hx.choose_spec.1 hx.choose_spec.2.1 hx.choose_spec.2.2.1 hx.choose_spec.2.2.2

theorem exists_holdsDist (f : Dist (Fin z.Ns) z.P z.Q K) : ∃ a : AfArray K, HoldsDist (z := z) (.ok (.arr a)) f := by
  refine (qExpanded_ok z).exists_array _ fun x y h0 h1 h2 h3 => ?_
  have e0 : x.2.1 = y.2.1 := by rw [← unrow_row (z := z) x.2.1, ← unrow_row (z := z) y.2.1]; exact congrArg _ h0
  have e1 : x.1 = y.1 := Fin.ext h1
  have e2 : x.2.2 = y.2.2 := Prod.ext (ZMod.val_injective _ h2) (ZMod.val_injective _ h3)
  rw [e0, e1, e2]

theorem exists_speciesOnly (c : Fin z.Ns → K) : ∃ a : AfArray K, (speciesOnly z).Holds (.ok (.arr a)) fun y => c y.1 :=
  (speciesOnly_ok z).exists_array _ fun x y _ h1 _ _ => by
    have e1 : x.1 = y.1 := Fin.ext h1
    rw [e1]

theorem exists_momentumOnly (c : Fin z.Ns → z.P → K) : ∃ a : AfArray K, (momentumOnly z).Holds (.ok (.arr a)) fun y => c y.1 y.2.1 :=
  (momentumOnly_ok z).exists_array _ fun x y h0 h1 _ _ => by
    have e0 : x.2.1 = y.2.1 := by rw [← unrow_row (z := z) x.2.1, ← unrow_row (z := z) y.2.1]; exact congrArg _ h0
    have e1 : x.1 = y.1 := Fin.ext h1
    rw [e0, e1]

theorem exists_positionOnly (c : z.Q → K) : ∃ a : AfArray K, (positionOnly z).Holds (.ok (.arr a)) fun y => c y.2.2 :=
  positionOnly_ok.exists_array _ fun x y _ _ h2 h3 => by
    have e2 : x.2.2 = y.2.2 := Prod.ext (ZMod.val_injective _ h2) (ZMod.val_injective _ h3)
    rw [e2]

/-- Whatever the callbacks prescribe, there are input arrays that hold it: the hypotheses of `C113_slope` can be met for all callbacks and distributions. -/
theorem C113_inputs_exist (cfg : FVMConfig (Fin z.Ns) K) (cb : Callbacks (Fin z.Ns) z.P z.Q K) (f : Dist (Fin z.Ns) z.P z.Q K) :
    ∃ x : ArrIn K, InputsHold cfg x cb f := by
  obtain ⟨a1, h1⟩ := exists_holdsDist cb.Cq1
  obtain ⟨a2, h2⟩ := exists_holdsDist cb.Cq2
  obtain ⟨a3, h3⟩ := exists_holdsDist cb.Cp1
  obtain ⟨a4, h4⟩ := exists_holdsDist cb.Cp2
  obtain ⟨a5, h5⟩ := exists_holdsDist cb.Cp3
  obtain ⟨a6, h6⟩ := exists_holdsDist (cb.source f)
  obtain ⟨d1, k1⟩ := exists_speciesOnly cfg.dp1
  obtain ⟨d2, k2⟩ := exists_speciesOnly cfg.dp2
  obtain ⟨d3, k3⟩ := exists_speciesOnly cfg.dp3
  exact ⟨⟨.ok (.arr a1), .ok (.arr a2), .ok (.arr a3), .ok (.arr a4), .ok (.arr a5), .ok (.arr a6), .ok (.arr d1), .ok (.arr d2), .ok (.arr d3)⟩,
    fun _ => ⟨.inl h1, .inl h2, fun _ => h6⟩, fun _ => ⟨h3, h4, h5, k1, k2, k3⟩⟩

/-- `C113_force`: for any charges, masses, velocities and fields there are arrays that hold them, and the force they give is used as a momentum velocity. -/
example (e m : Fin z.Ns → K) (v2 v3 : Fin z.Ns → z.P → K) (E1 B2 B3 : z.Q → K) :
    ∃ x : PyExpr K, HoldsDist (z := z) x fun s p q => (e s ⊘ m s) ⊠ ((E1 q ⊞ v2 s p ⊠ B3 q) ⊟ v3 s p ⊠ B2 q) := by
  obtain ⟨_, he⟩ := exists_speciesOnly (z := z) e
  obtain ⟨_, hm⟩ := exists_speciesOnly (z := z) m
  obtain ⟨_, h2⟩ := exists_momentumOnly (z := z) v2
  obtain ⟨_, h3⟩ := exists_momentumOnly (z := z) v3
  obtain ⟨_, hE⟩ := exists_positionOnly (z := z) E1
  obtain ⟨_, hB2⟩ := exists_positionOnly (z := z) B2
  obtain ⟨_, hB3⟩ := exists_positionOnly (z := z) B3
  exact ⟨_, C113_force _ _ _ _ _ _ _ e m v2 v3 E1 B3 B2 he hm hE h2 hB3 h3 hB2⟩

end exist

/-- `C113_momentum_velocity_needs_full_shape`: three by three cells, two species, momentum velocity `0 * p1` given on the momentum cells. -/
example (cb : Callbacks (Fin 2) (AslPIdx 2 3 1) (ZMod 3 × ZMod 3) Dbl) (f : Dist (Fin 2) (AslPIdx 2 3 1) (ZMod 3 × ZMod 3) Dbl) :
    ∃ (x : ArrIn Dbl) (m c : PyExpr Dbl), HoldsDist (z := ⟨2, 3, 1, 2, 1, 1, 1, 1⟩) m f ∧
      (momentumOnly ⟨2, 3, 1, 2, 1, 1, 1, 1⟩).Holds c (fun _ => lit 0) ∧
      arrDfdt (S := Fin 2) ⟨2, 3, 1, 2, 1, 1, 1, 1⟩ ⟨"FVM", "FVM", "minmod", "ppm", "upwind-flux", "upwind-flux", true, true, lit 1, lit 1,
        fun _ => lit 1, fun _ => lit 1, fun _ => (lit 1 : Dbl)⟩ { x with Cp3 := c } m = .error .exception := by
  let z : GridSizes := ⟨2, 3, 1, 2, 1, 1, 1, 1⟩
  have : NeZero z.Np1 := ⟨by decide⟩
  have : NeZero z.Np2 := ⟨by decide⟩
  have : NeZero z.Np3 := ⟨by decide⟩
  have : NeZero z.Ns := ⟨by decide⟩
  have : NeZero z.M1 := ⟨by decide⟩
  have : NeZero z.M2 := ⟨by decide⟩
  let cfg : FVMConfig (Fin z.Ns) Dbl := ⟨"FVM", "FVM", "minmod", "ppm", "upwind-flux", "upwind-flux", true, true, lit 1, lit 1,
        fun _ => lit 1, fun _ => lit 1, fun _ => lit 1⟩
  obtain ⟨a, ha⟩ := exists_holdsDist (z := z) f
  obtain ⟨c, hc⟩ := exists_momentumOnly (z := z) fun _ _ => (lit 0 : Dbl)
  obtain ⟨x, hx⟩ := C113_inputs_exist (z := z) cfg cb f
  exact ⟨x, _, _, ha, hc, (C113_momentum_velocity_needs_full_shape (z := z) cfg x cb _ f dbl_one_mul ha hx ⟨rfl, rfl⟩ ⟨_, rfl⟩ ⟨_, rfl⟩ _ _ hc (by decide)).2.2⟩

section
variable {K : Type} [Machine K] {N1 N2 : ℕ} [NeZero N1] [NeZero N2] {R : Type} (D : Decomp N1 N2 R) (g1 g2 Np1 Np2 Np3 Ns : ℕ)
  [NeZero Np1] [NeZero Np2] [NeZero Np3] [NeZero Ns]

theorem C113_inputs_exist_run (cfg : FVMConfig (Fin Ns) K) (cb : Fin 2 → ∀ r, Callbacks (Fin Ns) (AslPIdx Np1 Np2 Np3) (D.Loc g1 g2 r) K) :
    ∃ x, D.InputsHold g1 g2 Np1 Np2 Np3 Ns cfg x cb := by
  have inst1 : ∀ r, NeZero (D.sizes Np1 Np2 Np3 Ns g1 g2 r).M1 := fun r => ⟨by have := D.pos1 r; simp only [GridSizes.M1, Decomp.sizes]; omega⟩
  have inst2 : ∀ r, NeZero (D.sizes Np1 Np2 Np3 Ns g1 g2 r).M2 := fun r => ⟨by have := D.pos2 r; simp only [GridSizes.M2, Decomp.sizes]; omega⟩
  have i1 : ∀ r, NeZero (D.sizes Np1 Np2 Np3 Ns g1 g2 r).Np1 := fun _ => ‹NeZero Np1›
  have i2 : ∀ r, NeZero (D.sizes Np1 Np2 Np3 Ns g1 g2 r).Np2 := fun _ => ‹NeZero Np2›
  have i3 : ∀ r, NeZero (D.sizes Np1 Np2 Np3 Ns g1 g2 r).Np3 := fun _ => ‹NeZero Np3›
  have i4 : ∀ r, NeZero (D.sizes Np1 Np2 Np3 Ns g1 g2 r).Ns := fun _ => ‹NeZero Ns›
  have : ∀ k r (a : AfArray K), ∃ x, Bolt.InputsHold (z := D.sizes Np1 Np2 Np3 Ns g1 g2 r) cfg x (cb k r) ((D.sizes Np1 Np2 Np3 Ns g1 g2 r).cells a) :=
    fun k r a => C113_inputs_exist (z := D.sizes Np1 Np2 Np3 Ns g1 g2 r) cfg (cb k r) _
  choose x hx using this
  exact ⟨x, fun k r a _ => hx k r a⟩

/-- Blocks of the solver's shape whose bulk holds a given whole-grid distribution exist. -/
theorem C113_blocks_exist (f : Dist (Fin Ns) (AslPIdx Np1 Np2 Np3) (ZMod N1 × ZMod N2) K) :
    ∃ F : R → AfArray K, D.Shaped g1 g2 (Np1 * Np2 * Np3) Ns F ∧ D.Holds g1 g2 (D.cellsOf g1 g2 Np1 Np2 Np3 Ns F) f := by
  have inst1 : ∀ r, NeZero (D.sizes Np1 Np2 Np3 Ns g1 g2 r).M1 := fun r => ⟨by have := D.pos1 r; simp only [GridSizes.M1, Decomp.sizes]; omega⟩
  have inst2 : ∀ r, NeZero (D.sizes Np1 Np2 Np3 Ns g1 g2 r).M2 := fun r => ⟨by have := D.pos2 r; simp only [GridSizes.M2, Decomp.sizes]; omega⟩
  have i1 : ∀ r, NeZero (D.sizes Np1 Np2 Np3 Ns g1 g2 r).Np1 := fun _ => ‹NeZero Np1›
  have i2 : ∀ r, NeZero (D.sizes Np1 Np2 Np3 Ns g1 g2 r).Np2 := fun _ => ‹NeZero Np2›
  have i3 : ∀ r, NeZero (D.sizes Np1 Np2 Np3 Ns g1 g2 r).Np3 := fun _ => ‹NeZero Np3›
  have i4 : ∀ r, NeZero (D.sizes Np1 Np2 Np3 Ns g1 g2 r).Ns := fun _ => ‹NeZero Ns›
  have : ∀ r, ∃ a : AfArray K, HoldsDist (z := D.sizes Np1 Np2 Np3 Ns g1 g2 r) (.ok (.arr a)) (fun s p l => f s p (D.toGlob g1 g2 r l)) :=
    fun r => exists_holdsDist (z := D.sizes Np1 Np2 Np3 Ns g1 g2 r) _
  choose F hF using this
  refine ⟨F, fun r => (hF r).eq_cells.1, fun r s p l _ => ?_⟩
  exact (congrFun (congrFun (congrFun (hF r).eq_cells.2 s) p) l).symm

end

/-! ### a run in double precision -/

/-- Two species, minmod, all parts on. -/
def c113Cfg : FVMConfig (Fin 2) Dbl :=
  ⟨"FVM", "FVM", "minmod", "ppm", "upwind-flux", "upwind-flux", true, true, lit (1 / 10), lit 1, fun s => if s = 0 then lit 1 else lit (1 / 3),
    fun _ => lit 1, fun _ => lit 1⟩

/-- Velocities that depend on species, momentum and position. -/
def c113Cb : Callbacks (Fin 2) (AslPIdx 2 3 1) (ZMod 6 × ZMod 1) Dbl :=
  ⟨fun s p _ => lit (s.val + p.1.val - p.2.1.val), fun _ _ _ => lit 0, fun s _ q => lit (q.1.val / 10 + s.val), fun _ p q => lit (q.1.val - p.1.val),
    fun _ _ _ => lit 0, fun f => f⟩

def c113CbLoc (r : Fin 2) : Callbacks (Fin 2) (AslPIdx 2 3 1) (exD.Loc 2 0 r) Dbl :=
  ⟨fun s p l => c113Cb.Cq1 s p (exD.toGlob 2 0 r l), fun _ _ _ => lit 0, fun s p l => c113Cb.Cp1 s p (exD.toGlob 2 0 r l),
    fun s p l => c113Cb.Cp2 s p (exD.toGlob 2 0 r l), fun _ _ _ => lit 0, fun f => f⟩

theorem c113_agree (r : Fin 2) : exD.CallbacksAgree 2 0 r (c113CbLoc r) c113Cb where
  q1 := fun _ _ _ _ => ⟨rfl, rfl⟩
  q2 := fun _ _ _ _ => ⟨rfl, rfl⟩
  p1 := fun _ _ _ _ => rfl
  p2 := fun _ _ _ _ => rfl
  p3 := fun _ _ _ _ => rfl
  src := fun _ _ _ _ h s p => h s p

theorem c113_sizes : exD.SizesOk (exD.sizes 2 3 1 2 2 0) 2 0 :=
  ⟨fun _ => rfl, fun _ => rfl, fun _ => rfl, fun _ => rfl, fun h => by omega, fun _ => rfl⟩

/-- In double precision, on two processes, with any initial values: arrays, inputs, a step and a dump exist, and the dumped numbers are those of the whole-grid
formulas. -/
example (f : Dist (Fin 2) (AslPIdx 2 3 1) (ZMod 6 × ZMod 1) Dbl) (dt : Dbl) :
    ∃ (F F' : Fin 2 → AfArray Dbl) (x : Fin 2 → Fin 2 → AfArray Dbl → ArrIn Dbl) (file : Vec Dbl) (f' : _),
      exD.Holds 2 0 (exD.cellsOf 2 0 2 3 1 2 F) f ∧ ArrRun exD 2 0 2 3 1 2 c113Cfg [(dt, x)] F F' ∧
      exD.DumpsTo (exD.sizes 2 3 1 2 2 0) 6 2 F' file ∧
      Mach.runFVM ⟨(1, 0, 0), (0, 1, 0), (0, 0, 1), (1, 0), (0, 1)⟩ c113Cfg [(dt, fun _ => c113Cb)] f = .ok f' ∧
      file.data (3 + 6 * (1 + 2 * 4)) = f' 1 (1, 1, 0) (4, 0) := by
  obtain ⟨F, hs, hF⟩ := C113_blocks_exist exD 2 0 2 3 1 2 f
  obtain ⟨x, hx⟩ := C113_inputs_exist_run exD 2 0 2 3 1 2 c113Cfg fun _ => c113CbLoc
  obtain ⟨F', hF'⟩ := C113_step_succeeds dbl_one_mul c113_sizes c113Cfg dt (.inl rfl) ⟨_, rfl⟩ ⟨_, rfl⟩ x (fun _ => c113CbLoc) hx F hs
  have hrun : ArrRun exD 2 0 2 3 1 2 c113Cfg [(dt, x)] F F' := ⟨F', hF', rfl⟩
  have hs' := (C113_step dbl_one_mul c113_sizes c113Cfg dt (.inl rfl) x (fun _ => c113CbLoc) hx F F' hs hF').1
  obtain ⟨file, hd⟩ := exD.C38_dump_succeeds _ 2 0 _ _ F' c113_sizes hs'
  obtain ⟨f', hf'⟩ : ∃ f', Mach.runFVM ⟨((1, 0, 0) : AslPIdx 2 3 1), (0, 1, 0), (0, 0, 1), (1, 0), (0, 1)⟩ c113Cfg [(dt, fun _ => c113Cb)] f = .ok f' := by
    unfold Mach.runFVM
    rw [Mach.timestepFVM_eq _ c113Cfg (mq := .minmod) (mp := .ppm) ⟨fun _ => rfl, fun _ => rfl⟩]
    exact ⟨_, rfl⟩
  refine ⟨F, F', x, file, f', hF, hrun, hd, hf', ?_⟩
  exact (C113_dumped_run dbl_one_mul c113_sizes c113Cfg (.inl rfl) (by
      intro m hm
      have : m = .minmod := by injection hm with hm; exact hm.symm
      subst this
      exact ⟨.inl (by decide), .inr ⟨rfl, rfl⟩⟩) [(dt, x, fun _ => c113CbLoc, fun _ => c113Cb)] (by simpa using hx)
    (by intro st hst k r; simp only [List.mem_singleton] at hst; subst hst; exact c113_agree r) F F' hs f f' hF hrun hf' file hd).2
      1 1 0 1 4 0 (by norm_num) (by norm_num) (by norm_num) (by norm_num) (by norm_num) (by norm_num)

end Bolt
