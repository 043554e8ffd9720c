import Verif.Model.AslRunArrays
import Verif.Props.AslArrays
import Verif.Props.AslDecomp

/-!
# C123: semi-Lagrangian runs on arrays
-/

set_option linter.unusedSectionVars false

namespace Bolt

open Machine PyExpr

section sim
variable {K : Type} [Field K] [LinearOrder K] [IsStrictOrderedRing K] {R W : Type}

/-- On arrays that stand for `w`, the operator returns, and all it can return stands for `A w`. -/
def ArrSim (H : (R → AfArray K) → W → Prop) (op : ArrOp R K) (A : W → W) : Prop := ∀ F w, H F w → (∃ F', op F F') ∧ ∀ F', op F F' → H F' (A w)

theorem ArrSim.lie [Machine K] {H : (R → AfArray K) → W → Prop} {op1 op2 : K → ArrOp R K} {A C : W → W} {dt : K} (h1 : ArrSim H (op1 dt) A) (h2 : ArrSim H (op2 dt) C) :
    ArrSim H (arrLie op1 op2 dt) (fun w => C (A w)) := by
  intro F w h
  obtain ⟨⟨G, hG⟩, k⟩ := h1 F w h
  obtain ⟨⟨F', hF'⟩, -⟩ := h2 G _ (k G hG)
  refine ⟨⟨F', G, hG, hF'⟩, ?_⟩
  rintro F' ⟨G, e1, e2⟩
  exact (h2 G _ (k G e1)).2 F' e2

theorem ArrSim.strang [Machine K] {H : (R → AfArray K) → W → Prop} {op1 op2 : K → ArrOp R K} {A C : W → W} {dt : K} (h1 : ArrSim H (op1 (lit (1 / 2) ⊠ dt)) A)
    (h2 : ArrSim H (op2 dt) C) : ArrSim H (arrStrang op1 op2 dt) (fun w => A (C (A w))) := by
  intro F w h
  obtain ⟨⟨G, hG⟩, k⟩ := h1 F w h
  obtain ⟨⟨X, hX⟩, k'⟩ := h2 G _ (k G hG)
  obtain ⟨⟨F', hF'⟩, -⟩ := h1 X _ (k' X hX)
  refine ⟨⟨F', G, X, hG, hX, hF'⟩, ?_⟩
  rintro F' ⟨G, X, e1, e2, e3⟩
  exact (h1 X _ ((h2 G _ (k G e1)).2 X e2)).2 F' e3

variable [AddCommGroup W] [Module K W]

/-- The four splitting methods on arrays compute their formulas, on whatever the arrays stand for. -/
theorem arrSplit_sim [M : Machine K] (hM : M = exactMachine K) {H : (R → AfArray K) → W → Prop}
    (hmean : ∀ F G v w, H F v → H G w → (∃ F' : R → AfArray K, ∀ r, arrMean (F r) (G r) = .ok (.arr (F' r))) ∧
      ∀ F' : R → AfArray K, (∀ r, arrMean (F r) (G r) = .ok (.arr (F' r))) → H F' ((1 / 2 : K) • (v + w)))
    (hjia : ∀ X Y Z u v w, H X u → H Y v → H Z w →
      (∃ F' : R → AfArray K, ∀ r, arrJiaMix (X r) (Y r) (Z r) = .ok (.arr (F' r))) ∧
      ∀ F' : R → AfArray K, (∀ r, arrJiaMix (X r) (Y r) (Z r) = .ok (.arr (F' r))) →
        H F' ((2 / 3 : K) • (u + v) - (1 / 3 : K) • w))
    {op1 op2 : K → ArrOp R K} {A C : K → W → W} {dt : K} (h1 : ArrSim H (op1 dt) (A dt)) (h1' : ArrSim H (op1 (dt / 2)) (A (dt / 2)))
    (h2 : ArrSim H (op2 dt) (C dt)) (h2' : ArrSim H (op2 (dt / 2)) (C (dt / 2))) (m : Scheme) : ArrSim H (m.arrSplit op1 op2 dt) (splitFormula A C m dt) := by
  have half : lit (1 / 2) ⊠ dt = dt / 2 := by
    subst hM
    change (((1 / 2 : ℚ) : K)) * dt = dt / 2
    push_cast; ring
  have s1 : ArrSim H (arrStrang op1 op2 dt) (fun w => A (dt / 2) (C dt (A (dt / 2) w))) := ArrSim.strang (by rw [half]; exact h1') h2
  have s2 : ArrSim H (arrStrang op2 op1 dt) (fun w => C (dt / 2) (A dt (C (dt / 2) w))) := ArrSim.strang (by rw [half]; exact h2') h1
  have sw : ArrSim H (arrSwss op1 op2 dt) (fun w => (1 / 2 : K) • (C dt (A dt w) + A dt (C dt w))) := by
    intro F w h
    obtain ⟨⟨G, hG⟩, kG⟩ := ArrSim.lie (A := A dt) (C := C dt) h1 h2 F w h
    obtain ⟨⟨X, hX⟩, kX⟩ := ArrSim.lie (A := C dt) (C := A dt) h2 h1 F w h
    obtain ⟨⟨F', hF'⟩, -⟩ := hmean X G _ _ (kX X hX) (kG G hG)
    refine ⟨⟨F', G, X, hG, hX, hF'⟩, ?_⟩
    rintro F' ⟨G, X, e1, e2, e3⟩
    have := (hmean X G _ _ (kX X e2) (kG G e1)).2 F' e3
    rwa [add_comm] at this
  cases m with
  | lie => exact ArrSim.lie (A := A dt) (C := C dt) h1 h2
  | strang => exact s1
  | swss => exact sw
  | jia =>
    intro F w h
    obtain ⟨⟨X, hX⟩, kX⟩ := s1 F w h
    obtain ⟨⟨Y, hY⟩, kY⟩ := s2 F w h
    obtain ⟨⟨Z, hZ⟩, kZ⟩ := sw F w h
    obtain ⟨⟨F', hF'⟩, -⟩ := hjia X Y Z _ _ _ (kX X hX) (kY Y hY) (kZ Z hZ)
    refine ⟨⟨F', X, Y, Z, hX, hY, hZ, hF'⟩, ?_⟩
    rintro F' ⟨X, Y, Z, e1, e2, e3, e4⟩
    exact (hjia X Y Z _ _ _ (kX X e1) (kY Y e2) (kZ Z e3)).2 F' e4

end sim

section exact
variable {K : Type} [Field K] [LinearOrder K] [IsStrictOrderedRing K]

/-- Linear combinations of arrays of one shape. -/
theorem mix_holds {X : Type} {L : Lay X} {a b c : AfArray K} {F G H : X → K} (ha : L.Holds (ofArr a) F) (hb : L.Holds (ofArr b) G) (hc : L.Holds (ofArr c) H) :
    L.Holds (@arrMean K (exactMachine K) a b) (fun i => 1 / 2 * (F i + G i)) ∧
      L.Holds (@arrJiaMix K (exactMachine K) a b c) (fun i => 2 / 3 * (F i + G i) - 1 / 3 * H i) := by
  let M : Machine K := exactMachine K
  have hl : ∀ q : ℚ, (lit q : K) = (q : K) := fun _ => rfl
  refine ⟨((ha.bin add hb).numL false mul (lit (1 / 2))).congr fun i => ?_,
    (((ha.bin add hb).numL false mul (lit (2 / 3))).bin sub (hc.numL false mul (lit (1 / 3)))).congr fun i => ?_⟩
  · change (lit (1 / 2) : K) * (F i + G i) = _
    rw [hl]; push_cast; ring
  · change (lit (2 / 3) : K) * (F i + G i) - (lit (1 / 3) : K) * H i = _
    rw [hl, hl]; push_cast; ring

variable {z : GridSizes} [NeZero z.Np1] [NeZero z.Np2] [NeZero z.Np3] [NeZero z.Ns] [NeZero z.M1] [NeZero z.M2]

omit [NeZero z.Np1] [NeZero z.Np2] [NeZero z.Np3] [NeZero z.Ns] [NeZero z.M1] [NeZero z.M2] [IsStrictOrderedRing K] in
theorem array_of_holds {m : PyExpr K} {f : Dist (Fin z.Ns) z.P z.Q K} (h : HoldsDist m f) : ∃ a, m = .ok (.arr a) ∧ m.array = .ok a ∧ z.Fits a ∧ z.cells a = f := by
  obtain ⟨a, rfl, h0, h1, h2, h3, hg⟩ := h
  exact ⟨a, rfl, rfl, ⟨h0, h1, h2, h3⟩, funext fun s => funext fun p => funext fun q => hg (s, p, q)⟩

/-- The source operator on one process. -/
theorem solveSrc_holds (inst en : Bool) {src : Bool → AfArray K → PyExpr K} {srcC : Dist (Fin z.Ns) z.P z.Q K → Bool → Dist (Fin z.Ns) z.P z.Q K}
    (h : ∀ b a, z.Fits a → (inst = true ∨ en = true) → HoldsDist (src b a) (srcC (z.cells a) b)) (dt : K) {f : AfArray K} (hf : z.Fits f) :
    ∃ b, @arrSolveSrc K (exactMachine K) inst en src dt f = .ok b ∧ z.Fits b ∧
      z.cells b = opSolveSrc inst en (fun (_ : K) g b => srcC g b) 0 dt (z.cells f) := by
  let M : Machine K := exactMachine K
  cases inst with
  | true =>
    obtain ⟨a, -, ea, fa, ca⟩ := array_of_holds (h true f hf (.inl rfl))
    refine ⟨a, ?_, fa, ?_⟩
    · simp only [arrSolveSrc, if_true, ea, bind, Except.bind, Bool.not_true, Bool.and_false]
      rfl
    · rw [ca]; simp [opSolveSrc]
  | false =>
    cases en with
    | false => exact ⟨f, rfl, hf, by simp [opSolveSrc]⟩
    | true =>
      have k1 : HoldsDist (ofArr f + src false f * num (dt ⊘ lit 2)) fun s p q => z.cells f s p q + srcC (z.cells f) false s p q * (dt / ((2 : ℚ) : K)) :=
        (holdsDist_cells hf).bin add ((h false f hf (.inr rfl)).numR false mul (dt ⊘ lit 2))
      obtain ⟨x, -, ex, fx, cx⟩ := array_of_holds k1
      have k2 : HoldsDist (ofArr f + src false x * num dt) fun s p q => z.cells f s p q + srcC (z.cells x) false s p q * dt :=
        (holdsDist_cells hf).bin add ((h false x fx (.inr rfl)).numR false mul dt)
      obtain ⟨y, -, ey, fy, cy⟩ := array_of_holds k2
      refine ⟨y, ?_, fy, ?_⟩
      · simp only [arrSolveSrc, bind, Except.bind, Bool.not_false, Bool.and_true]
        change Except.bind (ofArr f + src false f * num (dt ⊘ lit 2)).array (fun v => (ofArr f + src false v * num dt).array) = _
        rw [ex]
        exact ey
      · have cx' : z.cells x = z.cells f + (dt / 2) • srcC (z.cells f) false := by
          rw [cx]
          funext s p q
          simp only [Pi.add_apply, Pi.smul_apply, smul_eq_mul]
          push_cast
          ring
        rw [cy, cx']
        simp only [opSolveSrc, integratorRK2]
        funext s p q
        simp [mul_comm]

end exact

namespace Decomp
variable {K : Type} [Field K] [LinearOrder K] [IsStrictOrderedRing K] [FloorRing K] {N1 N2 : ℕ} {R : Type} [NeZero N1] [NeZero N2] (D : Decomp N1 N2 R)
  (g1 g2 Np1 Np2 Np3 Ns : ℕ) [NeZero Np1] [NeZero Np2] [NeZero Np3] [NeZero Ns]

/-- The arrays of a semi-Lagrangian run hold the cell centres, the velocities `A1`, `A2` and a source function that gives `src` on arrays of the solver's shape. -/
structure AslRunHolds (q1Start q2Start dq1 dq2 : K) (x : AslRunIn R K) (A1 A2 : K → ∀ r, Fin Ns → AslPIdx Np1 Np2 Np3 → D.Loc g1 g2 r → K)
    (src : K → ∀ r, Dist (Fin Ns) (AslPIdx Np1 Np2 Np3) (D.Loc g1 g2 r) K → Bool → Dist (Fin Ns) (AslPIdx Np1 Np2 Np3) (D.Loc g1 g2 r) K) : Prop where
  q1 : ∀ r, (D.sizes Np1 Np2 Np3 Ns g1 g2 r).HoldsCoord (x.q1 r) (D.coords g1 g2 q1Start q2Start dq1 dq2 r).2.2.2.1
  q2 : ∀ r, (D.sizes Np1 Np2 Np3 Ns g1 g2 r).HoldsCoord (x.q2 r) (D.coords g1 g2 q1Start q2Start dq1 dq2 r).2.2.2.2
  A1 : ∀ t r, HoldsVel (z := D.sizes Np1 Np2 Np3 Ns g1 g2 r) (x.A1 t r) (A1 t r)
  A2 : ∀ t r, HoldsVel (z := D.sizes Np1 Np2 Np3 Ns g1 g2 r) (x.A2 t r) (A2 t r)
  src : ∀ t r b a, (D.sizes Np1 Np2 Np3 Ns g1 g2 r).Fits a → (x.instantaneous = true ∨ x.sourceEnabled = true) →
    HoldsDist (z := D.sizes Np1 Np2 Np3 Ns g1 g2 r) (x.src t r b a) (src t r ((D.sizes Np1 Np2 Np3 Ns g1 g2 r).cells a) b)

/-- The arrays have the solver's shape, and their owned cells are the parts of the whole grid's distribution. -/
def ArrStands (F : R → AfArray K) (f : Dist (Fin Ns) (AslPIdx Np1 Np2 Np3) (ZMod N1 × ZMod N2) K) : Prop :=
  D.Shaped g1 g2 (Np1 * Np2 * Np3) Ns F ∧ D.Holds g1 g2 (D.cellsOf g1 g2 Np1 Np2 Np3 Ns F) f

theorem stands_mix {X Y Z : R → AfArray K} {u v w : Dist (Fin Ns) (AslPIdx Np1 Np2 Np3) (ZMod N1 × ZMod N2) K} (hX : D.ArrStands g1 g2 Np1 Np2 Np3 Ns X u)
    (hY : D.ArrStands g1 g2 Np1 Np2 Np3 Ns Y v) (hZ : D.ArrStands g1 g2 Np1 Np2 Np3 Ns Z w) :
    ((∃ F' : R → AfArray K, ∀ r, @arrMean K (exactMachine K) (X r) (Y r) = .ok (.arr (F' r))) ∧
      ∀ F' : R → AfArray K, (∀ r, @arrMean K (exactMachine K) (X r) (Y r) = .ok (.arr (F' r))) → D.ArrStands g1 g2 Np1 Np2 Np3 Ns F' ((1 / 2 : K) • (u + v))) ∧
    ((∃ F' : R → AfArray K, ∀ r, @arrJiaMix K (exactMachine K) (X r) (Y r) (Z r) = .ok (.arr (F' r))) ∧
      ∀ F' : R → AfArray K, (∀ r, @arrJiaMix K (exactMachine K) (X r) (Y r) (Z r) = .ok (.arr (F' r))) →
        D.ArrStands g1 g2 Np1 Np2 Np3 Ns F' ((2 / 3 : K) • (u + v) - (1 / 3 : K) • w)) := by
  let M : Machine K := exactMachine K
  have h := fun r => mix_holds (holdsDist_cells (z := D.sizes Np1 Np2 Np3 Ns g1 g2 r) (hX.1 r)) (holdsDist_cells (hY.1 r)) (holdsDist_cells (hZ.1 r))
  refine ⟨⟨⟨fun r => (h r).1.choose, fun r => (h r).1.choose_spec.1⟩, fun F' e => ⟨fun r => ?_, fun r s p l hl => ?_⟩⟩,
    ⟨⟨fun r => (h r).2.choose, fun r => (h r).2.choose_spec.1⟩, fun F' e => ⟨fun r => ?_, fun r s p l hl => ?_⟩⟩⟩
  · have k : HoldsDist (z := D.sizes Np1 Np2 Np3 Ns g1 g2 r) _ (fun s p q => 1 / 2 * ((D.sizes Np1 Np2 Np3 Ns g1 g2 r).cells (X r) s p q + (D.sizes Np1 Np2 Np3 Ns g1 g2 r).cells (Y r) s p q)) := (h r).1
    rw [e r] at k
    exact k.eq_cells.1
  · have k : HoldsDist (z := D.sizes Np1 Np2 Np3 Ns g1 g2 r) _ (fun s p q => 1 / 2 * ((D.sizes Np1 Np2 Np3 Ns g1 g2 r).cells (X r) s p q + (D.sizes Np1 Np2 Np3 Ns g1 g2 r).cells (Y r) s p q)) := (h r).1
    rw [e r] at k
    have := congrFun (congrFun (congrFun k.eq_cells.2.symm s) p) l
    refine Eq.trans this ?_
    change 1 / 2 * (D.cellsOf g1 g2 Np1 Np2 Np3 Ns X r s p l + D.cellsOf g1 g2 Np1 Np2 Np3 Ns Y r s p l) = 1 / 2 * (u s p _ + v s p _)
    rw [hX.2 r s p l hl, hY.2 r s p l hl]
  · have k : HoldsDist (z := D.sizes Np1 Np2 Np3 Ns g1 g2 r) _ (fun s p q => 2 / 3 * ((D.sizes Np1 Np2 Np3 Ns g1 g2 r).cells (X r) s p q + (D.sizes Np1 Np2 Np3 Ns g1 g2 r).cells (Y r) s p q) -
        1 / 3 * (D.sizes Np1 Np2 Np3 Ns g1 g2 r).cells (Z r) s p q) := (h r).2
    rw [e r] at k
    exact k.eq_cells.1
  · have k : HoldsDist (z := D.sizes Np1 Np2 Np3 Ns g1 g2 r) _ (fun s p q => 2 / 3 * ((D.sizes Np1 Np2 Np3 Ns g1 g2 r).cells (X r) s p q + (D.sizes Np1 Np2 Np3 Ns g1 g2 r).cells (Y r) s p q) -
        1 / 3 * (D.sizes Np1 Np2 Np3 Ns g1 g2 r).cells (Z r) s p q) := (h r).2
    rw [e r] at k
    have := congrFun (congrFun (congrFun k.eq_cells.2.symm s) p) l
    refine Eq.trans this ?_
    change 2 / 3 * (D.cellsOf g1 g2 Np1 Np2 Np3 Ns X r s p l + D.cellsOf g1 g2 Np1 Np2 Np3 Ns Y r s p l) - 1 / 3 * D.cellsOf g1 g2 Np1 Np2 Np3 Ns Z r s p l =
      2 / 3 * (u s p _ + v s p _) - 1 / 3 * w s p _
    rw [hX.2 r s p l hl, hY.2 r s p l hl, hZ.2 r s p l hl]

/-- C123: a semi-Lagrangian run without fields on the arrays of many processes — any sequence of the four splitting steps, with any step sizes, velocities and a source that
reads the distribution at its own position — returns, and all it can return are arrays of the solver's shape that hold the processes' parts of the run of the whole grid,
when no particle moves further in a step than the ghost width less one cell. -/
theorem C123_whole_run (hz : D.SizesOk (D.sizes Np1 Np2 Np3 Ns g1 g2) g1 g2) (k : ∀ r, 2 ≤ D.n1 r + 2 * g1 ∧ 2 ≤ D.n2 r + 2 * g2) (q1Start q2Start dq1 dq2 : K)
    (hd1 : dq1 ≠ 0) (hd2 : dq2 ≠ 0) (x : AslRunIn R K) (A1 A2 : K → ∀ r, Fin Ns → AslPIdx Np1 Np2 Np3 → D.Loc g1 g2 r → K)
    (a1 a2 : K → Fin Ns → AslPIdx Np1 Np2 Np3 → ZMod N1 × ZMod N2 → K) (hA1 : ∀ t, D.VelocityAgrees g1 g2 (A1 t) (a1 t)) (hA2 : ∀ t, D.VelocityAgrees g1 g2 (A2 t) (a2 t))
    (src : K → ∀ r, Dist (Fin Ns) (AslPIdx Np1 Np2 Np3) (D.Loc g1 g2 r) K → Bool → Dist (Fin Ns) (AslPIdx Np1 Np2 Np3) (D.Loc g1 g2 r) K)
    (c : K → ZMod N1 × ZMod N2 → (Fin Ns → AslPIdx Np1 Np2 Np3 → K) → Bool → Fin Ns → AslPIdx Np1 Np2 Np3 → K) (hsrc : D.SourceAgrees g1 g2 src c)
    (hx : D.AslRunHolds g1 g2 Np1 Np2 Np3 Ns q1Start q2Start dq1 dq2 x A1 A2 src) (steps : List (Scheme × K))
    (hb1 : ∀ m ∈ steps, ∀ t s p i, |a1 t s p i * m.2 / dq1| ≤ g1 - 1) (hb2 : ∀ m ∈ steps, ∀ t s p i, |a2 t s p i * m.2 / dq2| ≤ g2 - 1) (t : K) (F : R → AfArray K)
    (f : Dist (Fin Ns) (AslPIdx Np1 Np2 Np3) (ZMod N1 × ZMod N2) K) (hF : D.ArrStands g1 g2 Np1 Np2 Np3 Ns F f) :
    (∃ F', @Decomp.ArrAslRun K (exactMachine K) R N1 N2 D g1 g2 Np1 Np2 Np3 Ns approx2 x steps t F F') ∧
    ∀ F', @Decomp.ArrAslRun K (exactMachine K) R N1 N2 D g1 g2 Np1 Np2 Np3 Ns approx2 x steps t F F' →
      D.ArrStands g1 g2 Np1 Np2 Np3 Ns F' (wholeAslRun a1 a2 dq1 dq2 x.instantaneous x.sourceEnabled c steps t f) := by
  let M : Machine K := exactMachine K
  induction steps generalizing t F f with
  | nil => exact ⟨⟨F, rfl⟩, fun F' h => by cases h; exact hF⟩
  | cons st steps ih =>
    obtain ⟨m, dt⟩ := st
    have adv : ∀ dt', |dt'| ≤ |dt| → ArrSim (D.ArrStands g1 g2 Np1 Np2 Np3 Ns) (D.ArrAdvectQ g1 g2 Np1 Np2 Np3 Ns approx2 x.q1 x.q2 (x.A1 t) (x.A2 t) dt')
        (advected (fun s p i => a1 t s p i * dt' / dq1) (fun s p i => a2 t s p i * dt' / dq2)) := by
      intro dt' hdt F w h
      obtain ⟨he, hu⟩ := D.C122_op_advect_q g1 g2 Np1 Np2 Np3 Ns hz k q1Start q2Start dq1 dq2 (fun r => ⟨hx.q1 r, hx.q2 r⟩) (hx.A1 t) (hx.A2 t) dt' h.1
      refine ⟨he, fun F' h' => ⟨(hu F' h').1, D.C122_foot g1 g2 Np1 Np2 Np3 Ns hz k q1Start q2Start dq1 dq2 hd1 hd2 (fun r => ⟨hx.q1 r, hx.q2 r⟩) (hx.A1 t) (hx.A2 t) (hA1 t)
        (hA2 t) dt' ?_ ?_ h.1 w h.2 h'⟩⟩
      · intro s p i
        refine le_trans ?_ (hb1 _ (List.mem_cons_self) t s p i)
        simp only [abs_div, abs_mul]
        gcongr
      · intro s p i
        refine le_trans ?_ (hb2 _ (List.mem_cons_self) t s p i)
        simp only [abs_div, abs_mul]
        gcongr
    have i1 : ∀ r, NeZero (D.sizes Np1 Np2 Np3 Ns g1 g2 r).Np1 := fun _ => ‹NeZero Np1›
    have i2 : ∀ r, NeZero (D.sizes Np1 Np2 Np3 Ns g1 g2 r).Np2 := fun _ => ‹NeZero Np2›
    have i3 : ∀ r, NeZero (D.sizes Np1 Np2 Np3 Ns g1 g2 r).Np3 := fun _ => ‹NeZero Np3›
    have i4 : ∀ r, NeZero (D.sizes Np1 Np2 Np3 Ns g1 g2 r).Ns := fun _ => ‹NeZero Ns›
    have i5 : ∀ r, NeZero (D.sizes Np1 Np2 Np3 Ns g1 g2 r).M1 := fun r => ⟨by have := (k r).1; simp only [Decomp.sizes, GridSizes.M1]; omega⟩
    have i6 : ∀ r, NeZero (D.sizes Np1 Np2 Np3 Ns g1 g2 r).M2 := fun r => ⟨by have := (k r).2; simp only [Decomp.sizes, GridSizes.M2]; omega⟩
    have sol : ∀ dt', ArrSim (D.ArrStands g1 g2 Np1 Np2 Np3 Ns) (fun F G => ∀ r, arrSolveSrc x.instantaneous x.sourceEnabled (x.src t r) dt' (F r) = .ok (G r))
        (sourceFormula x.instantaneous x.sourceEnabled c t dt') := by
      intro dt' F w h
      have hs := fun r => solveSrc_holds (z := D.sizes Np1 Np2 Np3 Ns g1 g2 r) x.instantaneous x.sourceEnabled (src := x.src t r) (srcC := src t r) (hx.src t r) dt' (h.1 r)
      refine ⟨⟨fun r => (hs r).choose, fun r => (hs r).choose_spec.1⟩, fun G e => ⟨fun r => ?_, fun r s p l hl => ?_⟩⟩
      · obtain ⟨b, eb, fb, -⟩ := hs r
        rw [e r] at eb
        cases eb
        exact fb
      · obtain ⟨b, eb, -, cb⟩ := hs r
        rw [e r] at eb
        cases eb
        refine (congrFun (congrFun (congrFun cb s) p) l).trans ?_
        have e : (fun s' p' => D.cellsOf g1 g2 Np1 Np2 Np3 Ns F r s' p' l) = fun s' p' => w s' p' (D.toGlob g1 g2 r l) := by
          funext s' p'
          exact h.2 r s' p' l hl
        change @Bolt.opSolveSrc K (Dist (Fin Ns) (AslPIdx Np1 Np2 Np3) (D.Loc g1 g2 r) K) _ _ _ x.instantaneous x.sourceEnabled (fun (_ : K) g b => src t r g b) 0 dt'
          (D.cellsOf g1 g2 Np1 Np2 Np3 Ns F r) s p l = _
        simp only [Bolt.opSolveSrc, sourceFormula, integratorRK2]
        cases x.instantaneous <;> cases x.sourceEnabled <;> simp [hsrc t r _ _ _ _ l hl, e, h.2 r _ _ l hl]
    have hstep := arrSplit_sim (M := M) rfl (fun F G v w hF hG => (D.stands_mix g1 g2 Np1 Np2 Np3 Ns hF hG hG).1)
      (fun X Y Z u v w hX hY hZ => (D.stands_mix g1 g2 Np1 Np2 Np3 Ns hX hY hZ).2)
      (op1 := fun dt' => D.ArrAdvectQ g1 g2 Np1 Np2 Np3 Ns approx2 x.q1 x.q2 (x.A1 t) (x.A2 t) dt')
      (op2 := fun dt' F G => ∀ r, arrSolveSrc x.instantaneous x.sourceEnabled (x.src t r) dt' (F r) = .ok (G r))
      (A := fun dt' => advected (fun s p i => a1 t s p i * dt' / dq1) (fun s p i => a2 t s p i * dt' / dq2))
      (C := sourceFormula x.instantaneous x.sourceEnabled c t) (dt := dt) (adv dt le_rfl)
      (adv (dt / 2) (by rw [abs_div, abs_two]; have := abs_nonneg dt; linarith)) (sol dt) (sol (dt / 2)) m F f hF
    have hr := fun G h' => ih (fun m' hm => hb1 m' (List.mem_cons_of_mem _ hm)) (fun m' hm => hb2 m' (List.mem_cons_of_mem _ hm)) (t + dt) G _ (hstep.2 G h')
    obtain ⟨⟨G, hG⟩, -⟩ := hstep
    obtain ⟨⟨F', hF'⟩, -⟩ := hr G hG
    refine ⟨⟨F', G, hG, hF'⟩, ?_⟩
    rintro F' ⟨G, h1, h2⟩
    exact (hr G h1).2 F' h2

end Decomp

end Bolt
