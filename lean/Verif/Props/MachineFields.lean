import Verif.Proofs.MachineFields
import Verif.Spec.MachineFields
import Verif.Props.FDTD
import Verif.Props.RoundingExample
import Verif.Props.CoupledDecomp

/-!
# C111: the field solver in the arithmetic of the machine
-/

set_option linter.unusedSectionVars false

namespace Bolt

open Machine

/-! ## the same program -/

section exact
variable {Q K : Type} [AddCommGroup Q] [Fintype Q] [Field K] [LinearOrder K] [IsStrictOrderedRing K]

theorem mach_exact_fdtd [M : Machine K] (hM : M = exactMachine K) (pr : FieldParams Q K) (J : Currents Q K) (dt : K) (F : EM Q K) :
    Mach.fdtd pr J dt F = evolveB pr dt (addCurlB pr J dt F) := by
  rw [exact_is_rounded] at hM
  simp only [Mach.fdtd, Mach.evolveB, Mach.evolveE, Mach.pushE, Mach.curlB1, Mach.curlB2, Mach.curlB3, Mach.curlE1, Mach.curlE2, Mach.curlE3,
    evolveB, addCurlB, curlB1, curlB2, curlB3, curlE1, curlE2, curlE3, Mach.r_add hM, Mach.r_sub hM, Mach.r_mul hM, Mach.r_div hM,
    Mach.r_neg hM, id]

/-- **C111 (the same program).** With exact arithmetic the machine program is the field solver of the other theorems. -/
theorem C111_same_program [M : Machine K] (hM : M = exactMachine K) (pr : FieldParams Q K) (hh : pr.hybrid = false)
    (steps : List (K × Currents Q K)) (F : EM Q K) :
    runFDTD pr (steps.map fun st => { dt := st.1, J := st.2 }) F = .ok (Mach.runFDTD pr steps F) := by
  induction steps generalizing F with
  | nil => rfl
  | cons st rest ih =>
    obtain ⟨dt, J⟩ := st
    rw [List.map_cons, runFDTD, Mach.runFDTD, mach_exact_fdtd hM]
    simp only [fdtd, evolveE, hh, EM.setE, bind, Except.bind, pure, Except.pure, id, Bool.false_eq_true, if_false]
    exact ih _

end exact

/-! ## any arithmetic: the distribution of the cells over processes does not matter -/

section lawless
variable {K : Type} [Machine K] {N1 N2 : ℕ} {R : Type} (D : Decomp N1 N2 R) (g1 g2 : ℕ) [NeZero N1] [NeZero N2]

/-- **C111 (bit for bit on any number of processes).** Whatever the arithmetic does — rounding, overflow, not-a-number — the
field solver on any number of processes computes in every cell the very number the run on one process computes: on a periodic grid, with
at least one ghost cell along every axis that has more than one cell, any number of steps of any sizes, the same currents, any boundary functions,
any contents of ghost cells. -/
theorem C111_bitwise_decomposition_independence {o : BCOptions} (h1 : PeriodicEnds (o.name .left) (o.name .right) N1)
    (h2 : PeriodicEnds (o.name .bottom) (o.name .top) N2) (k1 : 1 ≤ g1 ∨ (g1 = 0 ∧ N1 = 1)) (k2 : 1 ≤ g2 ∨ (g2 = 0 ∧ N2 = 1))
    (user : ∀ r, D.LocFieldBCs g1 g2 r K) (dq1 dq2 eps mu : K) (hyb : Bool)
    (steps : List (K × (∀ r, Currents (D.Loc g1 g2 r) K) × Currents (ZMod N1 × ZMod N2) K))
    (hJ : ∀ st ∈ steps, ∀ r l, D.Interior g1 g2 r l → (st.2.1 r).J1 l = st.2.2.J1 (D.toGlob g1 g2 r l) ∧
      (st.2.1 r).J2 l = st.2.2.J2 (D.toGlob g1 g2 r l) ∧ (st.2.1 r).J3 l = st.2.2.J3 (D.toGlob g1 g2 r l))
    (Y Y' : ∀ r, EM (D.Loc g1 g2 r) K) (G : EM (ZMod N1 × ZMod N2) K) (hY : ∀ r, D.EMHolds g1 g2 r (Y r) G)
    (h : Mach.FdtdRun D g1 g2 o user (fun _ => ⟨(1, 0), (0, 1), dq1, dq2, eps, mu, hyb⟩) (steps.map fun st => (st.1, st.2.1)) Y Y') :
    ∀ r, D.EMHolds g1 g2 r (Y' r)
      (Mach.runFDTD ⟨(1, 0), (0, 1), dq1, dq2, eps, mu, hyb⟩ (steps.map fun st => (st.1, st.2.2)) G) := by
  induction steps generalizing Y G with
  | nil => cases h; exact hY
  | cons st rest ih =>
    obtain ⟨dt, J, JG⟩ := st
    obtain ⟨Z, hs, hr⟩ := h
    exact ih (fun st hst => hJ st (List.mem_cons_of_mem _ hst)) Z _
      (Mach.fdtdStep_holds D g1 g2 h1 h2 k1 k2 (fun r => ⟨rfl, rfl, rfl⟩) (hJ _ List.mem_cons_self) hY hs) hr

/-- **C111 (two decompositions).** Two runs of the same problem on different process grids, with different ghost widths, agree bit for bit
in every cell after any number of steps. -/
theorem C111_decompositions_agree {R' : Type} (D' : Decomp N1 N2 R') (g1' g2' : ℕ) {o o' : BCOptions}
    (h1 : PeriodicEnds (o.name .left) (o.name .right) N1) (h2 : PeriodicEnds (o.name .bottom) (o.name .top) N2)
    (h1' : PeriodicEnds (o'.name .left) (o'.name .right) N1) (h2' : PeriodicEnds (o'.name .bottom) (o'.name .top) N2)
    (k1 : 1 ≤ g1 ∨ (g1 = 0 ∧ N1 = 1)) (k2 : 1 ≤ g2 ∨ (g2 = 0 ∧ N2 = 1))
    (k1' : 1 ≤ g1' ∨ (g1' = 0 ∧ N1 = 1)) (k2' : 1 ≤ g2' ∨ (g2' = 0 ∧ N2 = 1))
    (user : ∀ r, D.LocFieldBCs g1 g2 r K) (user' : ∀ r, D'.LocFieldBCs g1' g2' r K) (dq1 dq2 eps mu : K) (hyb : Bool)
    (steps : List (K × Currents (ZMod N1 × ZMod N2) K)) (G : EM (ZMod N1 × ZMod N2) K)
    (Y Y' : ∀ r, EM (D.Loc g1 g2 r) K) (Z Z' : ∀ r, EM (D'.Loc g1' g2' r) K)
    (hY : ∀ r, D.EMHolds g1 g2 r (Y r) G) (hZ : ∀ r, D'.EMHolds g1' g2' r (Z r) G)
    (hy : Mach.FdtdRun D g1 g2 o user (fun _ => ⟨(1, 0), (0, 1), dq1, dq2, eps, mu, hyb⟩)
      (steps.map fun st => (st.1, fun r => ⟨fun l => st.2.J1 (D.toGlob g1 g2 r l), fun l => st.2.J2 (D.toGlob g1 g2 r l),
        fun l => st.2.J3 (D.toGlob g1 g2 r l)⟩)) Y Y')
    (hz : Mach.FdtdRun D' g1' g2' o' user' (fun _ => ⟨(1, 0), (0, 1), dq1, dq2, eps, mu, hyb⟩)
      (steps.map fun st => (st.1, fun r => ⟨fun l => st.2.J1 (D'.toGlob g1' g2' r l), fun l => st.2.J2 (D'.toGlob g1' g2' r l),
        fun l => st.2.J3 (D'.toGlob g1' g2' r l)⟩)) Z Z')
    (r : R) (l : D.Loc g1 g2 r) (hl : D.Interior g1 g2 r l) (r' : R') (l' : D'.Loc g1' g2' r') (hl' : D'.Interior g1' g2' r' l')
    (same : D.toGlob g1 g2 r l = D'.toGlob g1' g2' r' l') (c : Fin 6) : (Y' r).comp c l = (Z' r').comp c l' := by
  have a := C111_bitwise_decomposition_independence D g1 g2 h1 h2 k1 k2 user dq1 dq2 eps mu hyb
    (steps.map fun st => (st.1, (fun r => ⟨fun l => st.2.J1 (D.toGlob g1 g2 r l), fun l => st.2.J2 (D.toGlob g1 g2 r l),
        fun l => st.2.J3 (D.toGlob g1 g2 r l)⟩), st.2)) (by
      intro st hst r l _
      obtain ⟨x, _, rfl⟩ := List.mem_map.mp hst
      exact ⟨rfl, rfl, rfl⟩) Y Y' G hY (by rw [List.map_map]; exact hy) r c l hl
  have b := C111_bitwise_decomposition_independence D' g1' g2' h1' h2' k1' k2' user' dq1 dq2 eps mu hyb
    (steps.map fun st => (st.1, (fun r => ⟨fun l => st.2.J1 (D'.toGlob g1' g2' r l), fun l => st.2.J2 (D'.toGlob g1' g2' r l),
        fun l => st.2.J3 (D'.toGlob g1' g2' r l)⟩), st.2)) (by
      intro st hst r l _
      obtain ⟨x, _, rfl⟩ := List.mem_map.mp hst
      exact ⟨rfl, rfl, rfl⟩) Z Z' G hZ (by rw [List.map_map]; exact hz) r' c l' hl'
  rw [a, b, same]
  simp only [List.map_map, Function.comp_def]

/-- Such a run exists from any fields: no step raises. -/
theorem C111_run_exists {o : BCOptions} (h1 : PeriodicEnds (o.name .left) (o.name .right) N1)
    (h2 : PeriodicEnds (o.name .bottom) (o.name .top) N2) (hw : WidthsMatch g1 g2 o) (user : ∀ r, D.LocFieldBCs g1 g2 r K)
    (pr : ∀ r, FieldParams (D.Loc g1 g2 r) K) (steps : List (K × ∀ r, Currents (D.Loc g1 g2 r) K)) (Y : ∀ r, EM (D.Loc g1 g2 r) K) :
    ∃ Y', Mach.FdtdRun D g1 g2 o user pr steps Y Y' := by
  induction steps generalizing Y with
  | nil => exact ⟨Y, rfl⟩
  | cons st rest ih =>
    obtain ⟨dt, J⟩ := st
    have ex : ∀ F : ∀ r, EM (D.Loc g1 g2 r) K, ∃ F0, D.SyncedFields g1 g2 o user F F0 := fun F =>
      ⟨_, _, ⟨_, _, F, Decomp.widths_fields g1 g2 hw, rfl⟩, fun r => Decomp.applyBcsFields_wrap _ _ (fun w => Decomp.names_wrap h1 h2 w) _⟩
    obtain ⟨Y0, s0⟩ := ex Y
    obtain ⟨Y2, s2⟩ := ex (fun r => Mach.evolveE (pr r) (J r) dt (Y0 r))
    obtain ⟨Y', h⟩ := ih (fun r => Mach.evolveB (pr r) dt (Y2 r))
    exact ⟨Y', _, ⟨Y0, Y2, s0, s2, fun _ => rfl⟩, h⟩

end lawless

/-! ## any arithmetic: damage spreads one cell per step -/

section spread
variable {Q K : Type} [AddCommGroup Q] [Machine K]

theorem emNear_iff (q1 q2 : Q) (F G : EM Q K) (n : ℕ) (i : Q) : EMAgreeNear q1 q2 n F G i ↔ ∀ a b : ℤ, |a| ≤ n → |b| ≤ n →
    F.E1 (i + a • q1 + b • q2) = G.E1 (i + a • q1 + b • q2) ∧ F.E2 (i + a • q1 + b • q2) = G.E2 (i + a • q1 + b • q2) ∧
    F.E3 (i + a • q1 + b • q2) = G.E3 (i + a • q1 + b • q2) ∧ F.B1 (i + a • q1 + b • q2) = G.B1 (i + a • q1 + b • q2) ∧
    F.B2 (i + a • q1 + b • q2) = G.B2 (i + a • q1 + b • q2) ∧ F.B3 (i + a • q1 + b • q2) = G.B3 (i + a • q1 + b • q2) := by
  refine forall_congr' fun a => forall_congr' fun b => forall_congr' fun _ => forall_congr' fun _ => ⟨fun h => ⟨h 0, h 1, h 2, h 3, h 4, h 5⟩, ?_⟩
  rintro ⟨h0, h1, h2, h3, h4, h5⟩ c
  fin_cases c <;> assumption

theorem mach_fdtd_near (pr : FieldParams Q K) (J : Currents Q K) (dt : K) (F G : EM Q K) (n : ℕ) (i : Q)
    (h : EMAgreeNear pr.q1 pr.q2 (n + 1) F G i) : EMAgreeNear pr.q1 pr.q2 n (Mach.fdtd pr J dt F) (Mach.fdtd pr J dt G) i := by
  rw [emNear_iff] at h ⊢
  intro a b ha hb
  have ha' := abs_le.mp ha
  have hb' := abs_le.mp hb
  have k : ∀ x y : ℤ, |x| ≤ 1 → |y| ≤ 1 → _ := fun x y hx hy => h (a + x) (b + y)
    (abs_le.mpr (by have := abs_le.mp hx; push_cast; constructor <;> omega)) (abs_le.mpr (by have := abs_le.mp hy; push_cast; constructor <;> omega))
  have e : ∀ x y : ℤ, i + (a + x) • pr.q1 + (b + y) • pr.q2 = i + a • pr.q1 + b • pr.q2 + x • pr.q1 + y • pr.q2 := by
    intro x y; rw [add_smul, add_smul]; abel
  simp only [e] at k
  have k00 := k 0 0 (by simp) (by simp)
  have k10 := k 1 0 (by simp) (by simp)
  have k01 := k 0 1 (by simp) (by simp)
  have m10 := k (-1) 0 (by simp) (by simp)
  have m01 := k 0 (-1) (by simp) (by simp)
  have x1 := k (-1) 1 (by simp) (by simp)
  have x2 := k 1 (-1) (by simp) (by simp)
  generalize i + a • pr.q1 + b • pr.q2 = j at *
  simp only [zero_smul, one_smul, neg_smul, add_zero, ← sub_eq_add_neg] at k00 k10 k01 m10 m01 x1 x2
  have y1 : j - pr.q1 + pr.q1 = j := by abel
  have y2 : j - pr.q2 + pr.q2 = j := by abel
  have y3 : j - pr.q2 + pr.q1 = j + pr.q1 - pr.q2 := by abel
  obtain ⟨a1, a2, a3, a4, a5, a6⟩ := k00
  obtain ⟨b1, b2, b3, b4, b5, b6⟩ := k10
  obtain ⟨c1, c2, c3, c4, c5, c6⟩ := k01
  obtain ⟨d1, d2, d3, d4, d5, d6⟩ := m10
  obtain ⟨f1, f2, f3, f4, f5, f6⟩ := m01
  obtain ⟨g1, g2, g3, g4, g5, g6⟩ := x1
  obtain ⟨l1, l2, l3, l4, l5, l6⟩ := x2
  simp [Mach.fdtd, Mach.evolveB, Mach.evolveE, Mach.pushE, Mach.curlB1, Mach.curlB2, Mach.curlB3, Mach.curlE1, Mach.curlE2, Mach.curlE3,
    afShift, neg_smul, one_smul, sub_neg_eq_add, y3, a1, a2, a3, a4, a5, a6, b5, b6, c4, c6, d2, d3, d4, d5, d6, f1, f3, f4, f5, f6,
    g4, l5]

/-- **C111 (damage spreads one cell per step).** Whatever the arithmetic does, after `n` steps the fields in a cell depend on the initial
fields at most `n` cells away only: a wrong number, an infinity or a not-a-number spreads over the grid by at most one cell per step. -/
theorem C111_damage_spreads_slowly (pr : FieldParams Q K) (steps : List (K × Currents Q K)) (F G : EM Q K) (i : Q)
    (h : EMAgreeNear pr.q1 pr.q2 steps.length F G i) (c : Fin 6) :
    (Mach.runFDTD pr steps F).comp c i = (Mach.runFDTD pr steps G).comp c i := by
  suffices H : EMAgreeNear pr.q1 pr.q2 0 (Mach.runFDTD pr steps F) (Mach.runFDTD pr steps G) i by
    simpa using H 0 0 (by simp) (by simp) c
  induction steps generalizing F G with
  | nil => exact h
  | cons st rest ih => exact ih _ _ (mach_fdtd_near pr st.2 st.1 F G rest.length i h)

end spread

end Bolt
