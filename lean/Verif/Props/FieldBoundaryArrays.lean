import Verif.Proofs.FieldBoundaryArrays
import Verif.Props.FieldArrays

/-!
# C119: the boundary routines of the fields on arrays do what the boundary conditions say
-/

set_option linter.unusedSectionVars false

namespace Bolt

open Machine PyExpr

section walls
variable {K : Type} {z : GridSizes} [NeZero z.M1] [NeZero z.M2]

/-- C119 (walls): on every grid, for every combination of conditions at the four walls, on the staggered and on the cell-centred grid, `apply_bcs_fields` applied to an array of
shape `(6, 1, M1, M2)` raises exactly when the cell-by-cell description does, with the same exception, or returns an array of that shape that holds the described fields. -/
theorem C119_walls (x : ArrFieldBCEnv K) (env : FieldBCEnv z.M1 z.M2 K) (h : x.Hold z env) (hw : x.WallsFit z) (onFdtdGrid : Bool) (Y : AfArray K)
    (hY : z.FitsEM Y) : SameFields z (arrApplyBcsFields x onFdtdGrid Y) (applyBcsFields env onFdtdGrid (z.emCells Y)) :=
  arrApplyBcsFields_outcome h hw onFdtdGrid hY

/-- C119 (negative): a boundary function that returns a number — which the routine for the distribution function accepts — makes the routine for the fields raise `TypeError`. -/
theorem C119_numbers_rejected (x : ArrFieldBCEnv K) (w : Wall) (hn : x.name w = "dirichlet") (v : K) (hv : ∀ a, x.user w 0 a = .ok (.num v)) (onFdtdGrid : Bool)
    (Y : AfArray K) (hY : z.FitsEM Y) : arrApplyWallFields x onFdtdGrid w Y = .error .typeError := by
  obtain ⟨y0, y1, y2, y3⟩ := hY
  have hrows : Y.rows (0 : Fin 6) 1 = .ok (AfArray.ofFn 1 Y.d1 Y.d2 Y.d3 fun i j k l => Y.get (0 + i) j k l) := by
    unfold AfArray.rows; exact if_pos (by rw [y0]; decide)
  have : arrWallValue x w Y 0 = .error .typeError := by
    unfold arrWallValue
    rw [hrows]
    exact bind_step (f := fun v => match v with | .num _ => .error .typeError | .arr b => b.cut w.axis (w.slabLo (b.dim w.axis) x.g) x.g) (hv _) rfl
  unfold arrApplyWallFields arrDirichletFields
  rw [if_pos hn, this]
  rfl

end walls

section runs
variable {K : Type} [Machine K] {N1 N2 : ℕ} [NeZero N1] [NeZero N2] {R : Type} {D : Decomp N1 N2 R} {g1 g2 Np1 Np2 Np3 Ns : ℕ}

theorem synced_walls (hz : D.SizesOk (D.sizes Np1 Np2 Np3 Ns g1 g2) g1 g2) (o : BCOptions) {user : R → Wall → Fin 6 → AfArray K → PyExpr K}
    {user' : ∀ r, D.LocFieldBCs g1 g2 r K} (hw : ∀ r, (D.arrFieldEnv o r (user r)).Hold (D.sizes Np1 Np2 Np3 Ns g1 g2 r) (D.fieldEnv g1 g2 o r (user' r)))
    (hr : ∀ r, (D.arrFieldEnv o r (user r)).WallsFit (D.sizes Np1 Np2 Np3 Ns g1 g2 r)) {F F0 : R → AfArray K} (hF : D.Shaped g1 g2 6 1 F)
    (h : D.ArrSyncedFields g1 g2 Np1 Np2 Np3 Ns o user F F0) :
    D.Shaped g1 g2 6 1 F0 ∧ D.SyncedFields g1 g2 o user' (D.emOf g1 g2 Np1 Np2 Np3 Ns F) (D.emOf g1 g2 Np1 Np2 Np3 Ns F0) := by
  have inst1 : ∀ r, NeZero (D.sizes Np1 Np2 Np3 Ns g1 g2 r).M1 := fun r => ⟨by have := D.pos1 r; simp only [GridSizes.M1, Decomp.sizes]; omega⟩
  have inst2 : ∀ r, NeZero (D.sizes Np1 Np2 Np3 Ns g1 g2 r).M2 := fun r => ⟨by have := D.pos2 r; simp only [GridSizes.M2, Decomp.sizes]; omega⟩
  obtain ⟨bc1, bc2, st, G, ht, hc, hb⟩ := h
  obtain ⟨sG, stale, e⟩ := communicates_em hz hF hc
  have key : ∀ r, (D.sizes Np1 Np2 Np3 Ns g1 g2 r).FitsEM (F0 r) ∧
      applyBcsFields (D.fieldEnv g1 g2 o r (user' r)) true (D.emOf g1 g2 Np1 Np2 Np3 Ns G r) = .ok (D.emOf g1 g2 Np1 Np2 Np3 Ns F0 r) := by
    intro r
    have hs := C119_walls (z := D.sizes Np1 Np2 Np3 Ns g1 g2 r) _ _ (hw r) (hr r) true (G r) (sG r)
    cases he : applyBcsFields (D.fieldEnv g1 g2 o r (user' r)) true (D.emOf g1 g2 Np1 Np2 Np3 Ns G r) with
    | error e =>
      have := hs.2 e he
      rw [hb r] at this
      cases this
    | ok f' =>
      obtain ⟨c, hc', fc, cc⟩ := hs.1 f' he
      rw [hb r] at hc'
      injection hc' with hc'
      subst hc'
      exact ⟨fc, congrArg Except.ok cc.symm⟩
  refine ⟨fun r => (key r).1, D.emOf g1 g2 Np1 Np2 Np3 Ns G, ⟨bc1, bc2, stale, ht, e⟩, fun r => (key r).2⟩

/-- C119 (one FDTD step with walls): on any number of processes, a step on the memory blocks — copies, ghost exchange, boundary routines, row operations — is a step of the cell
model with the same walls, in any arithmetic. -/
theorem C119_step (hz : D.SizesOk (D.sizes Np1 Np2 Np3 Ns g1 g2) g1 g2) (o : BCOptions) (user : R → Wall → Fin 6 → AfArray K → PyExpr K)
    (user' : ∀ r, D.LocFieldBCs g1 g2 r K) (eps mu dq1 dq2 dt : K) (hyb : Bool) (x1 x2 x3 : R → PyExpr K) (J : ∀ r, Currents (D.Loc g1 g2 r) K)
    (hin : D.FieldWallsHold g1 g2 Np1 Np2 Np3 Ns o user user' x1 x2 x3 J) (Y Y' : R → AfArray K) (hY : D.Shaped g1 g2 6 1 Y)
    (h : ArrFdtdWallStep D g1 g2 Np1 Np2 Np3 Ns o user eps mu dq1 dq2 dt x1 x2 x3 Y Y') :
    D.Shaped g1 g2 6 1 Y' ∧
      Mach.FdtdStep D g1 g2 o user' (fun _ => ⟨(1, 0), (0, 1), dq1, dq2, eps, mu, hyb⟩) J dt (D.emOf g1 g2 Np1 Np2 Np3 Ns Y) (D.emOf g1 g2 Np1 Np2 Np3 Ns Y') := by
  have inst1 : ∀ r, NeZero (D.sizes Np1 Np2 Np3 Ns g1 g2 r).M1 := fun r => ⟨by have := D.pos1 r; simp only [GridSizes.M1, Decomp.sizes]; omega⟩
  have inst2 : ∀ r, NeZero (D.sizes Np1 Np2 Np3 Ns g1 g2 r).M2 := fun r => ⟨by have := D.pos2 r; simp only [GridSizes.M2, Decomp.sizes]; omega⟩
  obtain ⟨Y0, H, Y2, c0, hE, c1, hB⟩ := h
  obtain ⟨s0, e0⟩ := synced_walls hz o hin.walls hin.room hY c0
  have hH : ∀ r, (D.sizes Np1 Np2 Np3 Ns g1 g2 r).FitsEM (H r) ∧ D.emOf g1 g2 Np1 Np2 Np3 Ns H r =
      Mach.evolveE ⟨(1, 0), (0, 1), dq1, dq2, eps, mu, hyb⟩ (J r) dt (D.emOf g1 g2 Np1 Np2 Np3 Ns Y0 r) := by
    intro r
    obtain ⟨H', a, b, c⟩ := arrEvolveE_cells (z := D.sizes Np1 Np2 Np3 Ns g1 g2 r) (s0 r) eps mu dq1 dq2 dt hyb (hin.j1 r) (hin.j2 r) (hin.j3 r)
    have : H r = H' := by injection (hE r).symm.trans a
    rw [this]
    refine ⟨b, ?_⟩
    unfold Decomp.emOf
    rw [this]
    exact c
  obtain ⟨s2, e2⟩ := synced_walls hz o hin.walls hin.room (fun r => (hH r).1) c1
  have hY' : ∀ r, (D.sizes Np1 Np2 Np3 Ns g1 g2 r).FitsEM (Y' r) ∧ D.emOf g1 g2 Np1 Np2 Np3 Ns Y' r =
      Mach.evolveB ⟨(1, 0), (0, 1), dq1, dq2, eps, mu, hyb⟩ dt (D.emOf g1 g2 Np1 Np2 Np3 Ns Y2 r) := by
    intro r
    obtain ⟨H', a, b, c⟩ := arrEvolveB_cells (z := D.sizes Np1 Np2 Np3 Ns g1 g2 r) (s2 r) eps mu dq1 dq2 dt hyb
    have : Y' r = H' := by injection (hB r).symm.trans a
    rw [this]
    refine ⟨b, ?_⟩
    unfold Decomp.emOf
    rw [this]
    exact c
  refine ⟨fun r => (hY' r).1, _, _, e0, ?_, fun r => (hY' r).2⟩
  rw [← funext fun r => (hH r).2]
  exact e2

/-- C119 (FDTD runs with walls): the same for any number of steps, with boundary functions that may change from step to step. -/
theorem C119_run (hz : D.SizesOk (D.sizes Np1 Np2 Np3 Ns g1 g2) g1 g2) (o : BCOptions) (eps mu dq1 dq2 : K) (hyb : Bool)
    (steps : List ((K × (R → Wall → Fin 6 → AfArray K → PyExpr K) × (R → PyExpr K) × (R → PyExpr K) × (R → PyExpr K)) ×
      (∀ r, D.LocFieldBCs g1 g2 r K) × (∀ r, Currents (D.Loc g1 g2 r) K)))
    (hin : ∀ st ∈ steps, D.FieldWallsHold g1 g2 Np1 Np2 Np3 Ns o st.1.2.1 st.2.1 st.1.2.2.1 st.1.2.2.2.1 st.1.2.2.2.2 st.2.2)
    (Y Y' : R → AfArray K) (hY : D.Shaped g1 g2 6 1 Y) (h : ArrFdtdWallRun D g1 g2 Np1 Np2 Np3 Ns o eps mu dq1 dq2 (steps.map fun st => st.1) Y Y') :
    D.Shaped g1 g2 6 1 Y' ∧
      Mach.FdtdWallRun D g1 g2 o (fun _ => ⟨(1, 0), (0, 1), dq1, dq2, eps, mu, hyb⟩) (steps.map fun st => (st.1.1, st.2.1, st.2.2))
        (D.emOf g1 g2 Np1 Np2 Np3 Ns Y) (D.emOf g1 g2 Np1 Np2 Np3 Ns Y') := by
  induction steps generalizing Y with
  | nil =>
    simp only [List.map_nil, ArrFdtdWallRun] at h
    subst h
    exact ⟨hY, rfl⟩
  | cons st rest ih =>
    obtain ⟨⟨dt, user, x1, x2, x3⟩, user', J⟩ := st
    obtain ⟨Z, hZ, hR⟩ := h
    obtain ⟨sZ, eZ⟩ := C119_step hz o user user' eps mu dq1 dq2 dt hyb x1 x2 x3 J (hin _ List.mem_cons_self) Y Z hY hZ
    obtain ⟨s, e⟩ := ih (fun st hst => hin st (List.mem_cons_of_mem _ hst)) Z sZ hR
    exact ⟨s, _, eZ, e⟩

/-- C119 (no other exceptions): the array program makes the step wherever the cell model's boundary conditions do not raise. -/
theorem C119_step_succeeds (hz : D.SizesOk (D.sizes Np1 Np2 Np3 Ns g1 g2) g1 g2) (o : BCOptions) {bc1 bc2 : Decomp.PetscBC} (ht : Decomp.FieldTypes g1 g2 o bc1 bc2)
    (user : R → Wall → Fin 6 → AfArray K → PyExpr K) (user' : ∀ r, D.LocFieldBCs g1 g2 r K) (eps mu dq1 dq2 dt : K) (x1 x2 x3 : R → PyExpr K)
    (J : ∀ r, Currents (D.Loc g1 g2 r) K) (hin : D.FieldWallsHold g1 g2 Np1 Np2 Np3 Ns o user user' x1 x2 x3 J)
    (hok : ∀ r F, ∃ F', applyBcsFields (D.fieldEnv g1 g2 o r (user' r)) true F = .ok F') (Y : R → AfArray K) (hY : D.Shaped g1 g2 6 1 Y) :
    ∃ Y', ArrFdtdWallStep D g1 g2 Np1 Np2 Np3 Ns o user eps mu dq1 dq2 dt x1 x2 x3 Y Y' := by
  have inst1 : ∀ r, NeZero (D.sizes Np1 Np2 Np3 Ns g1 g2 r).M1 := fun r => ⟨by have := D.pos1 r; simp only [GridSizes.M1, Decomp.sizes]; omega⟩
  have inst2 : ∀ r, NeZero (D.sizes Np1 Np2 Np3 Ns g1 g2 r).M2 := fun r => ⟨by have := D.pos2 r; simp only [GridSizes.M2, Decomp.sizes]; omega⟩
  have sync : ∀ Y : R → AfArray K, D.Shaped g1 g2 6 1 Y → ∃ Y0, D.ArrSyncedFields g1 g2 Np1 Np2 Np3 Ns o user Y Y0 ∧ D.Shaped g1 g2 6 1 Y0 := by
    intro Y hY
    obtain ⟨G, hG⟩ := D.C25_communicates (D.sizes Np1 Np2 Np3 Ns g1 g2) g1 g2 bc1 bc2 6 1 (fun r => ⟨6 * 1 * (D.n1 r + 2 * g1) * (D.n2 r + 2 * g2), fun _ => lit 0⟩)
      Y hz hY
    obtain ⟨sG, -⟩ := communicates_em hz hY hG
    have key : ∀ r, ∃ c, arrApplyBcsFields (D.arrFieldEnv o r (user r)) true (G r) = .ok c ∧ (D.sizes Np1 Np2 Np3 Ns g1 g2 r).FitsEM c := by
      intro r
      obtain ⟨F', hF'⟩ := hok r (D.emOf g1 g2 Np1 Np2 Np3 Ns G r)
      obtain ⟨c, hc, fc, -⟩ := (C119_walls (z := D.sizes Np1 Np2 Np3 Ns g1 g2 r) _ _ (hin.walls r) (hin.room r) true (G r) (sG r)).1 F' hF'
      exact ⟨c, hc, fc⟩
    choose Y0 h0 f0 using key
    exact ⟨Y0, ⟨bc1, bc2, _, G, ht, hG, h0⟩, f0⟩
  obtain ⟨Y0, c0, s0⟩ := sync Y hY
  choose H hE sH _ using fun r => arrEvolveE_cells (z := D.sizes Np1 Np2 Np3 Ns g1 g2 r) (s0 r) eps mu dq1 dq2 dt false (hin.j1 r) (hin.j2 r) (hin.j3 r)
  obtain ⟨Y2, c1, s2⟩ := sync H sH
  choose Y' hB _ _ using fun r => arrEvolveB_cells (z := D.sizes Np1 Np2 Np3 Ns g1 g2 r) (s2 r) eps mu dq1 dq2 dt false
  exact ⟨Y', Y0, H, Y2, c0, hE, c1, hB⟩

end runs

/-- C119 (exact arithmetic): with exact arithmetic the steps of the cell model are those of the claims on fields with walls. -/
theorem C119_exact {K : Type} [Field K] [LinearOrder K] [IsStrictOrderedRing K] {N1 N2 : ℕ} {R : Type} (D : Decomp N1 N2 R) (g1 g2 : ℕ)
    [∀ r, Fintype (D.Loc g1 g2 r)] (o : BCOptions) (user : ∀ r, D.LocFieldBCs g1 g2 r K) (pr : ∀ r, FieldParams (D.Loc g1 g2 r) K) (hh : ∀ r, (pr r).hybrid = false)
    (J : ∀ r, Currents (D.Loc g1 g2 r) K) (dt : K) (Y Y' : ∀ r, EM (D.Loc g1 g2 r) K) :
    @Mach.FdtdStep K (exactMachine K) N1 N2 R D g1 g2 o user pr J dt Y Y' ↔ D.FdtdStep g1 g2 o user pr J dt Y Y' := by
  let M : Machine K := exactMachine K
  have hE : ∀ r F, evolveE (pr r) (J r) dt F = .ok (Mach.evolveE (pr r) (J r) dt F) := by
    intro r F
    have hM : M = _ := exact_is_rounded
    simp only [evolveE, hh r, id, Bool.false_eq_true, if_false, Mach.evolveE, Mach.pushE, Mach.curlB1, Mach.curlB2, Mach.curlB3,
      addCurlB, curlB1, curlB2, curlB3, Mach.r_add hM, Mach.r_sub hM, Mach.r_mul hM, Mach.r_div hM, Mach.r_neg hM]
  have hB : ∀ r F, evolveB (pr r) dt F = Mach.evolveB (pr r) dt F := by
    intro r F
    have hM : M = _ := exact_is_rounded
    simp only [evolveB, Mach.evolveB, Mach.curlE1, Mach.curlE2, Mach.curlE3, curlE1, curlE2, curlE3, Mach.r_add hM, Mach.r_sub hM, Mach.r_mul hM, Mach.r_div hM,
      Mach.r_neg hM, id]
  unfold Mach.FdtdStep Decomp.FdtdStep
  constructor
  · rintro ⟨Y0, Y2, a, b, c⟩
    exact ⟨Y0, _, Y2, a, fun r => hE r _, b, fun r => by rw [hB]; exact c r⟩
  · rintro ⟨Y0, Y1, Y2, a, e, b, c⟩
    have : Y1 = fun r => Mach.evolveE (pr r) (J r) dt (Y0 r) := funext fun r => by
      have := (e r).symm.trans (hE r _)
      injection this
    subst this
    exact ⟨Y0, Y2, a, b, fun r => by rw [← hB]; exact c r⟩

end Bolt
