import Verif.Proofs.FieldArrays
import Verif.Props.ArrayProgram
import Verif.Props.MachineFields
import Verif.Props.MachineCoupled

/-!
# C115: the field solver and the coupled run on arrays compute the cell formulas
-/

set_option linter.unusedSectionVars false

namespace Bolt

open Machine PyExpr

section fields
variable {K : Type} {z : GridSizes} [NeZero z.M1] [NeZero z.M2] [Machine K]

/-- C115 (field update): on every grid and in any arithmetic, the two halves of an FDTD step applied to an array of shape `(6, 1, M1, M2)`, with current arrays that hold
`J`, do not raise, keep the shape and write into row `i` what the cell formulas give for component `i`. -/
theorem C115_field_update (Y : AfArray K) (hY : z.FitsEM Y) (eps mu dq1 dq2 dt : K) (hyb : Bool) (x1 x2 x3 : PyExpr K) (J : Currents z.Q K)
    (j1 : (fieldLay z).Holds x1 J.J1) (j2 : (fieldLay z).Holds x2 J.J2) (j3 : (fieldLay z).Holds x3 J.J3) :
    (∃ H, arrEvolveE eps mu dq1 dq2 dt x1 x2 x3 Y = .ok H ∧ z.FitsEM H ∧
      z.emCells H = Mach.evolveE ⟨(1, 0), (0, 1), dq1, dq2, eps, mu, hyb⟩ J dt (z.emCells Y)) ∧
    ∃ H, arrEvolveB dq1 dq2 dt Y = .ok H ∧ z.FitsEM H ∧
      z.emCells H = Mach.evolveB ⟨(1, 0), (0, 1), dq1, dq2, eps, mu, hyb⟩ dt (z.emCells Y) :=
  ⟨arrEvolveE_cells hY eps mu dq1 dq2 dt hyb j1 j2 j3, arrEvolveB_cells hY eps mu dq1 dq2 dt hyb⟩

/-- C115 (time levels): the row copies and averages around an FDTD step, with attributes that may refer to the same array object, do on the arrays what the cell model of
the time levels does; and `get_fields` returns the six rows of the array of the current time level and toggles the flag. -/
theorem C115_time_levels (σ : ArrFieldState K) (hσ : z.FitsState σ) (Y : AfArray K) (hY : z.FitsEM Y) (dt dq1 dq2 eps mu : K) (hyb : Bool) (fs sp : String) :
    (∃ σ', σ.store dt Y = .ok σ' ∧ z.FitsState σ' ∧
      z.stateCells σ' = Mach.storeFields ⟨(1, 0), (0, 1), dq1, dq2, eps, mu, hyb⟩ dt (z.emCells Y) (z.stateCells σ)) ∧
    z.FitsState (σ.getFields fs sp).2 ∧ z.stateCells (σ.getFields fs sp).2 = (getFields fs sp (z.stateCells σ)).2 ∧
      ∀ i, (fieldLay z).Holds ((σ.getFields fs sp).1 i) ((getFields fs sp (z.stateCells σ)).1.comp i) :=
  ⟨store_cells hσ hY dt _ rfl rfl, getFields_cells hσ fs sp⟩

/-- C115 (negative): current arrays that still carry one entry per species are rejected as soon as there are two species: the sum over species before the field update is
needed. -/
theorem C115_unsummed_currents_rejected (Y : AfArray K) (hY : z.FitsEM Y) (eps mu dq1 dq2 dt : K) (x1 x2 x3 : PyExpr K) (G : Fin z.Ns × z.Q → K)
    (j1 : (momentLay z).Holds x1 G) (hs : z.Ns ≠ 1) : arrEvolveE eps mu dq1 dq2 dt x1 x2 x3 Y = .error .exception := by
  have B3 := row_holds hY (i := 5) (by omega)
  obtain ⟨a, ha, a0, a1, a2, a3, -⟩ := (((shift_q2 B3 (-1)).bin sub B3).numR false div dq2).numL false mul (dt ⊘ (mu ⊠ eps))
  obtain ⟨b, hb, b0, b1, b2, b3, -⟩ := (j1.numR false mul dt).numR false div eps
  obtain ⟨e, he, -⟩ := row_holds hY (i := 0) (by omega)
  have hz : a.zipWith sub b = .error .exception := by
    unfold AfArray.zipWith
    refine if_neg fun h => hs ?_
    rw [a1, b1] at h
    exact h.2.1.symm
  have hx : num dt / (num mu * num eps) * (((Y.rowsOf 5 1).shift 0 0 0 (-1) - Y.rowsOf 5 1) / num dq2) - x1 * num dt / num eps = (.error .exception : PyExpr K) := by
    refine (congrArg₂ (bin false sub) ha hb).trans ?_
    change Except.map PyVal.arr (a.zipWith sub b) = _
    rw [hz]; rfl
  unfold arrEvolveE
  dsimp only
  rw [hx, he]
  rfl

end fields

/-! ## any number of processes -/

section runs
variable {K : Type} [Machine K] {N1 N2 : ℕ} [NeZero N1] [NeZero N2] {R : Type} (D : Decomp N1 N2 R) (g1 g2 Np1 Np2 Np3 Ns : ℕ)

variable {D g1 g2 Np1 Np2 Np3 Ns}

theorem communicates_em {bc1 bc2 : Decomp.PetscBC} {st : R → Vec K} {F F' : R → AfArray K} (hz : D.SizesOk (D.sizes Np1 Np2 Np3 Ns g1 g2) g1 g2)
    (hF : D.Shaped g1 g2 6 1 F) (h : D.Communicates (D.sizes Np1 Np2 Np3 Ns g1 g2) g1 g2 bc1 bc2 6 1 st F F') :
    D.Shaped g1 g2 6 1 F' ∧ ∃ stale, D.emOf g1 g2 Np1 Np2 Np3 Ns F' = D.exchangeEM g1 g2 bc1 bc2 stale (D.emOf g1 g2 Np1 Np2 Np3 Ns F) := by
  obtain ⟨hs, hg⟩ := D.C25_blocks_refine_exchange _ g1 g2 bc1 bc2 _ _ st F F' hz hF h
  let s : ∀ r, ℕ → D.Loc g1 g2 r → K := fun r p l => (st r).data (p + 6 * (0 + 1 * (l.1.val + (D.n1 r + 2 * g1) * l.2.val)))
  refine ⟨hs, fun r => ⟨s r 0, s r 1, s r 2, s r 3, s r 4, s r 5⟩, funext fun r => ?_⟩
  exact EM.eq_of_rows (Q := D.Loc g1 g2 r) (funext fun l => hg r 0 0 l (by omega) (by omega)) (funext fun l => hg r 1 0 l (by omega) (by omega)) (funext fun l => hg r 2 0 l (by omega) (by omega))
    (funext fun l => hg r 3 0 l (by omega) (by omega)) (funext fun l => hg r 4 0 l (by omega) (by omega)) (funext fun l => hg r 5 0 l (by omega) (by omega))

theorem synced_em {o : BCOptions} (h1 : PeriodicEnds (o.name .left) (o.name .right) N1) (h2 : PeriodicEnds (o.name .bottom) (o.name .top) N2)
    (user : ∀ r, D.LocFieldBCs g1 g2 r K) {bc1 bc2 : Decomp.PetscBC} (ht : Decomp.FieldTypes g1 g2 o bc1 bc2) {st : R → Vec K} {F F' : R → AfArray K}
    (hz : D.SizesOk (D.sizes Np1 Np2 Np3 Ns g1 g2) g1 g2)
    (hF : D.Shaped g1 g2 6 1 F) (h : D.Communicates (D.sizes Np1 Np2 Np3 Ns g1 g2) g1 g2 bc1 bc2 6 1 st F F') :
    D.Shaped g1 g2 6 1 F' ∧ D.SyncedFields g1 g2 o user (D.emOf g1 g2 Np1 Np2 Np3 Ns F) (D.emOf g1 g2 Np1 Np2 Np3 Ns F') := by
  obtain ⟨hs, stale, e⟩ := communicates_em hz hF h
  exact ⟨hs, _, ⟨bc1, bc2, stale, ht, e⟩, fun r => Decomp.applyBcsFields_wrap _ _ (fun w => Decomp.names_wrap h1 h2 w) _⟩

/-- C115 (one FDTD step): on any number of processes, a step on the memory blocks — copies to and from PETSc vectors, ghost exchange, row operations — is a step of the
cell model; `user` are the boundary functions of the cell model, which periodic conditions never call. -/
theorem C115_fdtd_step (hz : D.SizesOk (D.sizes Np1 Np2 Np3 Ns g1 g2) g1 g2) {o : BCOptions} (h1 : PeriodicEnds (o.name .left) (o.name .right) N1)
    (h2 : PeriodicEnds (o.name .bottom) (o.name .top) N2) (user : ∀ r, D.LocFieldBCs g1 g2 r K) (eps mu dq1 dq2 dt : K) (hyb : Bool)
    (x1 x2 x3 : R → PyExpr K) (J : ∀ r, Currents (D.Loc g1 g2 r) K)
    (hJ : ∀ r, (fieldLay (D.sizes Np1 Np2 Np3 Ns g1 g2 r)).Holds (x1 r) (J r).J1 ∧ (fieldLay (D.sizes Np1 Np2 Np3 Ns g1 g2 r)).Holds (x2 r) (J r).J2 ∧
      (fieldLay (D.sizes Np1 Np2 Np3 Ns g1 g2 r)).Holds (x3 r) (J r).J3)
    (Y Y' : R → AfArray K) (hY : D.Shaped g1 g2 6 1 Y)
    (h : ArrFdtdStep D g1 g2 Np1 Np2 Np3 Ns o eps mu dq1 dq2 dt x1 x2 x3 Y Y') :
    D.Shaped g1 g2 6 1 Y' ∧
      Mach.FdtdStep D g1 g2 o user (fun _ => ⟨(1, 0), (0, 1), dq1, dq2, eps, mu, hyb⟩) J dt (D.emOf g1 g2 Np1 Np2 Np3 Ns Y) (D.emOf g1 g2 Np1 Np2 Np3 Ns Y') := by
  obtain ⟨bc1, bc2, st0, st1, Y0, H, Y2, ht, c0, hE, c1, hB⟩ := h
  have inst1 : ∀ r, NeZero (D.sizes Np1 Np2 Np3 Ns g1 g2 r).M1 := fun r => ⟨by have := D.pos1 r; simp only [GridSizes.M1, Decomp.sizes]; omega⟩
  have inst2 : ∀ r, NeZero (D.sizes Np1 Np2 Np3 Ns g1 g2 r).M2 := fun r => ⟨by have := D.pos2 r; simp only [GridSizes.M2, Decomp.sizes]; omega⟩
  obtain ⟨s0, e0⟩ := synced_em h1 h2 user ht hz hY c0
  have hH : ∀ r, (D.sizes Np1 Np2 Np3 Ns g1 g2 r).FitsEM (H r) ∧ D.emOf g1 g2 Np1 Np2 Np3 Ns H r =
      Mach.evolveE ⟨(1, 0), (0, 1), dq1, dq2, eps, mu, hyb⟩ (J r) dt (D.emOf g1 g2 Np1 Np2 Np3 Ns Y0 r) := by
    intro r
    obtain ⟨H', a, b, c⟩ := arrEvolveE_cells (z := D.sizes Np1 Np2 Np3 Ns g1 g2 r) (s0 r) eps mu dq1 dq2 dt hyb (hJ r).1 (hJ r).2.1 (hJ r).2.2
    have : H r = H' := by injection (hE r).symm.trans a
    rw [this]
    refine ⟨b, ?_⟩
    unfold Decomp.emOf
    rw [this]
    exact c
  obtain ⟨s2, e2⟩ := synced_em h1 h2 user ht hz (fun r => (hH r).1) c1
  have hY' : ∀ r, (D.sizes Np1 Np2 Np3 Ns g1 g2 r).FitsEM (Y' r) ∧ D.emOf g1 g2 Np1 Np2 Np3 Ns Y' r =
      Mach.evolveB ⟨(1, 0), (0, 1), dq1, dq2, eps, mu, hyb⟩ dt (D.emOf g1 g2 Np1 Np2 Np3 Ns Y2 r) := by
    intro r
    obtain ⟨H', a, b, c⟩ := arrEvolveB_cells (z := D.sizes Np1 Np2 Np3 Ns g1 g2 r) (s2 r) eps mu dq1 dq2 dt hyb
    have : Y' r = H' := by injection (hB r).symm.trans a
    rw [this]
    refine ⟨b, ?_⟩
    unfold Decomp.emOf
    rw [this]
    exact c
  refine ⟨fun r => (hY' r).1, _, _, e0, ?_, fun r => (hY' r).2⟩
  rw [← funext fun r => (hH r).2]
  exact e2

/-- The current arrays of a step hold the currents of the cell model. -/
def Decomp.CurrentsHold (D : Decomp N1 N2 R) (g1 g2 Np1 Np2 Np3 Ns : ℕ) (x : (R → PyExpr K) × (R → PyExpr K) × (R → PyExpr K))
    (J : ∀ r, Currents (D.Loc g1 g2 r) K) : Prop :=
  ∀ r, (fieldLay (D.sizes Np1 Np2 Np3 Ns g1 g2 r)).Holds (x.1 r) (J r).J1 ∧ (fieldLay (D.sizes Np1 Np2 Np3 Ns g1 g2 r)).Holds (x.2.1 r) (J r).J2 ∧
    (fieldLay (D.sizes Np1 Np2 Np3 Ns g1 g2 r)).Holds (x.2.2 r) (J r).J3

/-- C115 (FDTD runs): the same for any number of steps. -/
theorem C115_fdtd_run (hz : D.SizesOk (D.sizes Np1 Np2 Np3 Ns g1 g2) g1 g2) {o : BCOptions} (h1 : PeriodicEnds (o.name .left) (o.name .right) N1)
    (h2 : PeriodicEnds (o.name .bottom) (o.name .top) N2) (user : ∀ r, D.LocFieldBCs g1 g2 r K) (eps mu dq1 dq2 : K) (hyb : Bool)
    (steps : List (K × ((R → PyExpr K) × (R → PyExpr K) × (R → PyExpr K)) × (∀ r, Currents (D.Loc g1 g2 r) K)))
    (hJ : ∀ st ∈ steps, D.CurrentsHold g1 g2 Np1 Np2 Np3 Ns st.2.1 st.2.2) (Y Y' : R → AfArray K) (hY : D.Shaped g1 g2 6 1 Y)
    (h : ArrFdtdRun D g1 g2 Np1 Np2 Np3 Ns o eps mu dq1 dq2 (steps.map fun st => (st.1, st.2.1)) Y Y') :
    D.Shaped g1 g2 6 1 Y' ∧
      Mach.FdtdRun D g1 g2 o user (fun _ => ⟨(1, 0), (0, 1), dq1, dq2, eps, mu, hyb⟩) (steps.map fun st => (st.1, st.2.2)) (D.emOf g1 g2 Np1 Np2 Np3 Ns Y)
        (D.emOf g1 g2 Np1 Np2 Np3 Ns Y') := by
  induction steps generalizing Y with
  | nil =>
    simp only [List.map_nil, ArrFdtdRun] at h
    subst h
    exact ⟨hY, rfl⟩
  | cons st rest ih =>
    obtain ⟨dt, x, J⟩ := st
    obtain ⟨Z, hZ, hR⟩ := h
    obtain ⟨sZ, eZ⟩ := C115_fdtd_step hz h1 h2 user eps mu dq1 dq2 dt hyb x.1 x.2.1 x.2.2 J (hJ (dt, x, J) (by simp)) Y Z hY hZ
    obtain ⟨s, e⟩ := ih (fun st hst => hJ st (by simp [hst])) Z sZ hR
    exact ⟨s, _, eZ, e⟩

/-- Reading a dumped field file: the values the whole-grid fields `G` have, component fastest, then `q1`, `q2`. -/
theorem em_file (hz : D.SizesOk (D.sizes Np1 Np2 Np3 Ns g1 g2) g1 g2) {Y : R → AfArray K} (hY : D.Shaped g1 g2 6 1 Y) {G : EM (ZMod N1 × ZMod N2) K}
    (hG : ∀ r, D.EMHolds g1 g2 r (D.emOf g1 g2 Np1 Np2 Np3 Ns Y r) G) {file : Vec K} (hd : D.DumpsTo (D.sizes Np1 Np2 Np3 Ns g1 g2) 6 1 Y file) :
    file.len = 6 * (N1 * N2) ∧ ∀ (i : Fin 6) (q1 q2 : ℕ), q1 < N1 → q2 < N2 →
      file.data (i + 6 * (q1 + N1 * q2)) = G.comp i ((q1 : ZMod N1), (q2 : ZMod N2)) := by
  let u : ℕ → ℕ → ℕ → ℕ → K := fun i _ x y => if hi : i < 6 then G.comp ⟨i, hi⟩ ((x : ZMod N1), (y : ZMod N2)) else lit 0
  have hu : D.Bulk g1 g2 6 1 Y u := by
    intro r i j a b hi hj ha hb
    have e1 : ((a + g1 : ℕ) : ZMod (D.n1 r + 2 * g1)).val = a + g1 := ZMod.val_natCast_of_lt (by omega)
    have e2 : ((b + g2 : ℕ) : ZMod (D.n2 r + 2 * g2)).val = b + g2 := ZMod.val_natCast_of_lt (by omega)
    have hj0 : j = 0 := by omega
    subst hj0
    have hl := hG r ⟨i, hi⟩ (((a + g1 : ℕ) : ZMod (D.n1 r + 2 * g1)), ((b + g2 : ℕ) : ZMod (D.n2 r + 2 * g2))) (by
      unfold Decomp.Interior; dsimp only; rw [e1, e2]; omega)
    have hlhs : (D.emOf g1 g2 Np1 Np2 Np3 Ns Y r).comp ⟨i, hi⟩ (((a + g1 : ℕ) : ZMod (D.n1 r + 2 * g1)), ((b + g2 : ℕ) : ZMod (D.n2 r + 2 * g2))) =
        (Y r).get i 0 (a + g1) (b + g2) := by
      have : NeZero (D.sizes Np1 Np2 Np3 Ns g1 g2 r).M1 := ⟨by have := D.pos1 r; simp only [GridSizes.M1, Decomp.sizes]; omega⟩
      have : NeZero (D.sizes Np1 Np2 Np3 Ns g1 g2 r).M2 := ⟨by have := D.pos2 r; simp only [GridSizes.M2, Decomp.sizes]; omega⟩
      refine (emCells_comp (z := D.sizes Np1 Np2 Np3 Ns g1 g2 r) (Y r) ⟨i, hi⟩ _).trans ?_
      change (Y r).get i 0 (((a + g1 : ℕ) : ZMod (D.n1 r + 2 * g1))).val (((b + g2 : ℕ) : ZMod (D.n2 r + 2 * g2))).val = _
      rw [e1, e2]
    rw [← hlhs, hl]
    simp only [u, dif_pos hi, Decomp.toGlob, globCoord, e1, e2]
    congr 2 <;> (push_cast; ring)
  obtain ⟨hlen, hfile⟩ := D.C38_file_contents _ g1 g2 _ _ Y file hz hY hd u hu
  refine ⟨by rw [hlen], fun i q1 q2 hq1 hq2 => ?_⟩
  have := hfile i 0 q1 q2 i.2 (by omega) hq1 hq2
  rw [show (i : ℕ) + 6 * (q1 + N1 * q2) = i + 6 * (0 + 1 * (q1 + N1 * q2)) by ring, this]
  simp only [u, dif_pos i.2]

/-- C115 (fields from file to file): start from blocks whose bulk holds the whole-grid fields `G`, make any number of FDTD steps on any number of processes with currents
that hold the whole-grid ones, dump: the file lists, bit for bit, what the run on the whole grid computes. -/
theorem C115_dumped_fields (hz : D.SizesOk (D.sizes Np1 Np2 Np3 Ns g1 g2) g1 g2) {o : BCOptions} (h1 : PeriodicEnds (o.name .left) (o.name .right) N1)
    (h2 : PeriodicEnds (o.name .bottom) (o.name .top) N2) (k1 : 1 ≤ g1 ∨ (g1 = 0 ∧ N1 = 1)) (k2 : 1 ≤ g2 ∨ (g2 = 0 ∧ N2 = 1)) (eps mu dq1 dq2 : K) (hyb : Bool)
    (steps : List (K × ((R → PyExpr K) × (R → PyExpr K) × (R → PyExpr K)) × (∀ r, Currents (D.Loc g1 g2 r) K) × Currents (ZMod N1 × ZMod N2) K))
    (hx : ∀ st ∈ steps, D.CurrentsHold g1 g2 Np1 Np2 Np3 Ns st.2.1 st.2.2.1)
    (hJ : ∀ st ∈ steps, ∀ r l, D.Interior g1 g2 r l → (st.2.2.1 r).J1 l = st.2.2.2.J1 (D.toGlob g1 g2 r l) ∧
      (st.2.2.1 r).J2 l = st.2.2.2.J2 (D.toGlob g1 g2 r l) ∧ (st.2.2.1 r).J3 l = st.2.2.2.J3 (D.toGlob g1 g2 r l))
    (Y Y' : R → AfArray K) (hY : D.Shaped g1 g2 6 1 Y) (G : EM (ZMod N1 × ZMod N2) K) (hG : ∀ r, D.EMHolds g1 g2 r (D.emOf g1 g2 Np1 Np2 Np3 Ns Y r) G)
    (h : ArrFdtdRun D g1 g2 Np1 Np2 Np3 Ns o eps mu dq1 dq2 (steps.map fun st => (st.1, st.2.1)) Y Y')
    (file : Vec K) (hd : D.DumpsTo (D.sizes Np1 Np2 Np3 Ns g1 g2) 6 1 Y' file) :
    file.len = 6 * (N1 * N2) ∧ ∀ (i : Fin 6) (q1 q2 : ℕ), q1 < N1 → q2 < N2 → file.data (i + 6 * (q1 + N1 * q2)) =
      (Mach.runFDTD ⟨(1, 0), (0, 1), dq1, dq2, eps, mu, hyb⟩ (steps.map fun st => (st.1, st.2.2.2)) G).comp i ((q1 : ZMod N1), (q2 : ZMod N2)) := by
  obtain ⟨sY, hrun⟩ := C115_fdtd_run hz h1 h2 (fun _ _ _ f => f) eps mu dq1 dq2 hyb (steps.map fun st => (st.1, st.2.1, st.2.2.1))
    (by intro st hst; simp only [List.mem_map] at hst; obtain ⟨t, ht, rfl⟩ := hst; exact hx t ht) Y Y' hY (by rw [List.map_map]; exact h)
  have hH := C111_bitwise_decomposition_independence D g1 g2 h1 h2 k1 k2 _ dq1 dq2 eps mu hyb (steps.map fun st => (st.1, st.2.2.1, st.2.2.2))
    (by intro st hst; simp only [List.mem_map] at hst; obtain ⟨t, ht, rfl⟩ := hst; exact hJ t ht) _ _ G hG (by rw [List.map_map] at hrun ⊢; exact hrun)
  rw [List.map_map] at hH
  exact em_file hz sY hH hd

end runs

/-! ## coupled runs -/

section coupled
variable {K : Type} [Machine K] (red : List K → K) {N1 N2 : ℕ} [NeZero N1] [NeZero N2] {R : Type} {D : Decomp N1 N2 R} {g1 g2 Np1 Np2 Np3 Ns : ℕ}
  [NeZero Np1] [NeZero Np2] [NeZero Np3] [NeZero Ns]

/-- On every process and in both slope evaluations the arrays and callbacks hold what the callbacks of the cell model prescribe. -/
def Decomp.CoupledInputsHold (D : Decomp N1 N2 R) (g1 g2 Np1 Np2 Np3 Ns : ℕ) (c : CoupledConfig (Fin Ns) (AslPIdx Np1 Np2 Np3) (ZMod N1 × ZMod N2) K)
    (x : Fin 2 → R → ArrCallbacks K) (cb : Fin 2 → ∀ r, CoupledCallbacks (Fin Ns) (AslPIdx Np1 Np2 Np3) (D.Loc g1 g2 r) K) : Prop :=
  ∀ k r, Bolt.CoupledInputsHold (z := D.sizes Np1 Np2 Np3 Ns g1 g2 r) c (x k r) (cb k r)

/-- The unit steps of the whole grid. -/
def gridAxes (Np1 Np2 Np3 N1 N2 : ℕ) : Axes (AslPIdx Np1 Np2 Np3) (ZMod N1 × ZMod N2) := ⟨(1, 0, 0), (0, 1, 0), (0, 0, 1), (1, 0), (0, 1)⟩

/-- Sums in the order of the rows and columns. -/
def arrSums (Np1 Np2 Np3 Ns : ℕ) (red : List K → K) : Mach.Sums (Fin Ns) (AslPIdx Np1 Np2 Np3) K := (⟨Np1, Np2, Np3, Ns, 0, 0, 0, 0⟩ : GridSizes).sums red

theorem coupled_inputs {c : CoupledConfig (Fin Ns) (AslPIdx Np1 Np2 Np3) (ZMod N1 × ZMod N2) K} {r : R} {x : ArrCallbacks K}
    {cb : CoupledCallbacks (Fin Ns) (AslPIdx Np1 Np2 Np3) (D.Loc g1 g2 r) K}
    (h : Bolt.CoupledInputsHold (z := D.sizes Np1 Np2 Np3 Ns g1 g2 r) c x cb) {a : AfArray K} (ha : (D.sizes Np1 Np2 Np3 Ns g1 g2 r).Fits a)
    (E1 E2 E3 : Fin 6 → PyExpr K) (F1 F2 F3 : Dist (Fin Ns) (AslPIdx Np1 Np2 Np3) (D.Loc g1 g2 r) K)
    (hp : c.solverMethodInP = "FVM" ∧ c.fieldsEnabled = true → HoldsDist (z := D.sizes Np1 Np2 Np3 Ns g1 g2 r) (x.Cp1 E1) F1 ∧
      HoldsDist (z := D.sizes Np1 Np2 Np3 Ns g1 g2 r) (x.Cp2 E2) F2 ∧ HoldsDist (z := D.sizes Np1 Np2 Np3 Ns g1 g2 r) (x.Cp3 E3) F3) :
    Bolt.InputsHold (z := D.sizes Np1 Np2 Np3 Ns g1 g2 r) c.toFVMConfig (arrInputs x E1 E2 E3 a) ⟨cb.Cq1, cb.Cq2, F1, F2, F3, cb.source⟩
      ((D.sizes Np1 Np2 Np3 Ns g1 g2 r).cells a) :=
  ⟨fun hq => ⟨h.q1 hq, h.q2 hq, fun hs => h.source hq hs a ha⟩, fun hpp => ⟨(hp hpp).1, (hp hpp).2.1, (hp hpp).2.2, h.dp hpp⟩⟩

theorem arrCurrents_cells (hone : ∀ u : K, lit 1 ⊠ u = u) {c : CoupledConfig (Fin Ns) (AslPIdx Np1 Np2 Np3) (ZMod N1 × ZMod N2) K}
    (hax : c.ax = gridAxes Np1 Np2 Np3 N1 N2) (he : c.fieldsType = "electrodynamic") (hq : c.solverMethodInQ = "FVM")
    (hp : c.solverMethodInP = "FVM" ∧ c.fieldsEnabled = true) {m : Recon} (hm : reconMethod c.reconstructionInQ = .ok m) {r : R} {x : ArrCallbacks K}
    {cb : CoupledCallbacks (Fin Ns) (AslPIdx Np1 Np2 Np3) (D.Loc g1 g2 r) K}
    (h : Bolt.CoupledInputsHold (z := D.sizes Np1 Np2 Np3 Ns g1 g2 r) c x cb) {a : AfArray K} (ha : (D.sizes Np1 Np2 Np3 Ns g1 g2 r).Fits a) :
    let J := Mach.kineticCurrents (arrSums Np1 Np2 Np3 Ns red) (D.locCfg g1 g2 c r) m cb.Cq1 cb.Cq2 ((D.sizes Np1 Np2 Np3 Ns g1 g2 r).cells a)
    let X := arrCurrents red c.reconstructionInQ x (.ok (.arr a))
    (fieldLay (D.sizes Np1 Np2 Np3 Ns g1 g2 r)).Holds X.1 J.J1 ∧ (fieldLay (D.sizes Np1 Np2 Np3 Ns g1 g2 r)).Holds X.2.1 J.J2 ∧
      (fieldLay (D.sizes Np1 Np2 Np3 Ns g1 g2 r)).Holds X.2.2 J.J3 := by
  have inst1 : NeZero (D.sizes Np1 Np2 Np3 Ns g1 g2 r).M1 := ⟨by have := D.pos1 r; simp only [GridSizes.M1, Decomp.sizes]; omega⟩
  have inst2 : NeZero (D.sizes Np1 Np2 Np3 Ns g1 g2 r).M2 := ⟨by have := D.pos2 r; simp only [GridSizes.M2, Decomp.sizes]; omega⟩
  have i1 : NeZero (D.sizes Np1 Np2 Np3 Ns g1 g2 r).Np1 := ‹NeZero Np1›
  have i2 : NeZero (D.sizes Np1 Np2 Np3 Ns g1 g2 r).Np2 := ‹NeZero Np2›
  have i3 : NeZero (D.sizes Np1 Np2 Np3 Ns g1 g2 r).Np3 := ‹NeZero Np3›
  have i4 : NeZero (D.sizes Np1 Np2 Np3 Ns g1 g2 r).Ns := ‹NeZero Ns›
  have hax' : (D.locCfg g1 g2 c r).ax = (D.sizes Np1 Np2 Np3 Ns g1 g2 r).axes := by
    simp only [Decomp.locCfg, hax]; rfl
  exact C113_currents (z := D.sizes Np1 Np2 Np3 Ns g1 g2 r) hone red (D.locCfg g1 g2 c r) hax'
    (arrInputs x (fun _ => const 0) (fun _ => const 0) (fun _ => const 0) a)
    ⟨cb.Cq1, cb.Cq2, fun _ _ _ => lit 0, fun _ _ _ => lit 0, fun _ _ _ => lit 0, cb.source⟩ m hm (.ok (.arr a)) x.charge x.v1 x.v2 x.v3 _
    (holdsDist_cells ha) (h.charge he) (h.q1 hq) (h.q2 hq) (h.v he).1 (h.v he).2.1 (h.v he).2.2 (h.dp hp).1 (h.dp hp).2.1 (h.dp hp).2.2

/-- C115 (field phase): the field update inside a slope evaluation, on the arrays of all processes, is that of the cell model. -/
theorem C115_field_phase (hone : ∀ u : K, lit 1 ⊠ u = u) (hz : D.SizesOk (D.sizes Np1 Np2 Np3 Ns g1 g2) g1 g2) {o : BCOptions}
    (h1 : PeriodicEnds (o.name .left) (o.name .right) N1) (h2 : PeriodicEnds (o.name .bottom) (o.name .top) N2) (user : ∀ r, D.LocFieldBCs g1 g2 r K)
    {c : CoupledConfig (Fin Ns) (AslPIdx Np1 Np2 Np3) (ZMod N1 × ZMod N2) K} (hax : c.ax = gridAxes Np1 Np2 Np3 N1 N2) (hi : Implemented c)
    (hp : c.solverMethodInP = "FVM" ∧ c.fieldsEnabled = true) (x : R → ArrCallbacks K)
    (cb : ∀ r, CoupledCallbacks (Fin Ns) (AslPIdx Np1 Np2 Np3) (D.Loc g1 g2 r) K)
    (hin : ∀ r, Bolt.CoupledInputsHold (z := D.sizes Np1 Np2 Np3 Ns g1 g2 r) c (x r) (cb r)) (dt : K) (F : R → AfArray K)
    (hF : D.Shaped g1 g2 (Np1 * Np2 * Np3) Ns F) (σ σ' : R → ArrFieldState K) (hσ : ∀ r, (D.sizes Np1 Np2 Np3 Ns g1 g2 r).FitsState (σ r))
    (h : ArrFieldPhase red D g1 g2 Np1 Np2 Np3 Ns o c x dt F σ σ') :
    (∀ r, (D.sizes Np1 Np2 Np3 Ns g1 g2 r).FitsState (σ' r)) ∧
      Mach.FieldPhase (arrSums Np1 Np2 Np3 Ns red) D g1 g2 o user c cb dt (D.cellsOf g1 g2 Np1 Np2 Np3 Ns F) (D.stateOf g1 g2 Np1 Np2 Np3 Ns σ)
        (D.stateOf g1 g2 Np1 Np2 Np3 Ns σ') := by
  have inst1 : ∀ r, NeZero (D.sizes Np1 Np2 Np3 Ns g1 g2 r).M1 := fun r => ⟨by have := D.pos1 r; simp only [GridSizes.M1, Decomp.sizes]; omega⟩
  have inst2 : ∀ r, NeZero (D.sizes Np1 Np2 Np3 Ns g1 g2 r).M2 := fun r => ⟨by have := D.pos2 r; simp only [GridSizes.M2, Decomp.sizes]; omega⟩
  rcases h with ⟨he, hfl, hq, Y', hs, hst⟩ | ⟨hn, rfl⟩
  · obtain ⟨m, hm⟩ := hi.recQ
    obtain ⟨sY, eY⟩ := C115_fdtd_step hz h1 h2 user c.eps c.mu c.dq1 c.dq2 dt c.hybrid _ _ _
      (fun r => Mach.kineticCurrents (arrSums Np1 Np2 Np3 Ns red) (D.locCfg g1 g2 c r) m (cb r).Cq1 (cb r).Cq2 ((D.sizes Np1 Np2 Np3 Ns g1 g2 r).cells (F r)))
      (fun r => arrCurrents_cells red hone hax he hq hp hm (hin r) (hF r)) _ _ (fun r => (hσ r).1) hs
    have hpr : ∀ r, (D.locCfg g1 g2 c r).fieldParams = ⟨(1, 0), (0, 1), c.dq1, c.dq2, c.eps, c.mu, c.hybrid⟩ := fun r => rfl
    have hσ' : ∀ r, (D.sizes Np1 Np2 Np3 Ns g1 g2 r).FitsState (σ' r) ∧ D.stateOf g1 g2 Np1 Np2 Np3 Ns σ' r =
        Mach.storeFields (D.locCfg g1 g2 c r).fieldParams dt (D.emOf g1 g2 Np1 Np2 Np3 Ns Y' r) (D.stateOf g1 g2 Np1 Np2 Np3 Ns σ r) := by
      intro r
      obtain ⟨s', a, b, e⟩ := store_cells (z := D.sizes Np1 Np2 Np3 Ns g1 g2 r) (hσ r) (sY r) dt (D.locCfg g1 g2 c r).fieldParams rfl rfl
      have : σ' r = s' := by injection (hst r).symm.trans a
      subst this
      exact ⟨b, e⟩
    refine ⟨fun r => (hσ' r).1, .inl ⟨he, hfl, hq, m, hm, D.emOf g1 g2 Np1 Np2 Np3 Ns Y', ?_, fun r => (hσ' r).2⟩⟩
    exact eY
  · exact ⟨hσ, .inr ⟨hn, rfl⟩⟩

/-- C115 (slope): a coupled slope evaluation on the arrays of all processes, followed by an advance, is that of the cell model. -/
theorem C115_slope (hone : ∀ u : K, lit 1 ⊠ u = u) (hz : D.SizesOk (D.sizes Np1 Np2 Np3 Ns g1 g2) g1 g2) {o : BCOptions}
    (h1 : PeriodicEnds (o.name .left) (o.name .right) N1) (h2 : PeriodicEnds (o.name .bottom) (o.name .top) N2) (user : ∀ r, D.LocFieldBCs g1 g2 r K)
    {c : CoupledConfig (Fin Ns) (AslPIdx Np1 Np2 Np3) (ZMod N1 × ZMod N2) K} (hax : c.ax = gridAxes Np1 Np2 Np3 N1 N2) (hi : Implemented c)
    (hon : c.solverMethodInQ = "FVM" ∨ (c.solverMethodInP = "FVM" ∧ c.fieldsEnabled = true)) (x : R → ArrCallbacks K)
    (cb : ∀ r, CoupledCallbacks (Fin Ns) (AslPIdx Np1 Np2 Np3) (D.Loc g1 g2 r) K)
    (hin : ∀ r, Bolt.CoupledInputsHold (z := D.sizes Np1 Np2 Np3 Ns g1 g2 r) c (x r) (cb r)) (dt h : K) (A F C : R → AfArray K)
    (hA : D.Shaped g1 g2 (Np1 * Np2 * Np3) Ns A) (hF : D.Shaped g1 g2 (Np1 * Np2 * Np3) Ns F) (σ σ' : R → ArrFieldState K)
    (hσ : ∀ r, (D.sizes Np1 Np2 Np3 Ns g1 g2 r).FitsState (σ r)) (k : R → PyExpr K)
    (hk : ArrSlopeCoupled red D g1 g2 Np1 Np2 Np3 Ns o c x dt F σ k σ') (hC : ∀ r, arrAdvance (.ok (.arr (A r))) (k r) h = .ok (.arr (C r))) :
    ∃ kk, Mach.SlopeCoupled (arrSums Np1 Np2 Np3 Ns red) D g1 g2 o user c cb dt (D.cellsOf g1 g2 Np1 Np2 Np3 Ns F) (D.stateOf g1 g2 Np1 Np2 Np3 Ns σ) kk
        (D.stateOf g1 g2 Np1 Np2 Np3 Ns σ') ∧ (∀ r, (D.sizes Np1 Np2 Np3 Ns g1 g2 r).FitsState (σ' r)) ∧ D.Shaped g1 g2 (Np1 * Np2 * Np3) Ns C ∧
      D.cellsOf g1 g2 Np1 Np2 Np3 Ns C = fun r s p l => D.cellsOf g1 g2 Np1 Np2 Np3 Ns A r s p l ⊞ kk r s p l ⊠ h := by
  have inst1 : ∀ r, NeZero (D.sizes Np1 Np2 Np3 Ns g1 g2 r).M1 := fun r => ⟨by have := D.pos1 r; simp only [GridSizes.M1, Decomp.sizes]; omega⟩
  have inst2 : ∀ r, NeZero (D.sizes Np1 Np2 Np3 Ns g1 g2 r).M2 := fun r => ⟨by have := D.pos2 r; simp only [GridSizes.M2, Decomp.sizes]; omega⟩
  have i1 : ∀ r, NeZero (D.sizes Np1 Np2 Np3 Ns g1 g2 r).Np1 := fun _ => ‹NeZero Np1›
  have i2 : ∀ r, NeZero (D.sizes Np1 Np2 Np3 Ns g1 g2 r).Np2 := fun _ => ‹NeZero Np2›
  have i3 : ∀ r, NeZero (D.sizes Np1 Np2 Np3 Ns g1 g2 r).Np3 := fun _ => ‹NeZero Np3›
  have i4 : ∀ r, NeZero (D.sizes Np1 Np2 Np3 Ns g1 g2 r).Ns := fun _ => ‹NeZero Ns›
  obtain ⟨mq, hmq⟩ := hi.recQ
  obtain ⟨mp, hmp⟩ := hi.recP
  have hax' : ∀ r, (D.locCfg g1 g2 c r).ax = (D.sizes Np1 Np2 Np3 Ns g1 g2 r).axes := by
    intro r; simp only [Decomp.locCfg, hax]; rfl
  -- one slope and one advance on a process
  have one : ∀ r (E1 E2 E3 : Fin 6 → PyExpr K) (F1 F2 F3 : Dist (Fin Ns) (AslPIdx Np1 Np2 Np3) (D.Loc g1 g2 r) K),
      (c.solverMethodInP = "FVM" ∧ c.fieldsEnabled = true → HoldsDist (z := D.sizes Np1 Np2 Np3 Ns g1 g2 r) ((x r).Cp1 E1) F1 ∧
        HoldsDist (z := D.sizes Np1 Np2 Np3 Ns g1 g2 r) ((x r).Cp2 E2) F2 ∧ HoldsDist (z := D.sizes Np1 Np2 Np3 Ns g1 g2 r) ((x r).Cp3 E3) F3) →
      k r = arrDfdt (D.sizes Np1 Np2 Np3 Ns g1 g2 r) c.toFVMConfig (arrInputs (x r) E1 E2 E3 (F r)) (.ok (.arr (F r))) →
      ∃ kk, Mach.dfdtFVM (D.locCfg g1 g2 c r).ax c.toFVMConfig ⟨(cb r).Cq1, (cb r).Cq2, F1, F2, F3, (cb r).source⟩
          (D.cellsOf g1 g2 Np1 Np2 Np3 Ns F r) = .ok kk ∧ (D.sizes Np1 Np2 Np3 Ns g1 g2 r).Fits (C r) ∧
        D.cellsOf g1 g2 Np1 Np2 Np3 Ns C r = fun s p l => D.cellsOf g1 g2 Np1 Np2 Np3 Ns A r s p l ⊞ kk s p l ⊠ h := by
    intro r E1 E2 E3 F1 F2 F3 hE hkr
    have hd := Mach.dfdtFVM_eq (D.locCfg g1 g2 c r).ax c.toFVMConfig (mq := mq) (mp := mp) ⟨fun _ => hmq, fun _ => hmp⟩
      ⟨(cb r).Cq1, (cb r).Cq2, F1, F2, F3, (cb r).source⟩ (D.cellsOf g1 g2 Np1 Np2 Np3 Ns F r)
    refine ⟨_, hd, ?_⟩
    have hd' := hd
    rw [hax'] at hd'
    have s := (C113_slope (z := D.sizes Np1 Np2 Np3 Ns g1 g2 r) hone c.toFVMConfig (arrInputs (x r) E1 E2 E3 (F r))
      ⟨(cb r).Cq1, (cb r).Cq2, F1, F2, F3, (cb r).source⟩ (.ok (.arr (F r))) _ (holdsDist_cells (hF r)) (coupled_inputs (hin r) (hF r) E1 E2 E3 F1 F2 F3 hE)
      hon).1 _ hd'
    have s := (congrArg (fun e => HoldsDist (z := D.sizes Np1 Np2 Np3 Ns g1 g2 r) e _) hkr.symm).mp s
    have w := (holdsDist_cells (z := D.sizes Np1 Np2 Np3 Ns g1 g2 r) (hA r)).bin add (s.numR false mul h)
    have w' : HoldsDist (z := D.sizes Np1 Np2 Np3 Ns g1 g2 r) (.ok (.arr (C r)))
        (fun s p l => D.cellsOf g1 g2 Np1 Np2 Np3 Ns A r s p l ⊞
          Mach.slopeValue (D.sizes Np1 Np2 Np3 Ns g1 g2 r).axes c.toFVMConfig mq mp ⟨(cb r).Cq1, (cb r).Cq2, F1, F2, F3, (cb r).source⟩
            (D.cellsOf g1 g2 Np1 Np2 Np3 Ns F r) s p l ⊠ h) := by
      rw [← hC r]; exact w
    have := w'.eq_cells
    rw [hax']
    exact ⟨this.1, this.2.symm⟩
  unfold ArrSlopeCoupled at hk
  unfold Mach.SlopeCoupled
  by_cases hp : c.solverMethodInP = "FVM" ∧ c.fieldsEnabled = true
  · rw [if_pos hp] at hk
    obtain ⟨σ1, hph, hrest⟩ := hk
    obtain ⟨f1, p1⟩ := C115_field_phase red hone hz h1 h2 user hax hi hp x cb hin dt F hF σ σ1 hσ hph
    have hr : ∀ r, ∃ kk, Mach.dfdtFVM (D.locCfg g1 g2 c r).ax c.toFVMConfig
        ⟨(cb r).Cq1, (cb r).Cq2, (cb r).Cp1 (getFields c.fieldsSolver c.solverMethodInP (D.stateOf g1 g2 Np1 Np2 Np3 Ns σ1 r)).1,
          (cb r).Cp2 (getFields c.fieldsSolver c.solverMethodInP (getFields c.fieldsSolver c.solverMethodInP (D.stateOf g1 g2 Np1 Np2 Np3 Ns σ1 r)).2).1,
          (cb r).Cp3 (getFields c.fieldsSolver c.solverMethodInP (getFields c.fieldsSolver c.solverMethodInP
            (getFields c.fieldsSolver c.solverMethodInP (D.stateOf g1 g2 Np1 Np2 Np3 Ns σ1 r)).2).2).1, (cb r).source⟩
          (D.cellsOf g1 g2 Np1 Np2 Np3 Ns F r) = .ok kk ∧
        D.stateOf g1 g2 Np1 Np2 Np3 Ns σ' r = (getFields c.fieldsSolver c.solverMethodInP (getFields c.fieldsSolver c.solverMethodInP
            (getFields c.fieldsSolver c.solverMethodInP (D.stateOf g1 g2 Np1 Np2 Np3 Ns σ1 r)).2).2).2 ∧
        (D.sizes Np1 Np2 Np3 Ns g1 g2 r).FitsState (σ' r) ∧ (D.sizes Np1 Np2 Np3 Ns g1 g2 r).Fits (C r) ∧
        D.cellsOf g1 g2 Np1 Np2 Np3 Ns C r = fun s p l => D.cellsOf g1 g2 Np1 Np2 Np3 Ns A r s p l ⊞ kk s p l ⊠ h := by
      intro r
      obtain ⟨hkr, hσr⟩ := hrest r
      obtain ⟨a1, b1, e1⟩ := getFields_cells (f1 r) c.fieldsSolver c.solverMethodInP
      obtain ⟨a2, b2, e2⟩ := getFields_cells a1 c.fieldsSolver c.solverMethodInP
      obtain ⟨a3, b3, e3⟩ := getFields_cells a2 c.fieldsSolver c.solverMethodInP
      rw [b1] at b2 e2
      rw [b2] at b3 e3
      have hf1 := (hin r).force hp _ _ e1
      have hf2 := (hin r).force hp _ _ e2
      have hf3 := (hin r).force hp _ _ e3
      obtain ⟨kk, u, v, w⟩ := one r _ _ _ _ _ _ (fun _ => ⟨hf1.1, hf2.2.1, hf3.2.2⟩) hkr
      refine ⟨kk, u, ?_, ?_, v, w⟩
      · exact (congrArg _ hσr).trans b3
      · rw [hσr]; exact a3
    choose kk e1 e2 e3 e4 e5 using hr
    refine ⟨kk, ?_, e3, e4, funext e5⟩
    rw [if_pos hp]
    exact ⟨_, p1, fun r => ⟨e1 r, e2 r⟩⟩
  · rw [if_neg hp] at hk
    obtain ⟨hrest, rfl⟩ := hk
    have hr := fun r => one r (fun _ => const 0) (fun _ => const 0) (fun _ => const 0) (fun _ _ _ => lit 0) (fun _ _ _ => lit 0) (fun _ _ _ => lit 0)
      (fun h => absurd h hp) (hrest r)
    choose kk e1 e4 e5 using hr
    refine ⟨kk, ?_, hσ, e4, funext e5⟩
    rw [if_neg hp]
    exact ⟨e1, rfl⟩

/-- C115 (one coupled step): on any number of processes, a coupled step on the memory blocks of the distribution and of the fields is a step of the cell model. -/
theorem C115_coupled_step (hone : ∀ u : K, lit 1 ⊠ u = u) (hz : D.SizesOk (D.sizes Np1 Np2 Np3 Ns g1 g2) g1 g2) {o : BCOptions}
    (h1 : PeriodicEnds (o.name .left) (o.name .right) N1) (h2 : PeriodicEnds (o.name .bottom) (o.name .top) N2) (user : ∀ r, D.LocFieldBCs g1 g2 r K)
    {c : CoupledConfig (Fin Ns) (AslPIdx Np1 Np2 Np3) (ZMod N1 × ZMod N2) K} (hax : c.ax = gridAxes Np1 Np2 Np3 N1 N2) (hi : Implemented c)
    (hon : c.solverMethodInQ = "FVM" ∨ (c.solverMethodInP = "FVM" ∧ c.fieldsEnabled = true)) (dt : K) (x : Fin 2 → R → ArrCallbacks K)
    (cb : Fin 2 → ∀ r, CoupledCallbacks (Fin Ns) (AslPIdx Np1 Np2 Np3) (D.Loc g1 g2 r) K)
    (hin : D.CoupledInputsHold g1 g2 Np1 Np2 Np3 Ns c x cb) (F F' : R → AfArray K) (hF : D.Shaped g1 g2 (Np1 * Np2 * Np3) Ns F)
    (σ σ' : R → ArrFieldState K) (hσ : ∀ r, (D.sizes Np1 Np2 Np3 Ns g1 g2 r).FitsState (σ r))
    (h : ArrStepCoupled red D g1 g2 Np1 Np2 Np3 Ns o c dt x F σ F' σ') :
    D.Shaped g1 g2 (Np1 * Np2 * Np3) Ns F' ∧ (∀ r, (D.sizes Np1 Np2 Np3 Ns g1 g2 r).FitsState (σ' r)) ∧
      Mach.StepCoupled (arrSums Np1 Np2 Np3 Ns red) D g1 g2 o user c dt cb (D.cellsOf g1 g2 Np1 Np2 Np3 Ns F) (D.stateOf g1 g2 Np1 Np2 Np3 Ns σ)
        (D.cellsOf g1 g2 Np1 Np2 Np3 Ns F') (D.stateOf g1 g2 Np1 Np2 Np3 Ns σ') := by
  obtain ⟨st0, st1, F0, H, Fh, k0, k1, σh, c0, s0, a0, c1, s1, a1⟩ := h
  obtain ⟨t0, e0⟩ := communicates_cells hz hF c0
  obtain ⟨kk0, u0, v0, w0, x0⟩ := C115_slope red hone hz h1 h2 user hax hi hon (x 0) (cb 0) (hin 0) dt _ F0 F0 H t0 t0 σ σh hσ k0 s0 a0
  obtain ⟨t1, e1⟩ := communicates_cells hz w0 c1
  obtain ⟨kk1, u1, v1, w1, x1⟩ := C115_slope red hone hz h1 h2 user hax hi hon (x 1) (cb 1) (hin 1) dt _ F0 Fh F' t0 t1 σh σ' v0 k1 s1 a1
  refine ⟨w1, v1, fun r s p l => lit 0, fun r s p l => lit 0, kk0, kk1, D.stateOf g1 g2 Np1 Np2 Np3 Ns σh, ?_⟩
  dsimp only
  rw [← e0 fun r s p l => lit 0, ← x0, ← e1 fun r s p l => lit 0]
  exact ⟨u0, u1, x1⟩

/-- C115 (coupled runs): the same for any number of steps. -/
theorem C115_coupled_run (hone : ∀ u : K, lit 1 ⊠ u = u) (hz : D.SizesOk (D.sizes Np1 Np2 Np3 Ns g1 g2) g1 g2) {o : BCOptions}
    (h1 : PeriodicEnds (o.name .left) (o.name .right) N1) (h2 : PeriodicEnds (o.name .bottom) (o.name .top) N2) (user : ∀ r, D.LocFieldBCs g1 g2 r K)
    {c : CoupledConfig (Fin Ns) (AslPIdx Np1 Np2 Np3) (ZMod N1 × ZMod N2) K} (hax : c.ax = gridAxes Np1 Np2 Np3 N1 N2) (hi : Implemented c)
    (hon : c.solverMethodInQ = "FVM" ∨ (c.solverMethodInP = "FVM" ∧ c.fieldsEnabled = true))
    (steps : List (K × (Fin 2 → R → ArrCallbacks K) × (Fin 2 → ∀ r, CoupledCallbacks (Fin Ns) (AslPIdx Np1 Np2 Np3) (D.Loc g1 g2 r) K)))
    (hin : ∀ st ∈ steps, D.CoupledInputsHold g1 g2 Np1 Np2 Np3 Ns c st.2.1 st.2.2) (F F' : R → AfArray K) (hF : D.Shaped g1 g2 (Np1 * Np2 * Np3) Ns F)
    (σ σ' : R → ArrFieldState K) (hσ : ∀ r, (D.sizes Np1 Np2 Np3 Ns g1 g2 r).FitsState (σ r))
    (h : ArrRunCoupled red D g1 g2 Np1 Np2 Np3 Ns o c (steps.map fun st => (st.1, st.2.1)) F σ F' σ') :
    D.Shaped g1 g2 (Np1 * Np2 * Np3) Ns F' ∧ (∀ r, (D.sizes Np1 Np2 Np3 Ns g1 g2 r).FitsState (σ' r)) ∧
      Mach.RunCoupled (arrSums Np1 Np2 Np3 Ns red) D g1 g2 o user c (steps.map fun st => (st.1, st.2.2)) (D.cellsOf g1 g2 Np1 Np2 Np3 Ns F)
        (D.stateOf g1 g2 Np1 Np2 Np3 Ns σ) (D.cellsOf g1 g2 Np1 Np2 Np3 Ns F') (D.stateOf g1 g2 Np1 Np2 Np3 Ns σ') := by
  induction steps generalizing F σ with
  | nil =>
    simp only [List.map_nil, ArrRunCoupled] at h
    obtain ⟨rfl, rfl⟩ := h
    exact ⟨hF, hσ, rfl, rfl⟩
  | cons st rest ih =>
    obtain ⟨dt, x, cb⟩ := st
    obtain ⟨G, τ, hG, hR⟩ := h
    obtain ⟨sG, sτ, eG⟩ := C115_coupled_step red hone hz h1 h2 user hax hi hon dt x cb (hin (dt, x, cb) (by simp)) F G hF σ τ hσ hG
    obtain ⟨s, t, e⟩ := ih (fun st hst => hin st (by simp [hst])) G sG τ sτ hR
    exact ⟨s, t, _, _, eG, e⟩

/-- A file holding the bulk of blocks whose cells are `f'`. -/
theorem dist_file (hz : D.SizesOk (D.sizes Np1 Np2 Np3 Ns g1 g2) g1 g2) {F' : R → AfArray K} (sF' : D.Shaped g1 g2 (Np1 * Np2 * Np3) Ns F')
    {f' : Dist (Fin Ns) (AslPIdx Np1 Np2 Np3) (ZMod N1 × ZMod N2) K} (hH : D.Holds g1 g2 (D.cellsOf g1 g2 Np1 Np2 Np3 Ns F') f') {file : Vec K}
    (hd : D.DumpsTo (D.sizes Np1 Np2 Np3 Ns g1 g2) (Np1 * Np2 * Np3) Ns F' file) :
    file.len = Np1 * Np2 * Np3 * Ns * (N1 * N2) ∧ ∀ (p1 p2 p3 s q1 q2 : ℕ) (hs : s < Ns), p1 < Np1 → p2 < Np2 → p3 < Np3 → q1 < N1 → q2 < N2 →
      file.data ((p1 + Np1 * (p2 + Np2 * p3)) + Np1 * Np2 * Np3 * (s + Ns * (q1 + N1 * q2))) =
        f' ⟨s, hs⟩ ((p1 : ZMod Np1), (p2 : ZMod Np2), (p3 : ZMod Np3)) ((q1 : ZMod N1), (q2 : ZMod N2)) := by
  let z0 : GridSizes := ⟨Np1, Np2, Np3, Ns, 0, 0, 0, 0⟩
  let u : ℕ → ℕ → ℕ → ℕ → K := fun i j x y => if hj : j < Ns then f' ⟨j, hj⟩ (z0.unrow i) ((x : ZMod N1), (y : ZMod N2)) else lit 0
  have hu : D.Bulk g1 g2 (Np1 * Np2 * Np3) Ns F' u := by
    intro r i j a b hi hj ha hb
    have e1 : ((a + g1 : ℕ) : ZMod (D.n1 r + 2 * g1)).val = a + g1 := ZMod.val_natCast_of_lt (by omega)
    have e2 : ((b + g2 : ℕ) : ZMod (D.n2 r + 2 * g2)).val = b + g2 := ZMod.val_natCast_of_lt (by omega)
    have hl := hH r ⟨j, hj⟩ (z0.unrow i) (((a + g1 : ℕ) : ZMod (D.n1 r + 2 * g1)), ((b + g2 : ℕ) : ZMod (D.n2 r + 2 * g2))) (by
      unfold Decomp.Interior; dsimp only; rw [e1, e2]; omega)
    have hlhs : D.cellsOf g1 g2 Np1 Np2 Np3 Ns F' r ⟨j, hj⟩ (z0.unrow i)
        (((a + g1 : ℕ) : ZMod (D.n1 r + 2 * g1)), ((b + g2 : ℕ) : ZMod (D.n2 r + 2 * g2))) = (F' r).get i j (a + g1) (b + g2) := by
      have hr : z0.row (z0.unrow i) = i := row_unrow (z := z0) hi
      have : D.cellsOf g1 g2 Np1 Np2 Np3 Ns F' r ⟨j, hj⟩ (z0.unrow i)
        (((a + g1 : ℕ) : ZMod (D.n1 r + 2 * g1)), ((b + g2 : ℕ) : ZMod (D.n2 r + 2 * g2))) = (F' r).get (z0.row (z0.unrow i)) j
          (((a + g1 : ℕ) : ZMod (D.n1 r + 2 * g1))).val (((b + g2 : ℕ) : ZMod (D.n2 r + 2 * g2))).val := rfl
      rw [this, e1, e2, hr]
    rw [← hlhs, hl]
    simp only [u, dif_pos hj, Decomp.toGlob, globCoord, e1, e2]
    congr 2 <;> (push_cast; ring)
  obtain ⟨hlen, hfile⟩ := D.C38_file_contents _ g1 g2 _ _ F' file hz sF' hd u hu
  refine ⟨hlen, fun p1 p2 p3 s q1 q2 hs h1 h2 h3 hq1 hq2 => ?_⟩
  have hrow : p1 + Np1 * (p2 + Np2 * p3) < Np1 * Np2 * Np3 := by
    have := AfArray.offset_lt (d3 := 1) (l := 0) h1 h2 h3 Nat.one_pos
    simpa [AfArray.offset] using this
  rw [hfile _ s q1 q2 hrow hs hq1 hq2]
  simp only [u, dif_pos hs]
  congr 1
  simp only [z0, GridSizes.unrow]
  rw [div_of_lt h1, div_of_lt h2]
  ext <;> simp

/-- C115 (from file to file): start from blocks whose bulk holds the distribution and the fields of the whole grid, make any number of coupled steps on any number
of processes, dump the distribution and the fields. Both files list, bit for bit, what the run of the cell formulas on the whole grid computes. -/
theorem C115_dumped_coupled_run (hone : ∀ u : K, lit 1 ⊠ u = u) (hz : D.SizesOk (D.sizes Np1 Np2 Np3 Ns g1 g2) g1 g2) {o : BCOptions}
    {c : CoupledConfig (Fin Ns) (AslPIdx Np1 Np2 Np3) (ZMod N1 × ZMod N2) K} (hc : GridConfig g1 g2 o c)
    (hax : c.ax = gridAxes Np1 Np2 Np3 N1 N2) (hi : Implemented c)
    (hon : c.solverMethodInQ = "FVM" ∨ (c.solverMethodInP = "FVM" ∧ c.fieldsEnabled = true))
    (steps : List (K × (Fin 2 → R → ArrCallbacks K) × (Fin 2 → ∀ r, CoupledCallbacks (Fin Ns) (AslPIdx Np1 Np2 Np3) (D.Loc g1 g2 r) K) ×
      (Fin 2 → CoupledCallbacks (Fin Ns) (AslPIdx Np1 Np2 Np3) (ZMod N1 × ZMod N2) K)))
    (hin : ∀ st ∈ steps, D.CoupledInputsHold g1 g2 Np1 Np2 Np3 Ns c st.2.1 st.2.2.1)
    (hcb : ∀ st ∈ steps, ∀ k r, D.CoupledAgree g1 g2 r (st.2.2.1 k r) (st.2.2.2 k)) (F F' : R → AfArray K)
    (hF : D.Shaped g1 g2 (Np1 * Np2 * Np3) Ns F) (σ σ' : R → ArrFieldState K) (hσ : ∀ r, (D.sizes Np1 Np2 Np3 Ns g1 g2 r).FitsState (σ r))
    (st st' : Dist (Fin Ns) (AslPIdx Np1 Np2 Np3) (ZMod N1 × ZMod N2) K × FieldState (ZMod N1 × ZMod N2) K)
    (hf : D.Holds g1 g2 (D.cellsOf g1 g2 Np1 Np2 Np3 Ns F) st.1) (hs : D.FieldsHold g1 g2 (D.stateOf g1 g2 Np1 Np2 Np3 Ns σ) st.2)
    (h : ArrRunCoupled red D g1 g2 Np1 Np2 Np3 Ns o c (steps.map fun st => (st.1, st.2.1)) F σ F' σ')
    (h' : Mach.runCoupled (arrSums Np1 Np2 Np3 Ns red) c (steps.map fun st => (st.1, st.2.2.2)) st = .ok st')
    (file fields : Vec K) (hd : D.DumpsTo (D.sizes Np1 Np2 Np3 Ns g1 g2) (Np1 * Np2 * Np3) Ns F' file)
    (hdE : D.DumpsTo (D.sizes Np1 Np2 Np3 Ns g1 g2) 6 1 (fun r => (σ' r).yee) fields) :
    (file.len = Np1 * Np2 * Np3 * Ns * (N1 * N2) ∧ ∀ (p1 p2 p3 s q1 q2 : ℕ) (hs : s < Ns), p1 < Np1 → p2 < Np2 → p3 < Np3 → q1 < N1 → q2 < N2 →
      file.data ((p1 + Np1 * (p2 + Np2 * p3)) + Np1 * Np2 * Np3 * (s + Ns * (q1 + N1 * q2))) =
        st'.1 ⟨s, hs⟩ ((p1 : ZMod Np1), (p2 : ZMod Np2), (p3 : ZMod Np3)) ((q1 : ZMod N1), (q2 : ZMod N2))) ∧
    (fields.len = 6 * (N1 * N2) ∧ ∀ (i : Fin 6) (q1 q2 : ℕ), q1 < N1 → q2 < N2 →
      fields.data (i + 6 * (q1 + N1 * q2)) = st'.2.yee.comp i ((q1 : ZMod N1), (q2 : ZMod N2))) := by
  obtain ⟨sF', sσ', hrun⟩ := C115_coupled_run red hone hz hc.ends1 hc.ends2 (fun _ _ _ f => f) hax hi hon (steps.map fun st => (st.1, st.2.1, st.2.2.1))
    (by intro st hst; simp only [List.mem_map] at hst; obtain ⟨t, ht, rfl⟩ := hst; exact hin t ht) F F' hF σ σ' hσ (by rw [List.map_map]; exact h)
  obtain ⟨hH, hE⟩ := C112_bitwise_decomposition_independence (D := D) (g1 := g1) (g2 := g2) (arrSums Np1 Np2 Np3 Ns red) hc _
    (steps.map fun st => (st.1, st.2.2.1, st.2.2.2))
    (by intro st hst; simp only [List.mem_map] at hst; obtain ⟨t, ht, rfl⟩ := hst; exact hcb t ht) _ _ _ _ st st' hf hs
    (by rw [List.map_map] at hrun ⊢; exact hrun) (by rw [List.map_map]; exact h')
  exact ⟨dist_file hz sF' hH hd, em_file hz (fun r => (sσ' r).1) hE.yee hdE⟩

/-- C115 (such steps exist): from any blocks of the right shapes, when the flag is the same on all processes, the step completes without an exception and leaves the
flag the same on all processes. -/
theorem C115_coupled_step_succeeds (hone : ∀ u : K, lit 1 ⊠ u = u) (hz : D.SizesOk (D.sizes Np1 Np2 Np3 Ns g1 g2) g1 g2) {o : BCOptions}
    (hw : WidthsMatch g1 g2 o) {c : CoupledConfig (Fin Ns) (AslPIdx Np1 Np2 Np3) (ZMod N1 × ZMod N2) K} (hax : c.ax = gridAxes Np1 Np2 Np3 N1 N2)
    (hi : Implemented c) (hon : c.solverMethodInQ = "FVM" ∨ (c.solverMethodInP = "FVM" ∧ c.fieldsEnabled = true)) (dt : K) (x : Fin 2 → R → ArrCallbacks K)
    (cb : Fin 2 → ∀ r, CoupledCallbacks (Fin Ns) (AslPIdx Np1 Np2 Np3) (D.Loc g1 g2 r) K)
    (hin : D.CoupledInputsHold g1 g2 Np1 Np2 Np3 Ns c x cb) (F : R → AfArray K) (hF : D.Shaped g1 g2 (Np1 * Np2 * Np3) Ns F)
    (σ : R → ArrFieldState K) (hσ : ∀ r, (D.sizes Np1 Np2 Np3 Ns g1 g2 r).FitsState (σ r)) (b : Bool) (hb : ∀ r, (σ r).flag = b) :
    ∃ F' σ' b', ArrStepCoupled red D g1 g2 Np1 Np2 Np3 Ns o c dt x F σ F' σ' ∧ ∀ r, (σ' r).flag = b' := by
  have inst1 : ∀ r, NeZero (D.sizes Np1 Np2 Np3 Ns g1 g2 r).M1 := fun r => ⟨by have := D.pos1 r; simp only [GridSizes.M1, Decomp.sizes]; omega⟩
  have inst2 : ∀ r, NeZero (D.sizes Np1 Np2 Np3 Ns g1 g2 r).M2 := fun r => ⟨by have := D.pos2 r; simp only [GridSizes.M2, Decomp.sizes]; omega⟩
  have i1 : ∀ r, NeZero (D.sizes Np1 Np2 Np3 Ns g1 g2 r).Np1 := fun _ => ‹NeZero Np1›
  have i2 : ∀ r, NeZero (D.sizes Np1 Np2 Np3 Ns g1 g2 r).Np2 := fun _ => ‹NeZero Np2›
  have i3 : ∀ r, NeZero (D.sizes Np1 Np2 Np3 Ns g1 g2 r).Np3 := fun _ => ‹NeZero Np3›
  have i4 : ∀ r, NeZero (D.sizes Np1 Np2 Np3 Ns g1 g2 r).Ns := fun _ => ‹NeZero Ns›
  let st : R → Vec K := fun _ => ⟨0, fun _ => lit 0⟩
  -- a synchronisation of the field arrays
  have send : ∀ Y : R → AfArray K, (∀ r, (D.sizes Np1 Np2 Np3 Ns g1 g2 r).FitsEM (Y r)) → ∃ Y0, D.Communicates (D.sizes Np1 Np2 Np3 Ns g1 g2) g1 g2
      (petscAxisFields o.nGhost (o.name .left)).1 (petscAxisFields o.nGhost (o.name .bottom)).1 6 1 st Y Y0 ∧
      ∀ r, (D.sizes Np1 Np2 Np3 Ns g1 g2 r).FitsEM (Y0 r) := by
    intro Y hY
    obtain ⟨Y0, c0⟩ := D.C25_communicates (D.sizes Np1 Np2 Np3 Ns g1 g2) g1 g2 _ _ 6 1 st Y hz hY
    exact ⟨Y0, c0, fun r => (communicates_em hz hY c0).1 r⟩
  have slope : ∀ (k : Fin 2) (h : K) (A B : R → AfArray K) (τ : R → ArrFieldState K) (b : Bool), D.Shaped g1 g2 (Np1 * Np2 * Np3) Ns A →
      D.Shaped g1 g2 (Np1 * Np2 * Np3) Ns B → (∀ r, (D.sizes Np1 Np2 Np3 Ns g1 g2 r).FitsState (τ r)) → (∀ r, (τ r).flag = b) →
      ∃ kk τ' C b', ArrSlopeCoupled red D g1 g2 Np1 Np2 Np3 Ns o c (x k) dt B τ kk τ' ∧ (∀ r, arrAdvance (.ok (.arr (A r))) (kk r) h = .ok (.arr (C r))) ∧
        D.Shaped g1 g2 (Np1 * Np2 * Np3) Ns C ∧ (∀ r, (D.sizes Np1 Np2 Np3 Ns g1 g2 r).FitsState (τ' r)) ∧ ∀ r, (τ' r).flag = b' := by
    intro k h A B τ b hA hB hτ hb
    obtain ⟨mq, hmq⟩ := hi.recQ
    obtain ⟨mp, hmp⟩ := hi.recP
    have one : ∀ r (E1 E2 E3 : Fin 6 → PyExpr K) (F1 F2 F3 : Dist (Fin Ns) (AslPIdx Np1 Np2 Np3) (D.Loc g1 g2 r) K),
        (c.solverMethodInP = "FVM" ∧ c.fieldsEnabled = true → HoldsDist (z := D.sizes Np1 Np2 Np3 Ns g1 g2 r) ((x k r).Cp1 E1) F1 ∧
          HoldsDist (z := D.sizes Np1 Np2 Np3 Ns g1 g2 r) ((x k r).Cp2 E2) F2 ∧ HoldsDist (z := D.sizes Np1 Np2 Np3 Ns g1 g2 r) ((x k r).Cp3 E3) F3) →
        ∃ C, (D.sizes Np1 Np2 Np3 Ns g1 g2 r).Fits C ∧ arrAdvance (.ok (.arr (A r)))
          (arrDfdt (D.sizes Np1 Np2 Np3 Ns g1 g2 r) c.toFVMConfig (arrInputs (x k r) E1 E2 E3 (B r)) (.ok (.arr (B r)))) h = .ok (.arr C) := by
      intro r E1 E2 E3 F1 F2 F3 hE
      have s := (C113_slope (z := D.sizes Np1 Np2 Np3 Ns g1 g2 r) hone c.toFVMConfig (arrInputs (x k r) E1 E2 E3 (B r))
        ⟨(cb k r).Cq1, (cb k r).Cq2, F1, F2, F3, (cb k r).source⟩ (.ok (.arr (B r))) _ (holdsDist_cells (hB r))
        (coupled_inputs (hin k r) (hB r) E1 E2 E3 F1 F2 F3 hE) hon).1 _ (Mach.dfdtFVM_eq _ _ (mq := mq) (mp := mp) ⟨fun _ => hmq, fun _ => hmp⟩ _ _)
      obtain ⟨C, hC, h0, h1, h2, h3, -⟩ := (holdsDist_cells (z := D.sizes Np1 Np2 Np3 Ns g1 g2 r) (hA r)).bin add (s.numR false mul h)
      exact ⟨C, ⟨h0, h1, h2, h3⟩, hC⟩
    by_cases hp : c.solverMethodInP = "FVM" ∧ c.fieldsEnabled = true
    · have phase : ∃ τ1, ArrFieldPhase red D g1 g2 Np1 Np2 Np3 Ns o c (x k) dt B τ τ1 ∧ (∀ r, (D.sizes Np1 Np2 Np3 Ns g1 g2 r).FitsState (τ1 r)) ∧
          ∀ r, (τ1 r).flag = b := by
        by_cases he : c.fieldsType = "electrodynamic" ∧ b = false
        · obtain ⟨Y0, c0, f0⟩ := send (fun r => (τ r).yee) fun r => (hτ r).1
          have e := fun r => arrEvolveE_cells (z := D.sizes Np1 Np2 Np3 Ns g1 g2 r) (f0 r) c.eps c.mu c.dq1 c.dq2 dt c.hybrid
            (arrCurrents_cells red hone hax he.1 (hi.fvm he.1) hp hmq (hin k r) (hB r)).1
            (arrCurrents_cells red hone hax he.1 (hi.fvm he.1) hp hmq (hin k r) (hB r)).2.1
            (arrCurrents_cells red hone hax he.1 (hi.fvm he.1) hp hmq (hin k r) (hB r)).2.2
          choose H e1 e2 _ using e
          obtain ⟨Y2, c2, f2⟩ := send H e2
          have e' := fun r => arrEvolveB_cells (z := D.sizes Np1 Np2 Np3 Ns g1 g2 r) (f2 r) c.eps c.mu c.dq1 c.dq2 dt c.hybrid
          choose Y' e1' e2' _ using e'
          have e'' := fun r => store_cells (z := D.sizes Np1 Np2 Np3 Ns g1 g2 r) (hτ r) (e2' r) dt (D.locCfg g1 g2 c r).fieldParams rfl rfl
          choose τ1 t1 t2 t3 using e''
          refine ⟨τ1, .inl ⟨he.1, fun r => by rw [hb r, he.2], hi.fvm he.1, Y', ⟨_, _, st, st, Y0, H, Y2, Decomp.widths_fields g1 g2 hw, c0, e1, c2, e1'⟩, t1⟩, t2,
            fun r => ?_⟩
          have hfl : ((D.sizes Np1 Np2 Np3 Ns g1 g2 r).stateCells (τ1 r)).flag = ((D.sizes Np1 Np2 Np3 Ns g1 g2 r).stateCells (τ r)).flag := by
            rw [t3 r]; exact (Mach.store_rest _ _ _ _).2.1
          exact hfl.trans (hb r)
        · refine ⟨τ, Or.inr ⟨?_, rfl⟩, hτ, hb⟩
          by_cases ht : c.fieldsType = "electrodynamic"
          · right
            intro r
            rw [hb r]
            cases b
            · exact absurd ⟨ht, rfl⟩ he
            · rfl
          · exact Or.inl ht
      obtain ⟨τ1, hph, f1, hb1⟩ := phase
      let t1 := fun r => (τ1 r).getFields c.fieldsSolver c.solverMethodInP
      let t2 := fun r => (t1 r).2.getFields c.fieldsSolver c.solverMethodInP
      let t3 := fun r => (t2 r).2.getFields c.fieldsSolver c.solverMethodInP
      have hr : ∀ r, ∃ C : AfArray K, (D.sizes Np1 Np2 Np3 Ns g1 g2 r).Fits C ∧ arrAdvance (.ok (.arr (A r)))
          (arrDfdt (D.sizes Np1 Np2 Np3 Ns g1 g2 r) c.toFVMConfig (arrInputs (x k r) (t1 r).1 (t2 r).1 (t3 r).1 (B r)) (.ok (.arr (B r)))) h = .ok (.arr C) ∧
          (D.sizes Np1 Np2 Np3 Ns g1 g2 r).FitsState (t3 r).2 := by
        intro r
        obtain ⟨a1, b1, e1⟩ := getFields_cells (f1 r) c.fieldsSolver c.solverMethodInP
        obtain ⟨a2, b2, e2⟩ := getFields_cells a1 c.fieldsSolver c.solverMethodInP
        obtain ⟨a3, b3, e3⟩ := getFields_cells a2 c.fieldsSolver c.solverMethodInP
        obtain ⟨C, hC, eC⟩ := one r _ _ _ _ _ _ fun _ => ⟨((hin k r).force hp _ _ e1).1, ((hin k r).force hp _ _ e2).2.1, ((hin k r).force hp _ _ e3).2.2⟩
        exact ⟨C, hC, eC, a3⟩
      choose C hC eC a3 using hr
      refine ⟨_, fun r => (t3 r).2, C, !b, ?_, eC, hC, a3, ?_⟩
      · unfold ArrSlopeCoupled
        rw [if_pos hp]
        exact ⟨τ1, hph, fun r => ⟨rfl, rfl⟩⟩
      · intro r
        simp only [t3, t2, t1, ArrFieldState.getFields, hp.1, if_true, hb1 r, Bool.not_not]
    · have hr := fun r => one r (fun _ => const 0) (fun _ => const 0) (fun _ => const 0) (fun _ _ _ => lit 0) (fun _ _ _ => lit 0) (fun _ _ _ => lit 0)
        (fun h => absurd h hp)
      choose C hC eC using hr
      refine ⟨_, τ, C, b, ?_, eC, hC, hτ, hb⟩
      unfold ArrSlopeCoupled
      rw [if_neg hp]
      exact ⟨fun r => rfl, rfl⟩
  obtain ⟨F0, c0⟩ := D.C25_communicates (D.sizes Np1 Np2 Np3 Ns g1 g2) g1 g2 .periodic .periodic _ _ st F hz hF
  obtain ⟨s0, -⟩ := communicates_cells hz hF c0
  obtain ⟨k0, σh, H, b0, hk0, hH, sH, sσh, hb0⟩ := slope 0 (dt ⊘ lit 2) F0 F0 σ b s0 s0 hσ hb
  obtain ⟨Fh, c1⟩ := D.C25_communicates (D.sizes Np1 Np2 Np3 Ns g1 g2) g1 g2 .periodic .periodic _ _ st H hz sH
  obtain ⟨s1, -⟩ := communicates_cells hz sH c1
  obtain ⟨k1, σ', F', b1, hk1, hF', -, -, hb1⟩ := slope 1 dt F0 Fh σh b0 s0 s1 sσh hb0
  exact ⟨F', σ', b1, ⟨st, st, F0, H, Fh, k0, k1, σh, c0, hk0, hH, c1, hk1, hF'⟩, hb1⟩

end coupled

section lorentz
variable {K : Type} [Machine K] {z : GridSizes} [NeZero z.Np1] [NeZero z.Np2] [NeZero z.Np3] [NeZero z.M1] [NeZero z.M2] [NeZero z.Ns]

theorem positionOnly_of_field {x : PyExpr K} {E : z.Q → K} (h : (fieldLay z).Holds x E) : (positionOnly z).Holds x fun y => E y.2.2 := by
  obtain ⟨a, ha, h0, h1, h2, h3, hv⟩ := h
  exact ⟨a, ha, h0, h1, h2, h3, fun y => hv y.2.2⟩

/-- C115 (Lorentz force): computed from arrays of charges, masses and velocities and the six field arrays of `get_fields`, the three force arrays have the shape of the
distribution and hold `e/m * (E + v × B)` with the charge and mass of the species, the velocity of the momentum cell and the fields of the position cell. They meet
the requirement on forces of `CoupledInputsHold`. -/
theorem C115_lorentz_force (xe xm x1 x2 x3 : PyExpr K) (e m : Fin z.Ns → K) (v1 v2 v3 : Fin z.Ns → z.P → K)
    (he : (speciesOnly z).Holds xe fun y => e y.1) (hm : (speciesOnly z).Holds xm fun y => m y.1)
    (h1 : (momentumOnly z).Holds x1 fun y => v1 y.1 y.2.1) (h2 : (momentumOnly z).Holds x2 fun y => v2 y.1 y.2.1)
    (h3 : (momentumOnly z).Holds x3 fun y => v3 y.1 y.2.1) (E : Fin 6 → PyExpr K) (F : EM z.Q K) (hE : ∀ i, (fieldLay z).Holds (E i) (F.comp i)) :
    HoldsDist (arrLorentz xe xm x1 x2 x3 E).1 (fun s p q => (e s ⊘ m s) ⊠ ((F.E1 q ⊞ v2 s p ⊠ F.B3 q) ⊟ v3 s p ⊠ F.B2 q)) ∧
    HoldsDist (arrLorentz xe xm x1 x2 x3 E).2.1 (fun s p q => (e s ⊘ m s) ⊠ ((F.E2 q ⊞ v3 s p ⊠ F.B1 q) ⊟ v1 s p ⊠ F.B3 q)) ∧
    HoldsDist (arrLorentz xe xm x1 x2 x3 E).2.2 (fun s p q => (e s ⊘ m s) ⊠ ((F.E3 q ⊞ v1 s p ⊠ F.B2 q) ⊟ v2 s p ⊠ F.B1 q)) :=
  ⟨arrForce_holds he hm (positionOnly_of_field (hE 0)) h2 (positionOnly_of_field (hE 5)) h3 (positionOnly_of_field (hE 4)),
   arrForce_holds he hm (positionOnly_of_field (hE 1)) h3 (positionOnly_of_field (hE 3)) h1 (positionOnly_of_field (hE 5)),
   arrForce_holds he hm (positionOnly_of_field (hE 2)) h1 (positionOnly_of_field (hE 4)) h2 (positionOnly_of_field (hE 3))⟩

end lorentz

end Bolt
