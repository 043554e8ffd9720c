import Verif.Spec.FieldArrays
import Verif.Proofs.ArrayProgram
import Verif.Proofs.CoupledDecomp
import Verif.Model.MachineCoupled

/-! Helper lemmas for the field solver on arrays. -/

set_option linter.unusedSectionVars false

namespace Bolt

open Machine

theorem bind_step {α β : Type} {e : Except PyErr α} {a : α} {f : α → Except PyErr β} {r : Except PyErr β} (h : e = .ok a) (hf : f a = r) : Except.bind e f = r := by
  subst h; exact hf

theorem EM.eq_of_rows {Q K : Type} {F G : EM Q K} (h1 : F.E1 = G.E1) (h2 : F.E2 = G.E2) (h3 : F.E3 = G.E3) (h4 : F.B1 = G.B1) (h5 : F.B2 = G.B2)
    (h6 : F.B3 = G.B3) : F = G := by
  cases F; cases G; cases h1; cases h2; cases h3; cases h4; cases h5; cases h6; rfl

section
variable {K : Type} (z : GridSizes) [NeZero z.M1] [NeZero z.M2]

/-- `n` rows of field values. -/
def rowsLay (n : ℕ) : Lay (Fin n × z.Q) where
  d0 := n
  d1 := 1
  d2 := z.M1
  d3 := z.M2
  i0 x := x.1
  i1 _ := 0
  i2 x := x.2.1.val
  i3 x := x.2.2.val

theorem fieldLay_ok : (fieldLay z).Ok := ⟨fun _ => Nat.one_pos, fun _ => Nat.one_pos, fun _ => ZMod.val_lt _, fun _ => ZMod.val_lt _⟩

theorem moves_f1 : Moves (fieldLay z) 2 fun k x => x - k • ((1, 0) : z.Q) := by
  refine ⟨fieldLay_ok z, fun k i => ?_, fun k i => ?_, fun k i => ?_, fun k i => ?_⟩
  · exact wrap_zero Nat.one_pos
  · exact wrap_zero Nat.one_pos
  · have := wrap_zmod i.1 k
    simpa [fieldLay] using this
  · have := wrap_zero (ZMod.val_lt i.2)
    simpa [fieldLay] using this

theorem moves_f2 : Moves (fieldLay z) 3 fun k x => x - k • ((0, 1) : z.Q) := by
  refine ⟨fieldLay_ok z, fun k i => ?_, fun k i => ?_, fun k i => ?_, fun k i => ?_⟩
  · exact wrap_zero Nat.one_pos
  · exact wrap_zero Nat.one_pos
  · have := wrap_zero (ZMod.val_lt i.1)
    simpa [fieldLay] using this
  · have := wrap_zmod i.2 k
    simpa [fieldLay] using this

variable {z}

theorem rowsLay_of_field {x : PyExpr K} {G : z.Q → K} (h : (fieldLay z).Holds x G) : (rowsLay z 1).Holds x fun y => G y.2 := by
  obtain ⟨a, rfl, h0, h1, h2, h3, hg⟩ := h
  refine ⟨a, rfl, h0, h1, h2, h3, fun y => ?_⟩
  refine Eq.trans ?_ (hg y.2)
  have : (y.1 : ℕ) = 0 := by omega
  simp only [rowsLay, fieldLay, this]

/-- Reading rows. -/
theorem rows_holds {a : AfArray K} (h : z.FitsEM a) {lo n : ℕ} (hn : lo + n ≤ 6) :
    (rowsLay z n).Holds (a.rowsOf lo n) fun y => a.get (lo + y.1) 0 y.2.1.val y.2.2.val := by
  obtain ⟨h0, h1, h2, h3⟩ := h
  refine ⟨AfArray.ofFn n a.d1 a.d2 a.d3 fun i j k l => a.get (lo + i) j k l, ?_, rfl, h1, h2, h3, fun y => ?_⟩
  · unfold AfArray.rowsOf AfArray.rows
    rw [if_pos (by omega)]; rfl
  · exact AfArray.get_ofFn _ _ _ _ _ _ _ _ _ y.1.2 (by rw [h1]; exact Nat.one_pos) (by rw [h2]; exact ZMod.val_lt _)

theorem row_holds {a : AfArray K} (h : z.FitsEM a) {i : ℕ} (hi : i < 6) : (fieldLay z).Holds (a.rowsOf i 1) fun q => a.get i 0 q.1.val q.2.val := by
  obtain ⟨b, hb, h0, h1, h2, h3, hg⟩ := rows_holds h (lo := i) (n := 1) (by omega)
  exact ⟨b, hb, h0, h1, h2, h3, fun q => hg (0, q)⟩

/-- Assigning rows. -/
theorem assign_rows {a : AfArray K} (h : z.FitsEM a) {lo n : ℕ} (hn : lo + n ≤ 6) {x : PyExpr K} {G : Fin n × z.Q → K} (hx : (rowsLay z n).Holds x G) :
    ∃ b, a.assign lo n x = .ok b ∧ z.FitsEM b ∧
      (∀ (i : Fin n) q, b.get (lo + i) 0 q.1.val q.2.val = G (i, q)) ∧
      ∀ k, k < 6 → (k < lo ∨ lo + n ≤ k) → ∀ q : z.Q, b.get k 0 q.1.val q.2.val = a.get k 0 q.1.val q.2.val := by
  obtain ⟨h0, h1, h2, h3⟩ := h
  obtain ⟨b, rfl, k0, k1, k2, k3, kg⟩ := hx
  refine ⟨AfArray.ofFn a.d0 a.d1 a.d2 a.d3 fun i j k l => if lo ≤ i ∧ i < lo + n then b.get (i - lo) j k l else a.get i j k l, ?_, ⟨h0, h1, h2, h3⟩,
    fun i q => ?_, fun k hk hkk q => ?_⟩
  · change a.setRows lo n b = _
    unfold AfArray.setRows
    exact if_pos ⟨by omega, k0, by rw [k1, h1]; rfl, by rw [k2, h2]; rfl, by rw [k3, h3]; rfl⟩
  · have := i.2
    rw [AfArray.get_ofFn _ _ _ _ _ _ _ _ _ (by omega) (by omega) (by rw [h2]; exact ZMod.val_lt _), if_pos (by omega), Nat.add_sub_cancel_left]
    exact kg (i, q)
  · rw [AfArray.get_ofFn _ _ _ _ _ _ _ _ _ (by omega) (by omega) (by rw [h2]; exact ZMod.val_lt _), if_neg (by omega)]

theorem assign_row {a : AfArray K} (h : z.FitsEM a) {i : ℕ} (hi : i < 6) {x : PyExpr K} {G : z.Q → K} (hx : (fieldLay z).Holds x G) :
    ∃ b, a.assign i 1 x = .ok b ∧ z.FitsEM b ∧ (∀ q : z.Q, b.get i 0 q.1.val q.2.val = G q) ∧
      ∀ k, k < 6 → k ≠ i → ∀ q : z.Q, b.get k 0 q.1.val q.2.val = a.get k 0 q.1.val q.2.val := by
  obtain ⟨b, hb, hf, hs, ho⟩ := assign_rows h (lo := i) (n := 1) (by omega) (rowsLay_of_field hx)
  exact ⟨b, hb, hf, fun q => hs 0 q, fun k hk hne q => ho k hk (by omega) q⟩

variable [Machine K]

/-- The shifts used by the field solver. -/
theorem shift_q1 {x : PyExpr K} {F : z.Q → K} (h : (fieldLay z).Holds x F) (k : ℤ) : (fieldLay z).Holds (x.shift 0 0 k 0) (afShift (1, 0) k F) :=
  (moves_f1 z).shiftAlong h k

theorem shift_q2 {x : PyExpr K} {F : z.Q → K} (h : (fieldLay z).Holds x F) (k : ℤ) : (fieldLay z).Holds (x.shift 0 0 0 k) (afShift (0, 1) k F) :=
  (moves_f2 z).shiftAlong h k

theorem shift_q12 {x : PyExpr K} {F : z.Q → K} (h : (fieldLay z).Holds x F) :
    (fieldLay z).Holds (x.shift 0 0 (-1) (-1)) (afShift (1, 0) (-1) (afShift (0, 1) (-1) F)) := by
  refine h.shift (fieldLay_ok z) 0 0 (-1) (-1) (fun i => i - (-1 : ℤ) • ((1, 0) : z.Q) - (-1 : ℤ) • ((0, 1) : z.Q)) (fun i => ?_) (fun i => ?_) (fun i => ?_) fun i => ?_
  · exact wrap_zero Nat.one_pos
  · exact wrap_zero Nat.one_pos
  · have := wrap_zmod i.1 (-1)
    simpa [fieldLay] using this
  · have := wrap_zmod i.2 (-1)
    simpa [fieldLay] using this

/-- `fdtd_evolve_E` on an array. -/
theorem arrEvolveE_cells {Y : AfArray K} (hY : z.FitsEM Y) (eps mu dq1 dq2 dt : K) (hyb : Bool) {x1 x2 x3 : PyExpr K} {J : Currents z.Q K}
    (j1 : (fieldLay z).Holds x1 J.J1) (j2 : (fieldLay z).Holds x2 J.J2) (j3 : (fieldLay z).Holds x3 J.J3) :
    ∃ H, arrEvolveE eps mu dq1 dq2 dt x1 x2 x3 Y = .ok H ∧ z.FitsEM H ∧
      z.emCells H = Mach.evolveE ⟨(1, 0), (0, 1), dq1, dq2, eps, mu, hyb⟩ J dt (z.emCells Y) := by
  have B1 := row_holds hY (i := 3) (by omega)
  have B2 := row_holds hY (i := 4) (by omega)
  have B3 := row_holds hY (i := 5) (by omega)
  have c1 := ((shift_q2 B3 (-1)).bin sub B3).numR false div dq2
  have c2 := (((shift_q1 B3 (-1)).bin sub B3).un neg).numR false div dq1
  have c3 := (((shift_q1 B2 (-1)).bin sub B2).numR false div dq1).bin sub (((shift_q2 B1 (-1)).bin sub B1).numR false div dq2)
  have p1 := (c1.numL false mul (dt ⊘ (mu ⊠ eps))).bin sub ((j1.numR false mul dt).numR false div eps)
  have p2 := (c2.numL false mul (dt ⊘ (mu ⊠ eps))).bin sub ((j2.numR false mul dt).numR false div eps)
  have p3 := (c3.numL false mul (dt ⊘ (mu ⊠ eps))).bin sub ((j3.numR false mul dt).numR false div eps)
  obtain ⟨Ya, ha, fa, sa, oa⟩ := assign_row hY (i := 0) (by omega) ((row_holds hY (i := 0) (by omega)).bin add p1)
  obtain ⟨Yb, hb, fb, sb, ob⟩ := assign_row fa (i := 1) (by omega) ((row_holds fa (i := 1) (by omega)).bin add p2)
  obtain ⟨Yc, hc, fc, sc, oc⟩ := assign_row fb (i := 2) (by omega) ((row_holds fb (i := 2) (by omega)).bin add p3)
  refine ⟨Yc, ?_, fc, ?_⟩
  · unfold arrEvolveE
    dsimp only
    refine bind_step ha ?_
    refine bind_step hb ?_
    exact hc
  · simp only [GridSizes.emCells, Mach.evolveE, EM.mk.injEq]
    refine ⟨funext fun q => ?_, funext fun q => ?_, funext fun q => ?_, funext fun q => ?_, funext fun q => ?_, funext fun q => ?_⟩
    · rw [oc 0 (by omega) (by omega), ob 0 (by omega) (by omega), sa]; rfl
    · rw [oc 1 (by omega) (by omega), sb, oa 1 (by omega) (by omega)]; rfl
    · rw [sc, ob 2 (by omega) (by omega), oa 2 (by omega) (by omega)]; rfl
    · rw [oc 3 (by omega) (by omega), ob 3 (by omega) (by omega), oa 3 (by omega) (by omega)]
    · rw [oc 4 (by omega) (by omega), ob 4 (by omega) (by omega), oa 4 (by omega) (by omega)]
    · rw [oc 5 (by omega) (by omega), ob 5 (by omega) (by omega), oa 5 (by omega) (by omega)]

/-- `fdtd_evolve_B` on an array. -/
theorem arrEvolveB_cells {Y : AfArray K} (hY : z.FitsEM Y) (eps mu dq1 dq2 dt : K) (hyb : Bool) :
    ∃ H, arrEvolveB dq1 dq2 dt Y = .ok H ∧ z.FitsEM H ∧
      z.emCells H = Mach.evolveB ⟨(1, 0), (0, 1), dq1, dq2, eps, mu, hyb⟩ dt (z.emCells Y) := by
  have E1 := row_holds hY (i := 0) (by omega)
  have E2 := row_holds hY (i := 1) (by omega)
  have E3 := row_holds hY (i := 2) (by omega)
  have c1 := (E3.bin sub (shift_q2 E3 1)).numR false div dq2
  have c2 := ((E3.bin sub (shift_q1 E3 1)).un neg).numR false div dq1
  have c3 := ((E2.bin sub (shift_q1 E2 1)).numR false div dq1).bin sub ((E1.bin sub (shift_q2 E1 1)).numR false div dq2)
  obtain ⟨Ya, ha, fa, sa, oa⟩ := assign_row hY (i := 3) (by omega) ((row_holds hY (i := 3) (by omega)).bin add (c1.numL false mul (neg dt)))
  obtain ⟨Yb, hb, fb, sb, ob⟩ := assign_row fa (i := 4) (by omega) ((row_holds fa (i := 4) (by omega)).bin add (c2.numL false mul (neg dt)))
  obtain ⟨Yc, hc, fc, sc, oc⟩ := assign_row fb (i := 5) (by omega) ((row_holds fb (i := 5) (by omega)).bin add (c3.numL false mul (neg dt)))
  refine ⟨Yc, ?_, fc, ?_⟩
  · unfold arrEvolveB
    dsimp only
    refine bind_step ha ?_
    refine bind_step hb ?_
    exact hc
  · simp only [GridSizes.emCells, Mach.evolveB, EM.mk.injEq]
    refine ⟨funext fun q => ?_, funext fun q => ?_, funext fun q => ?_, funext fun q => ?_, funext fun q => ?_, funext fun q => ?_⟩
    · rw [oc 0 (by omega) (by omega), ob 0 (by omega) (by omega), oa 0 (by omega) (by omega)]
    · rw [oc 1 (by omega) (by omega), ob 1 (by omega) (by omega), oa 1 (by omega) (by omega)]
    · rw [oc 2 (by omega) (by omega), ob 2 (by omega) (by omega), oa 2 (by omega) (by omega)]
    · rw [oc 3 (by omega) (by omega), ob 3 (by omega) (by omega), sa]; rfl
    · rw [oc 4 (by omega) (by omega), sb, oa 4 (by omega) (by omega)]; rfl
    · rw [sc, ob 5 (by omega) (by omega), oa 5 (by omega) (by omega)]; rfl

/-- `yee_grid_to_cell_centered_grid` on arrays. -/
theorem arrToCentre_cells {Y C : AfArray K} (hY : z.FitsEM Y) (hC : z.FitsEM C) :
    ∃ H, arrToCentre Y C = .ok H ∧ z.FitsEM H ∧ z.emCells H = Mach.toCentre (1, 0) (0, 1) (z.emCells Y) := by
  have E1 := row_holds hY (i := 0) (by omega)
  have E2 := row_holds hY (i := 1) (by omega)
  have E3 := row_holds hY (i := 2) (by omega)
  have B1 := row_holds hY (i := 3) (by omega)
  have B2 := row_holds hY (i := 4) (by omega)
  have B3 := row_holds hY (i := 5) (by omega)
  obtain ⟨Ya, ha, fa, sa, oa⟩ := assign_row hC (i := 0) (by omega) ((E1.bin add (shift_q1 E1 (-1))).numL false mul (lit (1 / 2)))
  obtain ⟨Yb, hb, fb, sb, ob⟩ := assign_row fa (i := 1) (by omega) ((E2.bin add (shift_q2 E2 (-1))).numL false mul (lit (1 / 2)))
  obtain ⟨Yc, hc, fc, sc, oc⟩ := assign_row fb (i := 2) (by omega) E3
  obtain ⟨Yd, hd, fd, sd, od⟩ := assign_row fc (i := 3) (by omega) ((B1.bin add (shift_q2 B1 (-1))).numL false mul (lit (1 / 2)))
  obtain ⟨Ye, he, fe, se, oe⟩ := assign_row fd (i := 4) (by omega) ((B2.bin add (shift_q1 B2 (-1))).numL false mul (lit (1 / 2)))
  obtain ⟨Yf, hf, ff, sf, of⟩ := assign_row fe (i := 5) (by omega)
    ((((B3.bin add (shift_q2 B3 (-1))).bin add (shift_q1 B3 (-1))).bin add (shift_q12 B3)).numL false mul (lit (1 / 4)))
  refine ⟨Yf, ?_, ff, ?_⟩
  · unfold arrToCentre
    dsimp only
    refine bind_step ha ?_
    refine bind_step hb ?_
    refine bind_step hc ?_
    refine bind_step hd ?_
    refine bind_step he ?_
    exact hf
  · simp only [GridSizes.emCells, Mach.toCentre, EM.mk.injEq]
    refine ⟨funext fun q => ?_, funext fun q => ?_, funext fun q => ?_, funext fun q => ?_, funext fun q => ?_, funext fun q => ?_⟩
    · rw [of 0 (by omega) (by omega), oe 0 (by omega) (by omega), od 0 (by omega) (by omega), oc 0 (by omega) (by omega), ob 0 (by omega) (by omega), sa]
    · rw [of 1 (by omega) (by omega), oe 1 (by omega) (by omega), od 1 (by omega) (by omega), oc 1 (by omega) (by omega), sb]
    · rw [of 2 (by omega) (by omega), oe 2 (by omega) (by omega), od 2 (by omega) (by omega), sc]
    · rw [of 3 (by omega) (by omega), oe 3 (by omega) (by omega), sd]
    · rw [of 4 (by omega) (by omega), se]
    · rw [sf]

/-! ### the time levels -/

theorem emCells_comp (a : AfArray K) (i : Fin 6) (q : z.Q) : (z.emCells a).comp i q = a.get i 0 q.1.val q.2.val := by
  fin_cases i <;> rfl

/-- Writing rows 0, 1, 2 of an array object. -/
theorem assignE_cells {σ : ArrFieldState K} (hσ : z.FitsState σ) (o : Fin 3) {x : PyExpr K} {E : EM z.Q K}
    (hx : (rowsLay z 3).Holds x fun y => E.comp (Fin.castLE (by omega) y.1) y.2) :
    ∃ σ', σ.assign o 0 3 x = .ok σ' ∧ z.FitsState σ' ∧ z.stateCells σ' = (z.stateCells σ).writeE o E ∧ σ'.yee = σ.yee ∧ σ'.cc = σ.cc ∧ σ'.atN = σ.atN ∧
      σ'.atHalf = σ.atHalf := by
  obtain ⟨b, hb, fb, sb, ob⟩ := assign_rows (hσ.2 o) (lo := 0) (n := 3) (by omega) hx
  refine ⟨{ σ with heap := fun k => if k = o then b else σ.heap k }, ?_, ⟨hσ.1, fun k => ?_⟩, ?_, rfl, rfl, rfl, rfl⟩
  · unfold ArrFieldState.assign; rw [hb]; rfl
  · dsimp only; split_ifs
    · exact fb
    · exact hσ.2 k
  · simp only [GridSizes.stateCells, FieldState.writeE, FieldState.mk.injEq, and_true]
    funext k
    by_cases hk : k = o
    · subst hk
      simp only [if_true, GridSizes.emCells, EM.mk.injEq]
      refine ⟨funext fun q => ?_, funext fun q => ?_, funext fun q => ?_, funext fun q => ?_, funext fun q => ?_, funext fun q => ?_⟩
      · exact sb 0 q
      · exact sb 1 q
      · exact sb 2 q
      · exact ob 3 (by omega) (by omega) q
      · exact ob 4 (by omega) (by omega) q
      · exact ob 5 (by omega) (by omega) q
    · simp only [if_neg hk]

/-- Writing rows 3, 4, 5 of an array object. -/
theorem assignB_cells {σ : ArrFieldState K} (hσ : z.FitsState σ) (o : Fin 3) {x : PyExpr K} {B : EM z.Q K}
    (hx : (rowsLay z 3).Holds x fun y => B.comp (Fin.natAdd 3 y.1) y.2) :
    ∃ σ', σ.assign o 3 3 x = .ok σ' ∧ z.FitsState σ' ∧ z.stateCells σ' = (z.stateCells σ).writeB o B ∧ σ'.yee = σ.yee ∧ σ'.cc = σ.cc ∧ σ'.atN = σ.atN ∧
      σ'.atHalf = σ.atHalf := by
  obtain ⟨b, hb, fb, sb, ob⟩ := assign_rows (hσ.2 o) (lo := 3) (n := 3) (by omega) hx
  refine ⟨{ σ with heap := fun k => if k = o then b else σ.heap k }, ?_, ⟨hσ.1, fun k => ?_⟩, ?_, rfl, rfl, rfl, rfl⟩
  · unfold ArrFieldState.assign; rw [hb]; rfl
  · dsimp only; split_ifs
    · exact fb
    · exact hσ.2 k
  · simp only [GridSizes.stateCells, FieldState.writeB, FieldState.mk.injEq, and_true]
    funext k
    by_cases hk : k = o
    · subst hk
      simp only [if_true, GridSizes.emCells, EM.mk.injEq]
      refine ⟨funext fun q => ?_, funext fun q => ?_, funext fun q => ?_, funext fun q => ?_, funext fun q => ?_, funext fun q => ?_⟩
      · exact ob 0 (by omega) (by omega) q
      · exact ob 1 (by omega) (by omega) q
      · exact ob 2 (by omega) (by omega) q
      · exact sb 0 q
      · exact sb 1 q
      · exact sb 2 q
    · simp only [if_neg hk]

theorem rowsE {a : AfArray K} (h : z.FitsEM a) : (rowsLay z 3).Holds (a.rowsOf 0 3) fun y => (z.emCells a).comp (Fin.castLE (by omega) y.1) y.2 :=
  (rows_holds h (by omega)).congr fun y => by rw [emCells_comp, Nat.zero_add]; rfl

theorem rowsB {a : AfArray K} (h : z.FitsEM a) : (rowsLay z 3).Holds (a.rowsOf 3 3) fun y => (z.emCells a).comp (Fin.natAdd 3 y.1) y.2 :=
  (rows_holds h (by omega)).congr fun y => by rw [emCells_comp]; rfl

theorem avg_comp {Q : Type} [AddCommGroup Q] (x y : EM Q K) (i : Fin 6) (q : Q) : (Mach.avg x y).comp i q = lit (1 / 2) ⊠ (x.comp i q ⊞ y.comp i q) := by
  fin_cases i <;> rfl

/-- `evolve_electrodynamic_fields` around its call of `fdtd`, on arrays. -/
theorem store_cells {σ : ArrFieldState K} (hσ : z.FitsState σ) {Y : AfArray K} (hY : z.FitsEM Y) (dt : K) (pr : FieldParams z.Q K) (h1 : pr.q1 = (1, 0))
    (h2 : pr.q2 = (0, 1)) :
    ∃ σ', σ.store dt Y = .ok σ' ∧ z.FitsState σ' ∧ z.stateCells σ' = Mach.storeFields pr dt (z.emCells Y) (z.stateCells σ) := by
  obtain ⟨σ1, e1, f1, c1, -, cc1, an1, ah1⟩ := assignE_cells hσ σ.atN (rowsE (hσ.2 σ.cc))
  have avB := ((rowsB (f1.2 σ1.atHalf)).bin add (rowsB (f1.2 σ1.cc))).numL false mul (lit (1 / 2))
  obtain ⟨σ2, e2, f2, c2, -, cc2, an2, ah2⟩ := assignB_cells f1 σ1.atN (B := Mach.avg (z.emCells (σ1.heap σ1.atHalf)) (z.emCells (σ1.heap σ1.cc)))
    (avB.congr fun y => (avg_comp _ _ _ _).symm)
  obtain ⟨σ3, e3, f3, c3, -, cc3, an3, ah3⟩ := assignB_cells f2 σ2.atHalf (rowsB (f1.2 σ1.cc))
  obtain ⟨C, eC, fC, cC⟩ := arrToCentre_cells hY (f3.2 σ3.cc)
  let σ4 : ArrFieldState K := { σ3 with yee := Y, heap := fun k => if k = σ3.cc then C else σ3.heap k }
  have f4 : z.FitsState σ4 := ⟨hY, fun k => by
    change z.FitsEM (if k = σ3.cc then C else σ3.heap k)
    split_ifs
    · exact fC
    · exact f3.2 k⟩
  have avE := ((rowsE (hσ.2 σ.cc)).bin add (rowsE (f4.2 σ4.cc))).numL false mul (lit (1 / 2))
  obtain ⟨σ5, e5, f5, c5, -⟩ := assignE_cells f4 σ4.atHalf (E := Mach.avg (z.emCells (σ.heap σ.cc)) (z.emCells (σ4.heap σ4.cc)))
    (avE.congr fun y => (avg_comp _ _ _ _).symm)
  refine ⟨{ σ5 with timeElapsed := σ5.timeElapsed ⊞ dt }, ?_, f5, ?_⟩
  · unfold ArrFieldState.store
    dsimp only
    refine bind_step e1 ?_
    refine bind_step e2 ?_
    refine bind_step e3 ?_
    refine bind_step eC ?_
    refine bind_step e5 ?_
    rfl
  · have c4 : z.stateCells σ4 = { z.stateCells σ3 with
        yee := z.emCells Y
        heap := fun k => if k = σ3.cc then Mach.toCentre pr.q1 pr.q2 (z.emCells Y) else (z.stateCells σ3).heap k } := by
      simp only [GridSizes.stateCells, σ4, FieldState.mk.injEq, and_true]
      funext k
      split_ifs
      · rw [cC, h1, h2]
      · rfl
    have c6 : z.stateCells { σ5 with timeElapsed := σ5.timeElapsed ⊞ dt } =
        { z.stateCells σ5 with timeElapsed := (z.stateCells σ5).timeElapsed ⊞ dt } := rfl
    have g1 : z.emCells (σ1.heap σ1.atHalf) = (z.stateCells σ1).heap (z.stateCells σ1).atHalf := rfl
    have g2 : z.emCells (σ1.heap σ1.cc) = (z.stateCells σ1).heap (z.stateCells σ1).cc := rfl
    have g4 : z.emCells (σ4.heap σ4.cc) = (z.stateCells σ4).heap (z.stateCells σ4).cc := rfl
    rw [c6, c5, g4, show σ4.atHalf = (z.stateCells σ3).atHalf from rfl, c4, show σ3.cc = (z.stateCells σ3).cc from rfl, c3,
      show σ2.atHalf = (z.stateCells σ2).atHalf from rfl, c2, g1, g2, show σ1.atN = (z.stateCells σ1).atN from rfl, c1]
    rfl

/-- `get_fields` on arrays. -/
theorem getFields_cells {σ : ArrFieldState K} (hσ : z.FitsState σ) (fs sp : String) :
    z.FitsState (σ.getFields fs sp).2 ∧ z.stateCells (σ.getFields fs sp).2 = (getFields fs sp (z.stateCells σ)).2 ∧
      ∀ i, (fieldLay z).Holds ((σ.getFields fs sp).1 i) ((getFields fs sp (z.stateCells σ)).1.comp i) := by
  refine ⟨?_, ?_, fun i => ?_⟩
  · unfold ArrFieldState.getFields
    dsimp only
    split_ifs <;> exact hσ
  · unfold ArrFieldState.getFields getFields
    dsimp only
    split_ifs <;> rfl
  · unfold ArrFieldState.getFields getFields
    dsimp only
    rw [show (z.stateCells σ).flag = σ.flag from rfl]
    split_ifs
    all_goals exact (row_holds (hσ.2 _) i.2).congr fun q => (emCells_comp _ i q).symm

end

end Bolt
