import Verif.Model.Report
import Verif.Proofs.CoupledDecomp
import Verif.Props.Fields
import Verif.Props.Pipeline

/-!
# C83: what the constraint values printed at the start of a run say

`MAX(|divB|)` is what its label promises as long as the ghost zones hold the periodic images.  `MAX(|divE-rho|)` is not: it is a signed
maximum, it does not contain the permittivity, and the background charge is the mean over each process's array, ghost zones included.
-/

set_option linter.unusedSectionVars false

namespace Bolt
namespace Decomp

variable {N1 N2 : ℕ} [NeZero N1] [NeZero N2] {R : Type} (D : Decomp N1 N2 R) (g1 g2 : ℕ) {K : Type} [Field K] [LinearOrder K]
  [IsStrictOrderedRing K]

/-- The largest value of a function on the grid. -/
def IsGridMax (x : ZMod N1 × ZMod N2 → K) (v : K) : Prop := (∀ i, x i ≤ v) ∧ ∃ i, x i = v

/-- The discrete divergence of `B` about the corner of cell `i` of the whole periodic grid. -/
def gridDivB (dq1 dq2 : K) (F : EM (ZMod N1 × ZMod N2) K) (i : ZMod N1 × ZMod N2) : K :=
  (F.B1 i - F.B1 (i.1 - 1, i.2)) / dq1 + (F.B2 i - F.B2 (i.1, i.2 - 1)) / dq2

/-- The discrete divergence of `E` in cell `i` of the whole periodic grid. -/
def gridDivE (dq1 dq2 : K) (F : EM (ZMod N1 × ZMod N2) K) (i : ZMod N1 × ZMod N2) : K :=
  (F.E1 (i.1 + 1, i.2) - F.E1 i) / dq1 + (F.E2 (i.1, i.2 + 1) - F.E2 i) / dq2

/-- The mean of a function over the cells of the whole grid. -/
def gridMean (x : ZMod N1 × ZMod N2 → K) : K := (∑ i, x i) / ((N1 * N2 : ℕ) : K)

/-- One ghost cell at least on every axis (or an axis of one cell without ghost cells). -/
def OneGhost (g N : ℕ) : Prop := 1 ≤ g ∨ (g = 0 ∧ N = 1)

/-- The local solvers have the spacing of the grid. -/
def Spacing (dq1 dq2 : K) (pr : ∀ r, FieldParams (D.Loc g1 g2 r) K) : Prop :=
  ∀ r, (pr r).q1 = (1, 0) ∧ (pr r).q2 = (0, 1) ∧ (pr r).dq1 = dq1 ∧ (pr r).dq2 = dq2

theorem vecMax_isMax (x : ∀ r, D.Loc g1 g2 r → K) :
    IsGridMax (fun i => x (D.owner i) (D.toLoc g1 g2 (D.owner i) i)) (D.vecMax g1 g2 x) := by
  refine ⟨fun i => Finset.le_sup' (fun i => x (D.owner i) (D.toLoc g1 g2 (D.owner i) i)) (Finset.mem_univ i), ?_⟩
  obtain ⟨i, -, h⟩ := Finset.exists_mem_eq_sup' (s := Finset.univ) ⟨((0, 0) : ZMod N1 × ZMod N2), Finset.mem_univ _⟩
    (fun i => x (D.owner i) (D.toLoc g1 g2 (D.owner i) i))
  exact ⟨i, h.symm⟩

theorem loc_divB (hg1 : OneGhost g1 N1) (hg2 : OneGhost g2 N2) {dq1 dq2 : K} {pr : ∀ r, FieldParams (D.Loc g1 g2 r) K}
    (hp : D.Spacing g1 g2 dq1 dq2 pr) {Y : ∀ r, EM (D.Loc g1 g2 r) K} {F : EM (ZMod N1 × ZMod N2) K}
    (h1 : ∀ r l, (Y r).B1 l = F.B1 (D.toGlob g1 g2 r l)) (h2 : ∀ r l, (Y r).B2 l = F.B2 (D.toGlob g1 g2 r l))
    (i : ZMod N1 × ZMod N2) :
    divB (pr (D.owner i)) (Y (D.owner i)) (D.toLoc g1 g2 (D.owner i) i) = gridDivB dq1 dq2 F i := by
  obtain ⟨a, b, c, d⟩ := hp (D.owner i)
  have hin := D.interior_toLoc g1 g2 i
  have e1 := D.toGlob_off g1 g2 1 hg1 hg2 _ _ hin (-1) 0 (by simp) (by simp)
  have e2 := D.toGlob_off g1 g2 1 hg1 hg2 _ _ hin 0 (-1) (by simp) (by simp)
  rw [D.toGlob_toLoc g1 g2] at e1 e2
  simp only [divB, a, b, c, d, afShift_q1, afShift_q2, h1, h2, e1, e2, D.toGlob_toLoc g1 g2, gridDivB]
  congr 4 <;> ext <;> simp [off, sub_eq_add_neg]

theorem loc_divE (hg1 : OneGhost g1 N1) (hg2 : OneGhost g2 N2) {dq1 dq2 : K} {pr : ∀ r, FieldParams (D.Loc g1 g2 r) K}
    (hp : D.Spacing g1 g2 dq1 dq2 pr) {Y : ∀ r, EM (D.Loc g1 g2 r) K} {F : EM (ZMod N1 × ZMod N2) K}
    (h1 : ∀ r l, (Y r).E1 l = F.E1 (D.toGlob g1 g2 r l)) (h2 : ∀ r l, (Y r).E2 l = F.E2 (D.toGlob g1 g2 r l))
    (i : ZMod N1 × ZMod N2) :
    divE (pr (D.owner i)) (Y (D.owner i)) (D.toLoc g1 g2 (D.owner i) i) = gridDivE dq1 dq2 F i := by
  obtain ⟨a, b, c, d⟩ := hp (D.owner i)
  have hin := D.interior_toLoc g1 g2 i
  have e1 := D.toGlob_off g1 g2 1 hg1 hg2 _ _ hin 1 0 (by simp) (by simp)
  have e2 := D.toGlob_off g1 g2 1 hg1 hg2 _ _ hin 0 1 (by simp) (by simp)
  rw [D.toGlob_toLoc g1 g2] at e1 e2
  simp only [divE, a, b, c, d, afShift_q1, afShift_q2, neg_neg, h1, h2, e1, e2, D.toGlob_toLoc g1 g2, gridDivE]
  congr 4 <;> ext <;> simp [off]

/-- C83: with the periodic images in the ghost zones, the number printed as `MAX(|divB|)` is the largest absolute divergence of `B` on the
whole grid, for every partition into processes; it is zero exactly if `B` is divergence-free everywhere. -/
theorem C83_divB_report (hg1 : OneGhost g1 N1) (hg2 : OneGhost g2 N2) {dq1 dq2 : K} {pr : ∀ r, FieldParams (D.Loc g1 g2 r) K}
    (hp : D.Spacing g1 g2 dq1 dq2 pr) {Y : ∀ r, EM (D.Loc g1 g2 r) K} {F : EM (ZMod N1 × ZMod N2) K}
    (h1 : ∀ r l, (Y r).B1 l = F.B1 (D.toGlob g1 g2 r l)) (h2 : ∀ r l, (Y r).B2 l = F.B2 (D.toGlob g1 g2 r l)) :
    IsGridMax (fun i => |gridDivB dq1 dq2 F i|) (D.reportDivB g1 g2 pr Y) ∧
      (D.reportDivB g1 g2 pr Y = 0 ↔ ∀ i, gridDivB dq1 dq2 F i = 0) := by
  have key : IsGridMax (fun i => |gridDivB dq1 dq2 F i|) (D.reportDivB g1 g2 pr Y) := by
    have := D.vecMax_isMax g1 g2 (fun r l => |divB (pr r) (Y r) l|)
    simp only [D.loc_divB g1 g2 hg1 hg2 hp h1 h2] at this
    exact this
  refine ⟨key, fun h i => ?_, fun h => ?_⟩
  · have := key.1 i
    rw [h] at this
    exact abs_eq_zero.mp (le_antisymm this (abs_nonneg _))
  · obtain ⟨i, hi⟩ := key.2
    rw [← hi]; simp [h i]

/-- C83: magnetic fields from `initialize_A3_B3` print zero on every process and for every potential, periodic or not: potential and
divergence are differenced on the same local array, which wraps round. -/
theorem C83_A3_reports_zero (pr : ∀ r, FieldParams (D.Loc g1 g2 r) K) (ini : ∀ r, InitFns (D.Loc g1 g2 r) K)
    (hB : ∀ r, (ini r).B = none) (hA : ∀ r, (ini r).A = none) (hA3 : ∀ r, (ini r).A3_B3.isSome = true)
    (Y Y' : ∀ r, EM (D.Loc g1 g2 r) K) (h : ∀ r, initMagnetic (pr r) (ini r) (Y r) = .ok (Y' r)) : D.reportDivB g1 g2 pr Y' = 0 := by
  obtain ⟨i, hi⟩ := (D.vecMax_isMax g1 g2 (fun r l => |divB (pr r) (Y' r) l|)).2
  rw [reportDivB, ← hi]
  obtain ⟨⟨A3, B3⟩, hab⟩ := Option.isSome_iff_exists.mp (hA3 (D.owner i))
  obtain ⟨F', hF, -, h0⟩ := C23_A3_B3_divergence_free (pr (D.owner i)) (ini (D.owner i)) A3 B3 (hB _) (hA _) hab (Y (D.owner i))
  rw [h, Except.ok.injEq] at hF
  simp [hF, h0]

/-- C83: the number printed as `MAX(|divE-rho|)`: the largest value, with its sign, of the discrete divergence minus the charge density plus
the mean charge density of the array of the process that owns the cell, ghost cells counted again. -/
theorem C83_divE_report [∀ r, Fintype (D.Loc g1 g2 r)] {o : BCOptions} (e1 : PeriodicEnds (o.name .left) (o.name .right) N1)
    (e2 : PeriodicEnds (o.name .bottom) (o.name .top) N2) (hg1 : OneGhost g1 N1) (hg2 : OneGhost g2 N2) {dq1 dq2 : K}
    {pr : ∀ r, FieldParams (D.Loc g1 g2 r) K} (hp : D.Spacing g1 g2 dq1 dq2 pr) {Y : ∀ r, EM (D.Loc g1 g2 r) K}
    {F : EM (ZMod N1 × ZMod N2) K} (hY : ∀ r, D.EMHolds g1 g2 r (Y r) F) {rho : ∀ r, D.Loc g1 g2 r → K} {ρ : ZMod N1 × ZMod N2 → K}
    (hr : ∀ r l, rho r l = ρ (D.toGlob g1 g2 r l)) {v : K} (h : D.ReportDivE g1 g2 o pr Y rho v) :
    IsGridMax (fun i => gridDivE dq1 dq2 F i - ρ i +
      (∑ l, ρ (D.toGlob g1 g2 (D.owner i) l)) / (Fintype.card (D.Loc g1 g2 (D.owner i)) : K)) v := by
  obtain ⟨Y0, hs, rfl⟩ := h
  have full := fun r c l => D.sent_wrap g1 g2 e1 e2 hs r c l
  rw [(D.emHolds_iff g1 g2 Y F).mp hY] at full
  have := D.vecMax_isMax g1 g2 (fun r l => divE (pr r) (Y0 r) l - rho r l + D.arrayMean g1 g2 r (rho r))
  simp only [D.loc_divE g1 g2 hg1 hg2 hp (F := F) (fun r l => full r 0 l) (fun r l => full r 1 l), arrayMean, hr,
    D.toGlob_toLoc g1 g2] at this
  simpa only [arrayMean, hr] using this

theorem sum_gridDivE (dq1 dq2 : K) (F : EM (ZMod N1 × ZMod N2) K) : ∑ i, gridDivE dq1 dq2 F i = 0 := by
  have e : ∀ (x : ZMod N1 × ZMod N2 → K) (t : ZMod N1 × ZMod N2), ∑ i, x (i + t) = ∑ i, x i := fun x t =>
    Equiv.sum_comp (Equiv.addRight t) x
  have a := e F.E1 (1, 0)
  have b := e F.E2 (0, 1)
  have pa : ∀ i : ZMod N1 × ZMod N2, i + (1, 0) = (i.1 + 1, i.2) := by intro i; ext <;> simp
  have pb : ∀ i : ZMod N1 × ZMod N2, i + (0, 1) = (i.1, i.2 + 1) := by intro i; ext <;> simp
  simp only [pa] at a
  simp only [pb] at b
  simp only [gridDivE, Finset.sum_add_distrib, ← Finset.sum_div, Finset.sum_sub_distrib, a, b, sub_self, zero_div, add_zero]

/-- C83: if the mean over the array of every process is the mean over the grid (as for a uniform charge density), the missing absolute value
is harmless: the printed number is not negative, and it is zero exactly if `div E = rho - mean rho` in every cell. -/
theorem C83_divE_fair [∀ r, Fintype (D.Loc g1 g2 r)] {o : BCOptions} (e1 : PeriodicEnds (o.name .left) (o.name .right) N1)
    (e2 : PeriodicEnds (o.name .bottom) (o.name .top) N2) (hg1 : OneGhost g1 N1) (hg2 : OneGhost g2 N2) {dq1 dq2 : K}
    {pr : ∀ r, FieldParams (D.Loc g1 g2 r) K} (hp : D.Spacing g1 g2 dq1 dq2 pr) {Y : ∀ r, EM (D.Loc g1 g2 r) K}
    {F : EM (ZMod N1 × ZMod N2) K} (hY : ∀ r, D.EMHolds g1 g2 r (Y r) F) {rho : ∀ r, D.Loc g1 g2 r → K} {ρ : ZMod N1 × ZMod N2 → K}
    (hr : ∀ r l, rho r l = ρ (D.toGlob g1 g2 r l))
    (hm : ∀ r, (∑ l, ρ (D.toGlob g1 g2 r l)) / (Fintype.card (D.Loc g1 g2 r) : K) = gridMean ρ) {v : K}
    (h : D.ReportDivE g1 g2 o pr Y rho v) : 0 ≤ v ∧ (v = 0 ↔ ∀ i, gridDivE dq1 dq2 F i = ρ i - gridMean ρ) := by
  obtain ⟨hle, i0, hi0⟩ := D.C83_divE_report g1 g2 e1 e2 hg1 hg2 hp hY hr h
  simp only [hm] at hle hi0
  have hN : ((N1 * N2 : ℕ) : K) ≠ 0 := by
    exact_mod_cast (Nat.mul_ne_zero (NeZero.ne N1) (NeZero.ne N2))
  have hcard : (Finset.univ : Finset (ZMod N1 × ZMod N2)).card = N1 * N2 := by
    rw [Finset.card_univ, Fintype.card_prod, ZMod.card, ZMod.card]
  have hsum : ∑ i, (gridDivE dq1 dq2 F i - ρ i + gridMean ρ) = 0 := by
    rw [Finset.sum_add_distrib, Finset.sum_sub_distrib, sum_gridDivE, Finset.sum_const, hcard, nsmul_eq_mul, gridMean,
      mul_div_cancel₀ _ hN]
    ring
  have hv : 0 ≤ v := by
    have : ∑ i : ZMod N1 × ZMod N2, (gridDivE dq1 dq2 F i - ρ i + gridMean ρ) ≤ ∑ _i : ZMod N1 × ZMod N2, v :=
      Finset.sum_le_sum fun i _ => hle i
    rw [hsum, Finset.sum_const, hcard, nsmul_eq_mul] at this
    have hpos : (0 : K) < ((N1 * N2 : ℕ) : K) := by
      exact_mod_cast Nat.mul_pos (NeZero.pos N1) (NeZero.pos N2)
    exact nonneg_of_mul_nonneg_right this hpos
  refine ⟨hv, fun h0 i => ?_, fun hE => ?_⟩
  · have := (Finset.sum_eq_zero_iff_of_nonpos (s := Finset.univ) (f := fun i => gridDivE dq1 dq2 F i - ρ i + gridMean ρ)
      (fun i _ => by rw [← h0]; exact hle i)).mp hsum i (Finset.mem_univ i)
    linear_combination this
  · rw [← hi0, hE]; ring

/-- C83: the permittivity is left out: for fields that satisfy Gauss's law `eps * div E = rho - mean rho`, and an array mean that is the mean
over the grid, the printed number is zero exactly if the permittivity is one or the charge density is uniform. -/
theorem C83_permittivity_ignored [∀ r, Fintype (D.Loc g1 g2 r)] {o : BCOptions} (e1 : PeriodicEnds (o.name .left) (o.name .right) N1)
    (e2 : PeriodicEnds (o.name .bottom) (o.name .top) N2) (hg1 : OneGhost g1 N1) (hg2 : OneGhost g2 N2) {dq1 dq2 : K}
    {pr : ∀ r, FieldParams (D.Loc g1 g2 r) K} (hp : D.Spacing g1 g2 dq1 dq2 pr) {Y : ∀ r, EM (D.Loc g1 g2 r) K}
    {F : EM (ZMod N1 × ZMod N2) K} (hY : ∀ r, D.EMHolds g1 g2 r (Y r) F) {rho : ∀ r, D.Loc g1 g2 r → K} {ρ : ZMod N1 × ZMod N2 → K}
    (hr : ∀ r l, rho r l = ρ (D.toGlob g1 g2 r l))
    (hm : ∀ r, (∑ l, ρ (D.toGlob g1 g2 r l)) / (Fintype.card (D.Loc g1 g2 r) : K) = gridMean ρ)
    {eps : K} (heps : ∀ r, (pr r).eps = eps) (h0 : eps ≠ 0) (hG : ∀ i, eps * gridDivE dq1 dq2 F i = ρ i - gridMean ρ) {v : K}
    (h : D.ReportDivE g1 g2 o pr Y rho v) : v = 0 ↔ eps = 1 ∨ ∀ i, ρ i = gridMean ρ := by
  rw [(D.C83_divE_fair g1 g2 e1 e2 hg1 hg2 hp hY hr hm h).2]
  constructor
  · intro hE
    by_cases hu : ∀ i, ρ i = gridMean ρ
    · exact Or.inr hu
    · push Not at hu
      obtain ⟨i, hi⟩ := hu
      refine Or.inl ?_
      have := hG i
      rw [hE i] at this
      exact mul_right_cancel₀ (sub_ne_zero.mpr hi) (by rw [this, one_mul])
  · rintro (h1 | hu) i
    · rw [← hG i, h1, one_mul]
    · have := hG i
      rw [hu i, sub_self] at this ⊢
      exact (mul_eq_zero.mp this).resolve_left h0

/-- The report can always be produced when the ghost widths are the ones chosen for the options. -/
theorem C83_report_exists [∀ r, Fintype (D.Loc g1 g2 r)] {o : BCOptions} {bc1 bc2 : PetscBC} (ht : FieldTypes g1 g2 o bc1 bc2)
    (pr : ∀ r, FieldParams (D.Loc g1 g2 r) K) (Y : ∀ r, EM (D.Loc g1 g2 r) K) (rho : ∀ r, D.Loc g1 g2 r → K) :
    ∃ v, D.ReportDivE g1 g2 o pr Y rho v := ⟨_, _, ⟨bc1, bc2, Y, ht, rfl⟩, rfl⟩

end Decomp

/-! ### the report on one and on two processes -/

open Decomp

/-- Six cells in a row, periodic, one ghost cell. -/
def c83Opt : BCOptions :=
  ⟨1, fun w => match w with | .left | .right => "periodic" | .bottom | .top => "none", "cartesian", "FVM"⟩

def c83Pr {A B : ℕ} : FieldParams (ZMod A × ZMod B) ℚ := ⟨(1, 0), (0, 1), 1, 1, 1, 1, false⟩

/-- Charges `1, 0, 0, -1, 0, 0`: neutral. -/
def c83Rho (i : ZMod 6 × ZMod 1) : ℤ := if i.1 = 0 then 1 else if i.1 = 3 then -1 else 0

/-- Their field. -/
def c83E (i : ZMod 6 × ZMod 1) : ℤ := if i.1 = 1 ∨ i.1 = 2 ∨ i.1 = 3 then 1 else 0

/-- The fields `(a E, 0, 0, 0, 0, 0)`, with `b` added to the first component in cell 1. -/
def c83F (a b : ℚ) : EM (ZMod 6 × ZMod 1) ℚ :=
  ⟨fun i => a * c83E i + if i.1 = 1 then b else 0, fun _ => 0, fun _ => 0, fun _ => 0, fun _ => 0, fun _ => 0⟩

/-- Fields on the whole grid as a process sees them. -/
def EM.seen {Q Q' K : Type} (F : EM Q K) (t : Q' → Q) : EM Q' K := ⟨F.E1 ∘ t, F.E2 ∘ t, F.E3 ∘ t, F.B1 ∘ t, F.B2 ∘ t, F.B3 ∘ t⟩

theorem EM.seen_comp {Q Q' K : Type} (F : EM Q K) (t : Q' → Q) (c : Fin 6) (l : Q') : (F.seen t).comp c l = F.comp c (t l) := by
  fin_cases c <;> rfl

theorem c83_div (a b : ℚ) (i : ZMod 6 × ZMod 1) :
    gridDivE 1 1 (c83F a b) i = a * c83Rho i + if i.1 = 0 then b else if i.1 = 1 then -b else 0 := by
  obtain ⟨x, y⟩ := i
  have h : c83E (x + 1, y) - c83E (x, y) = c83Rho (x, y) := by revert x y; decide
  have h' : ((c83E (x + 1, y) : ℤ) : ℚ) - c83E (x, y) = c83Rho (x, y) := by exact_mod_cast h
  simp only [gridDivE, c83F, sub_self, add_zero, div_one, ← h', add_eq_right]
  by_cases hx : x = 0
  · subst hx; rw [if_pos rfl, if_pos rfl, if_neg (by decide)]; ring
  · simp only [hx, if_false]
    split_ifs <;> ring

theorem c83_one_mean (inst : ∀ r, Fintype ((oneProcess 6 1).Loc 1 0 r)) (r : Unit) :
    (∑ l, c83Rho ((oneProcess 6 1).toGlob 1 0 r l)) = 1 ∧ Fintype.card ((oneProcess 6 1).Loc 1 0 r) = 8 := by
  have e : inst r = (inferInstance : Fintype (ZMod 8 × ZMod 1)) := Subsingleton.elim _ _
  rw [e]
  exact ⟨by clear e inst; revert r; decide, rfl⟩

theorem c83_two_mean (inst : ∀ r, Fintype (exD.Loc 1 0 r)) (r : Fin 2) :
    (∑ l, c83Rho (exD.toGlob 1 0 r l)) = 0 ∧ Fintype.card (exD.Loc 1 0 r) = 5 := by
  have e : inst r = (inferInstance : Fintype (ZMod 5 × ZMod 1)) := Subsingleton.elim _ _
  rw [e]
  exact ⟨by clear e inst; revert r; decide, rfl⟩

theorem c83_types : FieldTypes 1 0 c83Opt .periodic .none := ⟨rfl, rfl⟩

/-- C83: the same charges and the same field, which satisfy Gauss's law in every cell, print 0 on two processes and 1/8 on one; with all
signs reversed one process prints the negative number -1/8. -/
theorem C83_depends_on_processes [∀ r, Fintype ((oneProcess 6 1).Loc 1 0 r)] [∀ r, Fintype (exD.Loc 1 0 r)] (sign : ℚ) :
    gridMean (fun i => sign * c83Rho i) = 0 ∧ (∀ i, gridDivE 1 1 (c83F sign 0) i = sign * c83Rho i) ∧
    (∀ v, exD.ReportDivE 1 0 c83Opt (fun _ => c83Pr) (fun r => (c83F sign 0).seen (exD.toGlob 1 0 r))
      (fun r l => sign * c83Rho (exD.toGlob 1 0 r l)) v ↔ v = 0) ∧
    (∀ v, (oneProcess 6 1).ReportDivE 1 0 c83Opt (fun _ => c83Pr) (fun r => (c83F sign 0).seen ((oneProcess 6 1).toGlob 1 0 r))
      (fun r l => sign * c83Rho ((oneProcess 6 1).toGlob 1 0 r l)) v ↔ v = sign / 8) := by
  have hd : ∀ i, gridDivE 1 1 (c83F sign 0) i = sign * c83Rho i := fun i => by rw [c83_div]; simp
  have key : ∀ {R : Type} (D : Decomp 6 1 R) [∀ r, Fintype (D.Loc 1 0 r)] (m : ℚ)
      (_ : ∀ r, (∑ l, sign * (c83Rho (D.toGlob 1 0 r l) : ℚ)) / (Fintype.card (D.Loc 1 0 r) : ℚ) = m) (v : ℚ),
      D.ReportDivE 1 0 c83Opt (fun _ => c83Pr) (fun r => (c83F sign 0).seen (D.toGlob 1 0 r))
        (fun r l => sign * c83Rho (D.toGlob 1 0 r l)) v ↔ v = m := by
    intro R D _ m hm v
    have one : ∀ v, D.ReportDivE 1 0 c83Opt (fun _ => c83Pr) (fun r => (c83F sign 0).seen (D.toGlob 1 0 r))
        (fun r l => sign * c83Rho (D.toGlob 1 0 r l)) v → v = m := by
      intro v h
      obtain ⟨-, i, hi⟩ := D.C83_divE_report 1 0 (o := c83Opt) (dq1 := 1) (dq2 := 1) (F := c83F sign 0) (ρ := fun i => sign * c83Rho i)
        (Or.inl ⟨rfl, rfl⟩) (Or.inr ⟨rfl, rfl, rfl⟩) (Or.inl le_rfl) (Or.inr ⟨rfl, rfl⟩) (fun _ => ⟨rfl, rfl, rfl, rfl⟩)
        (fun r c l _ => EM.seen_comp _ _ c l) (fun _ _ => rfl) h
      simp only [hm, hd] at hi
      rw [← hi]; ring
    constructor
    · exact one v
    · rintro rfl
      obtain ⟨w, hw⟩ := D.C83_report_exists 1 0 c83_types (fun _ => c83Pr) (fun r => (c83F sign 0).seen (D.toGlob 1 0 r))
        (fun r l => sign * c83Rho (D.toGlob 1 0 r l))
      rwa [one w hw] at hw
  refine ⟨?_, hd, key exD 0 ?_, key (oneProcess 6 1) (sign / 8) ?_⟩
  · have : ∑ i, c83Rho i = 0 := by decide
    rw [gridMean, ← Finset.mul_sum, ← Int.cast_sum, this]; simp
  · intro r
    obtain ⟨a, b⟩ := c83_two_mean inferInstance r
    rw [← Finset.mul_sum, ← Int.cast_sum, a]; simp
  · intro r
    obtain ⟨a, b⟩ := c83_one_mean inferInstance r
    rw [← Finset.mul_sum, ← Int.cast_sum, a, b]; norm_num

/-- C83: a printed zero does not mean that Gauss's law holds: here it is violated in two cells and one process prints 0. -/
theorem C83_misses_violation [∀ r, Fintype ((oneProcess 6 1).Loc 1 0 r)] :
    gridMean (fun i => -(c83Rho i : ℚ)) = 0 ∧ gridDivE 1 1 (c83F (-1) (1 / 8)) 0 ≠ -(c83Rho 0 : ℚ) ∧
    (∀ v, (oneProcess 6 1).ReportDivE 1 0 c83Opt (fun _ => c83Pr) (fun r => (c83F (-1) (1 / 8)).seen ((oneProcess 6 1).toGlob 1 0 r))
      (fun r l => -(c83Rho ((oneProcess 6 1).toGlob 1 0 r l) : ℚ)) v ↔ v = 0) := by
  refine ⟨?_, ?_, ?_⟩
  · have : ∑ i, c83Rho i = 0 := by decide
    rw [gridMean, Finset.sum_neg_distrib, ← Int.cast_sum, this]; simp
  · rw [c83_div]; norm_num
  · have one : ∀ v, (oneProcess 6 1).ReportDivE 1 0 c83Opt (fun _ => c83Pr) (fun r => (c83F (-1) (1 / 8)).seen ((oneProcess 6 1).toGlob 1 0 r))
        (fun r l => -(c83Rho ((oneProcess 6 1).toGlob 1 0 r l) : ℚ)) v → v = 0 := by
      intro v h
      obtain ⟨hle, i, hi⟩ := (oneProcess 6 1).C83_divE_report 1 0 (o := c83Opt) (dq1 := 1) (dq2 := 1) (F := c83F (-1) (1 / 8))
        (ρ := fun i => -(c83Rho i : ℚ)) (Or.inl ⟨rfl, rfl⟩) (Or.inr ⟨rfl, rfl, rfl⟩) (Or.inl le_rfl) (Or.inr ⟨rfl, rfl⟩)
        (fun _ => ⟨rfl, rfl, rfl, rfl⟩) (fun r c l _ => EM.seen_comp _ _ c l) (fun _ _ => rfl) h
      have hm : ∀ r, (∑ l, -(c83Rho ((oneProcess 6 1).toGlob 1 0 r l) : ℚ)) / (Fintype.card ((oneProcess 6 1).Loc 1 0 r) : ℚ) = -1 / 8 := by
        intro r
        obtain ⟨a, b⟩ := c83_one_mean inferInstance r
        rw [Finset.sum_neg_distrib, ← Int.cast_sum, a, b]; norm_num
      simp only [hm, c83_div] at hle hi
      have h0 := hle 0
      norm_num at h0
      refine le_antisymm ?_ h0
      rw [← hi]
      split_ifs <;> norm_num
    intro v
    constructor
    · exact one v
    · rintro rfl
      obtain ⟨w, hw⟩ := (oneProcess 6 1).C83_report_exists 1 0 c83_types (fun _ => c83Pr)
        (fun r => (c83F (-1) (1 / 8)).seen ((oneProcess 6 1).toGlob 1 0 r)) (fun r l => -(c83Rho ((oneProcess 6 1).toGlob 1 0 r l) : ℚ))
      rwa [one w hw] at hw

/-- A potential `q1 q2` on two by two cells with one ghost cell all round. -/
def c83A3 (l : (oneProcess 2 2).Loc 1 1 ()) : ℚ := l.1.val * l.2.val

/-- C83: the printed zero for `initialize_A3_B3` does not see that a potential is not periodic: the field each process has in its own cells is
not divergence-free on the periodic grid. -/
theorem C83_blind_to_the_seam : ∃ Y' : ∀ r, EM ((oneProcess 2 2).Loc 1 1 r) ℚ,
    (∀ r, initMagnetic c83Pr ⟨none, none, none, none, some (c83A3, fun _ => 0)⟩ ⟨0, 0, 0, 0, 0, 0⟩ = .ok (Y' r)) ∧
    (oneProcess 2 2).reportDivB 1 1 (fun _ => c83Pr) Y' = 0 ∧
    ∀ F, (∀ r, (oneProcess 2 2).EMHolds 1 1 r (Y' r) F) → gridDivB 1 1 F (0, 1) ≠ 0 := by
  refine ⟨_, fun r => rfl, (oneProcess 2 2).C83_A3_reports_zero 1 1 (fun _ => c83Pr) (fun _ => ⟨none, none, none, none, some (c83A3, fun _ => 0)⟩)
    (fun _ => rfl) (fun _ => rfl) (fun _ => rfl) (fun _ => ⟨0, 0, 0, 0, 0, 0⟩) _ (fun _ => rfl), fun F hF => ?_⟩
  have a : (c83A3 (1, 2) - c83A3 (1, 1)) / 1 = F.B1 (0, 1) := hF () 3 (1, 2) ⟨⟨by decide, by decide⟩, by decide, by decide⟩
  have b : (c83A3 (2, 2) - c83A3 (2, 1)) / 1 = F.B1 (0 - 1, 1) := hF () 3 (2, 2) ⟨⟨by decide, by decide⟩, by decide, by decide⟩
  have c : -(c83A3 (1, 2) - c83A3 (0, 2)) / 1 = F.B2 (0, 1) := hF () 4 (1, 2) ⟨⟨by decide, by decide⟩, by decide, by decide⟩
  have d : -(c83A3 (1, 1) - c83A3 (0, 1)) / 1 = F.B2 (0, 1 - 1) := hF () 4 (1, 1) ⟨⟨by decide, by decide⟩, by decide, by decide⟩
  have v1 : c83A3 (1, 2) = 2 := show ((1 : ℕ) : ℚ) * ((2 : ℕ) : ℚ) = 2 by norm_num
  have v2 : c83A3 (1, 1) = 1 := show ((1 : ℕ) : ℚ) * ((1 : ℕ) : ℚ) = 1 by norm_num
  have v3 : c83A3 (2, 2) = 4 := show ((2 : ℕ) : ℚ) * ((2 : ℕ) : ℚ) = 4 by norm_num
  have v4 : c83A3 (2, 1) = 2 := show ((2 : ℕ) : ℚ) * ((1 : ℕ) : ℚ) = 2 by norm_num
  have v5 : c83A3 (0, 2) = 0 := show ((0 : ℕ) : ℚ) * ((2 : ℕ) : ℚ) = 0 by norm_num
  have v6 : c83A3 (0, 1) = 0 := show ((0 : ℕ) : ℚ) * ((1 : ℕ) : ℚ) = 0 by norm_num
  simp only [gridDivB, ← a, ← b, ← c, ← d, v1, v2, v3, v4, v5, v6]
  norm_num

/-- Charges `1, -1, 1, -1, 1, -1`. -/
def c83Alt (i : ZMod 6 × ZMod 1) : ℤ := if i.1.val % 2 = 0 then 1 else -1

/-- The hypotheses of C83_divB_report, C83_divE_fair and C83_permittivity_ignored are met: alternating charges on one process, permittivity
2, and the exact field.  The printed number is not zero. -/
example [∀ r, Fintype ((oneProcess 6 1).Loc 1 0 r)] :
    let F : EM (ZMod 6 × ZMod 1) ℚ := ⟨fun i => if i.1.val % 2 = 0 then 0 else 1 / 2, fun _ => 0, fun _ => 0, fun _ => 0, fun i => i.1.val, fun _ => 0⟩
    let pr : ∀ r, FieldParams ((oneProcess 6 1).Loc 1 0 r) ℚ := fun _ => { c83Pr with eps := 2 }
    (∀ i, 2 * gridDivE 1 1 F i = c83Alt i - gridMean (fun i => (c83Alt i : ℚ))) ∧
    (oneProcess 6 1).reportDivB 1 0 pr (fun r => F.seen ((oneProcess 6 1).toGlob 1 0 r)) = 0 ∧
    ∃ v, (oneProcess 6 1).ReportDivE 1 0 c83Opt pr (fun r => F.seen ((oneProcess 6 1).toGlob 1 0 r))
      (fun r l => c83Alt ((oneProcess 6 1).toGlob 1 0 r l)) v ∧ 0 < v := by
  intro F pr
  have mean : gridMean (fun i => (c83Alt i : ℚ)) = 0 := by
    have : ∑ i, c83Alt i = 0 := by decide
    rw [gridMean, ← Int.cast_sum, this]; simp
  have hp : (oneProcess 6 1).Spacing 1 0 1 1 pr := fun _ => ⟨rfl, rfl, rfl, rfl⟩
  have hG : ∀ i, 2 * gridDivE 1 1 F i = c83Alt i - gridMean (fun i => (c83Alt i : ℚ)) := by
    rintro ⟨x, y⟩
    have h : ∀ x : ZMod 6, ((x + 1).val % 2 = 0 ↔ ¬ x.val % 2 = 0) := by decide
    have := h x
    rw [mean]
    simp only [gridDivE, F, c83Alt]
    by_cases hx : x.val % 2 = 0
    · simp only [hx, not_true_eq_false, iff_false] at this
      simp [hx, this]
    · simp only [hx, not_false_eq_true, iff_true] at this
      simp [hx, this]
  have hm : ∀ r, (∑ l, (c83Alt ((oneProcess 6 1).toGlob 1 0 r l) : ℚ)) / (Fintype.card ((oneProcess 6 1).Loc 1 0 r) : ℚ) =
      gridMean (fun i => (c83Alt i : ℚ)) := by
    intro r
    have e : ∀ inst : Fintype ((oneProcess 6 1).Loc 1 0 r), (∑ l, c83Alt ((oneProcess 6 1).toGlob 1 0 r l)) = 0 := by
      intro inst
      rw [Subsingleton.elim inst (inferInstance : Fintype (ZMod 8 × ZMod 1))]
      clear inst; revert r; decide
    rw [← Int.cast_sum, e, mean]; simp
  refine ⟨hG, ?_, ?_⟩
  · refine ((oneProcess 6 1).C83_divB_report 1 0 (Or.inl le_rfl) (Or.inr ⟨rfl, rfl⟩) hp (F := F) (fun _ _ => rfl) (fun _ _ => rfl)).2.mpr ?_
    rintro ⟨x, y⟩
    simp [gridDivB, F]
  · obtain ⟨v, hv⟩ := (oneProcess 6 1).C83_report_exists 1 0 c83_types pr (fun r => F.seen ((oneProcess 6 1).toGlob 1 0 r))
      (fun r l => (c83Alt ((oneProcess 6 1).toGlob 1 0 r l) : ℚ))
    refine ⟨v, hv, ?_⟩
    have h0 := (oneProcess 6 1).C83_divE_fair 1 0 (o := c83Opt) (Or.inl ⟨rfl, rfl⟩) (Or.inr ⟨rfl, rfl, rfl⟩) (Or.inl le_rfl)
      (Or.inr ⟨rfl, rfl⟩) hp (F := F) (fun r c l _ => EM.seen_comp _ _ c l) (ρ := fun i => (c83Alt i : ℚ)) (fun _ _ => rfl) hm hv
    have h1 := (oneProcess 6 1).C83_permittivity_ignored 1 0 (o := c83Opt) (Or.inl ⟨rfl, rfl⟩) (Or.inr ⟨rfl, rfl, rfl⟩) (Or.inl le_rfl)
      (Or.inr ⟨rfl, rfl⟩) hp (F := F) (fun r c l _ => EM.seen_comp _ _ c l) (ρ := fun i => (c83Alt i : ℚ)) (fun _ _ => rfl) hm
      (eps := 2) (fun _ => rfl) (by norm_num) hG hv
    refine lt_of_le_of_ne h0.1 (Ne.symm ?_)
    rw [Ne, h1, not_or]
    refine ⟨by norm_num, fun h => ?_⟩
    have := h 0
    rw [mean] at this
    simp [c83Alt] at this

end Bolt
