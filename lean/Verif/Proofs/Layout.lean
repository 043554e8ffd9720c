import Verif.Spec.Layout
import Verif.Proofs.Decomp

/-! Helper lemmas for layouts and files: mixed-radix arithmetic. -/

set_option linter.unusedSectionVars false

namespace Bolt

variable {K : Type}

theorem mod_of_lt {c m x : ℕ} (h : c < m) : (c + m * x) % m = c := by
  rw [Nat.add_mul_mod_self_left, Nat.mod_eq_of_lt h]

theorem div_of_lt {c m x : ℕ} (h : c < m) : (c + m * x) / m = x := by
  rw [Nat.add_mul_div_left _ _ (by omega), Nat.div_eq_of_lt h, Nat.zero_add]

namespace AfArray

theorem get_ofFn (d0 d1 d2 d3 : ℕ) (g : ℕ → ℕ → ℕ → ℕ → K) (i j k l : ℕ) (hi : i < d0) (hj : j < d1) (hk : k < d2) :
    (ofFn d0 d1 d2 d3 g).get i j k l = g i j k l := by
  simp only [get, ofFn, offset]
  rw [mod_of_lt hi, div_of_lt hi, mod_of_lt hj, div_of_lt hj, mod_of_lt hk, div_of_lt hk]

theorem offset_lt {d0 d1 d2 d3 i j k l : ℕ} (hi : i < d0) (hj : j < d1) (hk : k < d2) (hl : l < d3) :
    offset d0 d1 d2 i j k l < d0 * d1 * d2 * d3 := by
  have h1 : k + d2 * l < d2 * d3 := by nlinarith [Nat.succ_le_of_lt hl]
  have h2 : j + d1 * (k + d2 * l) < d1 * (d2 * d3) := by nlinarith [Nat.succ_le_of_lt h1]
  have h3 : i + d0 * (j + d1 * (k + d2 * l)) < d0 * (d1 * (d2 * d3)) := by nlinarith [Nat.succ_le_of_lt h2]
  simpa [offset, mul_assoc] using h3

theorem ofFn_data (d0 d1 d2 d3 : ℕ) (g : ℕ → ℕ → ℕ → ℕ → K) (i j k l : ℕ) (hi : i < d0) (hj : j < d1) (hk : k < d2) :
    (ofFn d0 d1 d2 d3 g).data (i + d0 * (j + d1 * (k + d2 * l))) = g i j k l :=
  get_ofFn d0 d1 d2 d3 g i j k l hi hj hk

end AfArray

theorem sliceLen_bulk {g n : ℕ} (h : g = 0 → n = 1) :
    AfArray.sliceLen g (if g = 0 then 1 else -(g : ℤ)) (n + 2 * g) = n := by
  unfold AfArray.sliceLen
  by_cases hg : g = 0
  · subst hg; simp [h rfl]
  · rw [if_neg hg, if_pos (by omega)]; omega

namespace Decomp
variable {N1 N2 : ℕ} {R : Type} [NeZero N1] [NeZero N2] (D : Decomp N1 N2 R)

theorem thin1' {z : R → GridSizes} {g1 g2 : ℕ} (hz : D.SizesOk z g1 g2) (r : R) : g1 = 0 → D.n1 r = 1 := fun h => by
  have a := hz.thin1 h; have b := D.fits1 r; have c := D.pos1 r; omega

theorem thin2' {z : R → GridSizes} {g1 g2 : ℕ} (hz : D.SizesOk z g1 g2) (r : R) : g2 = 0 → D.n2 r = 1 := fun h => by
  have a := hz.thin2 h; have b := D.fits2 r; have c := D.pos2 r; omega

/-- The bulk slice has the right size, so the copy succeeds. -/
theorem afToPetsc_ok {z : R → GridSizes} {g1 g2 v0 v1 : ℕ} (hz : D.SizesOk z g1 g2) {F : R → AfArray K}
    (hF : D.Shaped g1 g2 v0 v1 F) (r : R) :
    afToPetscGlobArray (z r) (F r) (v0 * v1 * (D.n1 r * D.n2 r)) = .ok ⟨v0 * v1 * (D.n1 r * D.n2 r),
      (AfArray.ofFn v0 v1 (D.n1 r) (D.n2 r) fun i j k l => (F r).get i j (k + g1) (l + g2)).data⟩ := by
  obtain ⟨h0, h1, h2, h3⟩ := hF r
  have e : (F r).slice (z r).g1 (z r).end1 (z r).g2 (z r).end2
      = AfArray.ofFn v0 v1 (D.n1 r) (D.n2 r) fun i j k l => (F r).get i j (k + g1) (l + g2) := by
    unfold AfArray.slice GridSizes.end1 GridSizes.end2
    rw [hz.hg1 r, hz.hg2 r, h0, h1, h2, h3, sliceLen_bulk (D.thin1' hz r), sliceLen_bulk (D.thin2' hz r)]
  unfold afToPetscGlobArray
  simp only [e]
  rw [if_pos]
  simp [AfArray.size, AfArray.ofFn, mul_assoc]

theorem afToPetsc_data {z : R → GridSizes} {g1 g2 v0 v1 : ℕ} (hz : D.SizesOk z g1 g2) {F : R → AfArray K}
    (hF : D.Shaped g1 g2 v0 v1 F) {V : R → Vec K}
    (hV : ∀ r, afToPetscGlobArray (z r) (F r) (v0 * v1 * (D.n1 r * D.n2 r)) = .ok (V r)) (r : R) (i j a b : ℕ)
    (hi : i < v0) (hj : j < v1) (ha : a < D.n1 r) :
    (V r).data ((i + v0 * j) + v0 * v1 * (a + D.n1 r * b)) = (F r).get i j (a + g1) (b + g2) := by
  have h := hV r
  rw [D.afToPetsc_ok hz hF r, Except.ok.injEq] at h
  rw [← h]
  have e : (i + v0 * j) + v0 * v1 * (a + D.n1 r * b) = i + v0 * (j + v1 * (a + D.n1 r * b)) := by ring
  dsimp only
  rw [e, AfArray.ofFn_data _ _ _ _ _ _ _ _ _ hi hj ha]

/-- Reading an entry of the distributed vector. -/
theorem entry_bulk {z : R → GridSizes} {g1 g2 v0 v1 : ℕ} (hz : D.SizesOk z g1 g2) {F : R → AfArray K}
    (hF : D.Shaped g1 g2 v0 v1 F) {u : ℕ → ℕ → ℕ → ℕ → K} (hu : D.Bulk g1 g2 v0 v1 F u) {V : R → Vec K}
    (hV : ∀ r, afToPetscGlobArray (z r) (F r) (v0 * v1 * (D.n1 r * D.n2 r)) = .ok (V r))
    (x : ZMod N1 × ZMod N2) (i j : ℕ) (hi : i < v0) (hj : j < v1) :
    D.entry (v0 * v1) V x (i + v0 * j) = u i j x.1.val x.2.val := by
  obtain ⟨⟨a, b⟩, c, d⟩ := D.owner_bounds x
  unfold entry
  dsimp only
  rw [D.afToPetsc_data hz hF hV _ i j _ _ hi hj (by omega), hu _ i j _ _ hi hj (by omega) (by omega)]
  congr 1 <;> omega

theorem writeFile_data {z : R → GridSizes} {g1 g2 v0 v1 : ℕ} (hz : D.SizesOk z g1 g2) {F : R → AfArray K}
    (hF : D.Shaped g1 g2 v0 v1 F) {u : ℕ → ℕ → ℕ → ℕ → K} (hu : D.Bulk g1 g2 v0 v1 F u) {V : R → Vec K}
    (hV : ∀ r, afToPetscGlobArray (z r) (F r) (v0 * v1 * (D.n1 r * D.n2 r)) = .ok (V r))
    (i j x y : ℕ) (hi : i < v0) (hj : j < v1) (hx : x < N1) (hy : y < N2) :
    (D.writeFile (v0 * v1) V).data ((i + v0 * j) + v0 * v1 * (x + N1 * y)) = u i j x y := by
  have hc : i + v0 * j < v0 * v1 := by nlinarith [Nat.succ_le_of_lt hj]
  simp only [writeFile]
  rw [div_of_lt hc, mod_of_lt hc, div_of_lt hx, D.entry_bulk hz hF hu hV _ i j hi hj]
  dsimp only
  rw [ZMod.val_natCast, ZMod.val_natCast, Nat.mod_eq_of_lt hy, mod_of_lt hx]

theorem entry_readFile {dof : ℕ} {file : Vec K} {V : R → Vec K} (h : D.readFile dof file = .ok V)
    (x : ZMod N1 × ZMod N2) (c : ℕ) (hc : c < dof) :
    D.entry dof V x c = file.data (c + dof * (x.1.val + N1 * x.2.val)) := by
  obtain ⟨⟨a, b⟩, e, f⟩ := D.owner_bounds x
  unfold readFile at h
  split_ifs at h
  rw [Except.ok.injEq] at h
  unfold entry
  rw [← h]
  dsimp only
  rw [mod_of_lt hc, div_of_lt hc, mod_of_lt (by omega), div_of_lt (by omega)]
  rw [Nat.add_sub_cancel' a, Nat.add_sub_cancel' e]

/-- The array each process reads back after `globalToLocal`. -/
theorem local_get {z : R → GridSizes} {g1 g2 v0 v1 : ℕ} {bc1 bc2 : PetscBC} (hz : D.SizesOk z g1 g2)
    {V stale : R → Vec K} {F' : R → AfArray K}
    (h : ∀ r, petscLocalArrayToAf (z r) v0 v1 (D.globalToLocal g1 g2 bc1 bc2 (v0 * v1) V stale r) = .ok (F' r)) :
    D.Shaped g1 g2 v0 v1 F' ∧ ∀ r i j a b, i < v0 → j < v1 → a < D.n1 r + 2 * g1 →
      (F' r).get i j a b =
        if fills bc1 N1 (D.start1 r + (a : ℤ) - g1) ∧ fills bc2 N2 (D.start2 r + (b : ℤ) - g2) then
          D.entry (v0 * v1) V (((D.start1 r + (a : ℤ) - g1 : ℤ) : ZMod N1), ((D.start2 r + (b : ℤ) - g2 : ℤ) : ZMod N2)) (i + v0 * j)
        else (stale r).data (i + v0 * (j + v1 * (a + (D.n1 r + 2 * g1) * b))) := by
  have key : ∀ r, F' r = ⟨v0, v1, D.n1 r + 2 * g1, D.n2 r + 2 * g2, (D.globalToLocal g1 g2 bc1 bc2 (v0 * v1) V stale r).data⟩ := by
    intro r
    have hr := h r
    unfold petscLocalArrayToAf AfArray.moddims GridSizes.M1 GridSizes.M2 at hr
    rw [hz.hn1 r, hz.hn2 r, hz.hg1 r, hz.hg2 r] at hr
    split_ifs at hr
    rw [Except.ok.injEq] at hr
    exact hr.symm
  refine ⟨fun r => by rw [key r]; exact ⟨rfl, rfl, rfl, rfl⟩, fun r i j a b hi hj ha => ?_⟩
  have hc : i + v0 * j < v0 * v1 := by nlinarith [Nat.succ_le_of_lt hj]
  have e : i + v0 * (j + v1 * (a + (D.n1 r + 2 * g1) * b)) = (i + v0 * j) + v0 * v1 * (a + (D.n1 r + 2 * g1) * b) := by ring
  rw [key r]
  simp only [AfArray.get, AfArray.offset, globalToLocal]
  rw [e, div_of_lt hc, mod_of_lt hc, mod_of_lt ha, div_of_lt ha]

theorem local_ok {z : R → GridSizes} {g1 g2 v0 v1 : ℕ} {bc1 bc2 : PetscBC} (hz : D.SizesOk z g1 g2)
    (V stale : R → Vec K) : ∃ F' : R → AfArray K, ∀ r,
      petscLocalArrayToAf (z r) v0 v1 (D.globalToLocal g1 g2 bc1 bc2 (v0 * v1) V stale r) = .ok (F' r) := by
  refine ⟨fun r => ⟨v0, v1, D.n1 r + 2 * g1, D.n2 r + 2 * g2, (D.globalToLocal g1 g2 bc1 bc2 (v0 * v1) V stale r).data⟩, fun r => ?_⟩
  unfold petscLocalArrayToAf AfArray.moddims GridSizes.M1 GridSizes.M2
  rw [hz.hn1 r, hz.hn2 r, hz.hg1 r, hz.hg2 r, if_pos]
  simp only [AfArray.size, globalToLocal]
  ring

end Decomp
end Bolt
