import Verif.Proofs.Layout
import Verif.Props.Decomp
import Verif.Props.DecompExample
import Verif.Proofs.Fields
import Mathlib.Tactic.Abel
import Mathlib.Data.List.Sort

/-!
# C37-C40: memory layouts, dump and load, moments dump, grid coordinates
-/

set_option linter.unusedSectionVars false

namespace Bolt

variable {K : Type}

/-! ## C37: p-expanded and q-expanded layouts -/

/-- C37: a q-expanded array always converts to p-expanded form, and element `(p1 + N_p1 (p2 + N_p2 p3), s, q1, q2)` becomes element
`(p1, p2, p3, s + N_s (q1 + M1 q2))`. -/
theorem C37_to_p_expanded (z : GridSizes) (a : AfArray K) (h0 : a.d0 = z.Np1 * z.Np2 * z.Np3) (h1 : a.d1 = z.Ns)
    (h2 : a.d2 = z.M1) (h3 : a.d3 = z.M2) :
    ∃ b, convertToPExpanded z a = .ok b ∧ b.d0 = z.Np1 ∧ b.d1 = z.Np2 ∧ b.d2 = z.Np3 ∧ b.d3 = z.Ns * z.M1 * z.M2 ∧
      ∀ p1 p2 p3 s q1 q2, p1 < z.Np1 → p2 < z.Np2 → p3 < z.Np3 → s < z.Ns → q1 < z.M1 → q2 < z.M2 →
        b.get p1 p2 p3 (s + z.Ns * (q1 + z.M1 * q2)) = a.get (p1 + z.Np1 * (p2 + z.Np2 * p3)) s q1 q2 := by
  refine ⟨⟨z.Np1, z.Np2, z.Np3, z.Ns * z.M1 * z.M2, a.data⟩, ?_, rfl, rfl, rfl, rfl, ?_⟩
  · unfold convertToPExpanded AfArray.moddims
    rw [if_pos]
    simp only [AfArray.size, h0, h1, h2, h3]; ring
  · intro p1 p2 p3 s q1 q2 _ _ _ _ _ _
    simp only [AfArray.get, AfArray.offset, h0, h1, h2]
    congr 1; ring

/-- C37: conversely a p-expanded array always converts to q-expanded form, with the same correspondence of elements. -/
theorem C37_to_q_expanded (z : GridSizes) (b : AfArray K) (h0 : b.d0 = z.Np1) (h1 : b.d1 = z.Np2) (h2 : b.d2 = z.Np3)
    (h3 : b.d3 = z.Ns * z.M1 * z.M2) :
    ∃ a, convertToQExpanded z b = .ok a ∧ a.d0 = z.Np1 * z.Np2 * z.Np3 ∧ a.d1 = z.Ns ∧ a.d2 = z.M1 ∧ a.d3 = z.M2 ∧
      ∀ p1 p2 p3 s q1 q2, p1 < z.Np1 → p2 < z.Np2 → p3 < z.Np3 → s < z.Ns → q1 < z.M1 → q2 < z.M2 →
        a.get (p1 + z.Np1 * (p2 + z.Np2 * p3)) s q1 q2 = b.get p1 p2 p3 (s + z.Ns * (q1 + z.M1 * q2)) := by
  refine ⟨⟨z.Np1 * z.Np2 * z.Np3, z.Ns, z.M1, z.M2, b.data⟩, ?_, rfl, rfl, rfl, rfl, ?_⟩
  · unfold convertToQExpanded AfArray.moddims
    rw [if_pos]
    simp only [AfArray.size, h0, h1, h2, h3]; ring
  · intro p1 p2 p3 s q1 q2 _ _ _ _ _ _
    simp only [AfArray.get, AfArray.offset, h0, h1, h2]
    congr 1; ring

/-- C37: the two conversions are inverse to each other. -/
theorem C37_round_trip (z : GridSizes) :
    (∀ a b c : AfArray K, a.d0 = z.Np1 * z.Np2 * z.Np3 → a.d1 = z.Ns → a.d2 = z.M1 → a.d3 = z.M2 →
      convertToPExpanded z a = .ok b → convertToQExpanded z b = .ok c → c.Same a) ∧
    (∀ b a c : AfArray K, b.d0 = z.Np1 → b.d1 = z.Np2 → b.d2 = z.Np3 → b.d3 = z.Ns * z.M1 * z.M2 →
      convertToQExpanded z b = .ok a → convertToPExpanded z a = .ok c → c.Same b) := by
  constructor
  · intro a b c h0 h1 h2 h3 hb hc
    unfold convertToPExpanded AfArray.moddims at hb
    unfold convertToQExpanded AfArray.moddims at hc
    split_ifs at hb hc
    rw [Except.ok.injEq] at hb hc
    subst hb; subst hc
    refine ⟨h0.symm, h1.symm, h2.symm, h3.symm, fun i j k l _ _ _ _ => ?_⟩
    simp only [AfArray.get, h0, h1, h2]
  · intro b a c h0 h1 h2 h3 ha hc
    unfold convertToQExpanded AfArray.moddims at ha
    unfold convertToPExpanded AfArray.moddims at hc
    split_ifs at ha hc
    rw [Except.ok.injEq] at ha hc
    subst ha; subst hc
    refine ⟨h0.symm, h1.symm, h2.symm, h3.symm, fun i j k l _ _ _ _ => ?_⟩
    simp only [AfArray.get, h0, h1, h2]

/-- C37: an element of the last p-expanded axis is a species and a cell in exactly one way, and an element of the first q-expanded
axis is a momentum in exactly one way, so the index formulas above cover every element once. -/
theorem C37_indices_cover (n m l : ℕ) (x : ℕ) (hx : x < n * m * l) :
    ∃! t : ℕ × ℕ × ℕ, (t.1 < n ∧ t.2.1 < m ∧ t.2.2 < l) ∧ x = t.1 + n * (t.2.1 + m * t.2.2) := by
  have hn : 0 < n := Nat.pos_of_ne_zero fun h => by simp [h] at hx
  have hm : 0 < m := Nat.pos_of_ne_zero fun h => by simp [h] at hx
  refine ⟨(x % n, x / n % m, x / n / m), ⟨⟨Nat.mod_lt _ hn, Nat.mod_lt _ hm, ?_⟩, ?_⟩, ?_⟩
  · dsimp only
    rw [Nat.div_div_eq_div_mul, Nat.div_lt_iff_lt_mul (Nat.mul_pos hn hm)]
    linarith [mul_comm l (n * m)]
  · dsimp only
    rw [Nat.mod_add_div, Nat.mod_add_div]
  · rintro ⟨i, j, k⟩ ⟨⟨hi, hj, _⟩, e⟩
    dsimp only at hi hj e
    rw [e, mod_of_lt hi, div_of_lt hi, mod_of_lt hj, div_of_lt hj]

/-- C37: an array with another number of elements is rejected. -/
theorem C37_rejects (z : GridSizes) (a : AfArray K) (h : a.size ≠ z.Np1 * z.Np2 * z.Np3 * z.Ns * z.M1 * z.M2) :
    convertToPExpanded z a = .error .exception ∧ convertToQExpanded z a = .error .exception := by
  unfold convertToPExpanded convertToQExpanded AfArray.moddims
  exact ⟨if_neg fun e => h (by rw [e]; ring), if_neg fun e => h (by rw [e])⟩

/-- Two momenta along `p1`, three along `p2`, two species, 2 + 2·1 cells along `q1`, one along `q2`: a q-expanded array of 48 numbers. -/
example : ∃ b, convertToPExpanded ⟨2, 3, 1, 2, 2, 1, 1, 0⟩ (⟨6, 2, 4, 1, fun n => (n : ℚ)⟩ : AfArray ℚ) = .ok b ∧
    b.get 1 2 0 7 = 47 := by
  obtain ⟨b, hb, -, -, -, -, hg⟩ := C37_to_p_expanded ⟨2, 3, 1, 2, 2, 1, 1, 0⟩ (⟨6, 2, 4, 1, fun n => (n : ℚ)⟩ : AfArray ℚ) rfl rfl rfl rfl
  refine ⟨b, hb, ?_⟩
  have := hg 1 2 0 1 3 0 (by norm_num) (by norm_num) (by norm_num) (by norm_num) (by decide) (by decide)
  simpa [AfArray.get, AfArray.offset, GridSizes.M1] using this

/-! ## C25: communication at the level of memory blocks -/

namespace Decomp
variable {N1 N2 : ℕ} {R : Type} [NeZero N1] [NeZero N2] (D : Decomp N1 N2 R)

/-- C25 (refinement): copying blocks to and from PETSc vectors, as the code does, has the effect of the cell-level exchange the other
theorems are about. -/
theorem C25_blocks_refine_exchange (z : R → GridSizes) (g1 g2 : ℕ) (bc1 bc2 : PetscBC) (v0 v1 : ℕ) (stale : R → Vec K)
    (F F' : R → AfArray K) (hz : D.SizesOk z g1 g2) (hF : D.Shaped g1 g2 v0 v1 F)
    (h : D.Communicates z g1 g2 bc1 bc2 v0 v1 stale F F') :
    D.Shaped g1 g2 v0 v1 F' ∧ ∀ r i j (l : D.Loc g1 g2 r), i < v0 → j < v1 →
      (F' r).get i j l.1.val l.2.val = D.exchange g1 g2 bc1 bc2
        (fun r s p l => (stale r).data (p + v0 * (s + v1 * (l.1.val + (D.n1 r + 2 * g1) * l.2.val))))
        (fun r s p l => (F r).get p s l.1.val l.2.val) r j i l := by
  obtain ⟨V, hV, hF'⟩ := h
  obtain ⟨hs, hget⟩ := D.local_get hz hF'
  refine ⟨hs, fun r i j l hi hj => ?_⟩
  have : NeZero (D.n1 r + 2 * g1) := ⟨by have := D.pos1 r; omega⟩
  rw [hget r i j _ _ hi hj (ZMod.val_lt l.1), exchange]
  refine if_congr Iff.rfl ?_ rfl
  set x : ZMod N1 × ZMod N2 := (((D.start1 r + (l.1.val : ℤ) - g1 : ℤ) : ZMod N1), ((D.start2 r + (l.2.val : ℤ) - g2 : ℤ) : ZMod N2)) with hx
  have hx' : D.toGlob g1 g2 r l = x := rfl
  rw [hx', assemble]
  obtain ⟨⟨a, b⟩, c, d⟩ := D.owner_bounds x
  unfold entry
  dsimp only
  rw [D.afToPetsc_data hz hF hV _ i j _ _ hi hj (by omega)]
  simp only [toLoc]
  rw [toLoc1_val rfl _ a b, toLoc1_val rfl _ c d]

/-- The copy never raises for arrays of the solver's shape. -/
theorem C25_communicates (z : R → GridSizes) (g1 g2 : ℕ) (bc1 bc2 : PetscBC) (v0 v1 : ℕ) (stale : R → Vec K) (F : R → AfArray K)
    (hz : D.SizesOk z g1 g2) (hF : D.Shaped g1 g2 v0 v1 F) : ∃ F', D.Communicates z g1 g2 bc1 bc2 v0 v1 stale F F' := by
  obtain ⟨F', h⟩ := D.local_ok (K := K) (v0 := v0) (v1 := v1) (bc1 := bc1) (bc2 := bc2) hz
    (fun r => ⟨v0 * v1 * (D.n1 r * D.n2 r), (AfArray.ofFn v0 v1 (D.n1 r) (D.n2 r) fun i j k l => (F r).get i j (k + g1) (l + g2)).data⟩) stale
  exact ⟨F', _, fun r => D.afToPetsc_ok hz hF r, h⟩

/-- C25 (negative): with boundary type `none` (no ghost cells) on an axis with more than one cell on some process the copy raises: the bulk slice is
`0:1`. -/
theorem C25_none_needs_one_cell (z : R → GridSizes) (v0 v1 : ℕ) (a : AfArray K) (r : R) (hv : 0 < v0 * v1)
    (h2 : (z r).n2 = D.n2 r) (hg1 : (z r).g1 = 0) (hn : 1 < D.n1 r) (hg2 : (z r).g2 ≠ 0 ∨ D.n2 r = 1)
    (ha : a.d0 = v0 ∧ a.d1 = v1 ∧ a.d2 = (z r).M1 ∧ a.d3 = (z r).M2) :
    afToPetscGlobArray (z r) a (v0 * v1 * (D.n1 r * D.n2 r)) = .error .exception := by
  obtain ⟨h0, h1', h2', h3⟩ := ha
  unfold afToPetscGlobArray
  dsimp only
  rw [if_neg]
  have e2 : AfArray.sliceLen (z r).g2 (z r).end2 a.d3 = D.n2 r := by
    rw [h3, GridSizes.M2, h2, GridSizes.end2]
    exact sliceLen_bulk fun hg => by rcases hg2 with h | h <;> [exact absurd hg h; exact h]
  have e1 : AfArray.sliceLen (z r).g1 (z r).end1 a.d2 = 1 := by
    simp [AfArray.sliceLen, GridSizes.end1, hg1]
  simp only [AfArray.size, AfArray.slice, AfArray.ofFn, e1, e2, h0, h1']
  have hp := D.pos2 r
  intro e
  have : 0 < v0 * v1 * D.n2 r := Nat.mul_pos hv hp
  have e' : v0 * v1 * D.n2 r * D.n1 r = v0 * v1 * D.n2 r * 1 := by linarith
  have := Nat.eq_of_mul_eq_mul_left this e'
  omega

/-! ## C38: dump and load -/

/-- C38: dumping never raises. -/
theorem C38_dump_succeeds (z : R → GridSizes) (g1 g2 v0 v1 : ℕ) (F : R → AfArray K) (hz : D.SizesOk z g1 g2)
    (hF : D.Shaped g1 g2 v0 v1 F) : ∃ file, D.DumpsTo z v0 v1 F file :=
  ⟨_, _, fun r => D.afToPetsc_ok hz hF r, rfl⟩

/-- C38: the file lists the bulk values of the whole domain, `v0 v1` numbers per cell, the cells with `q1` running fastest — whatever the
decomposition. -/
theorem C38_file_contents (z : R → GridSizes) (g1 g2 v0 v1 : ℕ) (F : R → AfArray K) (file : Vec K)
    (hz : D.SizesOk z g1 g2) (hF : D.Shaped g1 g2 v0 v1 F) (h : D.DumpsTo z v0 v1 F file) (u : ℕ → ℕ → ℕ → ℕ → K)
    (hu : D.Bulk g1 g2 v0 v1 F u) : file.len = v0 * v1 * (N1 * N2) ∧
      ∀ i j x y, i < v0 → j < v1 → x < N1 → y < N2 → file.data (i + v0 * (j + v1 * (x + N1 * y))) = u i j x y := by
  obtain ⟨V, hV, rfl⟩ := h
  refine ⟨rfl, fun i j x y hi hj hx hy => ?_⟩
  rw [show i + v0 * (j + v1 * (x + N1 * y)) = (i + v0 * j) + v0 * v1 * (x + N1 * y) by ring]
  exact D.writeFile_data hz hF hu hV i j x y hi hj hx hy

/-- C38: loading a file of the right length never raises; any other length is refused. -/
theorem C38_load_succeeds (z : R → GridSizes) (g1 g2 : ℕ) (bc1 bc2 : PetscBC) (v0 v1 : ℕ) (stale : R → Vec K) (file : Vec K)
    (hz : D.SizesOk z g1 g2) :
    (file.len = v0 * v1 * (N1 * N2) ↔ ∃ F', D.LoadsTo z g1 g2 bc1 bc2 v0 v1 stale file F') := by
  constructor
  · intro hl
    obtain ⟨F', h⟩ := D.local_ok (K := K) (v0 := v0) (v1 := v1) (bc1 := bc1) (bc2 := bc2) hz
      (fun r => ⟨v0 * v1 * (D.n1 r * D.n2 r), fun n => file.data
        (n % (v0 * v1) + v0 * v1 * ((D.start1 r + n / (v0 * v1) % D.n1 r) + N1 * (D.start2 r + n / (v0 * v1) / D.n1 r)))⟩) stale
    exact ⟨F', _, if_pos hl, h⟩
  · rintro ⟨F', V, hV, _⟩
    unfold readFile at hV
    split_ifs at hV with h
    exact h

/-- C38: what a load puts into a local cell: the file's entry for that cell, modulo the period along periodic axes (so ghost cells are filled too). -/
theorem C38_load_contents (z : R → GridSizes) (g1 g2 : ℕ) (bc1 bc2 : PetscBC) (v0 v1 : ℕ) (stale : R → Vec K) (file : Vec K)
    (F' : R → AfArray K) (hz : D.SizesOk z g1 g2) (h : D.LoadsTo z g1 g2 bc1 bc2 v0 v1 stale file F') :
    D.Shaped g1 g2 v0 v1 F' ∧ ∀ (r) (i j a b x y : ℕ), i < v0 → j < v1 → a < D.n1 r + 2 * g1 → x < N1 → y < N2 →
      (bc1 = .periodic ∧ (D.start1 r + (a : ℤ) - g1) ≡ x [ZMOD N1] ∨ (D.start1 r + (a : ℤ) - g1) = x) →
      (bc2 = .periodic ∧ (D.start2 r + (b : ℤ) - g2) ≡ y [ZMOD N2] ∨ (D.start2 r + (b : ℤ) - g2) = y) →
      (F' r).get i j a b = file.data (i + v0 * (j + v1 * (x + N1 * y))) := by
  obtain ⟨V, hV, hF'⟩ := h
  obtain ⟨hs, hget⟩ := D.local_get hz hF'
  refine ⟨hs, fun r i j a b x y hi hj ha hx hy h1 h2 => ?_⟩
  have hc : i + v0 * j < v0 * v1 := by nlinarith [Nat.succ_le_of_lt hj]
  have f1 : fills bc1 N1 (D.start1 r + (a : ℤ) - g1) := by
    rcases h1 with ⟨h, _⟩ | h
    · exact Or.inl h
    · exact Or.inr (by omega)
  have f2 : fills bc2 N2 (D.start2 r + (b : ℤ) - g2) := by
    rcases h2 with ⟨h, _⟩ | h
    · exact Or.inl h
    · exact Or.inr (by omega)
  have e1 : (((D.start1 r + (a : ℤ) - g1 : ℤ) : ZMod N1)) = ((x : ℕ) : ZMod N1) := by
    rcases h1 with ⟨_, h⟩ | h
    · rw [(ZMod.intCast_eq_intCast_iff _ _ _).mpr h]; simp
    · rw [h]; simp
  have e2 : (((D.start2 r + (b : ℤ) - g2 : ℤ) : ZMod N2)) = ((y : ℕ) : ZMod N2) := by
    rcases h2 with ⟨_, h⟩ | h
    · rw [(ZMod.intCast_eq_intCast_iff _ _ _).mpr h]; simp
    · rw [h]; simp
  rw [hget r i j a b hi hj ha, if_pos ⟨f1, f2⟩, e1, e2, D.entry_readFile hV _ _ hc]
  dsimp only
  rw [ZMod.val_natCast, ZMod.val_natCast, Nat.mod_eq_of_lt hx, Nat.mod_eq_of_lt hy]
  congr 1; ring

/-- C38: dumping on one set of processes and loading on another (any decomposition, ghost width, boundary types and stale contents)
restores every bulk value; along periodic axes the ghost cells hold the periodic images as well. -/
theorem C38_round_trip {R' : Type} (D' : Decomp N1 N2 R') (z : R → GridSizes) (z' : R' → GridSizes) (g1 g2 g1' g2' : ℕ)
    (bc1 bc2 : PetscBC) (v0 v1 : ℕ) (stale : R' → Vec K) (F : R → AfArray K) (F' : R' → AfArray K) (file : Vec K)
    (hz : D.SizesOk z g1 g2) (hz' : D'.SizesOk z' g1' g2') (hF : D.Shaped g1 g2 v0 v1 F) (hd : D.DumpsTo z v0 v1 F file)
    (hl : D'.LoadsTo z' g1' g2' bc1 bc2 v0 v1 stale file F') (u : ℕ → ℕ → ℕ → ℕ → K) (hu : D.Bulk g1 g2 v0 v1 F u) :
    D'.Shaped g1' g2' v0 v1 F' ∧ D'.Bulk g1' g2' v0 v1 F' u ∧
      ∀ (r) (i j a b x y : ℕ), i < v0 → j < v1 → a < D'.n1 r + 2 * g1' → x < N1 → y < N2 →
        bc1 = .periodic → bc2 = .periodic →
        (D'.start1 r + (a : ℤ) - g1') ≡ x [ZMOD N1] → (D'.start2 r + (b : ℤ) - g2') ≡ y [ZMOD N2] →
        (F' r).get i j a b = u i j x y := by
  obtain ⟨_, hfile⟩ := D.C38_file_contents z g1 g2 v0 v1 F file hz hF hd u hu
  obtain ⟨hs, hget⟩ := D'.C38_load_contents z' g1' g2' bc1 bc2 v0 v1 stale file F' hz' hl
  refine ⟨hs, fun r i j a b hi hj ha hb => ?_, fun r i j a b x y hi hj ha hx hy p1 p2 e1 e2 => ?_⟩
  · have f1 := D'.fits1 r
    have f2 := D'.fits2 r
    rw [hget r i j _ _ (D'.start1 r + a) (D'.start2 r + b) hi hj (by omega) (by omega) (by omega)
      (Or.inr (by push_cast; ring)) (Or.inr (by push_cast; ring))]
    exact hfile i j _ _ hi hj (by omega) (by omega)
  · rw [hget r i j a b x y hi hj ha hx hy (Or.inl ⟨p1, e1⟩) (Or.inl ⟨p2, e2⟩)]
    exact hfile i j x y hi hj hx hy

/-- C38: on the same processes, loading one's own dump does what communicating the state would do. -/
theorem C38_load_own_dump (z : R → GridSizes) (g1 g2 : ℕ) (bc1 bc2 : PetscBC) (v0 v1 : ℕ) (stale : R → Vec K)
    (F F1 F2 : R → AfArray K) (file : Vec K) (hz : D.SizesOk z g1 g2)
    (hd : D.DumpsTo z v0 v1 F file) (hl : D.LoadsTo z g1 g2 bc1 bc2 v0 v1 stale file F1)
    (hc : D.Communicates z g1 g2 bc1 bc2 v0 v1 stale F F2) : ∀ r, (F1 r).Same (F2 r) := by
  obtain ⟨V, hV, rfl⟩ := hd
  obtain ⟨V1, hV1, hF1⟩ := hl
  obtain ⟨V2, hV2, hF2⟩ := hc
  have : V = V2 := funext fun r => by have := (hV r).symm.trans (hV2 r); rwa [Except.ok.injEq] at this
  subst this
  obtain ⟨s1, h1⟩ := D.local_get hz hF1
  obtain ⟨s2, h2⟩ := D.local_get hz hF2
  intro r
  obtain ⟨a0, a1, a2, a3⟩ := s1 r
  obtain ⟨b0, b1, b2, b3⟩ := s2 r
  refine ⟨a0.trans b0.symm, a1.trans b1.symm, a2.trans b2.symm, a3.trans b3.symm, fun i j k l hi hj hk _ => ?_⟩
  rw [a0] at hi; rw [a1] at hj; rw [a2] at hk
  rw [h1 r i j k l hi hj hk, h2 r i j k l hi hj hk]
  refine if_congr Iff.rfl ?_ rfl
  have hcc : i + v0 * j < v0 * v1 := by nlinarith [Nat.succ_le_of_lt hj]
  rw [D.entry_readFile hV1 _ _ hcc]
  have hx := ZMod.val_lt (((D.start1 r + (k : ℤ) - g1 : ℤ) : ZMod N1))
  simp only [writeFile]
  rw [div_of_lt hcc, mod_of_lt hcc, div_of_lt hx]
  congr 2
  · push_cast; simp
  · simp

theorem globCoord_succ {N n start g : ℕ} (hg : 1 ≤ g ∨ N = 1) (a : ZMod (n + 2 * g)) (h2 : a.val < g + n) :
    ((globCoord start g (a + 1) : ℤ) : ZMod N) = ((globCoord start g a : ℤ) : ZMod N) + 1 := by
  rcases hg with hg | hN
  · have : NeZero (n + 2 * g) := ⟨by omega⟩
    have := cast_globCoord_add (N := N) (start := start) (g := g) a 1 (by omega) (by push_cast; omega)
    simpa using this
  · subst hN; exact Subsingleton.elim _ _

/-- C38 (electromagnetic fields): after `load_EM_fields` on periodic axes the staggered fields of every process are the dumped ones, and the cell-centred
fields, recomputed from them, are on every bulk cell those that the dumped staggered fields give on the whole grid. -/
theorem C38_cell_centred_fields [Field K] {R' : Type} (D' : Decomp N1 N2 R') (z : R → GridSizes) (z' : R' → GridSizes)
    (g1 g2 g1' g2' : ℕ) (stale : R' → Vec K) (Y : R → AfArray K) (Y' : R' → AfArray K) (file : Vec K)
    (hz : D.SizesOk z g1 g2) (hz' : D'.SizesOk z' g1' g2') (hF : D.Shaped g1 g2 6 1 Y) (hd : D.DumpsTo z 6 1 Y file)
    (hl : D'.LoadsTo z' g1' g2' .periodic .periodic 6 1 stale file Y') (u : EM (ZMod N1 × ZMod N2) K)
    (hu : D.Bulk g1 g2 6 1 Y fun n _ x y => u.column n ((x : ZMod N1), (y : ZMod N2)))
    (C : EM (ZMod N1 × ZMod N2) K) (r : R') (C' : EM (D'.Loc g1' g2' r) K) (l : D'.Loc g1' g2' r) (hl' : D'.Interior g1' g2' r l) :
    let loc := toCentre (1, 0) (0, 1) .both ((Y' r).toEM : EM (D'.Loc g1' g2' r) K) C'
    let glob := toCentre (1, 0) (0, 1) .both u C
    let i := D'.toGlob g1' g2' r l
    loc.E1 l = glob.E1 i ∧ loc.E2 l = glob.E2 i ∧ loc.E3 l = glob.E3 i ∧
      loc.B1 l = glob.B1 i ∧ loc.B2 l = glob.B2 i ∧ loc.B3 l = glob.B3 i := by
  obtain ⟨_, _, hget⟩ := D.C38_round_trip D' z z' g1 g2 g1' g2' .periodic .periodic 6 1 stale Y Y' file hz hz' hF hd hl _ hu
  obtain ⟨⟨a1, b1⟩, a2, b2⟩ := hl'
  have : NeZero (D'.n1 r + 2 * g1') := ⟨by have := D'.pos1 r; omega⟩
  have key : ∀ (c : ℕ) (m : D'.Loc g1' g2' r), c < 6 → (Y' r).get c 0 m.1.val m.2.val = u.column c (D'.toGlob g1' g2' r m) := by
    intro c m hc
    have h := hget r c 0 m.1.val m.2.val (((globCoord (D'.start1 r) g1' m.1 : ℤ) : ZMod N1)).val
      (((globCoord (D'.start2 r) g2' m.2 : ℤ) : ZMod N2)).val hc (by norm_num) (ZMod.val_lt _) (ZMod.val_lt _) (ZMod.val_lt _) rfl rfl
      ((ZMod.intCast_eq_intCast_iff _ _ _).mp (by simp [globCoord])) ((ZMod.intCast_eq_intCast_iff _ _ _).mp (by simp [globCoord]))
    rw [h]
    simp only [toGlob, ZMod.natCast_val, ZMod.cast_id', id_eq]
  have h1 : 1 ≤ g1' ∨ N1 = 1 := by
    rcases Nat.eq_zero_or_pos g1' with h | h
    · exact Or.inr (hz'.thin1 h)
    · exact Or.inl h
  have h2 : 1 ≤ g2' ∨ N2 = 1 := by
    rcases Nat.eq_zero_or_pos g2' with h | h
    · exact Or.inr (hz'.thin2 h)
    · exact Or.inl h
  have s1 := globCoord_succ (N := N1) (start := D'.start1 r) h1 l.1 b1
  have s2 := globCoord_succ (N := N2) (start := D'.start2 r) h2 l.2 b2
  have t1 : D'.toGlob g1' g2' r (l + (1, 0)) = D'.toGlob g1' g2' r l + (1, 0) := by
    simp only [toGlob, Prod.fst_add, Prod.snd_add, add_zero, s1, Prod.mk_add_mk]
  have t2 : D'.toGlob g1' g2' r (l + (0, 1)) = D'.toGlob g1' g2' r l + (0, 1) := by
    simp only [toGlob, Prod.fst_add, Prod.snd_add, add_zero, s2, Prod.mk_add_mk]
  have t3 : D'.toGlob g1' g2' r (l + (1, 0) + (0, 1)) = D'.toGlob g1' g2' r l + (1, 0) + (0, 1) := by
    simp only [toGlob, Prod.fst_add, Prod.snd_add, add_zero, s1, s2, Prod.mk_add_mk]
  simp only [toCentre, AfArray.toEM, reduceCtorEq, false_or, if_true, afShift_back]
  refine ⟨?_, ?_, ?_, ?_, ?_, ?_⟩
  · rw [key 0 _ (by norm_num), key 0 _ (by norm_num), t1]; rfl
  · rw [key 1 _ (by norm_num), key 1 _ (by norm_num), t2]; rfl
  · rw [key 2 _ (by norm_num)]; rfl
  · rw [key 3 _ (by norm_num), key 3 _ (by norm_num), t2]; rfl
  · rw [key 4 _ (by norm_num), key 4 _ (by norm_num), t1]; rfl
  · rw [key 5 _ (by norm_num), key 5 _ (by norm_num), key 5 _ (by norm_num), key 5 _ (by norm_num), t1, t2, t3]; rfl

end Decomp

end Bolt
