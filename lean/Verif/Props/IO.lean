import Verif.Proofs.IO
import Verif.Props.Layout
import Mathlib.Tactic.IntervalCases

/-!
# C39, C40: moments dump and grid coordinates (with examples for C38)
-/

set_option linter.unusedSectionVars false

namespace Bolt

variable {K : Type}

/-! ## C38 example: two processes with ghost width 2 dump, two processes with ghost width 3 load -/

/-- One number per cell on the decomposition `exD`: `10` plus the cell number, `99` in ghost cells. -/
def c38F (r : Fin 2) : AfArray ℚ := AfArray.ofFn 1 1 7 1 fun _ _ k _ => if 2 ≤ k ∧ k < 5 then 10 + 3 * r.val + (k - 2 : ℕ) else 99

example : ∃ file F', exD.DumpsTo (exD.sizes 1 1 1 1 2 0) 1 1 c38F file ∧
    exD.LoadsTo (exD.sizes 1 1 1 1 3 0) 3 0 .periodic .periodic 1 1 (fun _ => ⟨9, fun _ => 0⟩) file F' ∧
    (F' 1).get 0 0 0 0 = 10 ∧ (F' 1).get 0 0 4 0 = 14 ∧ (F' 1).get 0 0 8 0 = 12 := by
  have hz : ∀ g, g ≠ 0 → exD.SizesOk (exD.sizes 1 1 1 1 g 0) g 0 := fun g hg =>
    ⟨fun _ => rfl, fun _ => rfl, fun _ => rfl, fun _ => rfl, fun h => absurd h hg, fun _ => rfl⟩
  have hs : exD.Shaped 2 0 1 1 c38F := fun r => ⟨rfl, rfl, rfl, rfl⟩
  have hb : exD.Bulk 2 0 1 1 c38F fun _ _ x _ => 10 + (x : ℚ) := by
    intro r i j a b hi hj ha hb
    have ha' : a < 3 := ha
    unfold c38F
    rw [AfArray.get_ofFn _ _ _ _ _ _ _ _ _ hi hj (by omega), if_pos (by omega)]
    simp [exD]; ring
  obtain ⟨file, hd⟩ := exD.C38_dump_succeeds _ 2 0 1 1 c38F (hz 2 (by norm_num)) hs
  obtain ⟨F', hl⟩ := (exD.C38_load_succeeds _ 3 0 .periodic .periodic 1 1 (fun _ => ⟨9, fun _ => (0 : ℚ)⟩) file
    (hz 3 (by norm_num))).mp (exD.C38_file_contents _ 2 0 1 1 c38F file (hz 2 (by norm_num)) hs hd _ hb).1
  obtain ⟨_, _, h⟩ := exD.C38_round_trip exD _ _ 2 0 3 0 .periodic .periodic 1 1 _ c38F F' file (hz 2 (by norm_num))
    (hz 3 (by norm_num)) hs hd hl _ hb
  refine ⟨file, F', hd, hl, ?_, ?_, ?_⟩
  · rw [h 1 0 0 0 0 0 0 (by norm_num) (by norm_num) (by decide) (by norm_num) (by norm_num) rfl rfl (by decide) (by decide)]; norm_num
  · rw [h 1 0 0 4 0 4 0 (by norm_num) (by norm_num) (by decide) (by norm_num) (by norm_num) rfl rfl (by decide) (by decide)]; norm_num
  · rw [h 1 0 0 8 0 2 0 (by norm_num) (by norm_num) (by decide) (by norm_num) (by norm_num) rfl rfl (by decide) (by decide)]; norm_num

/-! ## C39: moments dump -/

/-- C39: the dumped moments are the public names of the moments module other than `integral_over_v`, each once, in alphabetical order. -/
theorem C39_attributes_alphabetical (names : List String) (hn : names.Nodup) :
    (momentAttributes names).Pairwise (· < ·) ∧
    ∀ a, a ∈ momentAttributes names ↔ a ∈ names ∧ isPrivate a = false ∧ a ≠ "integral_over_v" := by
  have hp := List.mergeSort_perm names (fun a b => decide (a ≤ b))
  have hs : (names.mergeSort fun a b => decide (a ≤ b)).Pairwise (· ≤ ·) := List.pairwise_mergeSort' (r := (· ≤ ·)) names
  have hnd : (names.mergeSort fun a b => decide (a ≤ b)).Nodup := hp.nodup_iff.mpr hn
  constructor
  · have h1 : (names.mergeSort fun a b => decide (a ≤ b)).Pairwise (· < ·) :=
      (hs.and hnd).imp fun h => lt_of_le_of_ne h.1 h.2
    exact (h1.filter _).erase _
  · intro a
    unfold momentAttributes
    rw [(hnd.filter _).mem_erase_iff, List.mem_filter, hp.mem_iff]
    simp only [Bool.not_eq_true']
    tauto

namespace Decomp
variable {N1 N2 : ℕ} {R : Type} [NeZero N1] [NeZero N2] (D : Decomp N1 N2 R)

/-- C39: dumping the moments does not raise (if there is a public moment), and in the file the numbers of cell `(x, y)` are, in alphabetical order
of the moments, the values for each species: number `m N_s + s` is moment `m` of species `s`. -/
theorem C39_file_layout (z : R → GridSizes) (g1 g2 Ns : ℕ) (names : List String) (hz : D.SizesOk z g1 g2)
    (compute : R → String → Except PyErr (AfArray K)) (A : R → String → AfArray K) (hne : momentAttributes names ≠ [])
    (hc : ∀ r, ∀ a ∈ momentAttributes names, compute r a = .ok (A r a))
    (hs : ∀ a ∈ momentAttributes names, D.Shaped g1 g2 1 Ns fun r => A r a)
    (u : String → ℕ → ℕ → ℕ → K)
    (hu : ∀ a ∈ momentAttributes names, D.Bulk g1 g2 1 Ns (fun r => A r a) fun _ s x y => u a s x y) :
    (∃ file, D.DumpsMoments z Ns names compute file) ∧
    ∀ file, D.DumpsMoments z Ns names compute file →
      ∀ m s x y (hm : m < (momentAttributes names).length), s < Ns → x < N1 → y < N2 →
        file.data ((m * Ns + s) + Ns * (momentAttributes names).length * (x + N1 * y)) = u (momentAttributes names)[m] s x y := by
  set at' := momentAttributes names with hat
  have key : ∀ r, ∃ res, joinMoments (compute r) at' = .ok res ∧
      MomShape (at'.length * Ns) (D.n1 r + 2 * g1) (D.n2 r + 2 * g2) res ∧
      ∀ m s k j (hm : m < at'.length), s < Ns → k < D.n1 r + 2 * g1 → j < D.n2 r + 2 * g2 →
        res.get 0 (m * Ns + s) k j = (A r at'[m]).get 0 s k j := fun r =>
    joinMoments_ok (compute r) (A r) Ns _ _ at' hne fun a ha => ⟨hc r a ha, hs a ha r⟩
  choose B hB hBs hBg using key
  have hsh : D.Shaped g1 g2 1 (Ns * at'.length) B := fun r => by
    obtain ⟨h0, h1, h2, h3⟩ := hBs r
    exact ⟨h0, by rw [h1]; ring, h2, h3⟩
  have hV : ∀ r, afToPetscGlobArray (z r) (B r) (Ns * at'.length * (D.n1 r * D.n2 r)) = .ok _ := fun r => by
    have := D.afToPetsc_ok hz hsh r
    rw [Nat.one_mul] at this
    exact this
  refine ⟨⟨_, B, _, hB, hV, rfl⟩, ?_⟩
  rintro file ⟨B', V, hB', hV', rfl⟩ m s x y hm hs' hx hy
  have eB : B' = B := funext fun r => by
    have := (hB' r).symm.trans (hB r); rwa [Except.ok.injEq] at this
  subst eB
  have hms : m * Ns + s < Ns * at'.length := by
    calc m * Ns + s < m * Ns + Ns := by omega
      _ = Ns * (m + 1) := by ring
      _ ≤ Ns * at'.length := Nat.mul_le_mul_left _ hm
  have hNs : 0 < Ns := by omega
  have hbulk : D.Bulk g1 g2 1 (Ns * at'.length) B' fun _ j x y =>
      if h : j / Ns < at'.length then u at'[j / Ns] (j % Ns) x y else B' (D.owner 0) |>.data 0 := by
    intro r i j a b hi hj ha hb
    have hi0 : i = 0 := by omega
    subst hi0
    have hq : j / Ns < at'.length := Nat.div_lt_of_lt_mul hj
    dsimp only
    rw [dif_pos hq]
    have e : j = j / Ns * Ns + j % Ns := by rw [mul_comm]; exact (Nat.div_add_mod j Ns).symm
    conv_lhs => rw [e]
    rw [hBg r _ _ _ _ hq (Nat.mod_lt _ hNs) (by omega) (by omega)]
    exact hu _ (List.getElem_mem hq) r 0 (j % Ns) a b (by norm_num) (Nat.mod_lt _ hNs) ha hb
  have := D.writeFile_data hz hsh hbulk (V := V) (by simpa using hV') 0 (m * Ns + s) x y (by norm_num) hms hx hy
  simp only [Nat.one_mul, Nat.zero_add] at this
  rw [this]
  have e1 : (m * Ns + s) / Ns = m := by rw [add_comm, mul_comm]; exact div_of_lt hs'
  have e2 : (m * Ns + s) % Ns = s := by rw [add_comm, mul_comm]; exact mod_of_lt hs'
  simp only [e1, e2, hm, dif_pos]

/-! ## C57: auxiliary arrays -/

/-- C57: a dump of `m ≥ 1` one-number-per-cell arrays (same `m` as on the first call; ghost width `N_ghost > 0` on both axes) never raises, the file
holds `m` numbers per cell of the grid, and number `k` of cell `(x, y)` is the bulk value of array `k`. -/
theorem C57_aux_layout (Ng : ℕ) (hN : 0 < Ng) (aux : Option ℕ) (m : ℕ) (hm : 0 < m) (haux : aux.getD m = m)
    (arrays : R → List (AfArray K)) (hlen : ∀ r, (arrays r).length = m) (u : ℕ → ℕ → ℕ → K)
    (hs : ∀ k (hk : k < m), D.Shaped Ng Ng 1 1 fun r => (arrays r)[k]'(by rw [hlen]; exact hk))
    (hu : ∀ k (hk : k < m), D.Bulk Ng Ng 1 1 (fun r => (arrays r)[k]'(by rw [hlen]; exact hk)) fun _ _ x y => u k x y) :
    (∃ file, D.DumpsAux Ng aux m arrays file) ∧ ∀ file, D.DumpsAux Ng aux m arrays file → file.len = m * (N1 * N2) ∧
      ∀ k x y, k < m → x < N1 → y < N2 → file.data (k + m * (x + N1 * y)) = u k x y := by
  have sl : ∀ n, AfArray.sliceLen Ng (-(Ng : ℤ)) (n + 2 * Ng) = n := fun n => by
    have := sliceLen_bulk (g := Ng) (n := n) (fun h => absurd h (by omega))
    rwa [if_neg (by omega)] at this
  have key : ∀ r, ∃ res, joinAux Ng (arrays r) = .ok res ∧ (res.d0 = m ∧ res.d1 = 1 ∧ res.d2 = D.n1 r ∧ res.d3 = D.n2 r) ∧
      ∀ k a b (hk : k < m), a < D.n1 r → b < D.n2 r → res.get k 0 a b = u k (D.start1 r + a) (D.start2 r + b) := by
    intro r
    have hne : arrays r ≠ [] := fun h => by have := hlen r; rw [h] at this; simp at this; omega
    obtain ⟨res, h1, h2, h3⟩ := joinAux_ok Ng (D.n1 r) (D.n2 r) (arrays r) hne (by
      intro a ha
      obtain ⟨k, hk, rfl⟩ := List.getElem_of_mem ha
      obtain ⟨e0, e1, e2, e3⟩ := hs k (by rw [← hlen r]; exact hk) r
      exact ⟨e0, e1, by rw [e2, sl], by rw [e3, sl]⟩)
    refine ⟨res, h1, by simpa [hlen r] using h2, fun k a b hk ha hb => ?_⟩
    rw [h3 k a b (by rw [hlen]; exact hk) ha hb]
    exact hu k hk r 0 0 a b (by norm_num) (by norm_num) ha hb
  choose B hB hBs hBg using key
  constructor
  · refine ⟨_, B, hB, fun r => ?_, rfl⟩
    obtain ⟨e0, e1, e2, e3⟩ := hBs r
    rw [haux, AfArray.size, e0, e1, e2, e3]; ring
  · rintro file ⟨B', hB', _, rfl⟩
    refine ⟨by rw [haux]; rfl, fun k x y hk hx hy => ?_⟩
    have eB : B' = B := funext fun r => by
      have := (hB' r).symm.trans (hB r); rwa [Except.ok.injEq] at this
    subst eB
    rw [haux]
    simp only [writeFile]
    rw [div_of_lt hk, mod_of_lt hk, div_of_lt hx]
    unfold entry
    set i : ZMod N1 × ZMod N2 := (((x + N1 * y : ℕ) : ZMod N1), ((y : ℕ) : ZMod N2)) with hi
    have i1 : i.1.val = x := by rw [hi]; dsimp only; rw [ZMod.val_natCast, mod_of_lt hx]
    have i2 : i.2.val = y := by rw [hi]; dsimp only; rw [ZMod.val_natCast, Nat.mod_eq_of_lt hy]
    obtain ⟨⟨a, b⟩, c, d⟩ := D.owner_bounds i
    rw [i1] at a b; rw [i2] at c d
    obtain ⟨e0, e1, e2, e3⟩ := hBs (D.owner i)
    have := hBg (D.owner i) k (x - D.start1 (D.owner i)) (y - D.start2 (D.owner i)) hk (by omega) (by omega)
    rw [Nat.add_sub_cancel' a, Nat.add_sub_cancel' c] at this
    rw [← this, AfArray.get, AfArray.offset, e0, e1, e2, i1, i2]
    dsimp only
    congr 1; ring

/-- C57 (negative): the first call fixes the number of arrays.  A later call with another number of arrays always raises. -/
theorem C57_aux_count_fixed (Ng : ℕ) (hN : 0 < Ng) (m m' : ℕ) (hmm : m' ≠ m) (arrays : R → List (AfArray K)) (r : R)
    (hlen : (arrays r).length = m')
    (hs : ∀ a ∈ arrays r, a.d0 = 1 ∧ a.d1 = 1 ∧ a.d2 = D.n1 r + 2 * Ng ∧ a.d3 = D.n2 r + 2 * Ng) :
    ¬ ∃ file, D.DumpsAux Ng (some m) m' arrays file := by
  rintro ⟨file, A, hA, hsz, _⟩
  have sl : ∀ n, AfArray.sliceLen Ng (-(Ng : ℤ)) (n + 2 * Ng) = n := fun n => by
    have := sliceLen_bulk (g := Ng) (n := n) (fun h => absurd h (by omega))
    rwa [if_neg (by omega)] at this
  by_cases hne : arrays r = []
  · have := hA r; rw [hne] at this; simp [joinAux] at this
  obtain ⟨res, h1, ⟨e0, e1, e2, e3⟩, _⟩ := joinAux_ok Ng (D.n1 r) (D.n2 r) (arrays r) hne (by
    intro a ha
    obtain ⟨e0, e1, e2, e3⟩ := hs a ha
    exact ⟨e0, e1, by rw [e2, sl], by rw [e3, sl]⟩)
  rw [hA r, Except.ok.injEq] at h1
  have := hsz r
  rw [h1, AfArray.size, e0, e1, e2, e3, hlen, mul_one, Option.getD_some, mul_assoc] at this
  exact hmm (Nat.eq_of_mul_eq_mul_right (Nat.mul_pos (D.pos1 r) (D.pos2 r)) this)

/-- C57 (negative): if an axis carries no ghost cells (boundary type `none`, or `N_ghost = 0`) the slice `N_g:-N_g` is empty on it and the dump always raises. -/
theorem C57_aux_needs_ghosts (Ng : ℕ) (aux : Option ℕ) (m : ℕ) (hm : 0 < aux.getD m) (arrays : R → List (AfArray K)) (r : R)
    (hs : ∀ a ∈ arrays r, a.d0 = 1 ∧ a.d1 = 1 ∧ a.d3 = 1 ∧ a.d2 = D.n1 r + 2 * Ng) :
    ¬ ∃ file, D.DumpsAux Ng aux m arrays file := by
  rintro ⟨file, A, hA, hsz, _⟩
  have sl : AfArray.sliceLen Ng (-(Ng : ℤ)) 1 = 0 := by
    unfold AfArray.sliceLen; split_ifs <;> omega
  by_cases hne : arrays r = []
  · have := hA r; rw [hne] at this; simp [joinAux] at this
  obtain ⟨res, h1, ⟨_, _, _, e3⟩, _⟩ := joinAux_ok Ng (AfArray.sliceLen Ng (-(Ng : ℤ)) (D.n1 r + 2 * Ng)) 0 (arrays r) hne (by
    intro a ha
    obtain ⟨e0, e1, e3, e2⟩ := hs a ha
    exact ⟨e0, e1, by rw [e2], by rw [e3, sl]⟩)
  rw [hA r, Except.ok.injEq] at h1
  have := hsz r
  rw [h1, AfArray.size, e3, mul_zero] at this
  have h := Nat.mul_pos hm (Nat.mul_pos (D.pos1 r) (D.pos2 r))
  omega

end Decomp

/-- Two processes, two species, moments `density` and `energy` (defined in the other order): the file has four numbers per cell. -/
example : ∃ file, exD.DumpsMoments (exD.sizes 1 1 1 2 2 0) 2 ["energy", "density"]
    (fun _ a => .ok (AfArray.ofFn 1 2 7 1 fun _ s _ _ => if a = "density" then (1 + s : ℚ) else 50)) file ∧
    file.data (1 + 4 * (5 + 6 * 0)) = 2 ∧ file.data (2 + 4 * (5 + 6 * 0)) = 50 := by
  have hat : momentAttributes ["energy", "density"] = ["density", "energy"] := by
    have h : ¬ ("energy" : String) ≤ "density" := by decide
    have h1 : isPrivate "energy" = false := by decide
    have h2 : isPrivate "density" = false := by decide
    have h3 : ¬ ("density" : String) = "integral_over_v" := by decide
    have h4 : ¬ ("energy" : String) = "integral_over_v" := by decide
    simp [momentAttributes, List.mergeSort, List.MergeSort.Internal.splitInTwo, h, h1, h2]
  have hz : exD.SizesOk (exD.sizes 1 1 1 2 2 0) 2 0 :=
    ⟨fun _ => rfl, fun _ => rfl, fun _ => rfl, fun _ => rfl, fun h => absurd h (by norm_num), fun _ => rfl⟩
  obtain ⟨⟨file, hf⟩, h⟩ := exD.C39_file_layout (exD.sizes 1 1 1 2 2 0) 2 0 2 ["energy", "density"] hz
    (fun _ a => .ok (AfArray.ofFn 1 2 7 1 fun _ s _ _ => if a = "density" then (1 + s : ℚ) else 50))
    (fun _ a => AfArray.ofFn 1 2 7 1 fun _ s _ _ => if a = "density" then (1 + s : ℚ) else 50)
    (by rw [hat]; simp) (fun _ _ _ => rfl) (fun _ _ _ => ⟨rfl, rfl, rfl, rfl⟩)
    (fun a s _ _ => if a = "density" then (1 + s : ℚ) else 50) (by
      intro a _ r i j k l hi hj hk hl
      have hk' : k < 3 := hk
      exact AfArray.get_ofFn 1 2 7 1 _ i j (k + 2) (l + 0) hi hj (by omega))
  refine ⟨file, hf, ?_, ?_⟩
  · have := h file hf 0 1 5 0 (by rw [hat]; simp) (by norm_num) (by norm_num) (by norm_num)
    simp only [hat] at this
    simpa using this.trans (by norm_num)
  · have := h file hf 1 0 5 0 (by rw [hat]; simp) (by norm_num) (by norm_num) (by norm_num)
    simp only [hat] at this
    simpa using this

/-- Two auxiliary arrays on two processes of 3 × 1 cells with one ghost cell all round. -/
example : ∃ file, exD.DumpsAux 1 none 2
    (fun r => [AfArray.ofFn 1 1 5 3 fun _ _ k _ => (3 * r.val + k - 1 : ℚ), AfArray.ofFn 1 1 5 3 fun _ _ _ _ => 8]) file ∧
    file.data (0 + 2 * (4 + 6 * 0)) = 4 ∧ file.data (1 + 2 * (4 + 6 * 0)) = 8 := by
  obtain ⟨⟨file, hf⟩, h⟩ := exD.C57_aux_layout 1 (by norm_num) none 2 (by norm_num) rfl
    (fun r => [AfArray.ofFn 1 1 5 3 fun _ _ k _ => (3 * r.val + k - 1 : ℚ), AfArray.ofFn 1 1 5 3 fun _ _ _ _ => 8]) (fun _ => rfl)
    (fun k x _ => if k = 0 then (x : ℚ) else 8) (by
      intro k hk r
      interval_cases k <;> exact ⟨rfl, rfl, rfl, rfl⟩) (by
      intro k hk r i j a b hi hj ha hb
      have ha' : a < 3 := ha
      interval_cases k
      · refine (AfArray.get_ofFn 1 1 5 3 (fun _ _ k _ => (3 * r.val + k - 1 : ℚ)) i j (a + 1) (b + 1) hi hj (by omega)).trans ?_
        simp [exD]; ring
      · refine (AfArray.get_ofFn 1 1 5 3 (fun _ _ _ _ => (8 : ℚ)) i j (a + 1) (b + 1) hi hj (by omega)).trans ?_
        simp)
  refine ⟨file, hf, ?_, ?_⟩
  · rw [(h file hf).2 0 4 0 (by norm_num) (by norm_num) (by norm_num)]; norm_num
  · rw [(h file hf).2 1 4 0 (by norm_num) (by norm_num) (by norm_num)]; norm_num

/-- The moments of `bolt/src/nonrelativistic_boltzmann/moments.py` plus a private helper, in the order of definition. -/
example : ∀ a, a ∈ momentAttributes ["integral_over_v", "density", "mom_v1_bulk", "energy", "_aux"] ↔
    a = "density" ∨ a = "energy" ∨ a = "mom_v1_bulk" := by
  intro a
  rw [(C39_attributes_alphabetical _ (by decide)).2]
  constructor
  · rintro ⟨h, h1, h2⟩
    simp only [List.mem_cons, List.not_mem_nil, or_false] at h
    rcases h with rfl | rfl | rfl | rfl | rfl
    · exact absurd rfl h2
    · exact Or.inl rfl
    · exact Or.inr (Or.inr rfl)
    · exact Or.inr (Or.inl rfl)
    · exact absurd h1 (by decide)
  · rintro (rfl | rfl | rfl) <;> decide

/-! ## C40: coordinates -/

section
variable [Field K]

/-- C40: cell centres.  On every process, in bulk and ghost cells, the coordinate arrays hold the centre of the cell with signed global index `c`:
`q_start + (c + 1/2) dq`. -/
theorem C40_cell_centres {N1 N2 : ℕ} {R : Type} (D : Decomp N1 N2 R) (g1 g2 : ℕ) (q1 q2 dq1 dq2 : K) (r : R) (a b : ℕ) :
    let ctr := (D.coords g1 g2 q1 q2 dq1 dq2 r).2.2.2
    ctr.1 a b = q1 + (((D.start1 r + a - g1 : ℤ) : K) + 1 / 2) * dq1 ∧
    ctr.2 a b = q2 + (((D.start2 r + b - g2 : ℤ) : K) + 1 / 2) * dq2 := by
  simp only [Decomp.coords, calculateQ]
  push_cast
  constructor <;> ring

/-- C40: the left-bottom corner and the centre of the bottom face. -/
theorem C40_corner_and_bottom_face {N1 N2 : ℕ} {R : Type} (D : Decomp N1 N2 R) (g1 g2 : ℕ) (q1 q2 dq1 dq2 : K) (r : R) (a b : ℕ) :
    let lb := (D.coords g1 g2 q1 q2 dq1 dq2 r).1
    let cb := (D.coords g1 g2 q1 q2 dq1 dq2 r).2.1
    lb.1 a b = q1 + ((D.start1 r + a - g1 : ℤ) : K) * dq1 ∧ lb.2 a b = q2 + ((D.start2 r + b - g2 : ℤ) : K) * dq2 ∧
    cb.1 a b = q1 + (((D.start1 r + a - g1 : ℤ) : K) + 1 / 2) * dq1 ∧ cb.2 a b = q2 + ((D.start2 r + b - g2 : ℤ) : K) * dq2 := by
  simp only [Decomp.coords, calculateQ]
  push_cast
  refine ⟨?_, ?_, ?_, ?_⟩ <;> ring

/-- C40 (negative): the coordinates handed out for the centre of the left face are those of the left-bottom corner: `q2` is half a cell too low
on every cell of every grid. -/
theorem C40_left_face_wrong {N1 N2 : ℕ} {R : Type} (D : Decomp N1 N2 R) (g1 g2 : ℕ) (q1 q2 dq1 dq2 : K) (r : R) (a b : ℕ) :
    let lc := (D.coords g1 g2 q1 q2 dq1 dq2 r).2.2.1
    lc.1 a b = q1 + ((D.start1 r + a - g1 : ℤ) : K) * dq1 ∧
    lc.2 a b = (q2 + (((D.start2 r + b - g2 : ℤ) : K) + 1 / 2) * dq2) - 1 / 2 * dq2 ∧
    (dq2 ≠ 0 → (2 : K) ≠ 0 → lc.2 a b ≠ q2 + (((D.start2 r + b - g2 : ℤ) : K) + 1 / 2) * dq2) := by
  have e : (D.coords g1 g2 q1 q2 dq1 dq2 r).2.2.1.2 a b = (q2 + (((D.start2 r + b - g2 : ℤ) : K) + 1 / 2) * dq2) - 1 / 2 * dq2 := by
    simp only [Decomp.coords, calculateQ]
    push_cast
    ring
  refine ⟨?_, e, fun h h2 hc => ?_⟩
  · simp only [Decomp.coords, calculateQ]
    push_cast
    ring
  · rw [e, sub_eq_self] at hc
    exact (mul_ne_zero (one_div_ne_zero h2) h) hc

/-- C40: neighbouring centres are one cell apart along their own axis and level along the other, and a cell's centre lies half a cell from its left-bottom
corner along both. -/
theorem C40_spacing {N1 N2 : ℕ} {R : Type} (D : Decomp N1 N2 R) (g1 g2 : ℕ) (q1 q2 dq1 dq2 : K) (r : R) (a b : ℕ) :
    let lb := (D.coords g1 g2 q1 q2 dq1 dq2 r).1
    let ctr := (D.coords g1 g2 q1 q2 dq1 dq2 r).2.2.2
    ctr.1 (a + 1) b - ctr.1 a b = dq1 ∧ ctr.2 (a + 1) b = ctr.2 a b ∧ ctr.2 a (b + 1) - ctr.2 a b = dq2 ∧ ctr.1 a (b + 1) = ctr.1 a b ∧
    ctr.1 a b - lb.1 a b = 1 / 2 * dq1 ∧ ctr.2 a b - lb.2 a b = 1 / 2 * dq2 := by
  simp only [Decomp.coords, calculateQ]
  push_cast
  refine ⟨?_, ?_, ?_, ?_, ?_, ?_⟩ <;> first | trivial | ring

/-- C40: with `dq = (q_end - q_start) / N` the bulk centres lie inside the domain, the first half a cell from the left end and the last half a cell from the
right end. -/
theorem C40_centres_inside [LinearOrder K] [IsStrictOrderedRing K] {N1 N2 : ℕ} {R : Type} (D : Decomp N1 N2 R) (g1 g2 : ℕ)
    (q1s q1e q2s q2e : K) (h1 : q1s < q1e) (r : R) (a b : ℕ) (ha : g1 ≤ a) (ha' : a < g1 + D.n1 r) :
    let dq1 := (q1e - q1s) / N1
    let dq2 := (q2e - q2s) / N2
    let ctr := (D.coords g1 g2 q1s q2s dq1 dq2 r).2.2.2
    q1s + dq1 / 2 ≤ ctr.1 a b ∧ ctr.1 a b ≤ q1e - dq1 / 2 := by
  intro dq1 dq2 ctr
  have hN : 0 < N1 := by have := D.fits1 r; have := D.pos1 r; omega
  have hN' : (0 : K) < N1 := by exact_mod_cast hN
  have hd : 0 < dq1 := div_pos (sub_pos.mpr h1) hN'
  have he : q1e = q1s + N1 * dq1 := by simp only [dq1]; field_simp; ring
  have hc := (C40_cell_centres D g1 g2 q1s q2s dq1 dq2 r a b).1
  have hf := D.fits1 r
  have hlo : (0 : K) ≤ ((D.start1 r + a - g1 : ℤ) : K) := by exact_mod_cast (by omega : (0 : ℤ) ≤ D.start1 r + a - g1)
  have hhi : ((D.start1 r + a - g1 : ℤ) : K) + 1 ≤ (N1 : K) := by
    have : ((D.start1 r + a - g1 : ℤ)) + 1 ≤ (N1 : ℤ) := by omega
    exact_mod_cast this
  simp only [ctr]
  rw [hc]
  constructor
  · nlinarith
  · rw [he]; nlinarith

/-- C40: ghost cells across a periodic boundary carry the coordinates of the cell they mirror shifted by the domain length, so a
periodic user function has the same value in both. -/
theorem C40_periodic_images [CharZero K] {N1 N2 : ℕ} {R : Type} (D : Decomp N1 N2 R) (g1 g2 : ℕ) (q1s q1e q2 dq2 : K) (r r' : R)
    (a b a' b' : ℕ) (k : ℤ) (hN : N1 ≠ 0)
    (h : (D.start1 r + a - g1 : ℤ) = D.start1 r' + a' - g1 + k * N1) :
    let c (r : R) := (D.coords g1 g2 q1s q2 ((q1e - q1s) / N1) dq2 r).2.2.2
    (c r).1 a b = (c r').1 a' b' + k * (q1e - q1s) := by
  intro c
  have hN' : (N1 : K) ≠ 0 := by exact_mod_cast hN
  simp only [c]
  rw [(C40_cell_centres D g1 g2 q1s q2 _ dq2 r a b).1, (C40_cell_centres D g1 g2 q1s q2 _ dq2 r' a' b').1, h]
  push_cast
  field_simp
  ring

/-- C40: momentum coordinates: element `i + N_p1 (j + N_p2 k)` of species `s` is
`(p1_start + (i + off) dp1, p2_start + (j + off) dp2, p3_start + (k + off) dp3)` with that species' bounds; `off = 1/2` gives the cell
centres, `off = 0` the left/bottom/back faces. -/
theorem C40_momentum_coordinates (off : K) (p1s p2s p3s : ℕ → K) (ns Np1 Np2 Np3 : ℕ) (dp1 dp2 dp3 : ℕ → K) :
    let P := calculateP off p1s p2s p3s ns Np1 Np2 Np3 dp1 dp2 dp3
    (P.1.d0 = Np1 * Np2 * Np3 ∧ P.1.d1 = ns) ∧ ∀ i j k s, i < Np1 → j < Np2 → k < Np3 → s < ns →
      P.1.get (i + Np1 * (j + Np2 * k)) s 0 0 = p1s s + (off + i) * dp1 s ∧
      P.2.1.get (i + Np1 * (j + Np2 * k)) s 0 0 = p2s s + (off + j) * dp2 s ∧
      P.2.2.get (i + Np1 * (j + Np2 * k)) s 0 0 = p3s s + (off + k) * dp3 s := by
  intro P
  let zero : AfArray K := ⟨Np1 * Np2 * Np3, ns, 1, 1, fun _ => 0⟩
  let m := fun i : ℕ => meshgrid Np2 Np1 Np3 (fun n : ℕ => p2s i + (off + n) * dp2 i) (fun n : ℕ => p1s i + (off + n) * dp1 i)
    (fun n : ℕ => p3s i + (off + n) * dp3 i)
  let upd : AfArray K × AfArray K × AfArray K → ℕ → AfArray K × AfArray K × AfArray K := fun acc i =>
    (acc.1.setColumn i (m i).2.1, acc.2.1.setColumn i (m i).1, acc.2.2.setColumn i (m i).2.2)
  have hP : P = (List.range ns).foldl upd (zero, zero, zero) := rfl
  have c1 := foldl_columns (fun t : AfArray K × AfArray K × AfArray K => t.1) upd (fun i => (m i).2.1) (fun _ _ => rfl)
    (zero, zero, zero) (Np1 * Np2 * Np3) ns rfl
  have c2 := foldl_columns (fun t : AfArray K × AfArray K × AfArray K => t.2.1) upd (fun i => (m i).1) (fun _ _ => rfl)
    (zero, zero, zero) (Np1 * Np2 * Np3) ns rfl
  have c3 := foldl_columns (fun t : AfArray K × AfArray K × AfArray K => t.2.2) upd (fun i => (m i).2.2) (fun _ _ => rfl)
    (zero, zero, zero) (Np1 * Np2 * Np3) ns rfl
  rw [hP]
  refine ⟨⟨c1.1, c1.2.1⟩, fun i j k s hi hj hk hs => ?_⟩
  have hlt : i + Np1 * (j + Np2 * k) < Np1 * Np2 * Np3 := by
    have h1 : j + Np2 * k < Np2 * Np3 := by nlinarith [Nat.succ_le_of_lt hk]
    rw [mul_assoc]
    nlinarith [Nat.succ_le_of_lt h1]
  have e : i + Np1 * (j + Np2 * k) = i + Np1 * (j + Np2 * (k + Np3 * 0)) := by ring
  refine ⟨?_, ?_, ?_⟩
  · rw [c1.2.2 _ _ hlt hs, e]
    exact AfArray.ofFn_data Np1 Np2 Np3 1 (fun (i _ _ _ : ℕ) => p1s s + (off + (i : K)) * dp1 s) i j k 0 hi hj hk
  · rw [c2.2.2 _ _ hlt hs, e]
    exact AfArray.ofFn_data Np1 Np2 Np3 1 (fun (_ j _ _ : ℕ) => p2s s + (off + (j : K)) * dp2 s) i j k 0 hi hj hk
  · rw [c3.2.2 _ _ hlt hs, e]
    exact AfArray.ofFn_data Np1 Np2 Np3 1 (fun (_ _ k _ : ℕ) => p3s s + (off + (k : K)) * dp3 s) i j k 0 hi hj hk

/-- Second process of `exD` on `[0, 6]` with two ghost cells: its third local cell has centre 3.5. -/
example : (exD.coords 2 0 (0 : ℚ) 0 1 1 1).2.2.2.1 2 0 = 7 / 2 := by
  rw [(C40_cell_centres exD 2 0 (0 : ℚ) 0 1 1 1 2 0).1]; norm_num [exD]

end

end Bolt
