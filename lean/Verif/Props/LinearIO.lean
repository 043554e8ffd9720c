import Verif.Model.LinearIO
import Verif.Props.LinearPhysics
import Verif.Props.IO

/-!
# C61, C66: files of the linear solver, arguments and checks
-/

set_option linter.unusedSectionVars false

namespace Bolt

variable {M1 M2 M3 ns N1 N2 : ℕ} [NeZero M1] [NeZero M2] [NeZero M3] [NeZero ns] [NeZero N1] [NeZero N2]

/-! ## C61: distribution function files -/

/-- Position of a momentum cell along axis 0. -/
def momPos (p : MomIx M1 M2 M3) : ℕ := p.1.val + M1 * (p.2.1.val + M2 * p.2.2.val)

theorem momPos_lt (p : MomIx M1 M2 M3) : momPos p < M1 * M2 * M3 := by
  have h1 := ZMod.val_lt p.1
  have h2 := ZMod.val_lt p.2.1
  have h3 := ZMod.val_lt p.2.2
  have a : p.2.1.val + M2 * p.2.2.val < M2 * M3 := by
    calc p.2.1.val + M2 * p.2.2.val < M2 + M2 * p.2.2.val := by omega
      _ = M2 * (p.2.2.val + 1) := by ring
      _ ≤ M2 * M3 := Nat.mul_le_mul_left _ h3
  calc momPos p < M1 + M1 * (p.2.1.val + M2 * p.2.2.val) := by unfold momPos; omega
    _ = M1 * (p.2.1.val + M2 * p.2.2.val + 1) := by ring
    _ ≤ M1 * (M2 * M3) := Nat.mul_le_mul_left _ a
    _ = M1 * M2 * M3 := by ring

theorem momCell_momPos (p : MomIx M1 M2 M3) : momCell M1 M2 M3 (momPos p) = p := by
  have h1 := ZMod.val_lt p.1
  have h2 := ZMod.val_lt p.2.1
  have e1 : momPos p / M1 = p.2.1.val + M2 * p.2.2.val := by
    unfold momPos; rw [Nat.add_mul_div_left _ _ (NeZero.pos M1), Nat.div_eq_of_lt h1, zero_add]
  have e2 : momPos p / M1 / M2 = p.2.2.val := by
    rw [e1, Nat.add_mul_div_left _ _ (NeZero.pos M2), Nat.div_eq_of_lt h2, zero_add]
  unfold momCell
  rw [e2, e1]
  unfold momPos
  refine Prod.ext ?_ (Prod.ext ?_ ?_) <;> simp

theorem momPos_momCell (n : ℕ) (hn : n < M1 * M2 * M3) : momPos (momCell M1 M2 M3 n) = n := by
  have h3 : n / M1 / M2 < M3 := by
    rw [Nat.div_div_eq_div_mul, Nat.div_lt_iff_lt_mul (by have := NeZero.pos M1; have := NeZero.pos M2; positivity)]
    calc n < _ := hn
      _ = _ := by ring
  unfold momPos momCell
  rw [ZMod.val_natCast, ZMod.val_natCast, ZMod.val_natCast, Nat.mod_eq_of_lt h3, Nat.mod_add_div, Nat.mod_add_div]

theorem linArray_get (f : LinF M1 M2 M3 ns N1 N2 ℝ) (p : MomIx M1 M2 M3) (s : Fin ns) (q : ZMod N1 × ZMod N2) :
    (linArray f).get (momPos p) s q.1.val q.2.val = f p s q := by
  unfold linArray
  rw [AfArray.get_ofFn _ _ _ _ _ _ _ _ _ (momPos_lt p) s.isLt (ZMod.val_lt q.1), momCell_momPos]
  simp

/-- C61: a dump never raises when the distribution can be obtained, and the file lists the distribution with `p1` running fastest, then `p2`, `p3`,
the species, `q1`, `q2`. -/
theorem C61_dump_contents (st : LinState M1 M2 M3 ns N1 N2) (f : LinF M1 M2 M3 ns N1 N2 ℝ) (h : getDistFunc st = .ok f) :
    ∃ file, linDumpF st = .ok file ∧ file.len = ns * M1 * M2 * M3 * (N1 * N2) ∧
      ∀ p s q, file.data ((p.1.val + M1 * (p.2.1.val + M2 * p.2.2.val)) + M1 * M2 * M3 * (s.val + ns * (q.1.val + N1 * q.2.val))) = f p s q := by
  refine ⟨⟨_, (linArray f).data⟩, ?_, rfl, fun p s q => linArray_get f p s q⟩
  rw [linDumpF, h]
  change toNdarray (linArray f) _ = _
  rw [toNdarray, if_pos]
  change M1 * M2 * M3 * ns * N1 * N2 = _
  ring

/-- C61: the file is the one the nonlinear solver writes (on any number of processes) for the same distribution. -/
theorem C61_same_file_as_nonlinear {R : Type} (D : Decomp N1 N2 R) (z : R → GridSizes) (g1 g2 : ℕ) (F : R → AfArray ℝ)
    (hz : D.SizesOk z g1 g2) (hF : D.Shaped g1 g2 (M1 * M2 * M3) ns F) (file file' : Vec ℝ) (hd : D.DumpsTo z (M1 * M2 * M3) ns F file)
    (st : LinState M1 M2 M3 ns N1 N2) (f : LinF M1 M2 M3 ns N1 N2 ℝ) (h : getDistFunc st = .ok f) (hl : linDumpF st = .ok file')
    (hb : D.Bulk g1 g2 (M1 * M2 * M3) ns F fun i j x y => f (momCell M1 M2 M3 i) (Fin.ofNat ns j) ((x : ℕ), (y : ℕ))) :
    file'.len = file.len ∧ ∀ n < file.len, file'.data n = file.data n := by
  obtain ⟨h1, h2⟩ := D.C38_file_contents z g1 g2 _ _ F file hz hF hd _ hb
  have e : file' = ⟨ns * M1 * M2 * M3 * (N1 * N2), (linArray f).data⟩ := by
    rw [linDumpF, h] at hl
    change toNdarray (linArray f) _ = _ at hl
    rw [toNdarray] at hl
    split at hl
    · exact (Except.ok.inj hl).symm
    · cases hl
  subst e
  refine ⟨by rw [h1]; change ns * M1 * M2 * M3 * (N1 * N2) = _; ring, fun n hn => ?_⟩
  set Np := M1 * M2 * M3 with hNp
  have p0 : 0 < Np := Nat.pos_of_ne_zero (by rw [hNp]; exact mul_ne_zero (mul_ne_zero (NeZero.ne _) (NeZero.ne _)) (NeZero.ne _))
  rw [h1] at hn
  have key := h2 (n % Np) (n / Np % ns) (n / Np / ns % N1) (n / Np / ns / N1) (Nat.mod_lt _ p0) (Nat.mod_lt _ (NeZero.pos ns))
    (Nat.mod_lt _ (NeZero.pos N1)) (by
      rw [Nat.div_div_eq_div_mul, Nat.div_div_eq_div_mul, Nat.div_lt_iff_lt_mul (by have := NeZero.pos ns; have := NeZero.pos N1; positivity)]
      calc n < _ := hn
        _ = _ := by ring)
  rw [Nat.mod_add_div, Nat.mod_add_div, Nat.mod_add_div] at key
  rw [key]
  rfl

/-- C61: what is read is taken in row-major order: `q2` running fastest, then `q1`, the species, the momentum. -/
theorem C61_load_contents (hd : ¬ (N2 = 1 ∧ M1 * M2 * M3 = 1 ∧ ns = 1)) (file : Vec ℝ) (st : LinState M1 M2 M3 ns N1 N2) :
    (file.len = ns * M1 * M2 * M3 * (N1 * N2) ↔ ∃ t, linLoadF file st = .ok t) ∧
    ∀ t, linLoadF file st = .ok t → t.time = st.time ∧ t.fieldsHat = st.fieldsHat ∧ t.attrs = st.attrs ∧
      getDistFunc t = .ok fun p s q =>
        file.data ((((p.1.val + M1 * (p.2.1.val + M2 * p.2.2.val)) * ns + s.val) * N1 + q.1.val) * N2 + q.2.val) := by
  constructor
  · unfold linLoadF
    constructor
    · intro h; rw [if_pos h]; exact ⟨_, rfl⟩
    · rintro ⟨t, h⟩
      by_contra hc
      rw [if_neg hc] at h; cases h
  · intro t h
    unfold linLoadF at h
    split at h
    · cases h
      refine ⟨rfl, rfl, rfl, ?_⟩
      rw [getDistFunc_eq hd]
      exact congrArg _ (distMap_transform _)
    · cases h

/-- C61 (negative): loading one's own dump restores every distribution only if at most one of the four extents (momentum cells, species, `N_q1`,
`N_q2`) exceeds one; otherwise some distribution comes back permuted. -/
theorem C61_round_trip_iff (hd : ¬ (N2 = 1 ∧ M1 * M2 * M3 = 1 ∧ ns = 1)) :
    (∀ st t : LinState M1 M2 M3 ns N1 N2, ∀ file, linDumpF st = .ok file → linLoadF file st = .ok t → getDistFunc t = getDistFunc st) ↔
      (ns = 1 ∧ N1 = 1 ∧ N2 = 1) ∨ (M1 * M2 * M3 = 1 ∧ N1 = 1 ∧ N2 = 1) ∨ (M1 * M2 * M3 = 1 ∧ ns = 1 ∧ N2 = 1) ∨
        (M1 * M2 * M3 = 1 ∧ ns = 1 ∧ N1 = 1) := by
  have dump : ∀ st : LinState M1 M2 M3 ns N1 N2, ∀ file, linDumpF st = .ok file → ∃ f, getDistFunc st = .ok f ∧ file.data = (linArray f).data := by
    intro st file h
    refine ⟨_, getDistFunc_eq hd st, ?_⟩
    rw [linDumpF, getDistFunc_eq hd] at h
    change toNdarray (linArray (distMap st.fHat)) _ = _ at h
    rw [toNdarray] at h
    split at h
    · rw [← Except.ok.inj h]
    · cases h
  constructor
  · intro hr
    have idx : ∀ (p : MomIx M1 M2 M3) (s : Fin ns) (q : ZMod N1 × ZMod N2),
        ((momPos p * ns + s.val) * N1 + q.1.val) * N2 + q.2.val = momPos p + M1 * M2 * M3 * (s.val + ns * (q.1.val + N1 * q.2.val)) := by
      intro p s q
      let f : LinF M1 M2 M3 ns N1 N2 ℝ := fun p s q => ((momPos p + M1 * M2 * M3 * (s.val + ns * (q.1.val + N1 * q.2.val)) : ℕ) : ℝ)
      let st : LinState M1 M2 M3 ns N1 N2 := ⟨linInitF f, 0, 0, 0⟩
      have hf : getDistFunc st = .ok f := by rw [getDistFunc_eq hd]; exact congrArg _ (distMap_transform f)
      obtain ⟨file, h1, h2, h3⟩ := C61_dump_contents st f hf
      obtain ⟨t, ht⟩ := (C61_load_contents hd file st).1.mp h2
      have h4 := hr st t file h1 ht
      rw [((C61_load_contents hd file st).2 t ht).2.2.2, hf] at h4
      have h5 := congrFun (congrFun (congrFun (Except.ok.inj h4) p) s) q
      obtain ⟨f', hf', hdata⟩ := dump st file h1
      rw [hf] at hf'
      obtain rfl := Except.ok.inj hf'
      rw [hdata] at h5
      have lt : ((momPos p * ns + s.val) * N1 + q.1.val) * N2 + q.2.val < M1 * M2 * M3 * ns * N1 * N2 := by
        have a1 : momPos p * ns + s.val < M1 * M2 * M3 * ns := by
          calc _ < momPos p * ns + ns := by have := s.isLt; omega
            _ = (momPos p + 1) * ns := by ring
            _ ≤ _ := Nat.mul_le_mul_right _ (momPos_lt p)
        have a2 : (momPos p * ns + s.val) * N1 + q.1.val < M1 * M2 * M3 * ns * N1 := by
          calc _ < (momPos p * ns + s.val) * N1 + N1 := by have := ZMod.val_lt q.1; omega
            _ = (momPos p * ns + s.val + 1) * N1 := by ring
            _ ≤ _ := Nat.mul_le_mul_right _ a1
        calc _ < ((momPos p * ns + s.val) * N1 + q.1.val) * N2 + N2 := by have := ZMod.val_lt q.2; omega
          _ = ((momPos p * ns + s.val) * N1 + q.1.val + 1) * N2 := by ring
          _ ≤ _ := Nat.mul_le_mul_right _ a2
      have val : ∀ n, n < M1 * M2 * M3 * ns * N1 * N2 → (linArray f).data n = (n : ℝ) := by
        intro n hn
        have p0 : 0 < M1 * M2 * M3 := Nat.pos_of_ne_zero (mul_ne_zero (mul_ne_zero (NeZero.ne _) (NeZero.ne _)) (NeZero.ne _))
        change f (momCell M1 M2 M3 (n % (M1 * M2 * M3))) (Fin.ofNat ns (n / (M1 * M2 * M3) % ns))
          (((n / (M1 * M2 * M3) / ns % N1 : ℕ) : ZMod N1), ((n / (M1 * M2 * M3) / ns / N1 : ℕ) : ZMod N2)) = _
        have l4 : n / (M1 * M2 * M3) / ns / N1 < N2 := by
          rw [Nat.div_div_eq_div_mul, Nat.div_div_eq_div_mul, Nat.div_lt_iff_lt_mul (by have := NeZero.pos ns; have := NeZero.pos N1; positivity)]
          calc n < _ := hn
            _ = _ := by ring
        simp only [f, momPos_momCell _ (Nat.mod_lt _ p0), ZMod.val_natCast, Fin.val_ofNat, Nat.mod_mod, Nat.mod_eq_of_lt l4]
        congr 1
        rw [Nat.mod_add_div, Nat.mod_add_div, Nat.mod_add_div]
      have h6 := val _ lt
      have h7 : (linArray f).data (((momPos p * ns + s.val) * N1 + q.1.val) * N2 + q.2.val) = f p s q := h5
      rw [h6] at h7
      exact Nat.cast_injective (R := ℝ) h7
    have P1 : 1 < M1 * M2 * M3 → ns * N1 * N2 = 1 := by
      intro h
      have := idx (momCell M1 M2 M3 1) 0 0
      rw [momPos_momCell _ h] at this
      simpa using this
    have P2 : 1 < ns → N1 * N2 = M1 * M2 * M3 := by
      intro h
      have := idx 0 ⟨1, h⟩ 0
      simpa [momPos] using this
    have P4 : 1 < N2 → 1 = M1 * M2 * M3 * (ns * N1) := by
      intro h
      have := idx 0 0 (0, 1)
      have e : (1 : ZMod N2).val = 1 := by rw [ZMod.val_one_eq_one_mod, Nat.mod_eq_of_lt h]
      simpa [momPos, e] using this
    have p0 : 0 < M1 * M2 * M3 := Nat.pos_of_ne_zero (mul_ne_zero (mul_ne_zero (NeZero.ne _) (NeZero.ne _)) (NeZero.ne _))
    generalize M1 * M2 * M3 = P at *
    have n0 := NeZero.pos ns
    have n1 := NeZero.pos N1
    have n2 := NeZero.pos N2
    rcases Nat.lt_or_ge 1 P with h | h
    · have := P1 h
      simp only [mul_eq_one] at this
      tauto
    · have hP : P = 1 := by omega
      rcases Nat.lt_or_ge 1 N2 with h2 | h2
      · have := (P4 h2).symm
        simp only [mul_eq_one] at this
        tauto
      · have hN : N2 = 1 := by omega
        rcases Nat.lt_or_ge 1 ns with h3 | h3
        · have := P2 h3
          rw [hP, mul_eq_one] at this
          tauto
        · have : ns = 1 := by omega
          tauto
  · intro hc st t file h1 h2
    obtain ⟨f, hf, -⟩ := dump st file h1
    obtain ⟨file', e1, -, e2⟩ := C61_dump_contents st f hf
    rw [e1] at h1
    obtain rfl := Except.ok.inj h1
    rw [((C61_load_contents hd file' st).2 t h2).2.2.2, hf]
    congr 1
    funext p s q
    rw [← e2 p s q]
    congr 1
    have b1 := momPos_lt p
    unfold momPos at b1
    have b2 := s.isLt
    have b3 := ZMod.val_lt q.1
    have b4 := ZMod.val_lt q.2
    generalize p.1.val + M1 * (p.2.1.val + M2 * p.2.2.val) = P at *
    generalize M1 * M2 * M3 = Np at *
    generalize q.1.val = x at *
    generalize q.2.val = y at *
    rcases hc with ⟨c1, c2, c3⟩ | ⟨c1, c2, c3⟩ | ⟨c1, c2, c3⟩ | ⟨c1, c2, c3⟩
    · have z1 : s.val = 0 := by omega
      have z2 : x = 0 := by omega
      have z3 : y = 0 := by omega
      rw [z1, z2, z3, c1, c2, c3]; ring
    · have z1 : P = 0 := by omega
      have z2 : x = 0 := by omega
      have z3 : y = 0 := by omega
      rw [z1, z2, z3, c1, c2, c3]; ring
    · have z1 : s.val = 0 := by omega
      have z2 : P = 0 := by omega
      have z3 : y = 0 := by omega
      rw [z1, z2, z3, c1, c2, c3]; ring
    · have z1 : s.val = 0 := by omega
      have z2 : x = 0 := by omega
      have z3 : P = 0 := by omega
      rw [z1, z2, z3, c1, c2, c3]; ring

/-- C61 (negative): on a square grid with one momentum cell and one species, the distribution comes back transposed. -/
theorem C61_load_transposes (N : ℕ) [NeZero N] (hN : N ≠ 1) (st t : LinState 1 1 1 1 N N) (f : LinF 1 1 1 1 N N ℝ)
    (h : getDistFunc st = .ok f) (file : Vec ℝ) (h1 : linDumpF st = .ok file) (h2 : linLoadF file st = .ok t) :
    getDistFunc t = .ok fun p s q => f p s (q.2, q.1) := by
  obtain ⟨file', e1, -, e2⟩ := C61_dump_contents st f h
  rw [e1] at h1
  obtain rfl := Except.ok.inj h1
  rw [(((C61_load_contents (by omega) file' st).2 t h2).2.2.2)]
  congr 1
  funext p s q
  rw [← e2 p s (q.2, q.1)]
  congr 1
  have h1 := ZMod.val_lt p.1
  have h2 := ZMod.val_lt p.2.1
  have h3 := ZMod.val_lt p.2.2
  have h4 := s.isLt
  have z1 : p.1.val = 0 := by omega
  have z2 : p.2.1.val = 0 := by omega
  have z3 : p.2.2.val = 0 := by omega
  have z4 : s.val = 0 := by omega
  simp only [z1, z2, z3, z4]
  ring

/-! ## C61: moments files -/

/-- C61: the moments file lists for every cell, in alphabetical order of the public moments, the values of each species; with no public moment the
dump raises. -/
theorem C61_moments_layout (names : List String) (moment : String → Except PyErr (Fin ns → ZMod N1 × ZMod N2 → ℝ)) :
    (momentAttributes names = [] → ∃ e, linDumpMoments names moment = .error e) ∧
    ∀ u : String → Fin ns → ZMod N1 × ZMod N2 → ℝ, momentAttributes names ≠ [] → (∀ a ∈ momentAttributes names, moment a = .ok (u a)) →
      ∃ file, linDumpMoments names moment = .ok file ∧ file.len = ns * (momentAttributes names).length * (N1 * N2) ∧
        ∀ m (hm : m < (momentAttributes names).length) (s : Fin ns) (q : ZMod N1 × ZMod N2),
          file.data ((m * ns + s.val) + ns * (momentAttributes names).length * (q.1.val + N1 * q.2.val)) = u (momentAttributes names)[m] s q := by
  constructor
  · intro h
    exact ⟨.nameError, by rw [linDumpMoments, h]; rfl⟩
  · intro u hne hu
    obtain ⟨res, h1, ⟨s0, s1, s2, s3⟩, h3⟩ := joinMoments_ok (fun name => do
      let m ← moment name
      pure (AfArray.ofFn 1 ns N1 N2 fun _ j k l => m (Fin.ofNat ns j) ((k : ℕ), (l : ℕ))))
      (fun name => AfArray.ofFn 1 ns N1 N2 fun _ j k l => u name (Fin.ofNat ns j) ((k : ℕ), (l : ℕ))) ns N1 N2 (momentAttributes names) hne
      (fun a ha => ⟨by simp only [hu a ha]; rfl, rfl, rfl, rfl, rfl⟩)
    refine ⟨⟨_, res.data⟩, ?_, rfl, fun m hm s q => ?_⟩
    · rw [linDumpMoments, h1]
      change toNdarray res _ = _
      rw [toNdarray, if_pos]
      rw [AfArray.size, s0, s1, s2, s3]; ring
    · have := h3 m s.val q.1.val q.2.val hm s.isLt (ZMod.val_lt q.1) (ZMod.val_lt q.2)
      rw [AfArray.get_ofFn _ _ _ _ _ _ _ _ _ (by norm_num) s.isLt (ZMod.val_lt q.1)] at this
      rw [AfArray.get, AfArray.offset, s0, s1, s2] at this
      simp only [Fin.ofNat_val_eq_self, ZMod.natCast_val, ZMod.cast_id', id_eq] at this
      rw [show ((momentAttributes names)[m]) = (momentAttributes names)[m] from rfl, ← this]
      refine congrArg res.data ?_
      ring

/-- A grid on which `C61_round_trip_iff` and `C61_dump_contents` speak about something: the dump succeeds, the load succeeds, and with five by three
momentum cells and three by three grid cells the round trip is not the identity. -/
example (st : LinState 5 3 1 1 3 3) : (∃ file t, linDumpF st = .ok file ∧ linLoadF file st = .ok t) ∧
    ¬ ∀ st t : LinState 5 3 1 1 3 3, ∀ file, linDumpF st = .ok file → linLoadF file st = .ok t → getDistFunc t = getDistFunc st := by
  constructor
  · obtain ⟨file, h1, h2, -⟩ := C61_dump_contents st _ (getDistFunc_eq (by decide) st)
    obtain ⟨t, ht⟩ := (C61_load_contents (by decide) file st).1.mp h2
    exact ⟨file, t, h1, ht⟩
  · rw [C61_round_trip_iff (by decide)]
    decide

/-- `C61_same_file_as_nonlinear` for two processes: the bulk arrays of the nonlinear solver exist for every distribution. -/
example (st : LinState 1 1 1 1 6 1) (f : LinF 1 1 1 1 6 1 ℝ) : ∃ F : Fin 2 → AfArray ℝ, exD.Shaped 2 0 (1 * 1 * 1) 1 F ∧
    exD.Bulk 2 0 (1 * 1 * 1) 1 F fun i j x y => f (momCell 1 1 1 i) (Fin.ofNat 1 j) ((x : ℕ), (y : ℕ)) := by
  refine ⟨fun r => AfArray.ofFn 1 1 (exD.n1 r + 2 * 2) (exD.n2 r + 2 * 0) fun i j k l =>
    f (momCell 1 1 1 i) (Fin.ofNat 1 j) (((exD.start1 r + (k - 2) : ℕ) : ZMod 6), ((exD.start2 r + l : ℕ) : ZMod 1)), fun r => ⟨rfl, rfl, rfl, rfl⟩, ?_⟩
  intro r i j a b hi hj ha hb
  rw [AfArray.get_ofFn _ _ _ _ _ _ _ _ _ hi hj (by omega)]
  simp

/-- The moments module of the nonrelativistic system has public moments (`C61_moments_layout`). -/
example : momentAttributes ["integral_over_v", "density", "_hidden", "energy"] ≠ [] := by
  have h := (C39_attributes_alphabetical ["integral_over_v", "density", "_hidden", "energy"] (by decide)).2 "density"
  intro e
  rw [e] at h
  exact absurd (h.mpr (by decide)) (by simp)

/-! ## C66: moments and checks -/

/-- C66: a moment that is a weighted momentum sum (`w` the weights, cell volume included), computed from the stored amplitudes, is that weighted sum of
the distribution in real space.  It does not raise unless there is one species on a grid of one cell in `q2`. -/
theorem C66_moments_of_the_distribution (cfg : LinCfg M1 M2 M3 ns N1 N2) (momC : MomentFn (Fin ns) (MomIx M1 M2 M3) (ZMod N1 × ZMod N2) ℂ)
    (w : Fin ns → MomIx M1 M2 M3 → ℝ) (hw : ∀ h s q, linMoment cfg momC h s q = ∑ p, h p s q * (w s p : ℂ))
    (hd : ¬ (N2 = 1 ∧ ns = 1)) (st : LinState M1 M2 M3 ns N1 N2) (f : LinF M1 M2 M3 ns N1 N2 ℝ) (h : getDistFunc st = .ok f) :
    linComputeMoments cfg momC st = .ok fun s q => ∑ p, f p s q * w s p := by
  rw [getDistFunc_eq (by tauto)] at h
  obtain rfl := Except.ok.inj h
  rw [linComputeMoments, ifft2, if_neg (by tauto)]
  change Except.ok _ = _
  congr 1
  funext s q
  change (afIfft2 (fun q => 0.5 * (N2 : ℂ) * N1 * linMoment cfg momC st.fHat s q) q / ((N1 : ℂ) * N2)).re
    = ∑ p, 0.5 * (N2 : ℝ) * N1 * (afIfft2 (st.fHat p s) q / ((N1 : ℂ) * N2)).re * w s p
  simp only [hw]
  have e : afIfft2 (fun q => 0.5 * (N2 : ℂ) * N1 * ∑ p, st.fHat p s q * (w s p : ℂ)) q
      = ∑ p, ((0.5 * N2 * N1 * w s p : ℝ) : ℂ) * afIfft2 (st.fHat p s) q := by
    simp only [afIfft2_eq, Finset.mul_sum, Finset.sum_mul]
    rw [Finset.sum_comm]
    refine Finset.sum_congr rfl fun p _ => Finset.sum_congr rfl fun k _ => ?_
    push_cast
    ring
  rw [e, Finset.sum_div, Complex.re_sum]
  refine Finset.sum_congr rfl fun p _ => ?_
  rw [mul_div_assoc, Complex.re_ofReal_mul]
  ring

/-- C66: the bundled moments are weighted sums. -/
theorem C66_bundled_moments (cfg : LinCfg M1 M2 M3 ns N1 N2) (h : LinF M1 M2 M3 ns N1 N2 ℂ) (s : Fin ns) (q : ZMod N1 × ZMod N2) :
    let dV : ℝ := cfg.dp1 s * cfg.dp2 s * cfg.dp3 s
    linMoment cfg density h s q = ∑ p, h p s q * ((dV : ℝ) : ℂ) ∧
    linMoment cfg momV1 h s q = ∑ p, h p s q * ((cfg.coords.p1 s p * dV : ℝ) : ℂ) ∧
    linMoment cfg momV2 h s q = ∑ p, h p s q * ((cfg.coords.p2 s p * dV : ℝ) : ℂ) ∧
    linMoment cfg momV3 h s q = ∑ p, h p s q * ((cfg.coords.p3 s p * dV : ℝ) : ℂ) ∧
    linMoment cfg energy h s q = ∑ p, h p s q *
      ((1 / 2 * (cfg.coords.p1 s p ^ 2 + cfg.coords.p2 s p ^ 2 + cfg.coords.p3 s p ^ 2) * dV : ℝ) : ℂ) := by
  refine ⟨?_, ?_, ?_, ?_, ?_⟩ <;>
    simp only [linMoment, density, momV1, momV2, momV3, energy, integralOverV, Finset.sum_mul] <;>
    refine Finset.sum_congr rfl fun p _ => ?_ <;> push_cast <;> ring

/-- C66: `compute_moments` refuses two arrays, applies the definition to the one array given, and otherwise to the state. -/
theorem C66_moments_arguments (cfg : LinCfg M1 M2 M3 ns N1 N2) (momR : MomentFn (Fin ns) (MomIx M1 M2 M3) (ZMod N1 × ZMod N2) ℝ)
    (momC : MomentFn (Fin ns) (MomIx M1 M2 M3) (ZMod N1 × ZMod N2) ℂ) (f : LinF M1 M2 M3 ns N1 N2 ℝ) (h : LinF M1 M2 M3 ns N1 N2 ℂ)
    (st : LinState M1 M2 M3 ns N1 N2) (w : Fin ns → MomIx M1 M2 M3 → ℝ) (hw : ∀ h s q, linMoment cfg momC h s q = ∑ p, h p s q * (w s p : ℂ))
    (hr : ∀ f : Dist (Fin ns) (MomIx M1 M2 M3) (ZMod N1 × ZMod N2) ℝ, ∀ s q,
      momR cfg.coords (fun s => cfg.dp3 s * cfg.dp2 s * cfg.dp1 s) f s q = ∑ p, f s p q * w s p) :
    (∃ e, linComputeMomentsArgs cfg momR momC (some f) (some h) st = .error e) ∧
    (linComputeMomentsArgs cfg momR momC (some f) none st = .ok (.real fun s q => ∑ p, f p s q * w s p)) ∧
    (linComputeMomentsArgs cfg momR momC none (some h) st = .ok (.hat fun s q => ∑ p, h p s q * (w s p : ℂ))) ∧
    (¬ (N2 = 1 ∧ ns = 1) → getDistFunc st = .ok f →
      linComputeMomentsArgs cfg momR momC none none st = linComputeMomentsArgs cfg momR momC (some f) none st) := by
  refine ⟨⟨_, rfl⟩, ?_, ?_, ?_⟩
  · simp only [linComputeMomentsArgs, hr]
  · exact congrArg _ (congrArg _ (by funext s q; exact hw h s q))
  · intro hd hf
    simp only [linComputeMomentsArgs, hr, C66_moments_of_the_distribution cfg momC w hw hd st f hf]
    rfl

/-- C66: the constructor refuses boundary conditions exactly when none of the four walls is periodic. -/
theorem C66_refuses_iff (left right bottom top : String) :
    (∃ e, linCheckPeriodic left right bottom top = .error e) ↔ "periodic" ∉ [left, right, bottom, top] := by
  simp only [linCheckPeriodic, List.mem_cons, List.not_mem_nil, or_false, not_or]
  constructor
  · rintro ⟨e, h⟩
    split at h
    · rename_i h'; exact ⟨Ne.symm h'.1, Ne.symm h'.2.1, Ne.symm h'.2.2.1, Ne.symm h'.2.2.2⟩
    · cases h
  · rintro ⟨h1, h2, h3, h4⟩
    exact ⟨_, if_pos ⟨Ne.symm h1, Ne.symm h2, Ne.symm h3, Ne.symm h4⟩⟩

/-- C66 (negative): a system with mirrors in `q1` is accepted (and then solved as if periodic) as long as `q2` is periodic. -/
theorem C66_accepts_mirrors : linCheckPeriodic "mirror" "mirror" "periodic" "periodic" = .ok () := by
  rw [linCheckPeriodic, if_neg (by simp)]

/-- Weights meeting the hypotheses of `C66_moments_arguments`: the energy. -/
example : ∃ w : Fin 1 → MomIx 5 3 1 → ℝ, w 0 (4, 0, 0) = 8 ∧
    (∀ h s q, linMoment (exLin false false false false "None") energy h s q = ∑ p, h p s q * (w s p : ℂ)) ∧
    ∀ f : Dist (Fin 1) (MomIx 5 3 1) (ZMod 3 × ZMod 3) ℝ, ∀ s q, energy (exLin false false false false "None").coords
      (fun s => (exLin false false false false "None").dp3 s * (exLin false false false false "None").dp2 s * (exLin false false false false "None").dp1 s) f s q
        = ∑ p, f s p q * w s p := by
  refine ⟨_, ?_, fun h s q => (C66_bundled_moments (exLin false false false false "None") h s q).2.2.2.2, fun f s q => ?_⟩
  · have h4 : (ZMod.cast (4 : ZMod 5) : ℝ) = 4 := by
      rw [ZMod.cast_eq_val, show (4 : ZMod 5).val = 4 from rfl]; norm_num
    simp [exLin, h4]; norm_num
  · simp only [energy, integralOverV, Finset.sum_mul]
    refine Finset.sum_congr rfl fun p _ => ?_
    ring

end Bolt
