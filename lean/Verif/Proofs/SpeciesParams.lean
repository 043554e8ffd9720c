import Verif.Model.SpeciesParams
import Verif.Spec.ArrayProgram
import Verif.Proofs.ArrayProgram
import Mathlib.Data.List.GetD

/-!
# Lemmas about batched operations and per-species arrays
-/

set_option linter.unusedSectionVars false

namespace Bolt

open Machine

section batched
variable {K : Type}

/-- No axis is empty. -/
def AfArray.Proper (a : AfArray K) : Prop := 0 < a.d0 ∧ 0 < a.d1 ∧ 0 < a.d2 ∧ 0 < a.d3

/-- Along every axis the lengths are equal or one of them is 1. -/
def AfArray.Compatible (a b : AfArray K) : Prop :=
  (a.d0 = b.d0 ∨ a.d0 = 1 ∨ b.d0 = 1) ∧ (a.d1 = b.d1 ∨ a.d1 = 1 ∨ b.d1 = 1) ∧ (a.d2 = b.d2 ∨ a.d2 = 1 ∨ b.d2 = 1) ∧ (a.d3 = b.d3 ∨ a.d3 = 1 ∨ b.d3 = 1)

/-- The element of `a` that a batched operation uses for index `(i, j, k, l)`: axes of length 1 are repeated. -/
def AfArray.repeated (a : AfArray K) (i j k l : ℕ) : K :=
  a.get (if a.d0 = 1 then 0 else i) (if a.d1 = 1 then 0 else j) (if a.d2 = 1 then 0 else k) (if a.d3 = 1 then 0 else l)

/-- The index is inside the array, or the axis is repeated. -/
def AfArray.Covers (a : AfArray K) (i j k l : ℕ) : Prop :=
  (a.d0 = 1 ∨ i < a.d0) ∧ (a.d1 = 1 ∨ j < a.d1) ∧ (a.d2 = 1 ∨ k < a.d2) ∧ (a.d3 = 1 ∨ l < a.d3)

theorem AfArray.compatible_comm {a b : AfArray K} : a.Compatible b ↔ b.Compatible a := by
  unfold Compatible; constructor <;> rintro ⟨h0, h1, h2, h3⟩ <;> refine ⟨?_, ?_, ?_, ?_⟩ <;> omega

theorem AfArray.compatible_self (a : AfArray K) : a.Compatible a := ⟨.inl rfl, .inl rfl, .inl rfl, .inl rfl⟩

theorem fits_max {d e y : ℕ} (hd : 0 < d) (he : 0 < e) (h : d = e ∨ d = 1 ∨ e = 1) :
    (max d e = y ∨ max d e = 1 ∨ y = 1) ↔ (d = y ∨ d = 1 ∨ y = 1) ∧ (e = y ∨ e = 1 ∨ y = 1) := by omega

theorem covers_max {d e y : ℕ} (hd : 0 < d) (he : 0 < e) (h : d = e ∨ d = 1 ∨ e = 1) :
    (max d e = 1 ∨ y < max d e) ↔ (d = 1 ∨ y < d) ∧ (e = 1 ∨ y < e) := by omega

theorem along_max {d e i : ℕ} (hd : 0 < d) (he : 0 < e) : AfArray.along d (if max d e = 1 then 0 else i) = (if d = 1 then 0 else i) ∧
    AfArray.along e (if max d e = 1 then 0 else i) = (if e = 1 then 0 else i) := by
  unfold AfArray.along
  constructor <;> split_ifs <;> omega

theorem lt_of_covers {d i : ℕ} (hd : 0 < d) (h : d = 1 ∨ i < d) : (if d = 1 then 0 else i) < d := by split_ifs <;> omega

theorem AfArray.batched_ok {f : K → K → K} {a b : AfArray K} (h : a.Compatible b) (ha : a.Proper) (hb : b.Proper) :
    ∃ c : AfArray K, a.batched f b = .ok c ∧ c.Proper ∧ c.d0 = max a.d0 b.d0 ∧ c.d1 = max a.d1 b.d1 ∧ c.d2 = max a.d2 b.d2 ∧ c.d3 = max a.d3 b.d3 ∧
      (∀ x : AfArray K, c.Compatible x ↔ a.Compatible x ∧ b.Compatible x) ∧
      (∀ i j k l, c.Covers i j k l ↔ a.Covers i j k l ∧ b.Covers i j k l) ∧
      ∀ i j k l, c.Covers i j k l → c.repeated i j k l = f (a.repeated i j k l) (b.repeated i j k l) := by
  obtain ⟨h0, h1, h2, h3⟩ := h
  obtain ⟨a0, a1, a2, a3⟩ := ha
  obtain ⟨b0, b1, b2, b3⟩ := hb
  refine ⟨AfArray.ofFn (max a.d0 b.d0) (max a.d1 b.d1) (max a.d2 b.d2) (max a.d3 b.d3) fun i j k l =>
      f (a.get (along a.d0 i) (along a.d1 j) (along a.d2 k) (along a.d3 l)) (b.get (along b.d0 i) (along b.d1 j) (along b.d2 k) (along b.d3 l)),
    if_pos ⟨h0, h1, h2, h3⟩, ⟨lt_max_of_lt_left a0, lt_max_of_lt_left a1, lt_max_of_lt_left a2, lt_max_of_lt_left a3⟩, rfl, rfl, rfl, rfl, fun x => ?_,
    fun i j k l => ?_, fun i j k l hc => ?_⟩
  · constructor
    · rintro ⟨c0, c1, c2, c3⟩
      exact ⟨⟨((fits_max a0 b0 h0).mp c0).1, ((fits_max a1 b1 h1).mp c1).1, ((fits_max a2 b2 h2).mp c2).1, ((fits_max a3 b3 h3).mp c3).1⟩,
        ⟨((fits_max a0 b0 h0).mp c0).2, ((fits_max a1 b1 h1).mp c1).2, ((fits_max a2 b2 h2).mp c2).2, ((fits_max a3 b3 h3).mp c3).2⟩⟩
    · rintro ⟨⟨c0, c1, c2, c3⟩, ⟨e0, e1, e2, e3⟩⟩
      exact ⟨(fits_max a0 b0 h0).mpr ⟨c0, e0⟩, (fits_max a1 b1 h1).mpr ⟨c1, e1⟩, (fits_max a2 b2 h2).mpr ⟨c2, e2⟩, (fits_max a3 b3 h3).mpr ⟨c3, e3⟩⟩
  · constructor
    · rintro ⟨c0, c1, c2, c3⟩
      exact ⟨⟨((covers_max a0 b0 h0).mp c0).1, ((covers_max a1 b1 h1).mp c1).1, ((covers_max a2 b2 h2).mp c2).1, ((covers_max a3 b3 h3).mp c3).1⟩,
        ⟨((covers_max a0 b0 h0).mp c0).2, ((covers_max a1 b1 h1).mp c1).2, ((covers_max a2 b2 h2).mp c2).2, ((covers_max a3 b3 h3).mp c3).2⟩⟩
    · rintro ⟨⟨c0, c1, c2, c3⟩, ⟨e0, e1, e2, e3⟩⟩
      exact ⟨(covers_max a0 b0 h0).mpr ⟨c0, e0⟩, (covers_max a1 b1 h1).mpr ⟨c1, e1⟩, (covers_max a2 b2 h2).mpr ⟨c2, e2⟩, (covers_max a3 b3 h3).mpr ⟨c3, e3⟩⟩
  · obtain ⟨c0, c1, c2, -⟩ := hc
    unfold repeated
    refine (AfArray.get_ofFn _ _ _ _ _ _ _ _ _ (lt_of_covers (lt_max_of_lt_left a0) c0) (lt_of_covers (lt_max_of_lt_left a1) c1)
      (lt_of_covers (lt_max_of_lt_left a2) c2)).trans ?_
    change f (a.get (along a.d0 (if max a.d0 b.d0 = 1 then 0 else i)) (along a.d1 (if max a.d1 b.d1 = 1 then 0 else j))
        (along a.d2 (if max a.d2 b.d2 = 1 then 0 else k)) (along a.d3 (if max a.d3 b.d3 = 1 then 0 else l)))
      (b.get (along b.d0 (if max a.d0 b.d0 = 1 then 0 else i)) (along b.d1 (if max a.d1 b.d1 = 1 then 0 else j))
        (along b.d2 (if max a.d2 b.d2 = 1 then 0 else k)) (along b.d3 (if max a.d3 b.d3 = 1 then 0 else l))) = _
    rw [(along_max a0 b0).1, (along_max a0 b0).2, (along_max a1 b1).1, (along_max a1 b1).2, (along_max a2 b2).1, (along_max a2 b2).2,
      (along_max a3 b3).1, (along_max a3 b3).2]

theorem AfArray.batched_error {f : K → K → K} {a b : AfArray K} (h : ¬ a.Compatible b) : a.batched f b = .error .exception := if_neg h

open PyExpr

theorem foldl_error (f : K → K → K) (er : PyErr) (xs : List (PyExpr K)) : xs.foldl (bin true f) (.error er) = .error er := by
  induction xs with
  | nil => rfl
  | cons x xs ih => exact ih

theorem fold_batched (f : K → K → K) (as : List (AfArray K)) (acc : AfArray K) (h : ∀ a ∈ acc :: as, a.Proper) :
    ((acc :: as).Pairwise AfArray.Compatible → ∃ r : AfArray K,
      (as.map fun a => (.ok (.arr a) : PyExpr K)).foldl (bin true f) (.ok (.arr acc)) = .ok (.arr r) ∧
      r.d0 = (as.map AfArray.d0).foldl max acc.d0 ∧ r.d1 = (as.map AfArray.d1).foldl max acc.d1 ∧ r.d2 = (as.map AfArray.d2).foldl max acc.d2 ∧
      r.d3 = (as.map AfArray.d3).foldl max acc.d3 ∧ (∀ i j k l, r.Covers i j k l ↔ ∀ a ∈ acc :: as, a.Covers i j k l) ∧
      ∀ i j k l, r.Covers i j k l → r.repeated i j k l = (as.map fun a => a.repeated i j k l).foldl f (acc.repeated i j k l)) ∧
    (¬ (acc :: as).Pairwise AfArray.Compatible →
      (as.map fun a => (.ok (.arr a) : PyExpr K)).foldl (bin true f) (.ok (.arr acc)) = .error .exception) := by
  induction as generalizing acc with
  | nil => exact ⟨fun _ => ⟨acc, rfl, rfl, rfl, rfl, rfl, fun i j k l => by simp, fun _ _ _ _ _ => rfl⟩, fun h => absurd (by simp) h⟩
  | cons x rest ih =>
    by_cases hc : acc.Compatible x
    · obtain ⟨c, hok, hp, e0, e1, e2, e3, hcomp, hcov, hval⟩ := AfArray.batched_ok (f := f) hc (h acc (by simp)) (h x (by simp))
      have step : bin true f (.ok (.arr acc)) (.ok (.arr x)) = .ok (.arr c) := by
        change Except.map PyVal.arr (acc.batched f x) = _
        rw [hok]; rfl
      have hpw : (c :: rest).Pairwise AfArray.Compatible ↔ (acc :: x :: rest).Pairwise AfArray.Compatible := by
        simp only [List.pairwise_cons, List.mem_cons, hcomp]
        constructor
        · rintro ⟨h1, h2⟩
          exact ⟨fun y hy => hy.elim (fun e => e ▸ hc) fun hy => (h1 y hy).1, fun y hy => (h1 y hy).2, h2⟩
        · rintro ⟨h1, h2, h3⟩
          exact ⟨fun y hy => ⟨h1 y (.inr hy), h2 y hy⟩, h3⟩
      have := ih c (by intro a ha; rcases List.mem_cons.mp ha with rfl | ha; · exact hp
                       exact h a (by simp [ha]))
      have red : (((x :: rest).map fun a => (.ok (.arr a) : PyExpr K)).foldl (bin true f) (.ok (.arr acc)) : PyExpr K) =
          (rest.map fun a => (.ok (.arr a) : PyExpr K)).foldl (bin true f) (.ok (.arr c)) :=
        congrArg (fun t => (rest.map fun a => (.ok (.arr a) : PyExpr K)).foldl (bin true f) t) step
      rw [red, ← hpw]
      refine ⟨fun hh => ?_, this.2⟩
      obtain ⟨r, hr, r0, r1, r2, r3, rc, rv⟩ := this.1 hh
      refine ⟨r, hr, by rw [r0, e0]; rfl, by rw [r1, e1]; rfl, by rw [r2, e2]; rfl, by rw [r3, e3]; rfl, fun i j k l => ?_, fun i j k l hh' => ?_⟩
      · rw [rc]
        simp only [List.mem_cons, forall_eq_or_imp, hcov, and_assoc]
      · rw [rv i j k l hh', hval i j k l (((rc i j k l).mp hh') c (by simp))]
        rfl
    · have step : bin true f (.ok (.arr acc)) (.ok (.arr x)) = .error .exception := by
        change Except.map PyVal.arr (acc.batched f x) = _
        rw [AfArray.batched_error hc]; rfl
      refine ⟨fun hh => absurd ((List.pairwise_cons.mp hh).1 x (by simp)) hc, fun _ => ?_⟩
      exact (congrArg (fun t => (rest.map fun a => (.ok (.arr a) : PyExpr K)).foldl (bin true f) t) step).trans (foldl_error _ _ _)

end batched

/-! ### the conversion -/

section convert
variable {K : Type} [Zero K]

theorem setEntry_dims (a : AfArray K) (i : ℕ) (x : K) :
    (a.setEntry i x).d0 = a.d0 ∧ (a.setEntry i x).d1 = a.d1 ∧ (a.setEntry i x).d2 = a.d2 ∧ (a.setEntry i x).d3 = a.d3 := ⟨rfl, rfl, rfl, rfl⟩

theorem setEntry_get {a : AfArray K} {n : ℕ} (h0 : a.d0 = 1) (h1 : a.d1 = n) (h2 : a.d2 = 1) (i j : ℕ) (x : K) (hj : j < n) :
    (a.setEntry i x).get 0 j 0 0 = if j = i then x else a.get 0 j 0 0 := by
  unfold AfArray.setEntry
  rw [AfArray.get_ofFn _ _ _ _ _ _ _ _ _ (by omega) (by omega) (by omega)]
  by_cases h : j = i <;> simp [h]

/-- After `m` passes over lists that are long enough. -/
theorem fill_lists (mass charge : List K) (n m : ℕ) (hm : m ≤ mass.length) (hc : m ≤ charge.length) :
    ∃ a b : AfArray K, (List.range m).foldl (fillStep mass (.list charge)) ((AfArray.ofFn 1 n 1 1 fun _ _ _ _ => 0, AfArray.ofFn 1 n 1 1 fun _ _ _ _ => 0), .ok ()) =
      ((a, b), .ok ()) ∧ (a.d0 = 1 ∧ a.d1 = n ∧ a.d2 = 1 ∧ a.d3 = 1) ∧ (b.d0 = 1 ∧ b.d1 = n ∧ b.d2 = 1 ∧ b.d3 = 1) ∧
      ∀ j, j < n → (a.get 0 j 0 0 = if j < m then mass.getD j 0 else 0) ∧ (b.get 0 j 0 0 = if j < m then charge.getD j 0 else 0) := by
  induction m with
  | zero =>
    refine ⟨_, _, rfl, ⟨rfl, rfl, rfl, rfl⟩, ⟨rfl, rfl, rfl, rfl⟩, fun j hj => ?_⟩
    rw [AfArray.get_ofFn _ _ _ _ _ _ _ _ _ (by omega) hj (by omega)]; simp
  | succ m ih =>
    obtain ⟨a, b, e, ha, hb, hv⟩ := ih (by omega) (by omega)
    rw [List.range_succ, List.foldl_append, e]
    have e1 : mass[m]? = some (mass.getD m 0) := by
      rw [List.getElem?_eq_getElem (by omega), List.getD_eq_getElem _ _ (by omega)]
    have e2 : charge[m]? = some (charge.getD m 0) := by
      rw [List.getElem?_eq_getElem (by omega), List.getD_eq_getElem _ _ (by omega)]
    refine ⟨a.setEntry m (mass.getD m 0), b.setEntry m (charge.getD m 0), ?_, ha, hb, fun j hj => ?_⟩
    · simp only [List.foldl_cons, List.foldl_nil, fillStep, SpeciesVal.entry, e1, e2]
    · rw [setEntry_get ha.1 ha.2.1 ha.2.2.1 _ _ _ hj, setEntry_get hb.1 hb.2.1 hb.2.2.1 _ _ _ hj, (hv j hj).1, (hv j hj).2]
      rcases lt_trichotomy j m with h | h | h
      · simp [h, h.ne, show j < m + 1 by omega]
      · subst h; simp
      · simp [h.ne', show ¬ j < m by omega, show ¬ j < m + 1 by omega]

/-- A `(1, n)` array with the given entries. -/
def IsSpeciesRow (a : AfArray K) (l : List K) : Prop :=
  a.d0 = 1 ∧ a.d1 = l.length ∧ a.d2 = 1 ∧ a.d3 = 1 ∧ ∀ s (h : s < l.length), a.get 0 s 0 0 = l[s]

theorem convertSpecies_lists (mass charge : List K) (h : mass.length = charge.length) :
    ∃ a b : AfArray K, convertSpecies charge.length ⟨.list mass, .list charge⟩ = (⟨.arr a, .arr b⟩, .ok ()) ∧ IsSpeciesRow a mass ∧ IsSpeciesRow b charge := by
  obtain ⟨a, b, e, ha, hb, hv⟩ := fill_lists mass charge charge.length charge.length (by omega) le_rfl
  refine ⟨a, b, ?_, ⟨ha.1, ha.2.1.trans h.symm, ha.2.2.1, ha.2.2.2, fun s hs => ?_⟩, ⟨hb.1, hb.2.1, hb.2.2.1, hb.2.2.2, fun s hs => ?_⟩⟩
  · simp only [convertSpecies, e]
  · rw [(hv s (by omega)).1, if_pos (by omega), List.getD_eq_getElem _ _ hs]
  · rw [(hv s hs).2, if_pos hs, List.getD_eq_getElem _ _ hs]

end convert

/-! ### the linear solver's momentum derivative -/

section linear
open PyExpr
variable {z : GridSizes} [NeZero z.Np1] [NeZero z.Np2] [NeZero z.Np3] [NeZero z.M1] [NeZero z.M2] [NeZero z.Ns]

/-- Shape `(1, N_p2)`: one number for each cell along `p2`. -/
def byP2 (z : GridSizes) : Lay z.Cell where
  d0 := 1
  d1 := z.Np2
  d2 := 1
  d3 := 1
  i0 _ := 0
  i1 x := x.2.1.2.1.val
  i2 _ := 0
  i3 _ := 0

theorem byP2_ok : (byP2 z).Ok := ⟨fun _ => Nat.one_pos, fun _ => ZMod.val_lt _, fun _ => Nat.one_pos, fun _ => Nat.one_pos⟩

theorem stencil_holds [Machine K] {axis : Fin 4} {T : ℤ → z.Cell → z.Cell} (hT : Moves (pExpanded z) axis T) {x : PyExpr K} {F : z.Cell → K}
    (h : (pExpanded z).Holds x F) :
    (pExpanded z).Holds (-x.shiftAlong axis (-2) + const 8 * x.shiftAlong axis (-1) + x.shiftAlong axis 2 - const 8 * x.shiftAlong axis 1)
      fun i => neg (F (T (-2) i)) ⊞ lit 8 ⊠ F (T (-1) i) ⊞ F (T 2 i) ⊟ lit 8 ⊠ F (T 1 i) := by
  have sh : ∀ k, (pExpanded z).Holds (x.shiftAlong axis k) fun i => F (T k i) := fun k => hT.shiftAlong h k
  exact ((((sh (-2)).un neg).bin add ((sh (-1)).numL false mul (lit 8))).bin add (sh 2)).bin sub ((sh 1).numL false mul (lit 8))

theorem arrDdp_holds (axis : Fin 3) (dp : Fin z.Ns → ℝ) (f : Dist (Fin z.Ns) z.P z.Q ℂ) (xdp xf : PyExpr ℂ)
    (hdp : (speciesOnly z).Holds xdp fun y => (dp y.1 : ℂ)) (hf : HoldsDist xf f) :
    let e : z.P := if axis = 0 then (1, 0, 0) else if axis = 1 then (0, 1, 0) else (0, 0, 1)
    (∀ d, dpBroadcast (M1 := z.Np1) (M2 := z.Np2) (M3 := z.Np3) dp = .ok d →
      HoldsDist (@arrDdp ℂ complexMachine z axis.castSucc xdp xf) fun s p q => centralDiff4 e (d p s : ℂ) (fun p => f s p q) p) ∧
    (∀ er, dpBroadcast (M1 := z.Np1) (M2 := z.Np2) (M3 := z.Np3) dp = .error er → @arrDdp ℂ complexMachine z axis.castSucc xdp xf = .error er) := by
  intro e
  let M : Machine ℂ := complexMachine
  have hone : ∀ u : ℂ, lit 1 ⊠ u = u := fun u => by change ((1 : ℚ) : ℂ) * u = u; simp
  have hT : Moves (pExpanded z) axis.castSucc fun k x => (x.1, x.2.1 - k • e, x.2.2) := by
    rcases (by omega : axis = 0 ∨ axis = 1 ∨ axis = 2) with rfl | rfl | rfl
    · exact moves_p1 z
    · exact moves_p2 z
    · exact moves_p3 z
  have hs := stencil_holds hT (toP_holds hf)
  have hinv : ∀ {L : Lay z.Cell} {g : z.Cell → ℂ}, L.Holds xdp g → L.Holds (const 1 / (const 12 * xdp)) fun y => lit 1 ⊘ (lit 12 ⊠ g y) := fun h =>
    (h.numL false mul (lit 12)).numL false div (lit 1)
  have val : ∀ (s : Fin z.Ns) (p : z.P) (q : z.Q) (w : ℝ),
      (neg (f s (p - (-2 : ℤ) • e) q) ⊞ lit 8 ⊠ f s (p - (-1 : ℤ) • e) q ⊞ f s (p - (2 : ℤ) • e) q ⊟ lit 8 ⊠ f s (p - (1 : ℤ) • e) q) ⊠ (lit 1 ⊘ (lit 12 ⊠ (w : ℂ))) =
      centralDiff4 e (w : ℂ) (fun p => f s p q) p := by
    intro s p q w
    simp only [centralDiff4, afShift]
    change (-f s (p - (-2 : ℤ) • e) q + ((8 : ℚ) : ℂ) * f s (p - (-1 : ℤ) • e) q + f s (p - (2 : ℤ) • e) q - ((8 : ℚ) : ℂ) * f s (p - (1 : ℤ) • e) q) *
      (((1 : ℚ) : ℂ) / (((12 : ℚ) : ℂ) * (w : ℂ))) = _
    push_cast; rfl
  by_cases h1 : z.Ns = 1
  · refine ⟨fun d hd => ?_, fun er her => by rw [dpBroadcast, if_pos h1] at her; cases her⟩
    rw [dpBroadcast, if_pos h1] at hd
    injection hd with hd; subst hd
    have sub : (speciesOnly z).Sub (pExpanded z) := ⟨.inr rfl, .inr h1, .inr rfl, .inr rfl⟩
    have := toQ_holds (multiply2_holds hone (pExpanded_ok z) (pExpanded_ok z) (speciesOnly_ok z) (.inl ⟨rfl, sub⟩) hs (hinv hdp))
    exact this.congr fun y => val y.1 y.2.1 y.2.2 (dp y.1)
  by_cases h2 : z.Ns = z.Np2
  · refine ⟨fun d hd => ?_, fun er her => by rw [dpBroadcast, if_neg h1, dif_pos h2] at her; cases her⟩
    rw [dpBroadcast, if_neg h1, dif_pos h2] at hd
    injection hd with hd; subst hd
    have hb : (byP2 z).Holds xdp fun y => ((dp ⟨y.2.1.2.1.val, lt_of_lt_of_eq (ZMod.val_lt _) h2.symm⟩ : ℝ) : ℂ) := by
      obtain ⟨a, rfl, k0, k1, k2, k3, kg⟩ := hdp
      refine ⟨a, rfl, k0, k1.trans h2, k2, k3, fun y => ?_⟩
      exact kg (⟨y.2.1.2.1.val, lt_of_lt_of_eq (ZMod.val_lt _) h2.symm⟩, y.2)
    have sub : (byP2 z).Sub (pExpanded z) := ⟨.inr rfl, .inl ⟨rfl, rfl⟩, .inr rfl, .inr rfl⟩
    have := toQ_holds (multiply2_holds hone (pExpanded_ok z) (pExpanded_ok z) byP2_ok (.inl ⟨rfl, sub⟩) hs (hinv hb))
    exact this.congr fun y => val y.1 y.2.1 y.2.2 _
  · refine ⟨fun d hd => (by rw [dpBroadcast, if_neg h1, dif_neg h2] at hd; cases hd), fun er her => ?_⟩
    rw [dpBroadcast, if_neg h1, dif_neg h2] at her
    injection her with her; subst her
    obtain ⟨a, ha, a0, a1, a2, a3, -⟩ := hs.numL true mul (lit 1)
    obtain ⟨b, hb, b0, b1, b2, b3, -⟩ := hinv hdp
    have pos : ∀ {m : ℕ} [NeZero m], 0 < m := fun {m} _ => Nat.pos_of_ne_zero (NeZero.ne m)
    have prog : arrDdp z axis.castSucc xdp xf = toQ z (bin true mul (.ok (.arr a)) (.ok (.arr b))) := by
      rw [← ha, ← hb]; rfl
    rw [prog]
    by_cases h3 : z.Np2 = 1
    · have hp4 : 0 < z.Ns * z.M1 * z.M2 := Nat.mul_pos (Nat.mul_pos pos pos) pos
      have hA : a.Proper := ⟨a0 ▸ pos (m := z.Np1), a1 ▸ pos (m := z.Np2), a2 ▸ pos (m := z.Np3), a3 ▸ hp4⟩
      have hB : b.Proper := ⟨b0 ▸ Nat.one_pos, b1 ▸ pos (m := z.Ns), b2 ▸ Nat.one_pos, b3 ▸ Nat.one_pos⟩
      obtain ⟨c, hc, -, c0, c1, c2, c3, -⟩ := AfArray.batched_ok (f := Machine.mul) (a := a) (b := b)
        ⟨.inr (.inr b0), .inr (.inl (a1.trans h3)), .inr (.inr b2), .inr (.inr b3)⟩ hA hB
      have e1 : bin true mul (.ok (.arr a)) (.ok (.arr b)) = .ok (.arr c) := by
        change Except.map PyVal.arr (a.batched mul b) = _
        rw [hc]; rfl
      rw [e1]
      change Except.map PyVal.arr (convertToQExpanded z c) = _
      have : convertToQExpanded z c = .error .exception := by
        unfold convertToQExpanded AfArray.moddims
        rw [if_neg]
        have d1 : c.d1 = z.Ns := by
          rw [c1, a1, b1]; change max z.Np2 z.Ns = z.Ns; rw [h3]; exact max_eq_right pos
        have d0 : c.d0 = z.Np1 := by rw [c0, a0, b0]; exact max_eq_left (pos (m := z.Np1))
        have d2 : c.d2 = z.Np3 := by rw [c2, a2, b2]; exact max_eq_left (pos (m := z.Np3))
        have d3 : c.d3 = z.Ns * z.M1 * z.M2 := by rw [c3, a3, b3]; exact max_eq_left hp4
        unfold AfArray.size
        rw [d0, d1, d2, d3, h3]
        intro hh
        have : z.Ns * (z.Np1 * z.Np3 * (z.Ns * z.M1 * z.M2)) = 1 * (z.Np1 * z.Np3 * (z.Ns * z.M1 * z.M2)) := by
          first | (calc _ = z.Np1 * z.Ns * z.Np3 * (z.Ns * z.M1 * z.M2) := by ring
            _ = z.Np1 * 1 * z.Np3 * z.Ns * z.M1 * z.M2 := hh
            _ = _ := by ring) | (calc _ = z.Np1 * z.Ns * z.Np3 * (z.Ns * z.M1 * z.M2) := by ring
            _ = z.Np1 * 1 * z.Np3 * z.Ns * z.M1 * z.M2 := hh.symm
            _ = _ := by ring)
        exact h1 (Nat.eq_of_mul_eq_mul_right (Nat.mul_pos (Nat.mul_pos pos pos) hp4) this)
      rw [this]; rfl
    · have : ¬ a.Compatible b := by
        rintro ⟨-, h, -⟩
        rw [a1, b1] at h
        rcases h with h | h | h
        · exact h2 h.symm
        · exact h3 h
        · exact h1 h
      have e1 : bin true mul (.ok (.arr a)) (.ok (.arr b)) = .error .exception := by
        change Except.map PyVal.arr (a.batched mul b) = _
        rw [AfArray.batched_error this]; rfl
      rw [e1]; rfl

end linear
end Bolt
