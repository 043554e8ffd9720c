import Verif.Spec.System
import Mathlib.Algebra.Order.Field.Basic
import Mathlib.Algebra.Order.Field.Rat
import Mathlib.Tactic.NormNum
import Mathlib.Tactic.Push
import Mathlib.Tactic.Linarith

/-!
# C49: validation of the physical system
-/

set_option linter.unusedSectionVars false

namespace Bolt

variable {K : Type} [Field K] [LinearOrder K]

theorem pyListGt_iff (s e : List K) (h : s.length = e.length) : pyListGt s e = false ↔ FirstDifferenceOrdered s e := by
  induction s generalizing e with
  | nil =>
      refine ⟨fun _ k hs => absurd hs (by simp), fun _ => rfl⟩
  | cons a as ih =>
      cases e with
      | nil => simp at h
      | cons b bs =>
          have h' : as.length = bs.length := by simpa using h
          rw [pyListGt]
          by_cases hab : a = b
          · rw [if_pos hab, ih bs h']
            constructor
            · intro hf k hs he hj
              cases k with
              | zero => simp [hab]
              | succ k =>
                  simp only [List.getElem_cons_succ]
                  refine hf k (by simpa using hs) (by simpa using he) fun j h1 h2 hjk => ?_
                  have := hj (j + 1) (by simpa using h1) (by simpa using h2) (by omega)
                  simpa only [List.getElem_cons_succ] using this
            · intro hf k hs he hj
              have := hf (k + 1) (by simpa using hs) (by simpa using he) fun j h1 h2 hjk => ?_
              · simpa only [List.getElem_cons_succ] using this
              · cases j with
                | zero => simp [hab]
                | succ j =>
                    simp only [List.getElem_cons_succ]
                    exact hj j (by simpa using h1) (by simpa using h2) (by omega)
          · rw [if_neg hab]
            simp only [decide_eq_false_iff_not, not_lt]
            constructor
            · intro hle k hs he hj
              cases k with
              | zero => simpa using hle
              | succ k => exact absurd (hj 0 (by simp) (by simp) (by omega)) (by simpa using hab)
            · intro hf
              exact hf 0 (by simp) (by simp) fun j _ _ hj => absurd hj (by omega)

theorem mapM_pyDiv {α : Type} (g : α → K) (n : ℤ) (l : List α) (h : l = [] ∨ n ≠ 0) :
    (l.mapM fun a => pyDiv (g a) n) = .ok (l.map fun a => g a / n) := by
  induction l with
  | nil => rfl
  | cons a l ih =>
      have hn : n ≠ 0 := h.resolve_left (by simp)
      rw [List.mapM_cons, ih (.inr hn), pyDiv, if_neg hn]
      rfl

theorem mapM_pyDiv_err {α : Type} (g : α → K) (l : List α) (h : l ≠ []) :
    (l.mapM fun a => pyDiv (g a) 0) = .error .zeroDivision := by
  cases l with
  | nil => exact absurd rfl h
  | cons a l => rw [List.mapM_cons, pyDiv, if_pos rfl]; rfl

/-- The spacings of an accepted system. -/
def expectedSystem (x : SystemIn K) : PhysSys K :=
  ⟨x.nCharge, (x.domain.q1End - x.domain.q1Start) / x.domain.Nq1, (x.domain.q2End - x.domain.q2Start) / x.domain.Nq2,
    (List.zip x.domain.p1Start.entries x.domain.p1End.entries).map fun se => (se.2 - se.1) / x.domain.Np1,
    (List.zip x.domain.p2Start.entries x.domain.p2End.entries).map fun se => (se.2 - se.1) / x.domain.Np2,
    (List.zip x.domain.p3Start.entries x.domain.p3End.entries).map fun se => (se.2 - se.1) / x.domain.Np3⟩

theorem checkTypes_iff (x : SystemIn K) : checkTypes x = .ok () ↔
    ((∀ a ∈ x.bcAttrs, a.1.startsWith "__" = true ∨ a.2 ≠ .other) ∧ x.initialConditionsIsModule = true ∧ x.sourceIsFunction = true ∧
    (∀ a ∈ x.advAttrs, a.1.startsWith "_" = true ∨ a.2 = .function ∨ a.2 = .module) ∧
    (∀ a ∈ x.momentAttrs, a.1.startsWith "_" = true ∨ a.2 = .function ∨ a.2 = .module)) := by
  have k1 : ∀ k : AttrKind, k ∈ [AttrKind.str, .function, .module, .float] ↔ k ≠ .other := by intro k; cases k <;> simp
  have b1 : ∀ l : List (String × AttrKind), (l.any fun a => !a.1.startsWith "__" && !decide (a.2 ∈ [AttrKind.str, .function, .module, .float])) = true
      ↔ ¬ ∀ a ∈ l, a.1.startsWith "__" = true ∨ a.2 ≠ .other := by
    intro l
    simp only [List.any_eq_true, Bool.and_eq_true, Bool.not_eq_true', decide_eq_false_iff_not, k1]
    push Not
    simp
  have b2 : ∀ l : List (String × AttrKind), (l.any fun a => !a.1.startsWith "_" && !decide (a.2 ∈ [AttrKind.function, .module])) = true
      ↔ ¬ ∀ a ∈ l, a.1.startsWith "_" = true ∨ a.2 = .function ∨ a.2 = .module := by
    intro l
    simp only [List.any_eq_true, Bool.and_eq_true, Bool.not_eq_true', decide_eq_false_iff_not]
    push Not
    simp
  rw [checkTypes]
  simp only [b1, b2]
  by_cases h1 : ∀ a ∈ x.bcAttrs, a.1.startsWith "__" = true ∨ a.2 ≠ .other
  swap
  · rw [if_pos h1]
    exact iff_of_false (by simp) fun h => h1 h.1
  rw [if_neg (not_not.mpr h1)]
  by_cases h2 : x.initialConditionsIsModule = false
  · rw [if_pos h2, h2]
    exact iff_of_false (by simp) fun h => Bool.noConfusion h.2.1
  rw [if_neg h2]
  by_cases h3 : x.sourceIsFunction = false
  · rw [if_pos h3, h3]
    exact iff_of_false (by simp) fun h => Bool.noConfusion h.2.2.1
  rw [if_neg h3]
  by_cases h4 : ∀ a ∈ x.advAttrs, a.1.startsWith "_" = true ∨ a.2 = .function ∨ a.2 = .module
  swap
  · rw [if_pos h4]
    exact iff_of_false (by simp) fun h => h4 h.2.2.2.1
  rw [if_neg (not_not.mpr h4)]
  by_cases h5 : ∀ a ∈ x.momentAttrs, a.1.startsWith "_" = true ∨ a.2 = .function ∨ a.2 = .module
  swap
  · rw [if_pos h5]
    exact iff_of_false (by simp) fun h => h5 h.2.2.2.2
  rw [if_neg (not_not.mpr h5)]
  exact iff_of_true rfl ⟨h1, by simpa using h2, by simpa using h3, h4, h5⟩

theorem perSpecies_iff (n : ℕ) (a : PLimit K) : PerSpecies n a ↔ a.isList = true ∧ a.len = n := by
  cases a with
  | list l =>
      refine ⟨?_, fun h => ⟨l, rfl, h.2⟩⟩
      rintro ⟨l', h, hl⟩
      cases h
      exact ⟨rfl, hl⟩
  | other => simp [PerSpecies, PLimit.isList]

theorem checkSpecies_iff (x : SystemIn K) : checkSpecies x = .ok () ↔ x.nMass = x.nCharge ∧
    (x.hybrid = some false ∨ (x.hybrid = some true ∧ x.nCharge = 1)) ∧
    (PerSpecies x.nCharge x.domain.p1Start ∧ PerSpecies x.nCharge x.domain.p1End ∧ PerSpecies x.nCharge x.domain.p2Start ∧
    PerSpecies x.nCharge x.domain.p2End ∧ PerSpecies x.nCharge x.domain.p3Start ∧ PerSpecies x.nCharge x.domain.p3End) := by
  simp only [perSpecies_iff]
  rw [checkSpecies]
  have hh : ¬ (x.hybrid = none ∨ (x.hybrid = some true ∧ x.nCharge ≠ 1)) ↔ (x.hybrid = some false ∨ (x.hybrid = some true ∧ x.nCharge = 1)) := by
    cases x.hybrid with
    | none => simp
    | some b => cases b <;> simp
  by_cases h1 : x.nMass = x.nCharge
  swap
  · rw [if_pos h1]
    exact iff_of_false (by simp) fun h => h1 h.1
  rw [if_neg (not_not.mpr h1)]
  by_cases h2 : x.hybrid = none ∨ (x.hybrid = some true ∧ x.nCharge ≠ 1)
  · rw [if_pos h2]
    exact iff_of_false (by simp) fun h => hh.mpr h.2.1 h2
  rw [if_neg h2]
  by_cases h3 : (!(x.domain.p1Start.isList && x.domain.p2Start.isList && x.domain.p3Start.isList && x.domain.p1End.isList &&
      x.domain.p2End.isList && x.domain.p3End.isList)) = true
  · rw [if_pos h3]
    refine iff_of_false (by simp) fun h => ?_
    obtain ⟨-, -, ⟨a, -⟩, ⟨b, -⟩, ⟨c, -⟩, ⟨d, -⟩, ⟨e, -⟩, ⟨f, -⟩⟩ := h
    rw [a, b, c, d, e, f] at h3
    exact Bool.noConfusion h3
  rw [if_neg h3]
  by_cases h4 : x.domain.p1Start.len = x.domain.p2Start.len ∧ x.domain.p2Start.len = x.domain.p3Start.len ∧
      x.domain.p3Start.len = x.domain.p1End.len ∧ x.domain.p1End.len = x.domain.p2End.len ∧ x.domain.p2End.len = x.domain.p3End.len ∧
      x.domain.p3End.len = x.nCharge
  swap
  · rw [if_pos h4]
    refine iff_of_false (by simp) fun h => h4 ?_
    obtain ⟨-, -, h⟩ := h
    simp only [h.1.2, h.2.1.2, h.2.2.1.2, h.2.2.2.1.2, h.2.2.2.2.1.2, h.2.2.2.2.2.2, and_self]
  rw [if_neg (not_not.mpr h4)]
  simp only [Bool.not_eq_true', Bool.not_eq_false] at h3
  simp only [Bool.and_eq_true] at h3
  obtain ⟨⟨⟨⟨⟨a, b⟩, c⟩, d⟩, e⟩, f⟩ := h3
  obtain ⟨u, v, w, y, z, t⟩ := h4
  exact iff_of_true rfl ⟨h1, hh.mp h2, ⟨a, by omega⟩, ⟨d, by omega⟩, ⟨b, by omega⟩, ⟨e, by omega⟩, ⟨c, by omega⟩, ⟨f, by omega⟩⟩

theorem checkFields_iff (x : SystemIn K) : checkFields x = .ok () ↔
    (x.fieldsType = "electrodynamic" → pyUpper x.fieldsSolver = "FDTD".toList) ∧
    (x.fieldsType = "electrostatic" → pyUpper x.fieldsSolver = "SNES".toList ∨ pyUpper x.fieldsSolver = "FFT".toList) := by
  have e1 : "FDTD".toList = ['F', 'D', 'T', 'D'] := by decide
  have e2 : "SNES".toList = ['S', 'N', 'E', 'S'] := by decide
  have e3 : "FFT".toList = ['F', 'F', 'T'] := by decide
  rw [checkFields, e1, e2, e3]
  split_ifs with h1 h2
  · exact iff_of_false (by simp) fun h => h1.2 (h.1 h1.1)
  · exact iff_of_false (by simp) fun h => h2.2 (h.2 h2.1)
  · refine iff_of_true rfl ⟨fun h => ?_, fun h => ?_⟩
    · by_contra hc; exact h1 ⟨h, hc⟩
    · by_contra hc; exact h2 ⟨h, hc⟩

theorem checkAdvection_iff (x : SystemIn K) : checkAdvection x = .ok () ↔ ∀ n ∈ ["A_q", "C_q", "A_p", "C_p"], ∃ k, (n, k) ∈ x.advAttrs := by
  have e : ∀ n : String, (x.advAttrs.any fun a => a.1 == n) = true ↔ ∃ k, (n, k) ∈ x.advAttrs := fun n => by
    simp only [List.any_eq_true, beq_iff_eq]
    exact ⟨fun ⟨a, h, e⟩ => ⟨a.2, e ▸ h⟩, fun ⟨k, h⟩ => ⟨_, h, rfl⟩⟩
  rw [checkAdvection]
  split_ifs with h
  · exact iff_of_true rfl fun n hn => (e n).mp (List.all_eq_true.mp h n hn)
  · exact iff_of_false (by simp) fun h' => h (List.all_eq_true.mpr fun n hn => (e n).mpr (h' n hn))

/-- C49: a physical system is accepted exactly when it satisfies `Acceptable`, and the object then holds the number of species and the grid
spacings. -/
theorem C49_accepted_iff (x : SystemIn K) :
    ((∃ sys, physicalSystem x = .ok sys) ↔ Acceptable x) ∧ ∀ sys, physicalSystem x = .ok sys → sys = expectedSystem x := by
  by_cases ht : checkTypes x = .ok ()
  swap
  · have : ∀ sys, physicalSystem x ≠ .ok sys := by
      intro sys h
      rw [physicalSystem] at h
      cases hc : checkTypes x with
      | error e => rw [hc] at h; cases h
      | ok u => exact ht hc
    refine ⟨iff_of_false (fun ⟨s, h⟩ => this s h) fun h => ht ((checkTypes_iff x).mpr ⟨h.bcTypes, h.initial, h.source, h.advTypes, h.momentTypes⟩), ?_⟩
    exact fun s h => absurd h (this s)
  by_cases hs : checkSpecies x = .ok ()
  swap
  · have : ∀ sys, physicalSystem x ≠ .ok sys := by
      intro sys h
      rw [physicalSystem, ht] at h
      cases hc : checkSpecies x with
      | error e => rw [hc] at h; cases h
      | ok u => exact hs hc
    exact ⟨iff_of_false (fun ⟨s, h⟩ => this s h) fun h => hs ((checkSpecies_iff x).mpr ⟨h.species, h.hybrid, h.limits⟩), fun s h => absurd h (this s)⟩
  obtain ⟨s1, s2, s3⟩ := (checkSpecies_iff x).mp hs
  obtain ⟨t1, t2, t3, t4, t5⟩ := (checkTypes_iff x).mp ht
  have len : ∀ a : PLimit K, PerSpecies x.nCharge a → a.entries.length = x.nCharge := by
    rintro a ⟨l, rfl, h⟩; exact h
  obtain ⟨l1, l2, l3, l4, l5, l6⟩ := s3
  have q1 := pyListGt_iff x.domain.p1Start.entries x.domain.p1End.entries ((len _ l1).trans (len _ l2).symm)
  have q2 := pyListGt_iff x.domain.p2Start.entries x.domain.p2End.entries ((len _ l3).trans (len _ l4).symm)
  have q3 := pyListGt_iff x.domain.p3Start.entries x.domain.p3End.entries ((len _ l5).trans (len _ l6).symm)
  by_cases hd : checkDomain x.domain = .ok ()
  swap
  · have : ∀ sys, physicalSystem x ≠ .ok sys := by
      intro sys h
      rw [physicalSystem, ht, hs] at h
      cases hc : checkDomain x.domain with
      | error e => rw [hc] at h; cases h
      | ok u => exact hd hc
    refine ⟨iff_of_false (fun ⟨s, h⟩ => this s h) fun h => hd ?_, fun s h => absurd h (this s)⟩
    have r1 := h.resolutionQ
    have r2 := h.resolutionP.1
    have r3 := h.ghosts
    have o := h.orderedQ
    rw [checkDomain, if_neg (by omega), if_neg]
    rw [q1.mpr h.orderedP.1, q2.mpr h.orderedP.2.1, q3.mpr h.orderedP.2.2]
    simp [o.1, o.2]
  have hd' := hd
  rw [checkDomain] at hd'
  split_ifs at hd' with d1 d2
  push Not at d1 d2
  simp only [ne_eq, Bool.not_eq_true] at d2
  have zl : ∀ a b : PLimit K, PerSpecies x.nCharge a → PerSpecies x.nCharge b → (List.zip a.entries b.entries = [] ↔ x.nCharge = 0) := by
    intro a b ha hb
    rw [← List.length_eq_zero_iff, List.length_zip, len _ ha, len _ hb, min_self]
  -- the spacings
  have main : (0 < x.domain.Nq1 ∧ 0 < x.domain.Nq2) ∧ (x.nCharge ≠ 0 → x.domain.Np1 ≠ 0 ∧ x.domain.Np2 ≠ 0 ∧ x.domain.Np3 ≠ 0) →
      physicalSystem x = (checkAdvection x >>= fun _ => checkFields x >>= fun _ => .ok (expectedSystem x)) := by
    rintro ⟨⟨h1, h2⟩, h3⟩
    have p : ∀ (n : ℤ) (a b : PLimit K), PerSpecies x.nCharge a → PerSpecies x.nCharge b → (x.nCharge ≠ 0 → n ≠ 0) →
        dpLoop n a.entries b.entries = .ok ((List.zip a.entries b.entries).map fun se => (se.2 - se.1) / (n : K)) := by
      intro n a b ha hb hn
      refine mapM_pyDiv (fun se : K × K => se.2 - se.1) n _ ?_
      by_cases hz : x.nCharge = 0
      · exact .inl ((zl a b ha hb).mpr hz)
      · exact .inr (hn hz)
    rw [physicalSystem, ht, hs, hd]
    simp only [pyDiv, if_neg h1.ne', if_neg h2.ne', p _ _ _ l1 l2 fun h => (h3 h).1, p _ _ _ l3 l4 fun h => (h3 h).2.1, p _ _ _ l5 l6 fun h => (h3 h).2.2]
    rfl
  by_cases hr : (0 < x.domain.Nq1 ∧ 0 < x.domain.Nq2) ∧ (x.nCharge ≠ 0 → x.domain.Np1 ≠ 0 ∧ x.domain.Np2 ≠ 0 ∧ x.domain.Np3 ≠ 0)
  · rw [main hr]
    cases ha : checkAdvection x with
    | error e =>
        refine ⟨iff_of_false (fun ⟨s, h⟩ => by cases h) fun h => ?_, fun s h => by cases h⟩
        rw [(checkAdvection_iff x).mpr h.advTerms] at ha
        cases ha
    | ok u =>
    have t6 := (checkAdvection_iff x).mp ha
    cases hc : checkFields x with
    | error e =>
        refine ⟨iff_of_false (fun ⟨s, h⟩ => by cases h) fun h => ?_, fun s h => by cases h⟩
        rw [(checkFields_iff x).mpr ⟨h.electrodynamic, h.electrostatic⟩] at hc
        cases hc
    | ok u =>
        refine ⟨iff_of_true ⟨_, rfl⟩ ?_, fun s h => by cases h; rfl⟩
        obtain ⟨f1, f2⟩ := (checkFields_iff x).mp hc
        exact ⟨t1, t4, t6, t5, t2, t3, s1, s2, ⟨l1, l2, l3, l4, l5, l6⟩, d1.2.2.2.2.2, hr.1, ⟨⟨d1.2.2.1, d1.2.2.2.1, d1.2.2.2.2.1⟩, hr.2⟩,
          ⟨d2.1, d2.2.1⟩, ⟨q1.mp d2.2.2.1, q2.mp d2.2.2.2.1, q3.mp d2.2.2.2.2⟩, f1, f2⟩
  · have : ∀ sys, physicalSystem x ≠ .ok sys := by
      intro sys h
      rw [physicalSystem, ht, hs, hd] at h
      change (pyDiv _ _ >>= fun dq1 => _) = _ at h
      have fz : ∀ (n : ℤ) (a b : PLimit K) (r : List K), PerSpecies x.nCharge a → PerSpecies x.nCharge b → dpLoop n a.entries b.entries = .ok r →
          x.nCharge ≠ 0 → n ≠ 0 := by
        rintro n a b r ha hb h hz rfl
        rw [dpLoop, mapM_pyDiv_err _ _ (fun hh => hz ((zl a b ha hb).mp hh))] at h
        cases h
      cases e1 : pyDiv (x.domain.q1End - x.domain.q1Start) x.domain.Nq1 with
      | error e => rw [e1] at h; cases h
      | ok v1 =>
      rw [e1] at h
      change (pyDiv _ _ >>= fun dq1 => _) = _ at h
      cases e2 : pyDiv (x.domain.q2End - x.domain.q2Start) x.domain.Nq2 with
      | error e => rw [e2] at h; cases h
      | ok v2 =>
      rw [e2] at h
      change (dpLoop _ _ _ >>= fun dq1 => _) = _ at h
      cases e3 : dpLoop x.domain.Np1 x.domain.p1Start.entries x.domain.p1End.entries with
      | error e => rw [e3] at h; cases h
      | ok v3 =>
      rw [e3] at h
      change (dpLoop _ _ _ >>= fun dq1 => _) = _ at h
      cases e4 : dpLoop x.domain.Np2 x.domain.p2Start.entries x.domain.p2End.entries with
      | error e => rw [e4] at h; cases h
      | ok v4 =>
      rw [e4] at h
      change (dpLoop _ _ _ >>= fun dq1 => _) = _ at h
      cases e5 : dpLoop x.domain.Np3 x.domain.p3Start.entries x.domain.p3End.entries with
      | error e => rw [e5] at h; cases h
      | ok v5 =>
      have n1 : x.domain.Nq1 ≠ 0 := by rintro hz; rw [pyDiv, if_pos hz] at e1; cases e1
      have n2 : x.domain.Nq2 ≠ 0 := by rintro hz; rw [pyDiv, if_pos hz] at e2; cases e2
      exact hr ⟨⟨lt_of_le_of_ne d1.1 (Ne.symm n1), lt_of_le_of_ne d1.2.1 (Ne.symm n2)⟩, fun hz =>
        ⟨fz _ _ _ _ l1 l2 e3 hz, fz _ _ _ _ l3 l4 e4 hz, fz _ _ _ _ l5 l6 e5 hz⟩⟩
    refine ⟨iff_of_false (fun ⟨s, h⟩ => this s h) fun h => hr ⟨h.resolutionQ, h.resolutionP.2⟩, fun s h => absurd h (this s)⟩

theorem spacing_list (n : ℕ) (N : ℤ) (a b : PLimit K) (ha : PerSpecies n a) (hb : PerSpecies n b) (hN : n ≠ 0 → (N : K) ≠ 0) :
    ((List.zip a.entries b.entries).map fun se => (se.2 - se.1) / (N : K)).length = n ∧
    ∀ i (_ : i < n) (h1 : i < a.entries.length) (h2 : i < b.entries.length)
      (h3 : i < ((List.zip a.entries b.entries).map fun se => (se.2 - se.1) / (N : K)).length),
      ((List.zip a.entries b.entries).map fun se => (se.2 - se.1) / (N : K))[i] * N = b.entries[i] - a.entries[i] := by
  obtain ⟨la, rfl, rfl⟩ := ha
  obtain ⟨lb, rfl, hl⟩ := hb
  refine ⟨by simp [PLimit.entries, hl], fun i hi h1 h2 h3 => ?_⟩
  simp only [PLimit.entries, List.getElem_map, List.getElem_zip]
  exact div_mul_cancel₀ _ (hN (by omega))

/-- C49: in an accepted system the spacings tile the domain: resolution times spacing is the length of the domain, along both position axes
and, species by species, along all three momentum axes; position spacings are never negative. -/
theorem C49_spacings [IsStrictOrderedRing K] (x : SystemIn K) (sys : PhysSys K) (h : physicalSystem x = .ok sys) :
    sys.nSpecies = x.nCharge ∧
    sys.dq1 * x.domain.Nq1 = x.domain.q1End - x.domain.q1Start ∧ sys.dq2 * x.domain.Nq2 = x.domain.q2End - x.domain.q2Start ∧
    0 ≤ sys.dq1 ∧ 0 ≤ sys.dq2 ∧
    sys.dp1.length = x.nCharge ∧ sys.dp2.length = x.nCharge ∧ sys.dp3.length = x.nCharge ∧
    ∀ (p1s p1e p2s p2e p3s p3e : List K), x.domain.p1Start = .list p1s → x.domain.p1End = .list p1e → x.domain.p2Start = .list p2s →
      x.domain.p2End = .list p2e → x.domain.p3Start = .list p3s → x.domain.p3End = .list p3e → ∀ i, i < x.nCharge →
      (sys.dp1.getD i 0 * x.domain.Np1 = p1e.getD i 0 - p1s.getD i 0 ∧ sys.dp2.getD i 0 * x.domain.Np2 = p2e.getD i 0 - p2s.getD i 0 ∧
       sys.dp3.getD i 0 * x.domain.Np3 = p3e.getD i 0 - p3s.getD i 0) := by
  obtain ⟨ha, hs⟩ := C49_accepted_iff x
  have acc := ha.mp ⟨sys, h⟩
  obtain rfl := hs sys h
  have c1 : (0 : K) < x.domain.Nq1 := by exact_mod_cast acc.resolutionQ.1
  have c2 : (0 : K) < x.domain.Nq2 := by exact_mod_cast acc.resolutionQ.2
  have cp := acc.resolutionP.2
  obtain ⟨l1, l2, l3, l4, l5, l6⟩ := acc.limits
  have s1 := spacing_list x.nCharge x.domain.Np1 _ _ l1 l2 fun hz => by exact_mod_cast (cp hz).1
  have s2 := spacing_list x.nCharge x.domain.Np2 _ _ l3 l4 fun hz => by exact_mod_cast (cp hz).2.1
  have s3 := spacing_list x.nCharge x.domain.Np3 _ _ l5 l6 fun hz => by exact_mod_cast (cp hz).2.2
  refine ⟨rfl, div_mul_cancel₀ _ c1.ne', div_mul_cancel₀ _ c2.ne', div_nonneg (sub_nonneg.mpr acc.orderedQ.1) c1.le,
    div_nonneg (sub_nonneg.mpr acc.orderedQ.2) c2.le, s1.1, s2.1, s3.1, ?_⟩
  intro p1s p1e p2s p2e p3s p3e e1 e2 e3 e4 e5 e6 i hi
  have len : ∀ (a : PLimit K) (l : List K), PerSpecies x.nCharge a → a = .list l → l.length = x.nCharge := by
    rintro _ l ⟨l', rfl, h⟩ hl; cases hl; exact h
  have g : ∀ (l r : List K) (h1 : i < l.length), l.getD i 0 = l[i] := fun l r h1 => by simp [List.getD, h1]
  refine ⟨?_, ?_, ?_⟩
  · have k1 : i < p1s.length := by rw [len _ _ l1 e1]; exact hi
    have k2 : i < p1e.length := by rw [len _ _ l2 e2]; exact hi
    have := s1.2 i hi (by rw [e1]; exact k1) (by rw [e2]; exact k2) (by rw [s1.1]; exact hi)
    rw [g (expectedSystem x).dp1 [] (by rw [show (expectedSystem x).dp1.length = x.nCharge from s1.1]; exact hi), g p1e [] k2, g p1s [] k1]
    simp only [e1, e2, PLimit.entries] at this
    simpa only [expectedSystem, e1, e2, PLimit.entries] using this
  · have k1 : i < p2s.length := by rw [len _ _ l3 e3]; exact hi
    have k2 : i < p2e.length := by rw [len _ _ l4 e4]; exact hi
    have := s2.2 i hi (by rw [e3]; exact k1) (by rw [e4]; exact k2) (by rw [s2.1]; exact hi)
    rw [g (expectedSystem x).dp2 [] (by rw [show (expectedSystem x).dp2.length = x.nCharge from s2.1]; exact hi), g p2e [] k2, g p2s [] k1]
    simp only [e3, e4, PLimit.entries] at this
    simpa only [expectedSystem, e3, e4, PLimit.entries] using this
  · have k1 : i < p3s.length := by rw [len _ _ l5 e5]; exact hi
    have k2 : i < p3e.length := by rw [len _ _ l6 e6]; exact hi
    have := s3.2 i hi (by rw [e5]; exact k1) (by rw [e6]; exact k2) (by rw [s3.1]; exact hi)
    rw [g (expectedSystem x).dp3 [] (by rw [show (expectedSystem x).dp3.length = x.nCharge from s3.1]; exact hi), g p3e [] k2, g p3s [] k1]
    simp only [e5, e6, PLimit.entries] at this
    simpa only [expectedSystem, e5, e6, PLimit.entries] using this

/-- C49: with one species an accepted system has all its momentum limits in order. -/
theorem C49_one_species_ordered (x : SystemIn K) (hx : Acceptable x) (h1 : x.nCharge = 1) :
    ∃ a1 b1 a2 b2 a3 b3 : K, x.domain.p1Start = .list [a1] ∧ x.domain.p1End = .list [b1] ∧ x.domain.p2Start = .list [a2] ∧
      x.domain.p2End = .list [b2] ∧ x.domain.p3Start = .list [a3] ∧ x.domain.p3End = .list [b3] ∧ a1 ≤ b1 ∧ a2 ≤ b2 ∧ a3 ≤ b3 := by
  obtain ⟨l1, l2, l3, l4, l5, l6⟩ := hx.limits
  obtain ⟨o1, o2, o3⟩ := hx.orderedP
  have one : ∀ a : PLimit K, PerSpecies x.nCharge a → ∃ v, a = .list [v] := by
    rintro a ⟨l, rfl, hl⟩
    obtain ⟨v, rfl⟩ := List.length_eq_one_iff.mp (hl.trans h1)
    exact ⟨v, rfl⟩
  obtain ⟨a1, e1⟩ := one _ l1
  obtain ⟨b1, e2⟩ := one _ l2
  obtain ⟨a2, e3⟩ := one _ l3
  obtain ⟨b2, e4⟩ := one _ l4
  obtain ⟨a3, e5⟩ := one _ l5
  obtain ⟨b3, e6⟩ := one _ l6
  rw [e1, e2] at o1
  rw [e3, e4] at o2
  rw [e5, e6] at o3
  refine ⟨a1, b1, a2, b2, a3, b3, e1, e2, e3, e4, e5, e6, ?_, ?_, ?_⟩
  · exact o1 0 (by simp [PLimit.entries]) (by simp [PLimit.entries]) fun j _ _ hj => absurd hj (by omega)
  · exact o2 0 (by simp [PLimit.entries]) (by simp [PLimit.entries]) fun j _ _ hj => absurd hj (by omega)
  · exact o3 0 (by simp [PLimit.entries]) (by simp [PLimit.entries]) fun j _ _ hj => absurd hj (by omega)

/-- C49: a resolution of zero is not reported as an unphysical input: it passes the sign check and the constructor dies of a division by zero. -/
theorem C49_zero_resolution (x : SystemIn K) (hx : Acceptable x) :
    physicalSystem { x with domain := { x.domain with Nq1 := 0 } } = .error .zeroDivision := by
  have hd : checkDomain { x.domain with Nq1 := 0 } = .ok () := by
    have h2 := hx.resolutionQ.2
    have h3 := hx.resolutionP.1
    have h4 := hx.ghosts
    obtain ⟨l1, l2, l3, l4, l5, l6⟩ := hx.limits
    have len : ∀ a : PLimit K, PerSpecies x.nCharge a → a.entries.length = x.nCharge := by
      rintro a ⟨l, rfl, h⟩; exact h
    rw [checkDomain, if_neg (by simp; omega), if_neg]
    simp only [(pyListGt_iff _ _ ((len _ l1).trans (len _ l2).symm)).mpr hx.orderedP.1,
      (pyListGt_iff _ _ ((len _ l3).trans (len _ l4).symm)).mpr hx.orderedP.2.1,
      (pyListGt_iff _ _ ((len _ l5).trans (len _ l6).symm)).mpr hx.orderedP.2.2]
    simp [hx.orderedQ.1, hx.orderedQ.2]
  have ht : checkTypes { x with domain := { x.domain with Nq1 := 0 } } = .ok () :=
    (checkTypes_iff _).mpr ⟨hx.bcTypes, hx.initial, hx.source, hx.advTypes, hx.momentTypes⟩
  have hs : checkSpecies { x with domain := { x.domain with Nq1 := 0 } } = .ok () := (checkSpecies_iff _).mpr ⟨hx.species, hx.hybrid, hx.limits⟩
  rw [physicalSystem, ht, hs]
  simp only [hd]
  rfl

/-- See `exSystem`. -/
def exDomain (a b : ℚ) : DomainIn ℚ where
  Nq1 := 4
  Nq2 := 3
  Np1 := 2
  Np2 := 1
  Np3 := 1
  Nghost := 3
  q1Start := 0
  q1End := 1
  q2Start := 0
  q2End := 1
  p1Start := .list [-1, a]
  p1End := .list [1, b]
  p2Start := .list [-1, -1]
  p2End := .list [1, 1]
  p3Start := .list [-1, -1]
  p3End := .list [1, 1]

/-- Two species; the first has momentum range `[-1,1]`, the second `[a, b]`. -/
def exSystem (a b : ℚ) (fieldsType fieldsSolver : String) : SystemIn ℚ where
  bcAttrs := [("__name__", .other), ("in_q1_left", .str), ("f_left", .function)]
  advAttrs := [("A_p", .function), ("A_q", .function), ("C_p", .function), ("C_q", .function), ("np", .module), ("_hidden", .other)]
  momentAttrs := [("density", .function)]
  initialConditionsIsModule := true
  sourceIsFunction := true
  domain := exDomain a b
  nCharge := 2
  nMass := 2
  hybrid := some false
  fieldsType := fieldsType
  fieldsSolver := fieldsSolver

theorem exSystem_ordered (a b : ℚ) : FirstDifferenceOrdered [-1, a] [(1 : ℚ), b] := by
  intro k hs he hj
  cases k with
  | zero => norm_num
  | succ k =>
      have := hj 0 (by simp) (by simp) (by omega)
      norm_num at this

theorem exSystem_acceptable (a b : ℚ) (ty so : String) (h1 : ty = "electrodynamic" → pyUpper so = "FDTD".toList)
    (h2 : ty = "electrostatic" → pyUpper so = "SNES".toList ∨ pyUpper so = "FFT".toList) : Acceptable (exSystem a b ty so) where
  bcTypes := by
    simp only [exSystem, List.mem_cons, List.not_mem_nil, or_false]
    rintro v (rfl | rfl | rfl) <;> simp
  advTypes := by
    simp only [exSystem, List.mem_cons, List.not_mem_nil, or_false]
    rintro v (rfl | rfl | rfl | rfl | rfl | rfl) <;> simp
  advTerms := by
    intro n hn
    refine ⟨.function, ?_⟩
    simp only [List.mem_cons, List.not_mem_nil, or_false] at hn
    rcases hn with rfl | rfl | rfl | rfl <;> simp [exSystem]
  momentTypes := by
    simp only [exSystem, List.mem_cons, List.not_mem_nil, or_false]
    rintro v rfl
    simp
  initial := rfl
  source := rfl
  species := rfl
  hybrid := .inl rfl
  limits := ⟨⟨_, rfl, rfl⟩, ⟨_, rfl, rfl⟩, ⟨_, rfl, rfl⟩, ⟨_, rfl, rfl⟩, ⟨_, rfl, rfl⟩, ⟨_, rfl, rfl⟩⟩
  ghosts := by simp [exSystem, exDomain]
  resolutionQ := by simp [exSystem, exDomain]
  resolutionP := by simp [exSystem, exDomain]
  orderedQ := by norm_num [exSystem, exDomain]
  orderedP := ⟨exSystem_ordered a b, exSystem_ordered _ _, exSystem_ordered _ _⟩
  electrodynamic := h1
  electrostatic := h2

/-- C49: only the first species is checked for order: a second species whose momentum range runs backwards is accepted and gets a negative
spacing. -/
theorem C49_second_species_unchecked :
    ∃ sys, physicalSystem (exSystem 5 (-5) "None" "whatever") = .ok sys ∧ sys.dp1 = [1, -5] := by
  obtain ⟨ha, hs⟩ := C49_accepted_iff (exSystem 5 (-5) "None" "whatever")
  obtain ⟨sys, h⟩ := ha.mpr (exSystem_acceptable _ _ _ _ (fun h => absurd h (by decide)) (fun h => absurd h (by decide)))
  refine ⟨sys, h, ?_⟩
  rw [hs sys h]
  norm_num [expectedSystem, exSystem, exDomain, PLimit.entries]

/-- C49: solver and field type must match, whatever the case of the solver's name; a field type that is neither `'electrodynamic'` nor
`'electrostatic'` (say, misspelt) is accepted with any solver. -/
theorem C49_fields (a b : ℚ) (ty so : String) :
    (∃ sys, physicalSystem (exSystem a b ty so) = .ok sys) ↔
      (ty = "electrodynamic" ∧ pyUpper so = "FDTD".toList) ∨
      (ty = "electrostatic" ∧ (pyUpper so = "SNES".toList ∨ pyUpper so = "FFT".toList)) ∨ (ty ≠ "electrodynamic" ∧ ty ≠ "electrostatic") := by
  rw [(C49_accepted_iff _).1]
  constructor
  · intro h
    by_cases h1 : ty = "electrodynamic"
    · exact .inl ⟨h1, h.electrodynamic h1⟩
    · by_cases h2 : ty = "electrostatic"
      · exact .inr (.inl ⟨h2, h.electrostatic h2⟩)
      · exact .inr (.inr ⟨h1, h2⟩)
  · rintro (⟨rfl, h⟩ | ⟨rfl, h⟩ | ⟨h1, h2⟩)
    · exact exSystem_acceptable _ _ _ _ (fun _ => h) (fun h => absurd h (by decide))
    · exact exSystem_acceptable _ _ _ _ (fun h => absurd h (by decide)) (fun _ => h)
    · exact exSystem_acceptable _ _ _ _ (fun h => absurd h h1) (fun h => absurd h h2)

example : Acceptable (exSystem (-2) 2 "electrodynamic" "fdtd") :=
  exSystem_acceptable _ _ _ _ (fun _ => by decide) (fun h => absurd h (by decide))

example : ¬ Acceptable (exSystem (-2) 2 "electrodynamic" "fft") := fun h => absurd (h.electrodynamic rfl) (show ¬ pyUpper "fft" = "FDTD".toList by decide)

example : ∃ sys, physicalSystem (exSystem (-2) 2 "Electrodynamic" "none") = .ok sys :=
  (C49_fields _ _ _ _).mpr (.inr (.inr ⟨by decide, by decide⟩))

end Bolt
