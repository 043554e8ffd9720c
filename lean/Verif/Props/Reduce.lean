import Verif.Model.Reduce
import Mathlib.Algebra.Order.Field.Basic
import Mathlib.Algebra.Order.Field.Rat
import Mathlib.Algebra.Order.BigOperators.Group.List
import Mathlib.Algebra.BigOperators.Group.Finset.Basic
import Mathlib.Algebra.BigOperators.Fin
import Mathlib.Algebra.BigOperators.Ring.Finset
import Mathlib.Algebra.BigOperators.Field
import Mathlib.Algebra.Order.BigOperators.Group.Finset
import Mathlib.Tactic.FinCases
import Mathlib.Tactic.FieldSimp
import Mathlib.Tactic.Ring
import Mathlib.Tactic.NormNum
import Mathlib.Tactic.Linarith

/-!
# C50: global reductions
-/

set_option linter.unusedSectionVars false

namespace Bolt

variable {K : Type} [Field K] [LinearOrder K]

theorem AllReduce.sum_eq {l : List K} {s : K} (h : AllReduce (· + ·) l s) : s = l.sum := by
  induction h with
  | leaf a => simp
  | node l l1 l2 a b hp _ _ ih1 ih2 => rw [hp.sum_eq, List.sum_append, ← ih1, ← ih2]

theorem AllReduce.min_spec {l : List K} {m : K} (h : AllReduce min l m) : (∀ x ∈ l, m ≤ x) ∧ m ∈ l := by
  induction h with
  | leaf a => simp
  | node l l1 l2 a b hp _ _ ih1 ih2 =>
      constructor
      · intro x hx
        rcases List.mem_append.mp (hp.mem_iff.mp hx) with h | h
        · exact (min_le_left _ _).trans (ih1.1 x h)
        · exact (min_le_right _ _).trans (ih2.1 x h)
      · rw [hp.mem_iff, List.mem_append]
        rcases min_choice a b with h | h
        · rw [h]; exact .inl ih1.2
        · rw [h]; exact .inr ih2.2

theorem allReduce_exists {α : Type} (op : α → α → α) (l : List α) (h : l ≠ []) : ∃ s, AllReduce op l s := by
  induction l with
  | nil => exact absurd rfl h
  | cons a l ih =>
      cases l with
      | nil => exact ⟨a, .leaf a⟩
      | cons b l =>
          obtain ⟨s, hs⟩ := ih (by simp)
          exact ⟨op a s, .node _ [a] (b :: l) a s (List.Perm.refl _) (.leaf a) hs⟩

theorem foldl_min_spec (l : List K) : ∀ a : K, (∀ x ∈ a :: l, l.foldl min a ≤ x) ∧ l.foldl min a ∈ a :: l := by
  induction l with
  | nil => intro a; simp
  | cons b l ih =>
      intro a
      rw [List.foldl_cons]
      obtain ⟨h1, h2⟩ := ih (min a b)
      have h0 := h1 (min a b) (by simp)
      constructor
      · intro x hx
        rcases List.mem_cons.mp hx with rfl | hx
        · exact h0.trans (min_le_left _ _)
        · rcases List.mem_cons.mp hx with rfl | hx
          · exact h0.trans (min_le_right _ _)
          · exact h1 x (List.mem_cons_of_mem _ hx)
      · rcases List.mem_cons.mp h2 with h | h
        · rw [h]
          rcases min_choice a b with h | h <;> rw [h] <;> simp
        · exact List.mem_cons_of_mem _ (List.mem_cons_of_mem _ h)

theorem npMin_spec {l : List K} {m : K} (h : npMin l = .ok m) : (∀ x ∈ l, m ≤ x) ∧ m ∈ l := by
  cases l with
  | nil => cases h
  | cons a l => cases h; exact foldl_min_spec l a

/-- C50: the global minimum is no larger than any element of any process and is an element of some process. -/
theorem C50_min {R : ℕ} (loc : Fin R → List K) (m : K) (h : GlobalMin loc m) : (∀ r, ∀ x ∈ loc r, m ≤ x) ∧ ∃ r, m ∈ loc r := by
  obtain ⟨v, hv, hr⟩ := h
  obtain ⟨h1, h2⟩ := hr.min_spec
  constructor
  · intro r x hx
    exact (h1 (v r) (List.mem_ofFn.mpr ⟨r, rfl⟩)).trans ((npMin_spec (hv r)).1 x hx)
  · obtain ⟨r, rfl⟩ := List.mem_ofFn.mp h2
    exact ⟨r, (npMin_spec (hv r)).2⟩

/-- C50: if every process holds an element the global minimum exists, and it does not depend on how the contributions are combined. -/
theorem C50_min_defined {R : ℕ} (hR : R ≠ 0) (loc : Fin R → List K) (hl : ∀ r, loc r ≠ []) : ∃ m, ∀ m', GlobalMin loc m' ↔ m' = m := by
  have hv : ∀ r, ∃ v, npMin (loc r) = .ok v := by
    intro r
    cases h : loc r with
    | nil => exact absurd h (hl r)
    | cons a l => exact ⟨_, rfl⟩
  choose v hv using hv
  obtain ⟨m, hm⟩ := allReduce_exists min (List.ofFn v) (by simpa [List.ofFn_eq_nil_iff] using hR)
  have hmin : GlobalMin loc m := ⟨v, hv, hm⟩
  refine ⟨m, fun m' => ⟨fun h => ?_, by rintro rfl; exact hmin⟩⟩
  obtain ⟨a1, r1, a2⟩ := C50_min loc m hmin
  obtain ⟨b1, r2, b2⟩ := C50_min loc m' h
  exact le_antisymm (b1 r1 m a2) (a1 r2 m' b2)

/-- C50: a process without elements raises `ValueError` and the reduction has no result. -/
theorem C50_min_empty {R : ℕ} (loc : Fin R → List K) (r : Fin R) (hr : loc r = []) :
    npMin (loc r) = .error .valueError ∧ ¬ ∃ m, GlobalMin loc m := by
  refine ⟨by rw [hr]; rfl, ?_⟩
  rintro ⟨m, v, hv, -⟩
  have := hv r
  rw [hr] at this
  cases this

/-- C50: `global_max` raises on every process, whatever the data: `NameError`, or `ValueError` if the process holds nothing. -/
theorem C50_max_raises (l : List K) : globalMax l = .error (if l = [] then .valueError else .nameError) := by
  cases l <;> rfl

theorem globalMean_iff {R : ℕ} (hR : R ≠ 0) (loc : Fin R → List K) (m : K) :
    GlobalMean loc m ↔ m = (∑ r, (loc r).sum / ((loc r).length : K)) / R := by
  have hs : (List.ofFn fun r => npMean (loc r)).sum = ∑ r, (loc r).sum / ((loc r).length : K) := by
    rw [List.sum_ofFn]; rfl
  constructor
  · rintro ⟨s, h, rfl⟩
    rw [h.sum_eq, hs]
  · rintro rfl
    obtain ⟨s, h⟩ := allReduce_exists (· + ·) (List.ofFn fun r => npMean (loc r)) (by simpa [List.ofFn_eq_nil_iff] using hR)
    exact ⟨s, h, by rw [h.sum_eq, hs]⟩

/-- The mean of all elements of all processes. -/
def trueMean {R : ℕ} (loc : Fin R → List K) : K := (∑ r, (loc r).sum) / ∑ r, ((loc r).length : K)

/-- C50: the global mean exists and does not depend on how the contributions are combined. -/
theorem C50_mean_defined {R : ℕ} (hR : R ≠ 0) (loc : Fin R → List K) : ∃ m, ∀ m', GlobalMean loc m' ↔ m' = m :=
  ⟨_, globalMean_iff hR loc⟩

/-- C50: when all processes hold equally many elements, the global mean is the mean of all elements. -/
theorem C50_mean [CharZero K] {R : ℕ} (hR : R ≠ 0) (n : ℕ) (hn : n ≠ 0) (loc : Fin R → List K) (hl : ∀ r, (loc r).length = n) (m : K)
    (h : GlobalMean loc m) : m = trueMean loc := by
  have hR' : (R : K) ≠ 0 := by exact_mod_cast hR
  have hn' : (n : K) ≠ 0 := by exact_mod_cast hn
  rw [(globalMean_iff hR loc m).mp h, trueMean]
  simp only [hl, ← Finset.sum_div, Finset.sum_const, Finset.card_univ, Fintype.card_fin, nsmul_eq_mul]
  field_simp

/-- C50: and only then: for given numbers of elements per process, the global mean is right for all data exactly when the numbers agree. -/
theorem C50_mean_iff [CharZero K] {R : ℕ} (n : Fin R → ℕ) (hn : ∀ r, n r ≠ 0) :
    (∀ loc : Fin R → List K, (∀ r, (loc r).length = n r) → ∀ m, GlobalMean loc m → m = trueMean loc) ↔ ∀ r r', n r = n r' := by
  constructor
  · intro h
    -- one process holds ones, the others zeros
    have key : ∀ r : Fin R, (1 : K) / R = (n r : K) / ∑ s, (n s : K) := by
      intro r
      have hR : R ≠ 0 := fun hz => by subst hz; exact r.elim0
      let loc : Fin R → List K := fun s => List.replicate (n s) (if s = r then 1 else 0)
      have := h loc (fun s => by simp [loc]) _ ((globalMean_iff hR loc _).mpr rfl)
      rw [trueMean] at this
      have e1 : ∀ s, (loc s).sum / ((loc s).length : K) = if s = r then 1 else 0 := by
        intro s
        by_cases hs : s = r
        · subst hs; simp [loc, hn s]
        · simp [loc, hs]
      have e2 : ∀ s, (loc s).sum = if s = r then (n r : K) else 0 := by
        intro s
        by_cases hs : s = r
        · subst hs; simp [loc]
        · simp [loc, hs]
      have e3 : ∀ s, ((loc s).length : K) = n s := by intro s; simp [loc]
      simp only [e1] at this
      simp only [e2, e3, Finset.sum_ite_eq', Finset.mem_univ, if_true] at this
      exact this
    intro r r'
    have hS : (∑ s, (n s : K)) ≠ 0 := by
      have : (∑ s, n s) ≠ 0 := fun hz => hn r (Finset.sum_eq_zero_iff.mp hz r (Finset.mem_univ r))
      exact_mod_cast this
    have := (key r).symm.trans (key r')
    rw [div_left_inj' hS] at this
    exact_mod_cast this
  · intro h loc hl m hm
    rcases Nat.eq_zero_or_pos R with rfl | hR
    · obtain ⟨s, hs, -⟩ := hm
      have : ∀ (l : List K) (s : K), AllReduce (· + ·) l s → l ≠ [] := by
        intro l s h
        induction h with
        | leaf a => simp
        | node l l1 l2 a b hp _ _ ih1 _ =>
            rintro rfl
            exact ih1 (List.append_eq_nil_iff.mp (List.nil_perm.mp hp)).1
      exact absurd (by simp) (this _ _ hs)
    · have r0 : Fin R := ⟨0, hR⟩
      exact C50_mean hR.ne' (n r0) (hn r0) loc (fun r => (hl r).trans (h r r0)) m hm

/-- C50: whatever the numbers of elements, the global mean lies between any lower and any upper bound of the data. -/
theorem C50_mean_between [IsStrictOrderedRing K] {R : ℕ} (hR : R ≠ 0) (loc : Fin R → List K) (hl : ∀ r, loc r ≠ []) (a b m : K)
    (ha : ∀ r, ∀ x ∈ loc r, a ≤ x) (hb : ∀ r, ∀ x ∈ loc r, x ≤ b) (h : GlobalMean loc m) : a ≤ m ∧ m ≤ b := by
  have hR' : (0 : K) < R := by exact_mod_cast Nat.pos_of_ne_zero hR
  have hlen : ∀ r, (0 : K) < (loc r).length := fun r => by exact_mod_cast List.length_pos_iff.mpr (hl r)
  rw [(globalMean_iff hR loc m).mp h, le_div_iff₀ hR', div_le_iff₀ hR']
  have c1 : ∀ r, a ≤ (loc r).sum / ((loc r).length : K) := by
    intro r
    rw [le_div_iff₀ (hlen r), mul_comm, ← nsmul_eq_mul]
    exact List.card_nsmul_le_sum _ a (ha r)
  have c2 : ∀ r, (loc r).sum / ((loc r).length : K) ≤ b := by
    intro r
    rw [div_le_iff₀ (hlen r), mul_comm, ← nsmul_eq_mul]
    exact List.sum_le_card_nsmul _ b (hb r)
  constructor
  · calc a * R = ∑ _r : Fin R, a := by simp [mul_comm]
      _ ≤ _ := Finset.sum_le_sum fun r _ => c1 r
  · calc _ ≤ ∑ _r : Fin R, b := Finset.sum_le_sum fun r _ => c2 r
      _ = b * R := by simp [mul_comm]

/-- Two processes holding `[1, 2, 3]` and `[5]`: the minimum is 1, the "mean" is 7/2 although the mean is 11/4. -/
example : GlobalMin (fun r : Fin 2 => if r = 0 then [1, 2, (3 : ℚ)] else [5]) 1 ∧
    GlobalMean (fun r : Fin 2 => if r = 0 then [1, 2, (3 : ℚ)] else [5]) (7 / 2) ∧
    trueMean (fun r : Fin 2 => if r = 0 then [1, 2, (3 : ℚ)] else [5]) = 11 / 4 := by
  refine ⟨⟨fun r => if r = 0 then 1 else 5, ?_, ?_⟩, ?_, ?_⟩
  · intro r
    fin_cases r
    · norm_num [npMin]
    · norm_num [npMin]
  · have := AllReduce.node (op := min) [1, (5 : ℚ)] [1] [5] 1 5 (List.Perm.refl _) (.leaf 1) (.leaf 5)
    simpa [List.ofFn_succ] using this
  · rw [globalMean_iff (by norm_num)]
    norm_num [Fin.sum_univ_two]
  · norm_num [trueMean, Fin.sum_univ_two]

end Bolt
