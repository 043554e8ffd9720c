import Verif.Proofs.Layout
import Mathlib.Data.List.Sort
import Mathlib.Tactic.FieldSimp

/-! Helper lemmas for the moments dump and the momentum coordinates. -/

set_option linter.unusedSectionVars false

namespace Bolt

variable {K : Type}

theorem join1_ok {a b : AfArray K} (h0 : a.d0 = b.d0) (h2 : a.d2 = b.d2) (h3 : a.d3 = b.d3) :
    a.join1 b = .ok (AfArray.ofFn a.d0 (a.d1 + b.d1) a.d2 a.d3 fun i j k l =>
      if j < a.d1 then a.get i j k l else b.get i (j - a.d1) k l) := if_pos ⟨h0, h2, h3⟩

/-- Shape of `compute_moments`. -/
def MomShape (Ns M1 M2 : ℕ) (a : AfArray K) : Prop := a.d0 = 1 ∧ a.d1 = Ns ∧ a.d2 = M1 ∧ a.d3 = M2

theorem foldlM_join (compute : String → Except PyErr (AfArray K)) (A : String → AfArray K) (Ns M1 M2 : ℕ) :
    ∀ (rest : List String) (done : List String) (acc : AfArray K),
      (∀ a ∈ rest, compute a = .ok (A a) ∧ MomShape Ns M1 M2 (A a)) →
      MomShape (done.length * Ns) M1 M2 acc →
      (∀ m s k l (hm : m < done.length), s < Ns → k < M1 → l < M2 → acc.get 0 (m * Ns + s) k l = (A done[m]).get 0 s k l) →
      ∃ res, rest.foldlM (fun acc b => do acc.join1 (← compute b)) acc = .ok res ∧
        MomShape ((done ++ rest).length * Ns) M1 M2 res ∧
        ∀ m s k l (hm : m < (done ++ rest).length), s < Ns → k < M1 → l < M2 →
          res.get 0 (m * Ns + s) k l = (A (done ++ rest)[m]).get 0 s k l
  | [], done, acc, _, hs, hg => ⟨acc, rfl, by simpa using hs, fun m s k l hm h1 h2 h3 => by
      have hm' : m < done.length := by simpa using hm
      rw [hg m s k l hm' h1 h2 h3]; simp⟩
  | b :: rest, done, acc, hc, hs, hg => by
      obtain ⟨hb, c0, c1, c2, c3⟩ := hc b (by simp)
      obtain ⟨a0, a1, a2, a3⟩ := hs
      have hj := join1_ok (a := acc) (b := A b) (by rw [a0, c0]) (by rw [a2, c2]) (by rw [a3, c3])
      obtain ⟨res, hr, hs', hg'⟩ := foldlM_join compute A Ns M1 M2 rest (done ++ [b])
        (AfArray.ofFn acc.d0 (acc.d1 + (A b).d1) acc.d2 acc.d3 fun i j k l =>
          if j < acc.d1 then acc.get i j k l else (A b).get i (j - acc.d1) k l) (fun a ha => hc a (by simp [ha]))
        ⟨a0, by simp [AfArray.ofFn, a1, c1]; ring, a2, a3⟩ (by
          intro m s k l hm h1 h2 h3
          have hlen : m < done.length + 1 := by simpa using hm
          have hj : m * Ns + s < acc.d1 + (A b).d1 := by
            rw [a1, c1]
            calc m * Ns + s < m * Ns + Ns := by omega
              _ = (m + 1) * Ns := by ring
              _ ≤ (done.length + 1) * Ns := Nat.mul_le_mul_right _ hlen
              _ = _ := by ring
          rw [AfArray.get_ofFn _ _ _ _ _ _ _ _ _ (by omega) hj (by omega)]
          rcases Nat.lt_or_ge m done.length with h | h
          · have : m * Ns + s < acc.d1 := by
              rw [a1]
              calc m * Ns + s < m * Ns + Ns := by omega
                _ = (m + 1) * Ns := by ring
                _ ≤ done.length * Ns := Nat.mul_le_mul_right _ h
            rw [if_pos this, hg m s k l h h1 h2 h3, List.getElem_append_left h]
          · have hm : m = done.length := by omega
            subst hm
            rw [if_neg (by rw [a1]; omega), List.getElem_append_right (le_refl _)]
            simp [a1])
      refine ⟨res, ?_, ?_, ?_⟩
      · rw [List.foldlM_cons, hb]
        simp only [bind, Except.bind, hj]
        exact hr
      · simpa using hs'
      · intro m s k l hm h1 h2 h3
        have := hg' m s k l (by simpa using hm) h1 h2 h3
        rw [this]; simp

theorem joinMoments_ok (compute : String → Except PyErr (AfArray K)) (A : String → AfArray K) (Ns M1 M2 : ℕ) (l : List String)
    (hne : l ≠ []) (hc : ∀ a ∈ l, compute a = .ok (A a) ∧ MomShape Ns M1 M2 (A a)) :
    ∃ res, joinMoments compute l = .ok res ∧ MomShape (l.length * Ns) M1 M2 res ∧
      ∀ m s k j (hm : m < l.length), s < Ns → k < M1 → j < M2 → res.get 0 (m * Ns + s) k j = (A l[m]).get 0 s k j := by
  cases l with
  | nil => exact absurd rfl hne
  | cons a rest =>
    obtain ⟨ha, hs⟩ := hc a (by simp)
    obtain ⟨res, hr, h1, h2⟩ := foldlM_join compute A Ns M1 M2 rest [a] (A a) (fun b hb => hc b (by simp [hb]))
      (by simpa using hs) (by
        intro m s k l hm _ _ _
        have : m = 0 := by simpa using hm
        subst this; simp)
    refine ⟨res, ?_, by simpa using h1, by simpa using h2⟩
    simp only [joinMoments, ha, bind, Except.bind]
    exact hr

theorem join0_ok {a b : AfArray K} (h1 : a.d1 = b.d1) (h2 : a.d2 = b.d2) (h3 : a.d3 = b.d3) :
    a.join0 b = .ok (AfArray.ofFn (a.d0 + b.d0) a.d1 a.d2 a.d3 fun i j k l =>
      if i < a.d0 then a.get i j k l else b.get (i - a.d0) j k l) := if_pos ⟨h1, h2, h3⟩

theorem foldlM_join0 (T : AfArray K → AfArray K) (n1 n2 : ℕ) :
    ∀ (rest done : List (AfArray K)) (acc : AfArray K),
      (∀ a ∈ rest, (T a).d0 = 1 ∧ (T a).d1 = 1 ∧ (T a).d2 = n1 ∧ (T a).d3 = n2) →
      (acc.d0 = done.length ∧ acc.d1 = 1 ∧ acc.d2 = n1 ∧ acc.d3 = n2) →
      (∀ m k l (hm : m < done.length), k < n1 → l < n2 → acc.get m 0 k l = (T done[m]).get 0 0 k l) →
      ∃ res, rest.foldlM (fun acc b => acc.join0 (T b)) acc = .ok res ∧
        (res.d0 = (done ++ rest).length ∧ res.d1 = 1 ∧ res.d2 = n1 ∧ res.d3 = n2) ∧
        ∀ m k l (hm : m < (done ++ rest).length), k < n1 → l < n2 →
          res.get m 0 k l = (T (done ++ rest)[m]).get 0 0 k l
  | [], done, acc, _, hs, hg => ⟨acc, rfl, by simpa using hs, fun m k l hm h2 h3 => by
      have hm' : m < done.length := by simpa using hm
      rw [hg m k l hm' h2 h3]; simp⟩
  | b :: rest, done, acc, hc, hs, hg => by
      obtain ⟨c0, c1, c2, c3⟩ := hc b (by simp)
      obtain ⟨a0, a1, a2, a3⟩ := hs
      have hj := join0_ok (a := acc) (b := T b) (by rw [a1, c1]) (by rw [a2, c2]) (by rw [a3, c3])
      obtain ⟨res, hr, hs', hg'⟩ := foldlM_join0 T n1 n2 rest (done ++ [b])
        (AfArray.ofFn (acc.d0 + (T b).d0) acc.d1 acc.d2 acc.d3 fun i j k l =>
          if i < acc.d0 then acc.get i j k l else (T b).get (i - acc.d0) j k l) (fun a ha => hc a (by simp [ha]))
        ⟨by simp [AfArray.ofFn, a0, c0], a1, a2, a3⟩ (by
          intro m k l hm h2 h3
          have hlen : m < done.length + 1 := by simpa using hm
          rw [AfArray.get_ofFn _ _ _ _ _ _ _ _ _ (by omega) (by omega) (by omega)]
          rcases Nat.lt_or_ge m done.length with h | h
          · rw [if_pos (by omega), hg m k l h h2 h3, List.getElem_append_left h]
          · have hm : m = done.length := by omega
            subst hm
            rw [if_neg (by omega), List.getElem_append_right (le_refl _)]
            simp [a0])
      refine ⟨res, ?_, ?_, ?_⟩
      · rw [List.foldlM_cons, hj]
        exact hr
      · simpa using hs'
      · intro m k l hm h2 h3
        have := hg' m k l (by simpa using hm) h2 h3
        rw [this]; simp

theorem joinAux_ok (Ng n1 n2 : ℕ) (arrays : List (AfArray K)) (hne : arrays ≠ [])
    (hs : ∀ a ∈ arrays, a.d0 = 1 ∧ a.d1 = 1 ∧ AfArray.sliceLen Ng (-(Ng : ℤ)) a.d2 = n1 ∧ AfArray.sliceLen Ng (-(Ng : ℤ)) a.d3 = n2) :
    ∃ res, joinAux Ng arrays = .ok res ∧ (res.d0 = arrays.length ∧ res.d1 = 1 ∧ res.d2 = n1 ∧ res.d3 = n2) ∧
      ∀ m k l (hm : m < arrays.length), k < n1 → l < n2 → res.get m 0 k l = arrays[m].get 0 0 (k + Ng) (l + Ng) := by
  let T := fun b : AfArray K => b.slice Ng (-(Ng : ℤ)) Ng (-(Ng : ℤ))
  have hT : ∀ a ∈ arrays, (T a).d0 = 1 ∧ (T a).d1 = 1 ∧ (T a).d2 = n1 ∧ (T a).d3 = n2 := hs
  cases arrays with
  | nil => exact absurd rfl hne
  | cons a rest =>
    obtain ⟨res, hr, h1, h2⟩ := foldlM_join0 T n1 n2 rest [a] (T a) (fun b hb => hT b (by simp [hb]))
      (by simpa using hT a (by simp)) (by
        intro m k l hm _ _
        have : m = 0 := by simpa using hm
        subst this; simp)
    refine ⟨res, hr, by simpa using h1, fun m k l hm hk hl => ?_⟩
    rw [h2 m k l (by simpa using hm) hk hl]
    obtain ⟨b0, b1, b2, b3⟩ := hT ((a :: rest)[m]) (List.getElem_mem hm)
    have e : ([a] ++ rest)[m] = (a :: rest)[m] := by simp
    rw [e]
    simp only [T, AfArray.slice] at b0 b1 b2 b3 ⊢
    simp only [AfArray.ofFn] at b0 b1 b2 b3
    rw [AfArray.get_ofFn _ _ _ _ _ _ _ _ _ (by omega) (by omega) (by omega)]

section
variable [Field K]

theorem setColumn_get (a v : AfArray K) (i n j : ℕ) (hn : n < a.d0) :
    (a.setColumn i v).get n j 0 0 = if j = i then v.data n else a.get n j 0 0 := by
  simp only [AfArray.get, AfArray.setColumn, AfArray.offset]
  have e : n + a.d0 * (j + a.d1 * (0 + a.d2 * 0)) = n + a.d0 * j := by ring
  rw [e, div_of_lt hn, mod_of_lt hn]

/-- Assigning columns one after the other. -/
theorem foldl_columns {A : Type} (sel : A → AfArray K) (upd : A → ℕ → A) (v : ℕ → AfArray K)
    (hsel : ∀ acc i, sel (upd acc i) = (sel acc).setColumn i (v i)) (a0 : A) (N ns : ℕ) (hN : (sel a0).d0 = N) :
    (sel ((List.range ns).foldl upd a0)).d0 = N ∧ (sel ((List.range ns).foldl upd a0)).d1 = (sel a0).d1 ∧
    ∀ n j, n < N → j < ns → (sel ((List.range ns).foldl upd a0)).get n j 0 0 = (v j).data n := by
  induction ns with
  | zero => exact ⟨by simpa using hN, by simp, fun n j _ h => absurd h (by omega)⟩
  | succ k ih =>
    obtain ⟨h0, h1, h2⟩ := ih
    rw [List.range_succ, List.foldl_append, List.foldl_cons, List.foldl_nil, hsel]
    refine ⟨by simpa [AfArray.setColumn] using h0, by simpa [AfArray.setColumn] using h1, fun n j hn hj => ?_⟩
    rw [setColumn_get _ _ _ _ _ (by rw [h0]; exact hn)]
    split_ifs with h
    · rw [h]
    · exact h2 n j hn (by omega)

end

end Bolt
