import Verif.Model.Shear
import Mathlib.Algebra.Order.Archimedean.Basic
import Mathlib.Tactic.Linarith
import Mathlib.Tactic.Ring
import Mathlib.Data.Fintype.Basic
import Mathlib.Data.Fintype.Lattice

/-!
# C29: shearing-box coordinates
-/

set_option linter.unusedSectionVars false

namespace Bolt

theorem WhileLoop.unique {σ : Type} {cond : σ → Prop} {body : σ → σ} {s a b : σ} (ha : WhileLoop cond body s a)
    (hb : WhileLoop cond body s b) : a = b := by
  induction ha with
  | done h =>
    cases hb with
    | done _ => rfl
    | step h' _ => exact absurd h' h
  | step h _ ih =>
    cases hb with
    | done h' => exact absurd h h'
    | step _ hb => exact ih hb

theorem WhileLoop.invariant {σ : Type} {cond : σ → Prop} {body : σ → σ} {s a : σ} (P : σ → Prop) (h : WhileLoop cond body s a)
    (hs : P s) (hstep : ∀ s, cond s → P s → P (body s)) : P a ∧ ¬ cond a := by
  induction h with
  | done h => exact ⟨hs, h⟩
  | step h _ ih => exact ih (hstep _ h hs)

section
variable {ι K : Type} [Field K] [LinearOrder K] [IsStrictOrderedRing K]

theorem down_terminates (hi L : K) (hL : 0 < L) (n : ℕ) : ∀ x : ι → K, (∀ i, x i ≤ hi + n * L) →
    ∃ y, WhileLoop (aboveSome hi) (wrapDown hi L) x y := by
  induction n with
  | zero =>
    intro x hx
    refine ⟨x, .done ?_⟩
    rintro ⟨i, h⟩
    have := hx i
    simp at this
    exact absurd h (not_lt.mpr this)
  | succ n ih =>
    intro x hx
    by_cases hc : aboveSome hi x
    · obtain ⟨y, hy⟩ := ih (wrapDown hi L x) (by
        intro i
        have := hx i
        push_cast at this
        simp only [wrapDown, afSelect]
        split_ifs with h
        · linarith
        · have : 0 ≤ (n : K) * L := mul_nonneg (Nat.cast_nonneg _) hL.le
          linarith [not_lt.mp h])
      exact ⟨y, .step hc hy⟩
    · exact ⟨x, .done hc⟩

theorem up_terminates (lo L : K) (hL : 0 < L) (n : ℕ) : ∀ x : ι → K, (∀ i, lo - n * L ≤ x i) →
    ∃ y, WhileLoop (belowSome lo) (wrapUp lo L) x y := by
  induction n with
  | zero =>
    intro x hx
    refine ⟨x, .done ?_⟩
    rintro ⟨i, h⟩
    have := hx i
    simp at this
    exact absurd h (not_lt.mpr this)
  | succ n ih =>
    intro x hx
    by_cases hc : belowSome lo x
    · obtain ⟨y, hy⟩ := ih (wrapUp lo L x) (by
        intro i
        have := hx i
        push_cast at this
        simp only [wrapUp, afSelect]
        split_ifs with h
        · linarith
        · have : 0 ≤ (n : K) * L := mul_nonneg (Nat.cast_nonneg _) hL.le
          linarith [not_lt.mp h])
      exact ⟨y, .step hc hy⟩
    · exact ⟨x, .done hc⟩

end

section
variable {ι K : Type} [Finite ι] [Field K] [LinearOrder K] [IsStrictOrderedRing K] [Archimedean K]

theorem exists_bound (x : ι → K) (L : K) (hL : 0 < L) (c : K) : ∃ n : ℕ, ∀ i, x i ≤ c + n * L := by
  have := Fintype.ofFinite ι
  have h : ∀ i, ∃ n : ℕ, x i ≤ c + n * L := by
    intro i
    obtain ⟨n, hn⟩ := Archimedean.arch (x i - c) hL
    exact ⟨n, by rw [nsmul_eq_mul] at hn; linarith⟩
  choose n hn using h
  refine ⟨Finset.univ.sup n, fun i => (hn i).trans ?_⟩
  have : (n i : K) ≤ (Finset.univ.sup n : ℕ) := Nat.cast_le.mpr (Finset.le_sup (Finset.mem_univ i))
  have := mul_le_mul_of_nonneg_right this hL.le
  linarith

/-- The displaced coordinate: along the wall, by the shear rate times the width of the box across the wall times the time; minus at the
left/bottom walls, plus at the right/top walls. -/
def displaced (sp : ShearParams K) (w : Wall) (q1 q2 : ι → K) (i : ι) : K :=
  match w with
  | .left => q2 i - sp.q * sp.omega * (sp.q1End - sp.q1Start) * sp.time
  | .right => q2 i + sp.q * sp.omega * (sp.q1End - sp.q1Start) * sp.time
  | .bottom => q1 i - sp.q * sp.omega * (sp.q2End - sp.q2Start) * sp.time
  | .top => q1 i + sp.q * sp.omega * (sp.q2End - sp.q2Start) * sp.time

/-- Extent of the domain along a wall. -/
def alongLo (sp : ShearParams K) : Wall → K
  | .left | .right => sp.q2Start
  | .bottom | .top => sp.q1Start
@[inherit_doc alongLo] def alongHi (sp : ShearParams K) : Wall → K
  | .left | .right => sp.q2End
  | .bottom | .top => sp.q1End

/-- C29: for a domain of positive extent the wrapping loops terminate with a unique result, whatever the time, the shear and the
coordinates; each resulting coordinate lies in the domain and differs from the displaced coordinate by a whole number of periods. -/
theorem C29_shear_wraps (sp : ShearParams K) (w : Wall) (hL : alongLo sp w < alongHi sp w) (q1 q2 : ι → K) :
    ∃ x, ShearedCoords sp w q1 q2 x ∧ (∀ x', ShearedCoords sp w q1 q2 x' → x' = x) ∧
      ∀ i, (alongLo sp w ≤ x i ∧ x i ≤ alongHi sp w) ∧
        ∃ k : ℤ, x i = displaced sp w q1 q2 i + k * (alongHi sp w - alongLo sp w) := by
  have e1 : (shearLimits sp w).1 = alongLo sp w := by cases w <;> rfl
  have e2 : (shearLimits sp w).2 = alongHi sp w := by cases w <;> rfl
  have e3 : shearedStart sp w q1 q2 = displaced sp w q1 q2 := by funext i; cases w <;> rfl
  simp only [ShearedCoords, e1, e2, e3]
  set lo := alongLo sp w
  set hi := alongHi sp w
  have hLp : 0 < hi - lo := sub_pos.mpr hL
  obtain ⟨n, hn⟩ := exists_bound (displaced sp w q1 q2) (hi - lo) hLp hi
  obtain ⟨y, hy⟩ := down_terminates hi (hi - lo) hLp n _ hn
  have iy := hy.invariant (fun z => ∀ i, ∃ k : ℤ, z i = displaced sp w q1 q2 i + k * (hi - lo)) (fun i => ⟨0, by simp⟩) (by
    intro z _ hz i
    obtain ⟨k, hk⟩ := hz i
    simp only [wrapDown, afSelect]
    split_ifs
    · exact ⟨k - 1, by rw [hk]; push_cast; ring⟩
    · exact ⟨k, hk⟩)
  obtain ⟨n', hn'⟩ := exists_bound (fun i => - y i) (hi - lo) hLp (-lo)
  obtain ⟨x, hx⟩ := up_terminates lo (hi - lo) hLp n' y (fun i => by have := hn' i; linarith)
  have hyhi : ∀ i, y i ≤ hi := fun i => not_lt.mp (fun h => iy.2 ⟨i, h⟩)
  have ix := hx.invariant (fun z => ∀ i, z i ≤ hi ∧ ∃ k : ℤ, z i = displaced sp w q1 q2 i + k * (hi - lo))
    (fun i => ⟨hyhi i, iy.1 i⟩) (by
    intro z _ hz i
    obtain ⟨hz1, k, hk⟩ := hz i
    simp only [wrapUp, afSelect]
    split_ifs with h
    · exact ⟨by linarith, k + 1, by rw [hk]; push_cast; ring⟩
    · exact ⟨hz1, k, hk⟩)
  refine ⟨x, ⟨y, hy, hx⟩, ?_, fun i => ⟨⟨not_lt.mp (fun h => ix.2 ⟨i, h⟩), (ix.1 i).1⟩, (ix.1 i).2⟩⟩
  rintro x' ⟨y', hy', hx'⟩
  have := hy'.unique hy
  subst this
  exact hx'.unique hx

/-- C29, negative part: with an empty or reversed extent and some displaced coordinate above the end, the first loop never terminates
(the program hangs). -/
theorem C29_hangs_without_extent (sp : ShearParams K) (w : Wall) (hL : alongHi sp w ≤ alongLo sp w) (q1 q2 : ι → K)
    (h : ∃ i, displaced sp w q1 q2 i > alongHi sp w) : ¬ ∃ x, ShearedCoords sp w q1 q2 x := by
  have e1 : (shearLimits sp w).1 = alongLo sp w := by cases w <;> rfl
  have e2 : (shearLimits sp w).2 = alongHi sp w := by cases w <;> rfl
  have e3 : shearedStart sp w q1 q2 = displaced sp w q1 q2 := by funext i; cases w <;> rfl
  simp only [ShearedCoords, e1, e2, e3]
  rintro ⟨x, y, hy, _⟩
  obtain ⟨i, hi⟩ := h
  obtain ⟨a, b⟩ := hy.invariant (fun z => z i > alongHi sp w) hi (by
    intro z _ hz
    simp only [wrapDown, afSelect]
    rw [if_pos hz]
    linarith)
  exact b ⟨i, a⟩

/-- Non-vacuity: the unit box with shear 1 at time 3/2: the left-wall coordinate 1/4 is displaced to -5/4 and wrapped to 3/4. -/
example : ∃ x, ShearedCoords (K := ℚ) ⟨1, 1, 0, 1, 0, 1, 3 / 2⟩ .left (fun _ : Fin 1 => 0) (fun _ => 1 / 4) x ∧ x 0 = 3 / 4 := by
  refine ⟨fun _ => 3 / 4, ⟨fun _ => -5 / 4, ?_, ?_⟩, rfl⟩
  · have : shearedStart (⟨1, 1, 0, 1, 0, 1, 3 / 2⟩ : ShearParams ℚ) .left (fun _ : Fin 1 => 0) (fun _ => 1 / 4) = fun _ => -5 / 4 := by
      funext i; norm_num [shearedStart]
    rw [this]
    exact .done (by rintro ⟨i, h⟩; norm_num [shearLimits] at h)
  · refine .step ⟨0, by norm_num [shearLimits]⟩ ?_
    have : wrapUp (0 : ℚ) (1 - 0) (fun _ : Fin 1 => -5 / 4) = fun _ => -1 / 4 := by funext i; norm_num [wrapUp, afSelect]
    simp only [shearLimits]
    rw [this]
    refine .step ⟨0, by norm_num⟩ ?_
    have : wrapUp (0 : ℚ) (1 - 0) (fun _ : Fin 1 => -1 / 4) = fun _ => 3 / 4 := by funext i; norm_num [wrapUp, afSelect]
    rw [this]
    exact .done (by rintro ⟨i, h⟩; norm_num at h)

end

end Bolt
