import Verif.Model.FVM
import Mathlib.Data.ZMod.Basic

/-! Specification vocabulary for the edge of the momentum grid. -/

namespace Bolt

/-- A larger (in the applications: unlimited) momentum grid `P'` continues the grid `P` of a run across its edge: `φ` says which cell of
the cyclic array a cell of `P'` would be, and `depth` how many cells lie between a cell and the edge (`0` for the cells at the edge,
negative outside). -/
structure Continues {P P' Q : Type} [AddCommGroup P] [AddCommGroup P'] (ax : Axes P Q) (ax' : Axes P' Q) (φ : P' → P) (depth : P' → ℤ) :
    Prop where
  q1 : ax'.q1 = ax.q1
  q2 : ax'.q2 = ax.q2
  step1 : ∀ p, φ (p + ax'.p1) = φ p + ax.p1
  step2 : ∀ p, φ (p + ax'.p2) = φ p + ax.p2
  step3 : ∀ p, φ (p + ax'.p3) = φ p + ax.p3
  depth1 : ∀ p, |depth (p + ax'.p1) - depth p| ≤ 1
  depth2 : ∀ p, |depth (p + ax'.p2) - depth p| ≤ 1
  depth3 : ∀ p, |depth (p + ax'.p3) - depth p| ≤ 1
  /-- A cell outside is, in the cyclic array, a cell inside, no further from the edge than the cell outside. -/
  wraps : ∀ p, depth p < 0 → ∃ p', φ p' = φ p ∧ 0 ≤ depth p' ∧ depth p' < -depth p

/-- The velocities and forces of the continuation are those of the run in all cells of the grid. -/
def ContinuedCallbacks {S P P' Q K : Type} (φ : P' → P) (depth : P' → ℤ) (cb : Callbacks S P Q K) (cb' : Callbacks S P' Q K) : Prop :=
  ∀ s p q, 0 ≤ depth p → cb'.Cq1 s p q = cb.Cq1 s (φ p) q ∧ cb'.Cq2 s p q = cb.Cq2 s (φ p) q ∧ cb'.Cp1 s p q = cb.Cp1 s (φ p) q ∧
    cb'.Cp2 s p q = cb.Cp2 s (φ p) q ∧ cb'.Cp3 s p q = cb.Cp3 s (φ p) q

/-- The distribution of the continuation is that of the run in all cells of the grid and vanishes outside and in the `n` outermost layers
of cells. -/
def ContinuedState {S P P' Q K : Type} [Zero K] (φ : P' → P) (depth : P' → ℤ) (n : ℕ) (f : Dist S P Q K) (f' : Dist S P' Q K) : Prop :=
  (∀ s p q, 0 ≤ depth p → f' s p q = f s (φ p) q) ∧ ∀ s p q, depth p < n → f' s p q = 0

/-- Distance of cell `x` of a line of `N` cells from the ends of the line. -/
def lineDepth (N : ℕ) (x : ℤ) : ℤ := min x (N - 1 - x)

end Bolt
