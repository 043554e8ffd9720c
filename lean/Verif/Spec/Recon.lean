import Mathlib.Algebra.Order.Field.Basic

/-! Specification vocabulary for reconstructions (independent of the model). -/

namespace Bolt

variable {K : Type} [Field K] [LinearOrder K]

/-- `v` lies between `a` and `b` (in either order, end points included). -/
def Between (a v b : K) : Prop := min a b ≤ v ∧ v ≤ max a b

/-- The middle one of three consecutive cell values is a local extremum (flat neighbours included). -/
def LocalExtremum (a b c : K) : Prop := (a ≤ b ∧ c ≤ b) ∨ (b ≤ a ∧ b ≤ c)

/-- The parabola on the unit cell with value `l` at the left face, `r` at the right face and mean `m`
(the mean is proved to be `m` in `parabola_mean`). -/
def parabola (l m r ξ : K) : K := l + ξ * ((r - l) + 6 * (m - (l + r) / 2) * (1 - ξ))

/-- A function is monotone (increasing or decreasing) on the unit cell. -/
def MonotoneOnCell (g : K → K) : Prop :=
  (∀ ξ η, 0 ≤ ξ → ξ ≤ η → η ≤ 1 → g ξ ≤ g η) ∨ (∀ ξ η, 0 ≤ ξ → ξ ≤ η → η ≤ 1 → g η ≤ g ξ)

end Bolt
