import Verif.Model.FVM
import Mathlib.Analysis.Calculus.MeanValue
import Mathlib.Data.ZMod.Basic

/-! Specification vocabulary for convergence: cell centres of a periodic grid, smooth periodic profiles and free streaming. -/

namespace Bolt

/-- Centre of cell `i` of a periodic axis of length `L` that begins at `start` and is divided into `N` cells. -/
noncomputable def cellCentre (start L : ℝ) (N : ℕ) (i : ZMod N) : ℝ := start + (i.val + 1 / 2) * (L / N)

/-- A profile in the plane that is periodic in both directions and has a gradient with Lipschitz constant `M` (for instance a periodic
profile with second derivatives bounded by `M / 2`). -/
structure SmoothPeriodic (L1 L2 M : ℝ) (g : ℝ × ℝ → ℝ) : Prop where
  gradient : ∃ g' : ℝ × ℝ → ℝ × ℝ →L[ℝ] ℝ, (∀ x, HasFDerivAt g (g' x) x) ∧ ∀ x y, ‖g' x - g' y‖ ≤ M * ‖x - y‖
  periodic1 : ∀ x y, g (x + L1, y) = g (x, y)
  periodic2 : ∀ x y, g (x, y + L2) = g (x, y)

/-- Free streaming: a profile carried along with velocity `(v1, v2)` for a time `t`. -/
def carried (g : ℝ × ℝ → ℝ) (v1 v2 t : ℝ) (x : ℝ × ℝ) : ℝ := g (x.1 - v1 * t, x.2 - v2 * t)

/-- The time reached after the given steps. -/
def elapsed {α : Type} (steps : List (ℝ × α)) : ℝ := (steps.map Prod.fst).sum

end Bolt
