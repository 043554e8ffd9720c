import Verif.Model.Nonrel
import Mathlib.Data.ZMod.Basic

/-! Specification vocabulary for the shipped physics. -/

namespace Bolt

/-- A tensor-product momentum grid: moving one cell along one momentum axis (cyclically) changes neither of the other two coordinates. -/
structure ProductGrid {S P K : Type} [Add P] (e1 e2 e3 : P) (c : PCoords S P K) : Prop where
  p1 : ∀ s p, c.p1 s (p + e2) = c.p1 s p ∧ c.p1 s (p + e3) = c.p1 s p
  p2 : ∀ s p, c.p2 s (p + e1) = c.p2 s p ∧ c.p2 s (p + e3) = c.p2 s p
  p3 : ∀ s p, c.p3 s (p + e1) = c.p3 s p ∧ c.p3 s (p + e2) = c.p3 s p

/-- The grid of `calculate_p.py` (see `C40_momentum_coordinates`): `start + (off + index) * dp` along each axis. -/
def gridCoords {S K : Type} [Field K] (N1 N2 N3 : ℕ) (off : K) (s1 s2 s3 d1 d2 d3 : S → K) : PCoords S (ZMod N1 × ZMod N2 × ZMod N3) K :=
  ⟨fun s p => s1 s + (off + p.1.val) * d1 s, fun s p => s2 s + (off + p.2.1.val) * d2 s, fun s p => s3 s + (off + p.2.2.val) * d3 s⟩

end Bolt
