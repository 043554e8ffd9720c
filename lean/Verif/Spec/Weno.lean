import Mathlib.Algebra.Order.Field.Basic
import Mathlib.Algebra.Order.Group.Abs
import Mathlib.Algebra.Field.Basic

/-! Specification vocabulary for weighted reconstructions from three overlapping stencils. -/

namespace Bolt

variable {K : Type} [Field K] [LinearOrder K]

/-- The parabola through the values `a`, `b`, `c` at the positions `-1`, `0`, `1`. -/
def parabolaThrough (a b c ξ : K) : K := b + (c - a) / 2 * ξ + (a - 2 * b + c) / 2 * ξ ^ 2

/-- Its slope at position `ξ`. -/
def parabolaSlope (a b c ξ : K) : K := (c - a) / 2 + (a - 2 * b + c) * ξ

/-- How far from smooth the three values are, seen from position `ξ` (Jiang and Shu): the square of the slope there and 13/12 of the square of
the second difference; `ε` keeps it away from zero. -/
def roughness (ε a b c ξ : K) : K := parabolaSlope a b c ξ ^ 2 + 13 / 12 * (a - 2 * b + c) ^ 2 + ε * (1 + |a| + |b| + |c|)

/-- The average of `u`, `v`, `w` with weights proportional to `d1 / r1²`, `d2 / r2²`, `d3 / r3²`. -/
def roughnessAverage (d1 d2 d3 r1 r2 r3 u v w : K) : K :=
  (d1 / r1 ^ 2 * u + d2 / r2 ^ 2 * v + d3 / r3 ^ 2 * w) / (d1 / r1 ^ 2 + d2 / r2 ^ 2 + d3 / r3 ^ 2)

/-- A polynomial of degree four. -/
def quartic (A B C D E ξ : K) : K := A + B * ξ + C * ξ ^ 2 + D * ξ ^ 3 + E * ξ ^ 4

end Bolt
