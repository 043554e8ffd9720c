import Verif.Model.Layout
import Verif.Model.Fields

/-! Specification vocabulary for layouts and files. -/

namespace Bolt

variable {K : Type}

/-- Two arrays of the same shape with the same elements. -/
def AfArray.Same (a b : AfArray K) : Prop :=
  a.d0 = b.d0 ∧ a.d1 = b.d1 ∧ a.d2 = b.d2 ∧ a.d3 = b.d3 ∧
    ∀ i j k l, i < a.d0 → j < a.d1 → k < a.d2 → l < a.d3 → a.get i j k l = b.get i j k l

namespace Decomp
variable {N1 N2 : ℕ} {R : Type} (D : Decomp N1 N2 R)

/-- The sizes and ghost widths the processes work with: those of the decomposition, and an axis without ghost cells is one cell long
(the code supports boundary type `none` for one-cell axes only). -/
structure SizesOk (z : R → GridSizes) (g1 g2 : ℕ) : Prop where
  hn1 : ∀ r, (z r).n1 = D.n1 r
  hn2 : ∀ r, (z r).n2 = D.n2 r
  hg1 : ∀ r, (z r).g1 = g1
  hg2 : ∀ r, (z r).g2 = g2
  thin1 : g1 = 0 → N1 = 1
  thin2 : g2 = 0 → N2 = 1

/-- Every process holds an array with `v0 × v1` numbers for each local cell. -/
def Shaped (g1 g2 v0 v1 : ℕ) (F : R → AfArray K) : Prop :=
  ∀ r, (F r).d0 = v0 ∧ (F r).d1 = v1 ∧ (F r).d2 = D.n1 r + 2 * g1 ∧ (F r).d3 = D.n2 r + 2 * g2

/-- The bulk of every process' array is its part of the global array `u` (`u i j x y`: number `(i, j)` of cell `(x, y)`, `x < N1`, `y < N2`). -/
def Bulk (g1 g2 v0 v1 : ℕ) (F : R → AfArray K) (u : ℕ → ℕ → ℕ → ℕ → K) : Prop :=
  ∀ r i j a b, i < v0 → j < v1 → a < D.n1 r → b < D.n2 r →
    (F r).get i j (a + g1) (b + g2) = u i j (D.start1 r + a) (D.start2 r + b)

end Decomp

/-- The six field components stored in a `(6, 1, M1, M2)` array — `fields.py:437-462`. -/
def AfArray.toEM {M1 M2 : ℕ} (a : AfArray K) : EM (ZMod M1 × ZMod M2) K :=
  let c (n : ℕ) : ZMod M1 × ZMod M2 → K := fun l => a.get n 0 l.1.val l.2.val
  ⟨c 0, c 1, c 2, c 3, c 4, c 5⟩

/-- Component number `n` of a field array: `0..5` are `E1, E2, E3, B1, B2, B3`. -/
def EM.column {Q : Type} (u : EM Q K) : ℕ → Q → K
  | 0 => u.E1
  | 1 => u.E2
  | 2 => u.E3
  | 3 => u.B1
  | 4 => u.B2
  | _ => u.B3

end Bolt
