import Verif.Model.ASL

/-! Specification of semi-Lagrangian advection on the whole periodic grid. -/

namespace Bolt

variable {K : Type} [Field K] [LinearOrder K] [IsStrictOrderedRing K] [FloorRing K] {S P : Type} {N1 N2 : ℕ}

/-- Catmull-Rom interpolation of data on the integers: the cubic on each unit interval with the data as values and the central differences
as slopes at its ends. -/
def catmullRom (w : ℤ → K) (x : K) : K :=
  let m := ⌊x⌋
  let t := x - m
  let slope (k : ℤ) := (w (k + 1) - w (k - 1)) / 2
  (2 * t ^ 3 - 3 * t ^ 2 + 1) * w m + (t ^ 3 - 2 * t ^ 2 + t) * slope m + (-2 * t ^ 3 + 3 * t ^ 2) * w (m + 1) + (t ^ 3 - t ^ 2) * slope (m + 1)

/-- Interpolation of data on pairs of integers, one axis after the other. -/
def catmullRom2 (v : ℤ → ℤ → K) (x y : K) : K := catmullRom (fun b => catmullRom (fun a => v a b) x) y

/-- The solution after moving the periodic data `f` by the displacements `d1`, `d2` (in cells): the interpolant at the foot of the
characteristic. -/
def advected (d1 d2 : S → P → ZMod N1 × ZMod N2 → K) (f : Dist S P (ZMod N1 × ZMod N2) K) : Dist S P (ZMod N1 × ZMod N2) K := fun s p i =>
  catmullRom2 (fun a b => f s p ((a : ZMod N1), (b : ZMod N2))) (i.1.val - d1 s p i) (i.2.val - d2 s p i)

/-- Each process evaluates the velocity field `a` on the cells it owns. -/
def Decomp.VelocityAgrees {R : Type} (D : Decomp N1 N2 R) (g1 g2 : ℕ) (A : ∀ r, S → P → D.Loc g1 g2 r → K) (a : S → P → ZMod N1 × ZMod N2 → K) : Prop :=
  ∀ r s p l, D.Interior g1 g2 r l → A r s p l = a s p (D.toGlob g1 g2 r l)

end Bolt
