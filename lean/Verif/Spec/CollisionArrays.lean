import Verif.Model.CollisionArrays
import Verif.Spec.FieldArrays
import Verif.Model.Nonrel

/-! What it means that arrays hold the data of the collision operator, and the bundled nonrelativistic system cell by cell. -/

namespace Bolt

open Machine

variable {K : Type}

/-- An array with one number per species and position cell, seen as a function of all cells. -/
def momentCells (z : GridSizes) : Lay z.Cell where
  d0 := 1
  d1 := z.Ns
  d2 := z.M1
  d3 := z.M2
  i0 _ := 0
  i1 x := x.1
  i2 x := x.2.2.1.val
  i3 x := x.2.2.2.val

/-- The arrays hold masses and cell sizes per species and velocities per momentum cell. -/
structure CollisionArrays.Hold {z : GridSizes} (x : CollisionArrays K) (mass dp1 dp2 dp3 : Fin z.Ns → K) (co : PCoords (Fin z.Ns) z.P K) : Prop where
  mass : (speciesOnly z).Holds x.mass fun y => mass y.1
  dp1 : (speciesOnly z).Holds x.dp1 fun y => dp1 y.1
  dp2 : (speciesOnly z).Holds x.dp2 fun y => dp2 y.1
  dp3 : (speciesOnly z).Holds x.dp3 fun y => dp3 y.1
  v1 : (momentumOnly z).Holds x.v1 fun y => co.p1 y.1 y.2.1
  v2 : (momentumOnly z).Holds x.v2 fun y => co.p2 y.1 y.2.1
  v3 : (momentumOnly z).Holds x.v3 fun y => co.p3 y.1 y.2.1

/-- What `params.tau` returned is a number, or an array of the shape of the distribution, with the values `tau`. -/
def TauHolds {z : GridSizes} (x : PyExpr K) (tau : Dist (Fin z.Ns) z.P z.Q K) : Prop :=
  (∃ c, x = .ok (.num c) ∧ ∀ s p q, tau s p q = c) ∨ HoldsDist x tau

/-- The bundled nonrelativistic system cell by cell: free streaming, the Lorentz force `e/m (E + v × B)`, and relaxation to the local Maxwellian. -/
def bundledCb {S P : Type} [Machine K] (fn : ElemFns K) (pr : CollisionNumbers K) (Sm : Mach.Sums S P K) (Q : Type) (e m dp1 dp2 dp3 : S → K)
    (co : PCoords S P K) (tau : Dist S P Q K) : CoupledCallbacks S P Q K where
  Cq1 s p _ := co.p1 s p
  Cq2 s p _ := co.p2 s p
  Cp1 F s p q := (e s ⊘ m s) ⊠ ((F.E1 q ⊞ co.p2 s p ⊠ F.B3 q) ⊟ co.p3 s p ⊠ F.B2 q)
  Cp2 F s p q := (e s ⊘ m s) ⊠ ((F.E2 q ⊞ co.p3 s p ⊠ F.B1 q) ⊟ co.p1 s p ⊠ F.B3 q)
  Cp3 F s p q := (e s ⊘ m s) ⊠ ((F.E3 q ⊞ co.p1 s p ⊠ F.B2 q) ⊟ co.p2 s p ⊠ F.B1 q)
  source f := Mach.bgk fn pr Sm co (fun s => dp3 s ⊠ dp2 s ⊠ dp1 s) m tau false f

/-- The functions of real analysis. -/
noncomputable def realFns : ElemFns ℝ := ⟨Real.exp, Real.sqrt, fun x => x ^ 2, fun x => x ^ (3 / 2 : ℝ), Real.pi⟩

end Bolt
