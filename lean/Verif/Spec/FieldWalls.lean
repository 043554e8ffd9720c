import Verif.Spec.CoupledDecomp

/-! Specification vocabulary for the walls of the electromagnetic fields. -/

namespace Bolt

variable {M1 M2 : ℕ}

/-- The cell that a ghost cell shows in a mirror at the wall.  With `g` ghost cells the left wall lies between the cells `g - 1` and `g`,
the right wall between `M1 - g - 1` and `M1 - g`: the distance to the wall is the same on both sides. -/
def reflectCell (g : ℕ) : Wall → ZMod M1 × ZMod M2 → ZMod M1 × ZMod M2
  | .left, i => (((2 * g - 1 - i.1.val : ℕ) : ZMod M1), i.2)
  | .right, i => (((2 * (M1 - g) - 1 - i.1.val : ℕ) : ZMod M1), i.2)
  | .bottom, i => (i.1, ((2 * g - 1 - i.2.val : ℕ) : ZMod M2))
  | .top, i => (i.1, ((2 * (M2 - g) - 1 - i.2.val : ℕ) : ZMod M2))

/-- The components of the electric field tangential to a wall: 2 and 3 at the left and right, 1 and 3 at the bottom and top (components
are numbered `E1, E2, E3, B1, B2, B3` from 0). -/
def tangentialE : Wall → Fin 6 → Bool
  | .left, c | .right, c => c = 1 ∨ c = 2
  | .bottom, c | .top, c => c = 0 ∨ c = 2

/-- Which components a mirror reflects: on the staggered grid the tangential electric field, on the cell-centred grid all six. -/
def reflected (onFdtdGrid : Bool) (w : Wall) (c : Fin 6) : Bool := !onFdtdGrid || tangentialE w c

/-- The array is wide enough across the wall for the ghost zones of both ends. -/
def fitsAcross (M1 M2 g : ℕ) : Wall → Prop
  | .left | .right => 2 * g ≤ M1
  | .bottom | .top => 2 * g ≤ M2

/-- The wall has no effect on this process: it is not next to it, or it is a periodic (or absent) end. -/
def idleWall {K : Type} (env : FieldBCEnv M1 M2 K) (w : Wall) : Prop :=
  env.touches w = false ∨ env.name w = "periodic" ∨ env.name w = "none"

/-- Does the index lie in the first row of cells whose lower face is on the wall?  (Right and top: the first row of ghost cells.) -/
def onWall (g : ℕ) : Wall → ZMod M1 × ZMod M2 → Prop
  | .left, i => i.1.val = g
  | .right, i => i.1.val = M1 - g
  | .bottom, i => i.2.val = g
  | .top, i => i.2.val = M2 - g

end Bolt
