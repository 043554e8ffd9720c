import Verif.Spec.ShearArrays
import Verif.Model.AslArrays

/-! Vocabulary for the semi-Lagrangian routines on arrays. -/

namespace Bolt

variable {K : Type}

/-- What the library computes for an output point depends on the elements of the array only. -/
def Kernel.ReadsInside (kern : Kernel K) : Prop :=
  ∀ (M1 M2 : ℕ) v v' x y, (∀ a b : ℤ, 0 ≤ a → a < M1 → 0 ≤ b → b < M2 → v a b = v' a b) → kern M1 M2 v x y = kern M1 M2 v' x y

variable {z : GridSizes}

/-- A velocity of positions, on all cells or on the momentum cells only. -/
def HoldsVel (m : PyExpr K) (A : Fin z.Ns → z.P → z.Q → K) : Prop :=
  HoldsDist m A ∨ (momentumOnly z).Holds m fun y => A y.1 y.2.1 y.2.2

/-- The arrays `f_interp_p_3d` reads: accelerations on all cells, cell centres on the momentum cells, starts and cell sizes per species. -/
structure AslPIn.Hold (x : AslPIn K) (A2 A3 : Dist (Fin z.Ns) z.P z.Q K) (pc2 pc3 : Fin z.Ns → z.P → K) (p2s p3s dp2 dp3 : Fin z.Ns → K) : Prop where
  A1 : ∃ a, x.A1 = .ok (.arr a)
  A2 : HoldsDist x.A2 A2
  A3 : HoldsDist x.A3 A3
  p2c : (momentumOnly z).Holds x.p2c fun y => pc2 y.1 y.2.1
  p3c : (momentumOnly z).Holds x.p3c fun y => pc3 y.1 y.2.1
  p2s : (speciesOnly z).Holds x.p2s fun y => p2s y.1
  p3s : (speciesOnly z).Holds x.p3s fun y => p3s y.1
  dp2 : (speciesOnly z).Holds x.dp2 fun y => dp2 y.1
  dp3 : (speciesOnly z).Holds x.dp3 fun y => dp3 y.1

/-- The species whose number is the index of the second momentum coordinate. -/
def speciesOfP2 (h : z.Np2 = z.Ns) [NeZero z.Np2] (p : z.P) : Fin z.Ns := ⟨p.2.1.val, h ▸ ZMod.val_lt _⟩

end Bolt
