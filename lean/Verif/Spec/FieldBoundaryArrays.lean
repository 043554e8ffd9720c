import Verif.Spec.FieldArrays
import Verif.Spec.BoundaryArrays
import Verif.Model.FieldBoundaryArrays

/-! Vocabulary for the field boundary routines on arrays. -/

namespace Bolt

variable {K : Type}

/-- The array program and the cell model end in the same way: both raise the same exception, or the array holds the cell model's fields. -/
def SameFields (z : GridSizes) (m : Except PyErr (AfArray K)) (r : Except PyErr (EM z.Q K)) : Prop :=
  (∀ F, r = .ok F → ∃ c, m = .ok c ∧ z.FitsEM c ∧ z.emCells c = F) ∧ ∀ e, r = .error e → m = .error e

/-- At this wall the routine needs the user's values. -/
def ArrFieldBCEnv.Prescribed (x : ArrFieldBCEnv K) (w : Wall) : Prop := x.name w = "dirichlet" ∨ x.name w = "mirror+dirichlet"

/-- The routine reads the same options as the cell model, and whatever component a boundary function of the user is handed as an array of one row, it returns an array of that
shape that holds what the cell model prescribes. -/
structure ArrFieldBCEnv.Hold (z : GridSizes) (x : ArrFieldBCEnv K) (env : FieldBCEnv z.M1 z.M2 K) : Prop where
  g : x.g = env.g
  name : x.name = env.name
  start1 : x.start1 = env.start1
  start2 : x.start2 = env.start2
  nLocal1 : x.nLocal1 = env.nLocal1
  nLocal2 : x.nLocal2 = env.nLocal2
  N1 : x.N1 = env.N1
  N2 : x.N2 = env.N2
  user : ∀ w c a u, x.Prescribed w → (fieldLay z).Holds (.ok (.arr a)) u → (fieldLay z).Holds (x.user w c a) (env.user w c u)

/-- The ghost zone and the cells mirrored into it lie in the array, at every wall the process has to treat. -/
def ArrFieldBCEnv.WallsFit (z : GridSizes) (x : ArrFieldBCEnv K) : Prop :=
  ∀ w, x.touches w = true → x.name w ≠ "periodic" → x.name w ≠ "none" → 0 < x.g ∧ 2 * x.g ≤ z.width w

namespace Decomp
variable {N1 N2 : ℕ} {R : Type} (D : Decomp N1 N2 R) (g1 g2 Np1 Np2 Np3 Ns : ℕ)

/-- The current arrays of a step hold the currents of the cell model, the boundary functions return arrays that hold what the cell model prescribes, and every process at a
wall with a condition has a ghost zone there. -/
structure FieldWallsHold (o : BCOptions) (user : R → Wall → Fin 6 → AfArray K → PyExpr K) (user' : ∀ r, D.LocFieldBCs g1 g2 r K)
    (J1 J2 J3 : R → PyExpr K) (J : ∀ r, Currents (D.Loc g1 g2 r) K) : Prop where
  j1 : ∀ r, (fieldLay (D.sizes Np1 Np2 Np3 Ns g1 g2 r)).Holds (J1 r) (J r).J1
  j2 : ∀ r, (fieldLay (D.sizes Np1 Np2 Np3 Ns g1 g2 r)).Holds (J2 r) (J r).J2
  j3 : ∀ r, (fieldLay (D.sizes Np1 Np2 Np3 Ns g1 g2 r)).Holds (J3 r) (J r).J3
  walls : ∀ r, (D.arrFieldEnv o r (user r)).Hold (D.sizes Np1 Np2 Np3 Ns g1 g2 r) (D.fieldEnv g1 g2 o r (user' r))
  room : ∀ r, (D.arrFieldEnv o r (user r)).WallsFit (D.sizes Np1 Np2 Np3 Ns g1 g2 r)

end Decomp

end Bolt
