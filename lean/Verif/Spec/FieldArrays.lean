import Verif.Model.FieldArrays
import Verif.Spec.ArrayProgram
import Verif.Spec.CoupledDecomp

/-! What it means that arrays hold the electromagnetic fields. -/

namespace Bolt

variable {K : Type}

/-- The array has the shape of `yee_grid_EM_fields`: six components, one entry, all cells of the process. -/
def GridSizes.FitsEM (z : GridSizes) (a : AfArray K) : Prop := a.d0 = 6 ∧ a.d1 = 1 ∧ a.d2 = z.M1 ∧ a.d3 = z.M2

/-- The fields in an array: rows 0, 1, 2 are the electric field, rows 3, 4, 5 the magnetic field. -/
def GridSizes.emCells (z : GridSizes) (a : AfArray K) : EM z.Q K where
  E1 q := a.get 0 0 q.1.val q.2.val
  E2 q := a.get 1 0 q.1.val q.2.val
  E3 q := a.get 2 0 q.1.val q.2.val
  B1 q := a.get 3 0 q.1.val q.2.val
  B2 q := a.get 4 0 q.1.val q.2.val
  B3 q := a.get 5 0 q.1.val q.2.val

/-- All arrays of the fields solver have that shape. -/
def GridSizes.FitsState (z : GridSizes) (σ : ArrFieldState K) : Prop := z.FitsEM σ.yee ∧ ∀ k, z.FitsEM (σ.heap k)

/-- The fields solver of the cell model with the values of the arrays. -/
def GridSizes.stateCells (z : GridSizes) (σ : ArrFieldState K) : FieldState z.Q K where
  heap k := z.emCells (σ.heap k)
  cc := σ.cc
  atN := σ.atN
  atHalf := σ.atHalf
  yee := z.emCells σ.yee
  flag := σ.flag
  timeElapsed := σ.timeElapsed

/-- The arrays and callbacks read on a process hold what the callbacks of the cell model prescribe: velocities in position on all cells or on momentum cells only,
forces on all cells whenever the six field arrays hold the fields, parameters per species, coordinates per momentum cell. -/
structure CoupledInputsHold {z : GridSizes} {Q : Type} (c : CoupledConfig (Fin z.Ns) z.P Q K) (x : ArrCallbacks K) (cb : CoupledCallbacks (Fin z.Ns) z.P z.Q K) : Prop where
  q1 : c.solverMethodInQ = "FVM" → HoldsDist x.Cq1 cb.Cq1 ∨ (momentumOnly z).Holds x.Cq1 fun y => cb.Cq1 y.1 y.2.1 y.2.2
  q2 : c.solverMethodInQ = "FVM" → HoldsDist x.Cq2 cb.Cq2 ∨ (momentumOnly z).Holds x.Cq2 fun y => cb.Cq2 y.1 y.2.1 y.2.2
  source : c.solverMethodInQ = "FVM" → c.sourceEnabled = true → ∀ a, z.Fits a → HoldsDist (x.source a) (cb.source (z.cells a))
  force : c.solverMethodInP = "FVM" ∧ c.fieldsEnabled = true → ∀ (E : Fin 6 → PyExpr K) (F : EM z.Q K), (∀ i, (fieldLay z).Holds (E i) (F.comp i)) →
    HoldsDist (x.Cp1 E) (cb.Cp1 F) ∧ HoldsDist (x.Cp2 E) (cb.Cp2 F) ∧ HoldsDist (x.Cp3 E) (cb.Cp3 F)
  dp : c.solverMethodInP = "FVM" ∧ c.fieldsEnabled = true → (speciesOnly z).Holds x.dp1 (fun y => c.dp1 y.1) ∧
    (speciesOnly z).Holds x.dp2 (fun y => c.dp2 y.1) ∧ (speciesOnly z).Holds x.dp3 (fun y => c.dp3 y.1)
  charge : c.fieldsType = "electrodynamic" → (speciesOnly z).Holds x.charge fun y => c.charge y.1
  v : c.fieldsType = "electrodynamic" → (momentumOnly z).Holds x.v1 (fun y => c.coords.p1 y.1 y.2.1) ∧
    (momentumOnly z).Holds x.v2 (fun y => c.coords.p2 y.1 y.2.1) ∧ (momentumOnly z).Holds x.v3 (fun y => c.coords.p3 y.1 y.2.1)

namespace Decomp
variable {N1 N2 : ℕ} {R : Type} (D : Decomp N1 N2 R) (g1 g2 Np1 Np2 Np3 Ns : ℕ)

/-- The fields held by the processes, by cells. -/
def emOf (Y : R → AfArray K) : ∀ r, EM (D.Loc g1 g2 r) K := fun r => (D.sizes Np1 Np2 Np3 Ns g1 g2 r).emCells (Y r)

/-- The fields solvers of the processes, by cells. -/
def stateOf (σ : R → ArrFieldState K) : ∀ r, FieldState (D.Loc g1 g2 r) K := fun r => (D.sizes Np1 Np2 Np3 Ns g1 g2 r).stateCells (σ r)

end Decomp

end Bolt
