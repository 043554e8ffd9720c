import Verif.Model.BoundaryArrays
import Verif.Model.FieldArrays
import Verif.Model.MachineFields

/-!
# The boundary routines of the electromagnetic fields on blocks of memory

`bolt/lib/nonlinear/fields/boundaries.py` once more (`Model/Boundaries` states its effect cell by cell), as slices, flips, joins and slice assignments of arrays of shape
`(6, 1, M1, M2)`.  Slices with a negative bound `-N_g` are modelled for `N_g > 0`.
-/

namespace Bolt

section
variable {K : Type}

/-- What the field boundary routines read from the fields solver of one process — `fields/boundaries.py:229-233, 580-583`. -/
structure ArrFieldBCEnv (K : Type) where
  /-- `self.N_g` -/
  g : ℕ
  name : Wall → String
  /-- the user's `E1_left`, …, `B3_top` (component 0–5), which are handed the component as an array of one row; they return an array or a number -/
  user : Wall → Fin 6 → AfArray K → PyExpr K
  (start1 start2 nLocal1 nLocal2 N1 N2 : ℕ)

/-- `E1_left(self.yee_grid_EM_fields[0], *args)[:, :, :N_g]` and its counterparts — `fields/boundaries.py:237-253` etc.; a number cannot be sliced. -/
def arrWallValue (x : ArrFieldBCEnv K) (w : Wall) (Y : AfArray K) (c : Fin 6) : Except PyErr (AfArray K) := do
  let row ← Y.rows c 1
  match ← x.user w c row with
  | .num _ => .error .typeError
  | .arr b => b.cut w.axis (w.slabLo (b.dim w.axis) x.g) x.g

/-- `apply_dirichlet_bcs_fields(self, boundary, on_fdtd_grid)` on the chosen array — `fields/boundaries.py:212-417`. -/
def arrDirichletFields (x : ArrFieldBCEnv K) (w : Wall) (Y : AfArray K) : Except PyErr (AfArray K) := do
  let E1 ← arrWallValue x w Y 0
  let E2 ← arrWallValue x w Y 1
  let E3 ← arrWallValue x w Y 2
  let B1 ← arrWallValue x w Y 3
  let B2 ← arrWallValue x w Y 4
  let B3 ← arrWallValue x w Y 5
  let B12 ← B1.join0 B2
  let B ← B12.join0 B3                                                -- af.join(0, B1, B2, B3)
  let E12 ← E1.join0 E2
  let E ← E12.join0 E3
  let all ← E.join0 B                                                 -- af.join(0, E1, E2, E3, …)
  Y.put w.axis (w.slabLo (Y.dim w.axis) x.g) x.g all

/-- `Y[lo:lo + n, :, :N_g] = af.flip(Y[lo:lo + n, :, N_g:2 * N_g], 2)` and its counterparts — `fields/boundaries.py:446, 477, 508, 510, 542, 545`.  The assignment to a
block of rows and cells is written as a change of a copy of the rows that is put back. -/
def arrMirrorRows (g : ℕ) (w : Wall) (lo n : ℕ) (Y : AfArray K) : Except PyErr (AfArray K) := do
  let block ← Y.rows lo n
  let block ← arrMirrorSpace g w block
  Y.setRows lo n block

/-- `apply_mirror_bcs_fields(self, boundary, on_fdtd_grid)` on the chosen array — `fields/boundaries.py:419-567`. -/
def arrMirrorFields (g : ℕ) (w : Wall) (onFdtdGrid : Bool) (Y : AfArray K) : Except PyErr (AfArray K) :=
  if onFdtdGrid = true then
    match w with
    | .left => arrMirrorRows g .left 1 2 Y                             -- 446-447
    | .right => arrMirrorRows g .right 1 2 Y                           -- 477-478
    | .bottom => do                                                    -- 508-511
      let Y ← arrMirrorRows g .bottom 0 1 Y
      arrMirrorRows g .bottom 2 1 Y
    | .top => do                                                       -- 542-546
      let Y ← arrMirrorRows g .top 0 1 Y
      arrMirrorRows g .top 2 1 Y
  else arrMirrorSpace g w Y                                            -- 465-466, 496-497, 529-530, 560-561

/-- One wall — `fields/boundaries.py:587-607` etc.; see `applyWallFields` for the shearing box. -/
def arrApplyWallFields (x : ArrFieldBCEnv K) (onFdtdGrid : Bool) (w : Wall) (Y : AfArray K) : Except PyErr (AfArray K) :=
  if x.name w = "dirichlet" then arrDirichletFields x w Y
  else if x.name w = "mirror" then arrMirrorFields x.g w onFdtdGrid Y
  else if x.name w = "mirror+dirichlet" then do
    let Y ← arrMirrorFields x.g w onFdtdGrid Y
    arrDirichletFields x w Y
  else if x.name w = "periodic" ∨ x.name w = "none" then .ok Y
  else if x.name w = "shearing-box" then .error .attributeError
  else .error .notImplemented

/-- Does the local zone include the wall? — `fields/boundaries.py:585, 610, 635, 660`. -/
def ArrFieldBCEnv.touches (x : ArrFieldBCEnv K) : Wall → Bool
  | .left => x.start1 == 0
  | .right => x.start1 + x.nLocal1 - 1 == x.N1 - 1
  | .bottom => x.start2 == 0
  | .top => x.start2 + x.nLocal2 - 1 == x.N2 - 1

/-- A wall's block in `apply_bcs_fields`. -/
def arrAtWallFields (x : ArrFieldBCEnv K) (onFdtdGrid : Bool) (w : Wall) (Y : AfArray K) : Except PyErr (AfArray K) :=
  if x.touches w = true then arrApplyWallFields x onFdtdGrid w Y else .ok Y

/-- `apply_bcs_fields(self, on_fdtd_grid)` — `fields/boundaries.py:569-691`. -/
def arrApplyBcsFields (x : ArrFieldBCEnv K) (onFdtdGrid : Bool) (Y : AfArray K) : Except PyErr (AfArray K) := do
  let Y ← arrAtWallFields x onFdtdGrid .left Y
  let Y ← arrAtWallFields x onFdtdGrid .right Y
  let Y ← arrAtWallFields x onFdtdGrid .bottom Y
  arrAtWallFields x onFdtdGrid .top Y

end

/-! ## The field solver with walls on all processes -/

section runs
variable {K : Type} [Machine K] {N1 N2 : ℕ} {R : Type} (D : Decomp N1 N2 R) (g1 g2 Np1 Np2 Np3 Ns : ℕ)

/-- What `apply_bcs_fields` reads on process `r`. -/
def Decomp.arrFieldEnv (o : BCOptions) (r : R) (user : Wall → Fin 6 → AfArray K → PyExpr K) : ArrFieldBCEnv K where
  g := o.nGhost
  name := o.name
  user := user
  start1 := D.start1 r
  start2 := D.start2 r
  nLocal1 := D.n1 r
  nLocal2 := D.n2 r
  N1 := N1
  N2 := N2

/-- `communicate_fields(self, True); apply_bcs_fields(self, True)` on every process — `fdtd_explicit.py:169-170, 173-174`. -/
def Decomp.ArrSyncedFields (o : BCOptions) (user : R → Wall → Fin 6 → AfArray K → PyExpr K) (Y Y0 : R → AfArray K) : Prop :=
  ∃ (bc1 bc2 : Decomp.PetscBC) (st : R → Vec K) (G : R → AfArray K), Decomp.FieldTypes g1 g2 o bc1 bc2 ∧
    D.Communicates (D.sizes Np1 Np2 Np3 Ns g1 g2) g1 g2 bc1 bc2 6 1 st Y G ∧ ∀ r, arrApplyBcsFields (D.arrFieldEnv o r (user r)) true (G r) = .ok (Y0 r)

/-- `fdtd(self, dt)` on the arrays of all processes, with walls — `fdtd_explicit.py:141-177`. -/
def ArrFdtdWallStep (o : BCOptions) (user : R → Wall → Fin 6 → AfArray K → PyExpr K) (eps mu dq1 dq2 dt : K) (J1 J2 J3 : R → PyExpr K) (Y Y' : R → AfArray K) : Prop :=
  ∃ Y0 H Y2 : R → AfArray K,
    D.ArrSyncedFields g1 g2 Np1 Np2 Np3 Ns o user Y Y0 ∧
    (∀ r, arrEvolveE eps mu dq1 dq2 dt (J1 r) (J2 r) (J3 r) (Y0 r) = .ok (H r)) ∧
    D.ArrSyncedFields g1 g2 Np1 Np2 Np3 Ns o user H Y2 ∧
    ∀ r, arrEvolveB dq1 dq2 dt (Y2 r) = .ok (Y' r)

/-- Successive calls of `fdtd`, each with its step size, boundary functions (evaluated at its time) and currents. -/
def ArrFdtdWallRun (o : BCOptions) (eps mu dq1 dq2 : K) :
    List (K × (R → Wall → Fin 6 → AfArray K → PyExpr K) × (R → PyExpr K) × (R → PyExpr K) × (R → PyExpr K)) → (R → AfArray K) → (R → AfArray K) → Prop
  | [], Y, Y' => Y' = Y
  | (dt, user, J1, J2, J3) :: rest, Y, Y' =>
    ∃ Z, ArrFdtdWallStep D g1 g2 Np1 Np2 Np3 Ns o user eps mu dq1 dq2 dt J1 J2 J3 Y Z ∧ ArrFdtdWallRun o eps mu dq1 dq2 rest Z Y'

/-- The same cell by cell, in machine arithmetic: as `Mach.FdtdRun` with boundary functions that may change from step to step. -/
def Mach.FdtdWallRun (o : BCOptions) (pr : ∀ r, FieldParams (D.Loc g1 g2 r) K) :
    List (K × (∀ r, D.LocFieldBCs g1 g2 r K) × ∀ r, Currents (D.Loc g1 g2 r) K) → (∀ r, EM (D.Loc g1 g2 r) K) → (∀ r, EM (D.Loc g1 g2 r) K) → Prop
  | [], Y, Y' => Y' = Y
  | (dt, user, J) :: rest, Y, Y' => ∃ Z, Mach.FdtdStep D g1 g2 o user pr J dt Y Z ∧ Mach.FdtdWallRun o pr rest Z Y'

end runs

end Bolt
