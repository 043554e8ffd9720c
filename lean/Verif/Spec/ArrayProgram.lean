import Verif.Model.ArrayProgram
import Verif.Model.ASL

/-!
# What it means that an array holds the values of a function of the cells

The dictionary between `af.Array`s and functions of species, momentum cell and position cell, for the four array shapes of the program.
-/

namespace Bolt

/-- A way to store a function of `X`: the shape of the array and the element that holds the value at `x`. -/
structure Lay (X : Type) where
  (d0 d1 d2 d3 : ℕ)
  (i0 i1 i2 i3 : X → ℕ)

/-- The expression evaluates, without raising, to an array of shape `L` that holds `F`. -/
def Lay.Holds {X K : Type} (L : Lay X) (m : PyExpr K) (F : X → K) : Prop :=
  ∃ a : AfArray K, m = .ok (.arr a) ∧ a.d0 = L.d0 ∧ a.d1 = L.d1 ∧ a.d2 = L.d2 ∧ a.d3 = L.d3 ∧
    ∀ x, a.get (L.i0 x) (L.i1 x) (L.i2 x) (L.i3 x) = F x

section
variable (z : GridSizes)

/-- Momentum cells. -/
abbrev GridSizes.P : Type := AslPIdx z.Np1 z.Np2 z.Np3
/-- Position cells of a process, ghost cells included. -/
abbrev GridSizes.Q : Type := ZMod z.M1 × ZMod z.M2
/-- Species, momentum cell, position cell. -/
abbrev GridSizes.Cell : Type := Fin z.Ns × z.P × z.Q

/-- Row of a momentum cell: `p1` runs fastest. -/
def GridSizes.row (p : z.P) : ℕ := p.1.val + z.Np1 * (p.2.1.val + z.Np2 * p.2.2.val)

/-- Shape `(N_p1 N_p2 N_p3, N_s, M1, M2)`, that of `self.f`. -/
def qExpanded : Lay z.Cell where
  d0 := z.Np1 * z.Np2 * z.Np3
  d1 := z.Ns
  d2 := z.M1
  d3 := z.M2
  i0 x := z.row x.2.1
  i1 x := x.1
  i2 x := x.2.2.1.val
  i3 x := x.2.2.2.val

/-- Shape `(N_p1, N_p2, N_p3, N_s M1 M2)`. -/
def pExpanded : Lay z.Cell where
  d0 := z.Np1
  d1 := z.Np2
  d2 := z.Np3
  d3 := z.Ns * z.M1 * z.M2
  i0 x := x.2.1.1.val
  i1 x := x.2.1.2.1.val
  i2 x := x.2.1.2.2.val
  i3 x := x.1 + z.Ns * (x.2.2.1.val + z.M1 * x.2.2.2.val)

/-- Shape `(N_p1 N_p2 N_p3, N_s)`, that of the momentum coordinates: the same values at all positions. -/
def momentumOnly : Lay z.Cell where
  d0 := z.Np1 * z.Np2 * z.Np3
  d1 := z.Ns
  d2 := 1
  d3 := 1
  i0 x := z.row x.2.1
  i1 x := x.1
  i2 _ := 0
  i3 _ := 0

/-- Shape `(1, N_s)`, that of `dp1`, `mass`, `charge`: one value per species. -/
def speciesOnly : Lay z.Cell where
  d0 := 1
  d1 := z.Ns
  d2 := 1
  d3 := 1
  i0 _ := 0
  i1 x := x.1
  i2 _ := 0
  i3 _ := 0

/-- Shape `(1, 1, M1, M2)`, that of the position coordinates and of the fields: the same values for all species and momenta. -/
def positionOnly : Lay z.Cell where
  d0 := 1
  d1 := 1
  d2 := z.M1
  d3 := z.M2
  i0 _ := 0
  i1 _ := 0
  i2 x := x.2.2.1.val
  i3 x := x.2.2.2.val

/-- Shape `(1, N_s, M1, M2)`, that of a moment. -/
def momentLay : Lay (Fin z.Ns × z.Q) where
  d0 := 1
  d1 := z.Ns
  d2 := z.M1
  d3 := z.M2
  i0 _ := 0
  i1 x := x.1
  i2 x := x.2.1.val
  i3 x := x.2.2.val

/-- Shape `(1, 1, M1, M2)`, that of a field or of a current summed over species. -/
def fieldLay : Lay z.Q where
  d0 := 1
  d1 := 1
  d2 := z.M1
  d3 := z.M2
  i0 _ := 0
  i1 _ := 0
  i2 x := x.1.val
  i3 x := x.2.val

variable {z} {K : Type}

/-- `m` is an array of the shape of `self.f` with the values `f`. -/
def HoldsDist (m : PyExpr K) (f : Dist (Fin z.Ns) z.P z.Q K) : Prop := (qExpanded z).Holds m fun x => f x.1 x.2.1 x.2.2

/-- The array has the shape of `self.f`. -/
def GridSizes.Fits (z : GridSizes) (a : AfArray K) : Prop := a.d0 = z.Np1 * z.Np2 * z.Np3 ∧ a.d1 = z.Ns ∧ a.d2 = z.M1 ∧ a.d3 = z.M2

/-- The values of an array of the shape of `self.f`, by species, momentum cell and position cell. -/
def GridSizes.cells (z : GridSizes) (a : AfArray K) : Dist (Fin z.Ns) z.P z.Q K := fun s p q => a.get (z.row p) s q.1.val q.2.val

/-- The arrays handed to `df_dt_fvm` hold what the callbacks prescribe: advection velocities in positions may be given on all cells or
on the momentum cells only, advection velocities in momenta and sources on all cells, momentum cell sizes per species. -/
structure InputsHold (cfg : FVMConfig (Fin z.Ns) K) (x : ArrIn K) (cb : Callbacks (Fin z.Ns) z.P z.Q K) (f : Dist (Fin z.Ns) z.P z.Q K) : Prop where
  q : cfg.solverMethodInQ = "FVM" →
    (HoldsDist x.Cq1 cb.Cq1 ∨ (momentumOnly z).Holds x.Cq1 fun y => cb.Cq1 y.1 y.2.1 y.2.2) ∧
    (HoldsDist x.Cq2 cb.Cq2 ∨ (momentumOnly z).Holds x.Cq2 fun y => cb.Cq2 y.1 y.2.1 y.2.2) ∧
    (cfg.sourceEnabled = true → HoldsDist x.source (cb.source f))
  p : cfg.solverMethodInP = "FVM" ∧ cfg.fieldsEnabled = true →
    HoldsDist x.Cp1 cb.Cp1 ∧ HoldsDist x.Cp2 cb.Cp2 ∧ HoldsDist x.Cp3 cb.Cp3 ∧
    (speciesOnly z).Holds x.dp1 (fun y => cfg.dp1 y.1) ∧ (speciesOnly z).Holds x.dp2 (fun y => cfg.dp2 y.1) ∧
    (speciesOnly z).Holds x.dp3 (fun y => cfg.dp3 y.1)

/-- The momentum cell of a row. -/
def GridSizes.unrow (z : GridSizes) (i : ℕ) : z.P := ((i : ℕ), (i / z.Np1 : ℕ), (i / z.Np1 / z.Np2 : ℕ))

/-- Sums over momentum cells and over species, in the order of the rows and columns. -/
def GridSizes.sums (z : GridSizes) (red : List K → K) : Mach.Sums (Fin z.Ns) z.P K where
  overP g := red ((List.range (z.Np1 * z.Np2 * z.Np3)).map fun i => g (z.unrow i))
  overS g := red (List.ofFn g)

/-- Unit steps in the grid of a process. -/
def GridSizes.axes (z : GridSizes) : Axes z.P z.Q := ⟨(1, 0, 0), (0, 1, 0), (0, 0, 1), (1, 0), (0, 1)⟩

end

section
variable {K : Type} [Machine K] {N1 N2 : ℕ} {R : Type} (D : Decomp N1 N2 R) (g1 g2 Np1 Np2 Np3 Ns : ℕ)

/-- The values held by the processes, by cells. -/
def Decomp.cellsOf (F : R → AfArray K) : ∀ r, Dist (Fin Ns) (AslPIdx Np1 Np2 Np3) (D.Loc g1 g2 r) K :=
  fun r => (D.sizes Np1 Np2 Np3 Ns g1 g2 r).cells (F r)

/-- The arrays process `r` reads in a slope evaluation hold what its callbacks prescribe, whatever array of the solver's shape the distribution is. -/
def Decomp.InputsHold (cfg : FVMConfig (Fin Ns) K) (x : Fin 2 → R → AfArray K → ArrIn K)
    (cb : Fin 2 → ∀ r, Callbacks (Fin Ns) (AslPIdx Np1 Np2 Np3) (D.Loc g1 g2 r) K) : Prop :=
  ∀ k r a, (D.sizes Np1 Np2 Np3 Ns g1 g2 r).Fits a →
    Bolt.InputsHold (z := D.sizes Np1 Np2 Np3 Ns g1 g2 r) cfg (x k r a) (cb k r) ((D.sizes Np1 Np2 Np3 Ns g1 g2 r).cells a)

end

end Bolt
