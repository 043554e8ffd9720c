import Verif.Model.Fields

/-! Specification vocabulary for the electromagnetic fields. -/

namespace Bolt

variable {Q K : Type} [AddCommGroup Q] [Field K]

/-- No currents. -/
def Currents.zero : Currents Q K := ⟨fun _ => 0, fun _ => 0, fun _ => 0⟩

/-- Divergence of the current through the faces of each cell (`J1` on the left face, `J2` on the bottom face). -/
def divJ (pr : FieldParams Q K) (J : Currents Q K) (i : Q) : K :=
  (J.J1 (i + pr.q1) - J.J1 i) / pr.dq1 + (J.J2 (i + pr.q2) - J.J2 i) / pr.dq2

/-- Sum over the grid of `|E|^2`. -/
def normE2 [Fintype Q] (F : EM Q K) : K := ∑ i, (F.E1 i ^ 2 + F.E2 i ^ 2 + F.E3 i ^ 2)

/-- Sum over the grid of `|B|^2`. -/
def normB2 [Fintype Q] (F : EM Q K) : K := ∑ i, (F.B1 i ^ 2 + F.B2 i ^ 2 + F.B3 i ^ 2)

/-- The staggered energy `∑ eps |E(n+1)|^2 + B(n+1/2) . B(n+3/2) / mu`, where `F` holds the fields before and `F'` after a step. -/
def staggeredEnergy [Fintype Q] (pr : FieldParams Q K) (F F' : EM Q K) : K :=
  ∑ i, (pr.eps * (F'.E1 i ^ 2 + F'.E2 i ^ 2 + F'.E3 i ^ 2)
    + (F.B1 i * F'.B1 i + F.B2 i * F'.B2 i + F.B3 i * F'.B3 i) / pr.mu)

/-- `n` vacuum steps of size `dt`. -/
def vacuumSteps (n : ℕ) (dt : K) : List (FDTDStep Q K) := List.replicate n { dt := dt, J := Currents.zero }

/-- The same value in every cell. -/
def EM.const (e1 e2 e3 b1 b2 b3 : K) : EM Q K := ⟨fun _ => e1, fun _ => e2, fun _ => e3, fun _ => b1, fun _ => b2, fun _ => b3⟩

end Bolt

/-! Staggered positions, in half cells relative to the lower left corner of the cell. -/

namespace Bolt

variable {Q K : Type} [AddCommGroup Q] [Field K]

/-- Where a component lives in its cell: `false` = on the lower edge, `true` = at the middle, for each axis
(`fdtd_explicit.py:147-158`). -/
structure Stagger where
  (mid1 mid2 : Bool)

namespace Stagger
def E1 : Stagger := ⟨false, true⟩
def E2 : Stagger := ⟨true, false⟩
def E3 : Stagger := ⟨true, true⟩
def B1 : Stagger := ⟨true, false⟩
def B2 : Stagger := ⟨false, true⟩
def B3 : Stagger := ⟨false, false⟩
def centre : Stagger := ⟨true, true⟩
end Stagger

/-- Cell offsets, along one axis, of the samples nearest to the target point: the sample itself if it is at the same place in the
cell, otherwise the two samples half a cell away. -/
def nearest (src dst : Bool) : List ℤ :=
  if src = dst then [0] else if dst = true then [0, 1] else [-1, 0]

/-- The mean of `x` (sampled at `src`) over the samples nearest to the point `dst` of cell `i`. -/
def meanOfNearest (q1 q2 : Q) (src dst : Stagger) (x : Q → K) (i : Q) : K :=
  ((nearest src.mid1 dst.mid1).flatMap fun a => (nearest src.mid2 dst.mid2).map fun b => x (i + a • q1 + b • q2)).sum
    / ((nearest src.mid1 dst.mid1).length * (nearest src.mid2 dst.mid2).length : ℕ)

end Bolt
