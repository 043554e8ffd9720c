import Verif.Model.BoundaryArrays
import Verif.Model.ShearBox

/-!
# The shearing-box routine on blocks of memory

`apply_shearing_box_bcs_f` (`bolt/lib/nonlinear/boundaries.py:6-145`) as the slices, loops, reorderings, interpolation and slice assignment of `af.Array`s the source
consists of.  `Model/Shear` and `Model/ShearBox` state its effect cell by cell.  Slices with a negative bound `-N_g` are modelled for `N_g > 0`.
-/

namespace Bolt

namespace AfArray
variable {K : Type}

/-- `af.reorder(a, 2, 3, 0, 1)` — `boundaries.py:43-51` etc. -/
def reorder2301 (a : AfArray K) : AfArray K := ofFn a.d2 a.d3 a.d0 a.d1 fun i j k l => a.get k l i j

/-- Does some element satisfy the test?  `af.sum(test(a)) != 0`, the loop conditions of `boundaries.py:28, 34` etc. -/
def Some (test : K → Prop) (a : AfArray K) : Prop := ∃ i j k l, i < a.d0 ∧ j < a.d1 ∧ k < a.d2 ∧ l < a.d3 ∧ test (a.get i j k l)

variable [Field K] [LinearOrder K] [IsStrictOrderedRing K] [FloorRing K]

/-- `af.approx2(a, xo, yo, af.INTERP.BICUBIC_SPLINE, xp = xp, yp = yp)` for position arrays of shape `(n0, n1)`, the same positions for all elements of axes 2 and 3 —
`boundaries.py:43-51` etc.  The scaling of the positions reads the first two elements of `xp` along axis 0 and of `yp` along axis 1, and fails if there is only one. -/
def interp2 (a xo yo xp yp : AfArray K) : Except PyErr (AfArray K) :=
  if 2 ≤ xp.d0 ∧ 2 ≤ yp.d1 ∧ xo.d0 = yo.d0 ∧ xo.d1 = yo.d1 ∧ xo.d2 = 1 ∧ xo.d3 = 1 ∧ yo.d2 = 1 ∧ yo.d3 = 1 then
    .ok (ofFn xo.d0 xo.d1 a.d2 a.d3 fun i j k l =>
      approx2 a.d0 a.d1 (fun m n => a.get m.toNat n.toNat k l) (scalePos (xo.get i j 0 0) (xp.get 0 0 0 0) (xp.get 1 0 0 0))
        (scalePos (yo.get i j 0 0) (yp.get 0 0 0 0) (yp.get 0 1 0 0)))
  else .error .exception

end AfArray

section
variable {K : Type} [Field K] [LinearOrder K]

/-- The first value of `sheared_coordinates`, from the slabs of `q1_center` and `q2_center` — `boundaries.py:25, 54, 84, 114`. -/
def arrShearStart (sp : ShearParams K) : Wall → AfArray K → AfArray K → AfArray K
  | .left, _, c2 => c2.map fun v => v - sp.q * sp.omega * (sp.q1End - sp.q1Start) * sp.time
  | .right, _, c2 => c2.map fun v => v + sp.q * sp.omega * (sp.q1End - sp.q1Start) * sp.time
  | .bottom, c1, _ => c1.map fun v => v - sp.q * sp.omega * (sp.q2End - sp.q2Start) * sp.time
  | .top, c1, _ => c1.map fun v => v + sp.q * sp.omega * (sp.q2End - sp.q2Start) * sp.time

/-- The two loops that bring `sheared_coordinates` into the domain (a relation: they may not terminate) — `boundaries.py:28-38, 57-67, 87-97, 117-127`.  The arrays in
`af.select` have the same shape, so it works element by element. -/
def ArrShearedCoords (sp : ShearParams K) (w : Wall) (c1 c2 x : AfArray K) : Prop :=
  let lo := (shearLimits sp w).1
  let hi := (shearLimits sp w).2
  let L := hi - lo
  ∃ y, WhileLoop (AfArray.Some fun v => v > hi) (fun a => a.map fun v => afSelect (v > hi) (v - L) v) (arrShearStart sp w c1 c2) y ∧
    WhileLoop (AfArray.Some fun v => v < lo) (fun a => a.map fun v => afSelect (v < lo) (v + L) v) y x

/-- The position arrays handed to the interpolation: the sheared coordinates along the wall, the cell centres across it — `boundaries.py:44-45, 73-74, 103-104, 133-134`. -/
def arrShearPositions (w : Wall) (c1 c2 x : AfArray K) : AfArray K × AfArray K :=
  match w with
  | .left => (c1, x)
  | .right => (c1, x)
  | .bottom => (x, c2)
  | .top => (x, c2)

variable [IsStrictOrderedRing K] [FloorRing K]

/-- `apply_shearing_box_bcs_f(self, boundary)` — `boundaries.py:6-145`: `f` becomes `f'`; `q1`, `q2` are `self.q1_center`, `self.q2_center`. -/
def ArrShearingF (sp : ShearParams K) (g : ℕ) (w : Wall) (q1 q2 f f' : AfArray K) : Prop :=
  ∃ c1 c2 x s v, q1.cut w.axis (w.slabLo (q1.dim w.axis) g) g = .ok c1 ∧ q2.cut w.axis (w.slabLo (q2.dim w.axis) g) g = .ok c2 ∧
    ArrShearedCoords sp w c1 c2 x ∧ f.cut w.axis (w.slabLo (f.dim w.axis) g) g = .ok s ∧
    AfArray.interp2 s.reorder2301 (arrShearPositions w c1 c2 x).1.reorder2301 (arrShearPositions w c1 c2 x).2.reorder2301 c1.reorder2301 c2.reorder2301 = .ok v ∧
    f.put w.axis (w.slabLo (f.dim w.axis) g) g v.reorder2301 = .ok f'

end

end Bolt
