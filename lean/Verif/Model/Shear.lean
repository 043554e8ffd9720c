import Verif.Model.Boundaries

/-!
# Shearing-box coordinates (`bolt/lib/nonlinear/boundaries.py:6-145`)
-/

namespace Bolt

/-- Big-step meaning of `while cond: s = body(s)`. -/
inductive WhileLoop {σ : Type} (cond : σ → Prop) (body : σ → σ) : σ → σ → Prop
  | done {s} : ¬ cond s → WhileLoop cond body s s
  | step {s s'} : cond s → WhileLoop cond body (body s) s' → WhileLoop cond body s s'

variable {ι K : Type} [Field K] [LinearOrder K]

/-- Condition and body of the first loop — `boundaries.py:28-32`: `af.sum(x > end) != 0`, `select(x > end, x - L, x)`. -/
def aboveSome (hi : K) (x : ι → K) : Prop := ∃ i, x i > hi
@[inherit_doc aboveSome] def wrapDown (hi L : K) (x : ι → K) : ι → K := fun i => afSelect (x i > hi) (x i - L) (x i)

/-- Condition and body of the second loop — `boundaries.py:34-38`. -/
def belowSome (lo : K) (x : ι → K) : Prop := ∃ i, x i < lo
@[inherit_doc belowSome] def wrapUp (lo L : K) (x : ι → K) : ι → K := fun i => afSelect (x i < lo) (x i + L) (x i)

/-- Domain limits, shear parameters and time — `boundaries.py:18-22`. -/
structure ShearParams (K : Type) where
  (q omega q1Start q1End q2Start q2End time : K)

/-- The initial `sheared_coordinates` of a wall from the coordinate arrays of its slab — `boundaries.py:25,54,84,114`. -/
def shearedStart (sp : ShearParams K) : Wall → (ι → K) → (ι → K) → ι → K
  | .left, _, q2 => fun i => q2 i - sp.q * sp.omega * (sp.q1End - sp.q1Start) * sp.time
  | .right, _, q2 => fun i => q2 i + sp.q * sp.omega * (sp.q1End - sp.q1Start) * sp.time
  | .bottom, q1, _ => fun i => q1 i - sp.q * sp.omega * (sp.q2End - sp.q2Start) * sp.time
  | .top, q1, _ => fun i => q1 i + sp.q * sp.omega * (sp.q2End - sp.q2Start) * sp.time

/-- Limits of the axis along which a wall's coordinates are sheared — `boundaries.py:28-38` (left/right), `87-97` (bottom/top). -/
def shearLimits (sp : ShearParams K) : Wall → K × K
  | .left | .right => (sp.q2Start, sp.q2End)
  | .bottom | .top => (sp.q1Start, sp.q1End)

/-- The coordinates handed to the interpolation (a relation: the loops may not terminate) — `boundaries.py:24-38` etc. -/
def ShearedCoords (sp : ShearParams K) (w : Wall) (q1 q2 : ι → K) (x : ι → K) : Prop :=
  let lo := (shearLimits sp w).1
  let hi := (shearLimits sp w).2
  let L := hi - lo
  ∃ y, WhileLoop (aboveSome hi) (wrapDown hi L) (shearedStart sp w q1 q2) y ∧ WhileLoop (belowSome lo) (wrapUp lo L) y x

end Bolt
