import Mathlib.Algebra.Order.Field.Basic
import Mathlib.Algebra.Order.Group.Abs
import Mathlib.Algebra.Module.Defs
import Mathlib.Tactic.Ring

/-!
# ArrayFire primitives used by Bolt

An `af.Array` is a function from indices to numbers.  An axis of the array is represented by the index
`e` such that moving one cell along the axis is adding `e`; since `af.shift` is cyclic, indices along the
shifted axes form an additive commutative group (e.g. `ZMod n`, or a product of these).
-/

namespace Bolt

/-- Exceptions raised by the Python code (only the class matters for the properties). -/
inductive PyErr
  | systemExit | notImplemented | exception | typeError | nameError | attributeError | zeroDivision
  | importError | indexError | valueError | assertion
  deriving DecidableEq, Repr

/-- `af.shift(x, ..., k, ...)` along the axis with unit index `e`: `out[i] = in[i - k]`, cyclic.
ArrayFire primitive, used e.g. in `bolt/lib/nonlinear/finite_volume/df_dt_fvm.py:62-86`. -/
def afShift {I K : Type} [AddCommGroup I] (e : I) (k : ℤ) (x : I → K) : I → K :=
  fun i => x (i - k • e)

/-- A boolean array used as a number (`1` for true, `0` for false), as in
`bolt/lib/nonlinear/finite_volume/reconstruction/ppm.py:67-98`. -/
def b2k (K : Type) [Zero K] [One K] (p : Prop) [Decidable p] : K := if p then 1 else 0

/-- `af.sign(x)`: `1` for negative `x`, `0` otherwise
(comment at `bolt/lib/nonlinear/finite_volume/reconstruction/minmod.py:8`). -/
def afSign {K : Type} [Zero K] [One K] [LinearOrder K] (x : K) : K := if x < 0 then 1 else 0

/-- `af.select(cond, a, b)`, elementwise. -/
def afSelect {K : Type} (p : Prop) [Decidable p] (a b : K) : K := if p then a else b

end Bolt
