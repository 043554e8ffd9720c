import Verif.Model.Array

/-!
# Reconstruction of face values (`bolt/lib/nonlinear/finite_volume/reconstruct.py` and `reconstruction/*.py`)

Every routine takes the axis as the index `e` of a unit step along that axis (Python: `axis` 0..3).
-/

namespace Bolt

variable {I K : Type} [AddCommGroup I] [Field K] [LinearOrder K]

/-- `minmod(x, y, z)` — `reconstruction/minmod.py:4-16`, elementwise.  The decimal literal `0.25` is the exact `1/4`. -/
def minmod (x y z : K) : K :=
  let minOfAll := min (min |x| |y|) |z|
  let signx := 1 - 2 * afSign x
  let signy := 1 - 2 * afSign y
  let signz := 1 - 2 * afSign z
  1 / 4 * |signx + signy| * (signx + signz) * minOfAll

/-- `slope_minmod(input_array, axis)` — `reconstruction/minmod.py:18-62`. -/
def slopeMinmod (e : I) (x : I → K) : I → K := fun i =>
  let fPlus := afShift e (-1) x i
  let fMinus := afShift e 1 x i
  let forward := fPlus - x i
  let backward := x i - fMinus
  let central := backward + forward
  let left := 2 * backward
  let center := 1 / 2 * central
  let right := 2 * forward
  minmod left center right

/-- `reconstruct_minmod` — `reconstruction/minmod.py:64-71`: (left face value, right face value). -/
def reconstructMinmod (e : I) (x : I → K) : (I → K) × (I → K) :=
  (fun i => x i - 1 / 2 * slopeMinmod e x i, fun i => x i + 1 / 2 * slopeMinmod e x i)

/-- The limited slopes `DQ1, DQ2, DQ3` — `reconstruction/ppm.py:67-80`; `D` is the central difference,
`d`, `d'` twice the one-sided differences.  The three blocks of the Python text have this common form. -/
def ppmDQ (D d d' : K) : K :=
  let condZeroSlope := b2k K (d' * d ≤ 0)
  let sign := b2k K (D > 0) * 2 - 1
  (1 - condZeroSlope) * sign * min |D| (min |d| |d'|)

/-- `reconstruct_ppm` on the five stencil values — `reconstruction/ppm.py:57-100`. -/
def ppmCell (y0 y1 y2 y3 y4 : K) : K × K :=
  let d0 := 2 * (y1 - y0)
  let d1 := 2 * (y2 - y1)
  let d2 := 2 * (y3 - y2)
  let d3 := 2 * (y4 - y3)
  let D1 := 1 / 2 * (y2 - y0)
  let D2 := 1 / 2 * (y3 - y1)
  let D3 := 1 / 2 * (y4 - y2)
  let DQ1 := ppmDQ D1 d0 d1
  let DQ2 := ppmDQ D2 d1 d2
  let DQ3 := ppmDQ D3 d2 d3
  -- base high-order reconstruction (ppm.py:83-84)
  let L := 1 / 2 * (y2 + y1) - (DQ2 - DQ1) / 6
  let R := 1 / 2 * (y3 + y2) - (DQ3 - DQ2) / 6
  -- corrections (ppm.py:87-91): all three conditions are computed before any correction is applied
  let corr1 := b2k K ((R - y2) * (y2 - L) ≤ 0)
  let qd := R - L
  let qe := 6 * (y2 - 1 / 2 * (R + L))
  let corr2 := b2k K (qd * (qd - qe) < 0)
  let corr3 := b2k K (qd * (qd + qe) < 0)
  -- ppm.py:93-94
  let L := L * (1 - corr1) + corr1 * y2
  let R := R * (1 - corr1) + corr1 * y2
  -- ppm.py:96-98
  let L := L * (1 - corr2) + corr2 * (3 * y2 - 2 * R)
  let R := R * corr2 + (1 - corr2) * R * (1 - corr3) + (1 - corr2) * corr3 * (3 * y2 - 2 * L)
  (L, R)

/-- `reconstruct_ppm(input_array, axis)` — `reconstruction/ppm.py:4-100`; the shifts of lines 19-55 are
`2, 1, -1, -2` along the axis. -/
def reconstructPPM (e : I) (x : I → K) : (I → K) × (I → K) :=
  (fun i => (ppmCell (afShift e 2 x i) (afShift e 1 x i) (x i) (afShift e (-1) x i) (afShift e (-2) x i)).1,
   fun i => (ppmCell (afShift e 2 x i) (afShift e 1 x i) (x i) (afShift e (-1) x i) (afShift e (-2) x i)).2)

/-- Smoothness operator of `reconstruct_weno5` — `reconstruction/weno5.py:58-71`.  All three of
`beta1, beta2, beta3` use this same formula, on `(y0,y1,y2)`, `(y1,y2,y3)` and `(y2,y3,y4)`. -/
def wenoBeta (eps a b c : K) : K :=
  (4 / 3 * a * a - 19 / 3 * a * b + 25 / 3 * b * b + 11 / 3 * a * c - 31 / 3 * b * c + 10 / 3 * c * c)
    + eps * (1 + |a| + |b| + |c|)

/-- `eps = 1e-17` — `reconstruction/weno5.py:18`. -/
def wenoEps : K := 1 / 10 ^ 17

/-- `reconstruct_weno5` on the five stencil values — `reconstruction/weno5.py:51-98`. -/
def wenoCell (y0 y1 y2 y3 y4 : K) : K × K :=
  let b1 := wenoBeta wenoEps y0 y1 y2
  let b2 := wenoBeta wenoEps y1 y2 y3
  let b3 := wenoBeta wenoEps y2 y3 y4
  let w1r := 1 / (16 * b1 * b1)
  let w2r := 5 / (8 * b2 * b2)
  let w3r := 5 / (16 * b3 * b3)
  let w1l := 5 / (16 * b1 * b1)
  let w2l := 5 / (8 * b2 * b2)
  let w3l := 1 / (16 * b3 * b3)
  let denl := w1l + w2l + w3l
  let denr := w1r + w2r + w3r
  let u1r := 3 / 8 * y0 - 5 / 4 * y1 + 15 / 8 * y2
  let u2r := -1 / 8 * y1 + 3 / 4 * y2 + 3 / 8 * y3
  let u3r := 3 / 8 * y2 + 3 / 4 * y3 - 1 / 8 * y4
  let u1l := -1 / 8 * y0 + 3 / 4 * y1 + 3 / 8 * y2
  let u2l := 3 / 8 * y1 + 3 / 4 * y2 - 1 / 8 * y3
  let u3l := 15 / 8 * y2 - 5 / 4 * y3 + 3 / 8 * y4
  ((w1l * u1l + w2l * u2l + w3l * u3l) / denl, (w1r * u1r + w2r * u2r + w3r * u3r) / denr)

/-- `reconstruct_weno5(input_array, axis)` — `reconstruction/weno5.py:4-98` (unreachable through `reconstruct`). -/
def reconstructWENO5 (e : I) (x : I → K) : (I → K) × (I → K) :=
  (fun i => (wenoCell (afShift e 2 x i) (afShift e 1 x i) (x i) (afShift e (-1) x i) (afShift e (-2) x i)).1,
   fun i => (wenoCell (afShift e 2 x i) (afShift e 1 x i) (x i) (afShift e (-1) x i) (afShift e (-2) x i)).2)

/-- The reconstruction methods that `reconstruct` can reach. -/
inductive Recon
  | piecewiseConstant | minmod | ppm
  deriving DecidableEq, Repr

/-- The string dispatch of `reconstruct.py:29-44` (the choice does not depend on the data). -/
def reconMethod (name : String) : Except PyErr Recon :=
  if name = "piecewise-constant" then .ok .piecewiseConstant
  else if name = "minmod" then .ok .minmod
  else if name = "ppm" then .ok .ppm
  else if name = "weno5" then .error .systemExit
  else .error .notImplemented

/-- Face values for a resolved method — `reconstruct.py:29-37`. -/
def reconFaces (m : Recon) (e : I) (x : I → K) : (I → K) × (I → K) :=
  match m with
  | .piecewiseConstant => (x, x)
  | .minmod => reconstructMinmod e x
  | .ppm => reconstructPPM e x

/-- `reconstruct(self, input_array, axis, reconstruction_method)` — `reconstruct.py:7-51` (timers omitted). -/
def reconstruct (name : String) (e : I) (x : I → K) : Except PyErr ((I → K) × (I → K)) := do
  let m ← reconMethod name
  return reconFaces m e x

end Bolt
