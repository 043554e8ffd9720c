import Verif.Model.Layout
import Verif.Model.MachineCoupled

/-!
# The finite-volume program on blocks of memory

The other modules index the distribution function by species, momentum cell and position cell.  Here the statements of `reconstruct.py`, `minmod.py`, `ppm.py`,
`riemann.py`, `df_dt_fvm.py`, `fvm_operator.py`, `compute_moments.py` and `broadcasted_primitive_operations.py` are modelled once more as what they are: operations on
`af.Array`s, that is on shapes and column-major blocks of numbers, which raise when shapes do not fit.  Element operations are those of an arbitrary `Machine`.
-/

namespace Bolt

open Machine

namespace AfArray
variable {K L M : Type}

/-- An elementwise function. -/
def map (f : K → L) (a : AfArray K) : AfArray L := ⟨a.d0, a.d1, a.d2, a.d3, fun n => f (a.data n)⟩

/-- Position reached on a cyclic axis of length `d`. -/
def wrap (x : ℤ) (d : ℕ) : ℕ := (x % d).toNat

/-- `af.shift(a, s0, s1, s2, s3)` (omitted arguments are 0): element `[i, j, k, l]` comes from `[i - s0, j - s1, k - s2, l - s3]`, cyclically. -/
def shift (a : AfArray K) (s0 s1 s2 s3 : ℤ) : AfArray K :=
  ofFn a.d0 a.d1 a.d2 a.d3 fun i j k l => a.get (wrap (i - s0) a.d0) (wrap (j - s1) a.d1) (wrap (k - s2) a.d2) (wrap (l - s3) a.d3)

/-- A binary operation outside `af.broadcast`: ArrayFire rejects arrays of different shapes. -/
def zipWith (f : K → L → M) (a : AfArray K) (b : AfArray L) : Except PyErr (AfArray M) :=
  if a.d0 = b.d0 ∧ a.d1 = b.d1 ∧ a.d2 = b.d2 ∧ a.d3 = b.d3 then .ok ⟨a.d0, a.d1, a.d2, a.d3, fun n => f (a.data n) (b.data n)⟩
  else .error .exception

/-- Two lengths of an axis ArrayFire accepts in batched mode. -/
def Fits (d e : ℕ) : Prop := d = e ∨ d = 1 ∨ e = 1

instance (d e : ℕ) : Decidable (Fits d e) := by unfold Fits; infer_instance

/-- Index used along an axis of length `d`: an axis of length 1 is repeated. -/
def along (d i : ℕ) : ℕ := if d = 1 then 0 else i

/-- A binary operation inside `af.broadcast` (ArrayFire's batched mode): axes of length 1 are repeated, other differences are rejected. -/
def batched (f : K → L → M) (a : AfArray K) (b : AfArray L) : Except PyErr (AfArray M) :=
  if Fits a.d0 b.d0 ∧ Fits a.d1 b.d1 ∧ Fits a.d2 b.d2 ∧ Fits a.d3 b.d3 then
    .ok (ofFn (max a.d0 b.d0) (max a.d1 b.d1) (max a.d2 b.d2) (max a.d3 b.d3) fun i j k l =>
      f (a.get (along a.d0 i) (along a.d1 j) (along a.d2 k) (along a.d3 l)) (b.get (along b.d0 i) (along b.d1 j) (along b.d2 k) (along b.d3 l)))
  else .error .exception

/-- `af.tile(a, n0, n1, n2, n3)`. -/
def tile (a : AfArray K) (n0 n1 n2 n3 : ℕ) : AfArray K :=
  ofFn (a.d0 * n0) (a.d1 * n1) (a.d2 * n2) (a.d3 * n3) fun i j k l => a.get (i % a.d0) (j % a.d1) (k % a.d2) (l % a.d3)

/-- `a.numdims()`: trailing axes of length 1 do not count. -/
def numdims (a : AfArray K) : ℕ := if a.d3 ≠ 1 then 4 else if a.d2 ≠ 1 then 3 else if a.d1 ≠ 1 then 2 else 1

/-- `a.shape[2]`; `none` when Python raises `IndexError` (`shape` has `numdims()` entries). -/
def shape2 (a : AfArray K) : Option ℕ := if 2 < a.numdims then some a.d2 else none

/-- `a.shape[3]`. -/
def shape3 (a : AfArray K) : Option ℕ := if 3 < a.numdims then some a.d3 else none

/-- `af.select(cond, a, b)`; ArrayFire rejects arrays of different shapes. -/
def select (c : AfArray Bool) (a b : AfArray K) : Except PyErr (AfArray K) :=
  if c.d0 = a.d0 ∧ c.d1 = a.d1 ∧ c.d2 = a.d2 ∧ c.d3 = a.d3 ∧ a.d0 = b.d0 ∧ a.d1 = b.d1 ∧ a.d2 = b.d2 ∧ a.d3 = b.d3 then
    .ok ⟨a.d0, a.d1, a.d2, a.d3, fun n => if c.data n then a.data n else b.data n⟩
  else .error .exception

/-- `af.sum(a, 0)`; `red` is what the library makes of a column of numbers. -/
def sum0 (red : List K → K) (a : AfArray K) : AfArray K :=
  ofFn 1 a.d1 a.d2 a.d3 fun _ j k l => red ((List.range a.d0).map fun i => a.get i j k l)

/-- `af.sum(a, 1)`. -/
def sum1 (red : List K → K) (a : AfArray K) : AfArray K :=
  ofFn a.d0 1 a.d2 a.d3 fun i _ k l => red ((List.range a.d1).map fun j => a.get i j k l)

end AfArray

/-- A value in the array programs: a Python number or an `af.Array`. -/
inductive PyVal (K : Type)
  | num (x : K)
  | arr (a : AfArray K)

/-- The outcome of an expression: a value or an exception. -/
def PyExpr (K : Type) : Type := Except PyErr (PyVal K)

namespace PyExpr
variable {K : Type}

/-- A binary operator; `batch` tells whether it is executed inside `af.broadcast`. -/
def binVal (batch : Bool) (f : K → K → K) : PyVal K → PyVal K → PyExpr K
  | .num x, .num y => .ok (.num (f x y))
  | .num x, .arr b => .ok (.arr (b.map (f x)))
  | .arr a, .num y => .ok (.arr (a.map fun x => f x y))
  | .arr a, .arr b => (if batch then a.batched f b else a.zipWith f b).map .arr

/-- A binary operator on expressions. -/
def bin (batch : Bool) (f : K → K → K) (x y : PyExpr K) : PyExpr K := Except.bind x fun a => Except.bind y fun b => binVal batch f a b

/-- An elementwise function of one argument. -/
def un (f : K → K) (x : PyExpr K) : PyExpr K := Except.map (fun | .num v => .num (f v) | .arr a => .arr (a.map f)) x

/-- A function that needs an array. -/
def onArr (g : AfArray K → PyExpr K) (x : PyExpr K) : PyExpr K :=
  Except.bind x fun | .num _ => .error .typeError | .arr a => g a

/-- `af.shift`. -/
def shift (x : PyExpr K) (s0 s1 s2 s3 : ℤ) : PyExpr K := x.onArr fun a => .ok (.arr (a.shift s0 s1 s2 s3))

/-- A shift by `k` along one of the four axes: the branches on `axis` in `minmod.py:31-49` and `ppm.py:19-55`. -/
def shiftAlong (x : PyExpr K) (axis : Fin 4) (k : ℤ) : PyExpr K :=
  x.shift (if axis = 0 then k else 0) (if axis = 1 then k else 0) (if axis = 2 then k else 0) (if axis = 3 then k else 0)

variable [Machine K]

instance : Add (PyExpr K) := ⟨bin false add⟩
instance : Sub (PyExpr K) := ⟨bin false sub⟩
instance : Mul (PyExpr K) := ⟨bin false mul⟩
instance : Div (PyExpr K) := ⟨bin false div⟩
instance : Neg (PyExpr K) := ⟨un neg⟩

/-- A number of the program's state. -/
def num (x : K) : PyExpr K := .ok (.num x)

/-- A literal of the source. -/
def const (c : ℚ) : PyExpr K := num (lit c)

/-- `multiply(*args)` — `broadcasted_primitive_operations.py:19-26`: `result = 1`, then `result *= x` for every argument, inside `af.broadcast`. -/
def multiply (args : List (PyExpr K)) : PyExpr K := args.foldl (bin true mul) (const 1)

/-- `add(*args)` — `broadcasted_primitive_operations.py:10-17`. -/
def addAll (args : List (PyExpr K)) : PyExpr K := args.foldl (bin true add) (const 0)

/-- A comparison `x <= y` used as an array of zeros and ones. -/
def leq (x y : PyExpr K) : PyExpr K := bin false (fun a b => ofBool (le a b)) x y

/-- A comparison `x < y` used as an array of zeros and ones (`y > x` likewise). -/
def less (x y : PyExpr K) : PyExpr K := bin false (fun a b => ofBool (lt a b)) x y

/-- `minmod(x, y, z)` — `minmod.py:4-16`. -/
def minmod (x y z : PyExpr K) : PyExpr K :=
  let min_of_all := bin false minof (bin false minof (un Machine.abs x) (un Machine.abs y)) (un Machine.abs z)
  let signx := const 1 - const 2 * un sign x
  let signy := const 1 - const 2 * un sign y
  let signz := const 1 - const 2 * un sign z
  const (1 / 4) * un Machine.abs (signx + signy) * (signx + signz) * min_of_all

/-- `slope_minmod(input_array, axis)` — `minmod.py:18-62`. -/
def slopeMinmod (input_array : PyExpr K) (axis : Fin 4) : PyExpr K :=
  let f_i_plus_one := input_array.shiftAlong axis (-1)
  let f_i_minus_one := input_array.shiftAlong axis 1
  let forward_diff := f_i_plus_one - input_array
  let backward_diff := input_array - f_i_minus_one
  let central_diff := backward_diff + forward_diff
  let left := const 2 * backward_diff
  let center := const (1 / 2) * central_diff
  let right := const 2 * forward_diff
  minmod left center right

/-- `reconstruct_minmod(variable_to_reconstruct, dim)` — `minmod.py:64-71`. -/
def reconstructMinmod (x : PyExpr K) (axis : Fin 4) : PyExpr K × PyExpr K :=
  let slope := slopeMinmod x axis
  (x - const (1 / 2) * slope, x + const (1 / 2) * slope)

/-- `DQ1`, `DQ2`, `DQ3` — `ppm.py:67-80`. -/
def ppmDQ (D d d' : PyExpr K) : PyExpr K :=
  let cond_zero_slope := leq (d' * d) (const 0)
  let sign := less (const 0) D * const 2 - const 1
  (const 1 - cond_zero_slope) * sign * bin false minof (un Machine.abs D) (bin false minof (un Machine.abs d) (un Machine.abs d'))

/-- `reconstruct_ppm(input_array, axis)` — `ppm.py:4-100`. -/
def reconstructPPM (y2 : PyExpr K) (axis : Fin 4) : PyExpr K × PyExpr K :=
  let y0 := y2.shiftAlong axis 2
  let y1 := y2.shiftAlong axis 1
  let y3 := y2.shiftAlong axis (-1)
  let y4 := y2.shiftAlong axis (-2)
  let d0 := const 2 * (y1 - y0)
  let d1 := const 2 * (y2 - y1)
  let d2 := const 2 * (y3 - y2)
  let d3 := const 2 * (y4 - y3)
  let D1 := const (1 / 2) * (y2 - y0)
  let D2 := const (1 / 2) * (y3 - y1)
  let D3 := const (1 / 2) * (y4 - y2)
  let DQ1 := ppmDQ D1 d0 d1
  let DQ2 := ppmDQ D2 d1 d2
  let DQ3 := ppmDQ D3 d2 d3
  let L := const (1 / 2) * (y2 + y1) - (DQ2 - DQ1) / const 6
  let R := const (1 / 2) * (y3 + y2) - (DQ3 - DQ2) / const 6
  let corr1 := leq ((R - y2) * (y2 - L)) (const 0)
  let qd := R - L
  let qe := const 6 * (y2 - const (1 / 2) * (R + L))
  let corr2 := less (qd * (qd - qe)) (const 0)
  let corr3 := less (qd * (qd + qe)) (const 0)
  let L := L * (const 1 - corr1) + corr1 * y2
  let R := R * (const 1 - corr1) + corr1 * y2
  let L := L * (const 1 - corr2) + corr2 * (const 3 * y2 - const 2 * R)
  let R := R * corr2 + (const 1 - corr2) * R * (const 1 - corr3) + (const 1 - corr2) * corr3 * (const 3 * y2 - const 2 * L)
  (L, R)

/-- `reconstruct(self, input_array, axis, reconstruction_method)` — `reconstruct.py:7-51`. -/
def reconstruct (method : String) (x : PyExpr K) (axis : Fin 4) : PyExpr K × PyExpr K :=
  match reconMethod method with
  | .ok .piecewiseConstant => (x, x)
  | .ok .minmod => reconstructMinmod x axis
  | .ok .ppm => reconstructPPM x axis
  | .error e => (.error e, .error e)

/-- `riemann_solver(self, left_state, right_state, velocity)` on arrays — `riemann.py:26-50`: the velocity is tiled along the last two axes unless
`velocity.shape[2] == left_state.shape[2]`. -/
def riemannArr (left right velocity : AfArray K) : PyExpr K :=
  let size_axis_2 := left.shape2.getD 1
  let size_axis_3 := left.shape3.getD 1
  let velocity := if velocity.shape2 ≠ none ∧ velocity.shape2 = left.shape2 then velocity else velocity.tile 1 1 size_axis_2 size_axis_3
  Except.map PyVal.arr (AfArray.select (velocity.map fun v => lt (lit 0) v) left right)

/-- `riemann_solver`. -/
def riemann (left right velocity : PyExpr K) : PyExpr K :=
  left.onArr fun l => right.onArr fun r => velocity.onArr fun v => riemannArr l r v

/-- `self._convert_to_p_expanded(x)`. -/
def toP (z : GridSizes) (x : PyExpr K) : PyExpr K := x.onArr fun a => Except.map PyVal.arr (convertToPExpanded z a)

/-- `self._convert_to_q_expanded(x)`. -/
def toQ (z : GridSizes) (x : PyExpr K) : PyExpr K := x.onArr fun a => Except.map PyVal.arr (convertToQExpanded z a)

end PyExpr

/-- The arrays the callbacks return to `df_dt_fvm` — `df_dt_fvm.py:66-77, 91-97, 251-267` — and the arrays `self.dp1`, `self.dp2`, `self.dp3`
(`nonlinear_solver.py:378-380`). -/
structure ArrIn (K : Type) where
  (Cq1 Cq2 Cp1 Cp2 Cp3 source : PyExpr K)
  (dp1 dp2 dp3 : PyExpr K)

section slope
open PyExpr
variable {S K : Type} [Machine K]

/-- The upwinded states at the left faces along one axis (`f_left`, `f_bot`, ...) — `df_dt_fvm.py:58-59, 61-64, 79-80` and `275-286, 298-300`. -/
def arrLeftState (method : String) (axis : Fin 4) (C f : PyExpr K) : PyExpr K :=
  let faces := PyExpr.reconstruct method f axis
  let left_minus_eps := faces.2.shiftAlong axis 1
  PyExpr.riemann left_minus_eps faces.1 C

/-- The left-hand fluxes along one axis — `df_dt_fvm.py:82-83, 302-304`. -/
def arrLeftFlux (method : String) (axis : Fin 4) (C f : PyExpr K) : PyExpr K := multiply [C, arrLeftState method axis C f]

/-- The part of `df_dt` that comes from the position axes — `df_dt_fvm.py:54-97`. -/
def arrDfdtQ (cfg : FVMConfig S K) (x : ArrIn K) (f : PyExpr K) : PyExpr K :=
  let df_dt : PyExpr K := const 0
  if cfg.solverMethodInQ = "FVM" then
    let left_flux := arrLeftFlux cfg.reconstructionInQ 2 x.Cq1 f
    let bot_flux := arrLeftFlux cfg.reconstructionInQ 3 x.Cq2 f
    let right_flux := left_flux.shift 0 0 (-1) 0
    let top_flux := bot_flux.shift 0 0 0 (-1)
    let df_dt := df_dt + (-(right_flux - left_flux) / num cfg.dq1 - (top_flux - bot_flux) / num cfg.dq2)
    if cfg.sourceEnabled = true then df_dt + x.source else df_dt
  else df_dt

/-- `df_dt_fvm(f, self)` with `term_to_return = 'all'`, on arrays — `df_dt_fvm.py:33-339`; the field updates of lines 102-242 are modelled in `Model/Coupled`. -/
def arrDfdt (z : GridSizes) (cfg : FVMConfig S K) (x : ArrIn K) (f : PyExpr K) : PyExpr K :=
  let df_dt := arrDfdtQ cfg x f
  if cfg.solverMethodInP = "FVM" ∧ cfg.fieldsEnabled = true then
    let C_p1 := toP z x.Cp1
    let C_p2 := toP z x.Cp2
    let C_p3 := toP z x.Cp3
    let f := toP z f
    let left_flux_p1 := arrLeftFlux cfg.reconstructionInP 0 C_p1 f
    let bot_flux_p2 := arrLeftFlux cfg.reconstructionInP 1 C_p2 f
    let back_flux_p3 := arrLeftFlux cfg.reconstructionInP 2 C_p3 f
    let right_flux_p1 := left_flux_p1.shift (-1) 0 0 0
    let top_flux_p2 := bot_flux_p2.shift 0 (-1) 0 0
    let front_flux_p3 := back_flux_p3.shift 0 0 (-1) 0
    let d_flux_p1_dp1 := multiply [toQ z right_flux_p1 - toQ z left_flux_p1, const 1 / x.dp1]
    let d_flux_p2_dp2 := multiply [toQ z top_flux_p2 - toQ z bot_flux_p2, const 1 / x.dp2]
    let d_flux_p3_dp3 := multiply [toQ z front_flux_p3 - toQ z back_flux_p3, const 1 / x.dp3]
    df_dt + -(d_flux_p1_dp1 + d_flux_p2_dp2 + d_flux_p3_dp3)
  else df_dt

/-- `f + slope * h` — `fvm_operator.py:26, 33`. -/
def arrAdvance (f slope : PyExpr K) (h : K) : PyExpr K := f + slope * num h

variable {N1 N2 : ℕ} {R : Type} (D : Decomp N1 N2 R)

/-- One `timestep_fvm(self, dt)` on all processes, from the blocks `F` to the blocks `F'` — `fvm_operator.py:6-35`; `x k r` are the arrays read by process `r` in the
`k`-th slope evaluation (they may depend on the distribution, as `source` does). Periodic boundary conditions, for which `_apply_bcs_f` does nothing. -/
def ArrStep (g1 g2 Np1 Np2 Np3 Ns : ℕ) (cfg : FVMConfig S K) (dt : K) (x : Fin 2 → R → AfArray K → ArrIn K) (F F' : R → AfArray K) : Prop :=
  ∃ (st0 st1 : R → Vec K) (F0 H Fh : R → AfArray K),
    let z := D.sizes Np1 Np2 Np3 Ns g1 g2
    D.Communicates z g1 g2 .periodic .periodic (Np1 * Np2 * Np3) Ns st0 F F0 ∧
    (∀ r, arrAdvance (.ok (.arr (F0 r))) (arrDfdt (z r) cfg (x 0 r (F0 r)) (.ok (.arr (F0 r)))) (dt ⊘ lit 2) = .ok (.arr (H r))) ∧
    D.Communicates z g1 g2 .periodic .periodic (Np1 * Np2 * Np3) Ns st1 H Fh ∧
    ∀ r, arrAdvance (.ok (.arr (F0 r))) (arrDfdt (z r) cfg (x 1 r (Fh r)) (.ok (.arr (Fh r)))) dt = .ok (.arr (F' r))

/-- Successive steps. -/
def ArrRun (g1 g2 Np1 Np2 Np3 Ns : ℕ) (cfg : FVMConfig S K) : List (K × (Fin 2 → R → AfArray K → ArrIn K)) → (R → AfArray K) → (R → AfArray K) → Prop
  | [], F, F' => F' = F
  | (dt, x) :: rest, F, F' => ∃ G, ArrStep D g1 g2 Np1 Np2 Np3 Ns cfg dt x F G ∧ ArrRun g1 g2 Np1 Np2 Np3 Ns cfg rest G F'

end slope

section force
open PyExpr
variable {K : Type} [Machine K]

/-- `(e/m) * (E + va * Bb - vb * Ba)`, inside `af.broadcast` — one component of `C_p`, `nonrelativistic_boltzmann/advection_terms.py:179-188`, as called in
`df_dt_fvm.py:251-267`. -/
def arrForce (e m E va Bb vb Ba : PyExpr K) : PyExpr K :=
  bin true mul (bin true div e m) (bin true sub (bin true add E (bin true mul va Bb)) (bin true mul vb Ba))

end force

section moments
open PyExpr
variable {K : Type} [Machine K] (red : List K → K)

/-- `integral_over_v(array, integral_measure)` inside `af.broadcast` — `integral_over_v.py:6-7`, `compute_moments.py:42-46`. -/
def arrIntegral (x measure : PyExpr K) : PyExpr K := bin true mul (x.onArr fun a => .ok (.arr (a.sum0 red))) measure

/-- `compute_moments('density', f)` — `moments.py:6-7`; `dp3 * dp2 * dp1` is computed before `af.broadcast` is entered (`compute_moments.py:45`). -/
def arrDensity (dp1 dp2 dp3 f : PyExpr K) : PyExpr K := arrIntegral red f (dp3 * dp2 * dp1)

/-- `compute_moments('mom_v1_bulk', f)` and its fellows, with the coordinate array `v` — `moments.py:9-16`. -/
def arrMomV (dp1 dp2 dp3 v f : PyExpr K) : PyExpr K := arrIntegral red (bin true mul f v) (dp3 * dp2 * dp1)

/-- `af.sum(multiply(charge, moment), 1)` — `df_dt_fvm.py:214-224, 238-240`, `fields.py:276, 604-606`. -/
def arrOfSpecies (charge moment : PyExpr K) : PyExpr K := (multiply [charge, moment]).onArr fun a => .ok (.arr (a.sum1 red))

end moments

end Bolt
