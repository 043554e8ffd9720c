import Verif.Model.FVM
import Mathlib.Algebra.BigOperators.Group.Finset.Basic
import Mathlib.Data.Fintype.Card

/-!
# Electromagnetic fields (`bolt/lib/nonlinear/fields/fields.py`, `fields/electrodynamic/fdtd_explicit.py`)

`Q` is the index group of the (local or global) position array; `q1`, `q2 : Q` are the unit steps along its axes.
-/

namespace Bolt

/-- A `(6, 1, N_q1, N_q2)` array of field components `E1, E2, E3, B1, B2, B3` — `fields.py:437-462`. -/
@[ext] structure EM (Q K : Type) where
  (E1 E2 E3 B1 B2 B3 : Q → K)

/-- Three currents, already summed over species — `fields.py:604-606`. -/
structure Currents (Q K : Type) where
  (J1 J2 J3 : Q → K)

/-- Attributes of the fields solver read by the FDTD routines. -/
structure FieldParams (Q K : Type) where
  (q1 q2 : Q)
  (dq1 dq2 eps mu : K)
  hybrid : Bool

variable {Q K : Type} [AddCommGroup Q] [Field K]

/-- `curlB_1` — `fdtd_explicit.py:47` -/
def curlB1 (pr : FieldParams Q K) (F : EM Q K) : Q → K :=
  fun i => (afShift pr.q2 (-1) F.B3 i - F.B3 i) / pr.dq2
/-- `curlB_2` — `fdtd_explicit.py:49` -/
def curlB2 (pr : FieldParams Q K) (F : EM Q K) : Q → K :=
  fun i => -(afShift pr.q1 (-1) F.B3 i - F.B3 i) / pr.dq1
/-- `curlB_3` — `fdtd_explicit.py:51` -/
def curlB3 (pr : FieldParams Q K) (F : EM Q K) : Q → K :=
  fun i => (afShift pr.q1 (-1) F.B2 i - F.B2 i) / pr.dq1 - (afShift pr.q2 (-1) F.B1 i - F.B1 i) / pr.dq2

/-- `curlE_1` — `fdtd_explicit.py:118` -/
def curlE1 (pr : FieldParams Q K) (F : EM Q K) : Q → K :=
  fun i => (F.E3 i - afShift pr.q2 1 F.E3 i) / pr.dq2
/-- `curlE_2` — `fdtd_explicit.py:120` -/
def curlE2 (pr : FieldParams Q K) (F : EM Q K) : Q → K :=
  fun i => -(F.E3 i - afShift pr.q1 1 F.E3 i) / pr.dq1
/-- `curlE_3` — `fdtd_explicit.py:122` -/
def curlE3 (pr : FieldParams Q K) (F : EM Q K) : Q → K :=
  fun i => (F.E2 i - afShift pr.q1 1 F.E2 i) / pr.dq1 - (F.E1 i - afShift pr.q2 1 F.E1 i) / pr.dq2

/-- The update branch of `fdtd_evolve_E` — `fdtd_explicit.py:62-66`. -/
def addCurlB (pr : FieldParams Q K) (J : Currents Q K) (dt : K) (F : EM Q K) : EM Q K :=
  { F with
    E1 := fun i => F.E1 i + ((dt / (pr.mu * pr.eps)) * curlB1 pr F i - J.J1 i * dt / pr.eps)
    E2 := fun i => F.E2 i + ((dt / (pr.mu * pr.eps)) * curlB2 pr F i - J.J2 i * dt / pr.eps)
    E3 := fun i => F.E3 i + ((dt / (pr.mu * pr.eps)) * curlB3 pr F i - J.J3 i * dt / pr.eps) }

/-- `fdtd_evolve_B(self, dt)` — `fdtd_explicit.py:84-138`. -/
def evolveB (pr : FieldParams Q K) (dt : K) (F : EM Q K) : EM Q K :=
  { F with
    B1 := fun i => F.B1 i + -dt * curlE1 pr F i
    B2 := fun i => F.B2 i + -dt * curlE2 pr F i
    B3 := fun i => F.B3 i + -dt * curlE3 pr F i }

/-- `compute_divB` — `fields.py:22-32`. -/
def divB (pr : FieldParams Q K) (F : EM Q K) : Q → K :=
  fun i => (F.B1 i - afShift pr.q1 1 F.B1 i) / pr.dq1 + (F.B2 i - afShift pr.q2 1 F.B2 i) / pr.dq2

/-- `compute_divE` — `fields.py:35-46` (after its ghost exchange). -/
def divE (pr : FieldParams Q K) (F : EM Q K) : Q → K :=
  fun i => (afShift pr.q1 (-1) F.E1 i - F.E1 i) / pr.dq1 + (afShift pr.q2 (-1) F.E2 i - F.E2 i) / pr.dq2

section
variable [LinearOrder K] [Fintype Q]

/-- `af.mean(af.abs(x)) < 1e-14` — `fdtd_explicit.py:56-58`. -/
def meanAbsSmall (x : Q → K) : Prop := (∑ i, |x i|) / (Fintype.card Q : K) < 1 / 10 ^ 14

open Classical in
/-- `fdtd_evolve_E(self, dt)` — `fdtd_explicit.py:9-82`: in the hybrid model `E` is assigned elsewhere and only
`J = curl B / mu` is asserted. -/
noncomputable def evolveE (pr : FieldParams Q K) (J : Currents Q K) (dt : K) (F : EM Q K) : Except PyErr (EM Q K) :=
  if pr.hybrid = true then
    if meanAbsSmall (fun i => J.J1 i - curlB1 pr F i / pr.mu) ∧ meanAbsSmall (fun i => J.J2 i - curlB2 pr F i / pr.mu) ∧
        meanAbsSmall (fun i => J.J3 i - curlB3 pr F i / pr.mu)
    then .ok F else .error .assertion
  else .ok (addCurlB pr J dt F)

/-- `fdtd(self, dt)` — `fdtd_explicit.py:141-177`; `sync` is `communicate_fields(self, True); apply_bcs_fields(self, True)`. -/
noncomputable def fdtd (pr : FieldParams Q K) (sync : EM Q K → EM Q K) (J : Currents Q K) (dt : K) (F : EM Q K) :
    Except PyErr (EM Q K) := do
  let F1 ← evolveE pr J dt (sync F)
  return evolveB pr dt (sync F1)

/-- The inputs of one field step: step size, currents, and (hybrid model only) the electric field assigned by
`df_dt_fvm.py:106-210` before the fields are evolved. -/
structure FDTDStep (Q K : Type) where
  dt : K
  J : Currents Q K
  newE : Option ((Q → K) × (Q → K) × (Q → K)) := none

/-- Assigning the electric field from outside — `df_dt_fvm.py:206-208` (hybrid model). -/
def EM.setE (F : EM Q K) : Option ((Q → K) × (Q → K) × (Q → K)) → EM Q K
  | none => F
  | some E => { F with E1 := E.1, E2 := E.2.1, E3 := E.2.2 }

/-- Successive FDTD steps on the whole periodic grid (no ghost zones, so `sync` has nothing to do). -/
noncomputable def runFDTD (pr : FieldParams Q K) : List (FDTDStep Q K) → EM Q K → Except PyErr (EM Q K)
  | [], F => .ok F
  | st :: rest, F => do
    let F' ← fdtd pr id st.J st.dt (F.setE st.newE)
    runFDTD pr rest F'

end

/-! ## Conversion between the staggered and the cell-centred grid -/

/-- The `fields_to_transform` argument — `fields.py:497,527`. -/
inductive Which
  | E | B | both
  deriving DecidableEq

/-- `cell_centered_grid_to_yee_grid` — `fields.py:497-525`: new staggered fields from the cell-centred `C` and the old staggered `Y`. -/
def toYee (q1 q2 : Q) (w : Which) (C Y : EM Q K) : EM Q K :=
  let e := if w = .E ∨ w = .both then
      { Y with
        E1 := fun i => 1 / 2 * (C.E1 i + afShift q1 1 C.E1 i)
        E2 := fun i => 1 / 2 * (C.E2 i + afShift q2 1 C.E2 i)
        E3 := C.E3 }
    else Y
  if w = .B ∨ w = .both then
    { e with
      B1 := fun i => 1 / 2 * (C.B1 i + afShift q2 1 C.B1 i)
      B2 := fun i => 1 / 2 * (C.B2 i + afShift q1 1 C.B2 i)
      B3 := fun i => 1 / 4 * (C.B3 i + afShift q1 1 C.B3 i + afShift q2 1 C.B3 i + afShift q1 1 (afShift q2 1 C.B3) i) }
  else e

/-- `yee_grid_to_cell_centered_grid` — `fields.py:527-557`: new cell-centred fields from the staggered `Y` and the old cell-centred `C`. -/
def toCentre (q1 q2 : Q) (w : Which) (Y C : EM Q K) : EM Q K :=
  let e := if w = .E ∨ w = .both then
      { C with
        E1 := fun i => 1 / 2 * (Y.E1 i + afShift q1 (-1) Y.E1 i)
        E2 := fun i => 1 / 2 * (Y.E2 i + afShift q2 (-1) Y.E2 i)
        E3 := Y.E3 }
    else C
  if w = .B ∨ w = .both then
    { e with
      B1 := fun i => 1 / 2 * (Y.B1 i + afShift q2 (-1) Y.B1 i)
      B2 := fun i => 1 / 2 * (Y.B2 i + afShift q1 (-1) Y.B2 i)
      B3 := fun i => 1 / 4 * (Y.B3 i + afShift q2 (-1) Y.B3 i + afShift q1 (-1) Y.B3 i + afShift q1 (-1) (afShift q2 (-1) Y.B3) i) }
  else e

/-! ## Initial fields -/

/-- What the user's `initialize` module provides, evaluated on the coordinate arrays at the staggered positions used by the code
(`fields.py:284-297,301-319,349-362,366-379,390-408`). `none` means the function is not defined. -/
structure InitFns (Q K : Type) where
  /-- `initialize_E`: component 0 at left-centre, 1 at centre-bottom, 2 at centre -/
  E : Option ((Q → K) × (Q → K) × (Q → K))
  /-- `initialize_A_phi`: A1 at centre-bottom, A2 at left-centre, A3 at left-bottom, phi at centre -/
  A_phi : Option ((Q → K) × (Q → K) × (Q → K) × (Q → K))
  /-- `initialize_B`: B1 at centre-bottom, B2 at left-centre, B3 at left-bottom -/
  B : Option ((Q → K) × (Q → K) × (Q → K))
  /-- `initialize_A`: A1 at left-centre, A2 at centre-bottom, A3 at centre -/
  A : Option ((Q → K) × (Q → K) × (Q → K))
  /-- `initialize_A3_B3`: A3 at centre, B3 at left-bottom -/
  A3_B3 : Option ((Q → K) × (Q → K))

/-- `(af.shift(x, .., -1, ..) - x) / d` -/
def fwdDiff (e : Q) (d : K) (x : Q → K) : Q → K := fun i => (afShift e (-1) x i - x i) / d

/-- `initialize_electric_fields` — `fields.py:280-338`. -/
def initElectric (pr : FieldParams Q K) (ini : InitFns Q K) (F : EM Q K) : Except PyErr (EM Q K) :=
  match ini.E, ini.A_phi with
  | some E, _ => .ok { F with E1 := E.1, E2 := E.2.1, E3 := E.2.2 }
  | none, some (A1, A2, A3, phi) => .ok
      { F with
        E1 := fun i => fwdDiff pr.q2 pr.dq2 A3 i - -(afShift pr.q1 1 phi i - phi i) / pr.dq1
        E2 := fun i => -fwdDiff pr.q1 pr.dq1 A3 i - -(afShift pr.q2 1 phi i - phi i) / pr.dq2
        E3 := fun i => fwdDiff pr.q1 pr.dq1 A2 i - fwdDiff pr.q2 pr.dq2 A1 i }
  | none, none => .error .notImplemented

/-- `initialize_magnetic_fields` — `fields.py:340-419` (with `update_yee_grid_fields = True`). -/
def initMagnetic (pr : FieldParams Q K) (ini : InitFns Q K) (F : EM Q K) : Except PyErr (EM Q K) :=
  match ini.B, ini.A, ini.A3_B3 with
  | some _, _, some _ => .error .exception
  | some B, _, none => .ok { F with B1 := B.1, B2 := B.2.1, B3 := B.2.2 }
  | none, some (A1, A2, A3), _ => .ok
      { F with
        B1 := fwdDiff pr.q2 pr.dq2 A3
        B2 := fun i => -fwdDiff pr.q1 pr.dq1 A3 i
        B3 := fun i => fwdDiff pr.q1 pr.dq1 A2 i - fwdDiff pr.q2 pr.dq2 A1 i }
  | none, none, some (A3, B3) => .ok
      { F with
        B1 := fun i => (A3 i - afShift pr.q2 1 A3 i) / pr.dq2
        B2 := fun i => -(A3 i - afShift pr.q1 1 A3 i) / pr.dq1
        B3 := B3 }
  | none, none, none => .error .notImplemented

/-! ## The cell-centred time levels and their aliasing -/

/-- The fields solver object.  The attributes `cell_centered_EM_fields`, `..._at_n` and `..._at_n_plus_half` are references to
array objects; item assignment (`a[:3] = x`) mutates the object, so it is seen through every attribute that refers to it.  `O` are the
names of objects: three suffice unless new objects are made (as in `Model/AslCoupled`). -/
structure FieldState (Q K : Type) (O : Type := Fin 3) where
  heap : O → EM Q K
  /-- object of `cell_centered_EM_fields` -/
  cc : O
  /-- object of `cell_centered_EM_fields_at_n` -/
  atN : O
  /-- object of `cell_centered_EM_fields_at_n_plus_half` -/
  atHalf : O
  yee : EM Q K
  /-- the flag `self.at_n` -/
  flag : Bool
  timeElapsed : K

/-- `obj[:3] = E` -/
def FieldState.writeE {O : Type} [DecidableEq O] (σ : FieldState Q K O) (o : O) (E : EM Q K) : FieldState Q K O :=
  { σ with heap := fun k => if k = o then { σ.heap o with E1 := E.E1, E2 := E.E2, E3 := E.E3 } else σ.heap k }

/-- `obj[3:] = B` -/
def FieldState.writeB {O : Type} [DecidableEq O] (σ : FieldState Q K O) (o : O) (B : EM Q K) : FieldState Q K O :=
  { σ with heap := fun k => if k = o then { σ.heap o with B1 := B.B1, B2 := B.B2, B3 := B.B3 } else σ.heap k }

/-- `0.5 * (x + y)`, componentwise — `fields.py:623,642`. -/
def EM.avg (x y : EM Q K) : EM Q K :=
  ⟨fun i => 1 / 2 * (x.E1 i + y.E1 i), fun i => 1 / 2 * (x.E2 i + y.E2 i), fun i => 1 / 2 * (x.E3 i + y.E3 i),
   fun i => 1 / 2 * (x.B1 i + y.B1 i), fun i => 1 / 2 * (x.B2 i + y.B2 i), fun i => 1 / 2 * (x.B3 i + y.B3 i)⟩

/-- The state after `_initialize` with user-defined fields — `fields.py:273,437-462,472-475,493-494`: the staggered fields are
initialised and interpolated to the cell centres; then both time levels are bound to the *same object* as
`cell_centered_EM_fields` (lines 493-494). -/
def initFields (pr : FieldParams Q K) (ini : InitFns Q K) : Except PyErr (FieldState Q K) := do
  let zero : EM Q K := ⟨fun _ => 0, fun _ => 0, fun _ => 0, fun _ => 0, fun _ => 0, fun _ => 0⟩
  let Y1 ← initElectric pr ini zero
  let Y2 ← initMagnetic pr ini Y1
  return { heap := fun k => if k = 0 then toCentre pr.q1 pr.q2 .both Y2 zero else zero
           cc := 0, atN := 0, atHalf := 0, yee := Y2, flag := true, timeElapsed := 0 }

section
variable [LinearOrder K] [Fintype Q]

/-- `evolve_electrodynamic_fields(self, J1, J2, J3, dt)` — `fields.py:568-647`, line by line, for the staggered fields `Y` that its call
of `fdtd` (line 635) leaves; the lines before that call do not touch the staggered fields.  `a[:3]` and `a[3:]` on the right-hand side
make new arrays. -/
def storeFields {O : Type} [DecidableEq O] (pr : FieldParams Q K) (dt : K) (Y : EM Q K) (σ : FieldState Q K O) : FieldState Q K O :=
  let EatN := σ.heap σ.cc                       -- 610
  let σ1 := σ.writeE σ.atN EatN                 -- 611
  let BatNMinusHalf := σ1.heap σ1.atHalf        -- 617
  let BatNPlusHalf := σ1.heap σ1.cc             -- 620
  let BatN := EM.avg BatNMinusHalf BatNPlusHalf -- 623
  let σ2 := σ1.writeB σ1.atN BatN               -- 624
  let σ3 := σ2.writeB σ2.atHalf BatNPlusHalf    -- 628
  let σ4 : FieldState Q K O := { σ3 with
    yee := Y                                    -- 635
    heap := fun k => if k = σ3.cc then toCentre pr.q1 pr.q2 .both Y (σ3.heap σ3.cc) else σ3.heap k } -- 636
  let EatNPlusOne := σ4.heap σ4.cc              -- 639
  let EatNPlusHalf := EM.avg EatN EatNPlusOne   -- 642
  let σ5 := σ4.writeE σ4.atHalf EatNPlusHalf    -- 643
  { σ5 with timeElapsed := σ5.timeElapsed + dt } -- 646

/-- `evolve_electrodynamic_fields(self, J1, J2, J3, dt)` with its call of `fdtd` — `fields.py:568-647`; `J` is already summed over species
(lines 604-606). -/
noncomputable def evolveElectrodynamic {O : Type} [DecidableEq O] (pr : FieldParams Q K) (sync : EM Q K → EM Q K) (J : Currents Q K) (dt : K)
    (σ : FieldState Q K O) : Except PyErr (FieldState Q K O) := do
  let Y ← fdtd pr sync J dt σ.yee
  return storeFields pr dt Y σ

end

/-- `get_fields(self)` — `fields.py:649-690`: the values returned, and the new value of the flag. -/
def getFields {O : Type} (fieldsSolver solverMethodInP : String) (σ : FieldState Q K O) : EM Q K × FieldState Q K O :=
  let out := if fieldsSolver ≠ "fdtd" then σ.heap σ.cc
    else if σ.flag = true then σ.heap σ.atN else σ.heap σ.atHalf
  (out, if solverMethodInP = "FVM" then { σ with flag := !σ.flag } else σ)

end Bolt
