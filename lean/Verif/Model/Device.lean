import Verif.Model.Array
import Mathlib.Algebra.Order.Field.Basic
import Mathlib.Analysis.SpecialFunctions.Trigonometric.Basic
import Mathlib.Analysis.SpecialFunctions.Sqrt

/-!
# The graphene device
(`example_problems/electronic_boltzmann/graphene/L_5.0_10.0_tau_ee_0.2_tau_eph_1.0/{main,params,boundary_conditions}.py`, below: `main.py`, …)

The state of the solver is the distribution together with everything else it changes (the chemical potentials, temperatures, … in `params`).
-/

namespace Bolt

variable {C R K M A : Type} [Field K] [LinearOrder K]

/-- The entries of `params` that the script reads — `params.py:34-46,96`. -/
structure DeviceParams (K : Type) where
  dt : K
  tFinal : K
  dumpSteps : ℕ
  /-- `collision_operator_nonlinear_iters` -/
  iters : ℕ
  restart : Bool
  /-- the floor, `1e-20` -/
  floor : K

/-- The files the script writes: numbered moments, distributions and Lagrange multipliers, `dump_time_array.txt` and `f_laststep`. -/
structure DeviceDisk (F M A K : Type) where
  moments : ℕ → Option M
  dist : ℕ → Option F
  aux : ℕ → Option A
  times : Option (List K)
  last : Option F

/-- The variables of the script. -/
structure DeviceState (C R K M A : Type) where
  nls : (C → K) × R
  /-- `t0` and `params.current_time` -/
  t : K
  timeStep : ℕ
  dumpCounter : ℕ
  dumpTimes : List K
  disk : DeviceDisk (C → K) M A K

/-- `nls.f = af.select(nls.f < 1e-20, 1e-20, nls.f)` — `main.py:65,122`. -/
def deviceFloor (a : K) (f : C → K) : C → K := fun i => if f i < a then a else f i

/-- The block that writes files — `main.py:82-107`; `mom` is what `dump_moments` writes, `aux` the arrays handed to `dump_aux_arrays`. -/
def deviceDump (mom : (C → K) → M) (aux : R → A) (st : DeviceState C R K M A) : DeviceState C R K M A :=
  { st with
    dumpCounter := st.dumpCounter + 1
    dumpTimes := st.dumpTimes ++ [st.t]
    disk := { st.disk with
      times := some (st.dumpTimes ++ [st.t])
      moments := Function.update st.disk.moments st.dumpCounter (some (mom st.nls.1))
      dist := if st.timeStep = 0 then Function.update st.disk.dist st.dumpCounter (some st.nls.1) else st.disk.dist
      aux := Function.update st.disk.aux st.dumpCounter (some (aux st.nls.2)) } }

/-- The loop body — `main.py:69-131`.  `solve iters t dt` is `nls.strang_timestep(dt)` with `params.collision_nonlinear_iters` and
`params.current_time`. -/
def deviceBody (P : DeviceParams K) (solve : ℕ → K → K → (C → K) × R → (C → K) × R) (mom : (C → K) → M) (aux : R → A)
    (st : DeviceState C R K M A) : Except PyErr (DeviceState C R K M A) :=
  let iters := if st.timeStep = 0 then 10 else P.iters     -- 69-72
  if P.dumpSteps = 0 then .error .zeroDivision             -- 80
  else
    let st1 := if st.timeStep % P.dumpSteps = 0 then deviceDump mom aux st else st
    let x := solve iters st1.t P.dt st1.nls                -- 115
    .ok { st1 with nls := (deviceFloor P.floor x.1, x.2), t := st1.t + P.dt, timeStep := st1.timeStep + 1 }  -- 116-122

/-- The `while` loop — `main.py:66-131`. -/
inductive DeviceLoop (P : DeviceParams K) (solve : ℕ → K → K → (C → K) × R → (C → K) × R) (mom : (C → K) → M) (aux : R → A) :
    DeviceState C R K M A → Except PyErr (DeviceState C R K M A) → Prop
  | done {st} : ¬st.t < P.tFinal → DeviceLoop P solve mom aux st (.ok st)
  | fail {st e} : st.t < P.tFinal → deviceBody P solve mom aux st = .error e → DeviceLoop P solve mom aux st (.error e)
  | iter {st st1 out} : st.t < P.tFinal → deviceBody P solve mom aux st = .ok st1 → DeviceLoop P solve mom aux st1 out →
      DeviceLoop P solve mom aux st out

/-- The script — `main.py:39-134`: `x0` is the initialised solver, `file` the restart file if there is one, `disk` what earlier runs have left. -/
def DeviceScript (P : DeviceParams K) (solve : ℕ → K → K → (C → K) × R → (C → K) × R) (mom : (C → K) → M) (aux : R → A)
    (file : Option (C → K)) (x0 : (C → K) × R) (disk : DeviceDisk (C → K) M A K) (out : Except PyErr (DeviceState C R K M A)) : Prop :=
  (P.restart = true ∧ file = none ∧ out = .error .exception) ∨
  ∃ f0, (if P.restart = true then file = some f0 else f0 = x0.1) ∧
    ∃ r, DeviceLoop P solve mom aux ⟨(deviceFloor P.floor f0, x0.2), 0, 0, 0, [], disk⟩ r ∧
      out = r.map fun st => { st with disk := { st.disk with last := some st.nls.1 } }

/-! ## Contacts -/

/-- The entries of `params` that the boundary functions read — `params.py:49,58,76-87`. -/
structure ContactParams where
  k : ℝ
  T : ℝ
  mu : ℝ
  velIn : ℝ
  velOut : ℝ
  freq : ℝ
  contactStart : ℝ
  contactEnd : ℝ
  geometry : String
  pGrid : String

/-- `p_x` — `boundary_conditions.py:22-29,76-83`. -/
noncomputable def contactPx (pGrid : String) (p1 p2 : ℝ) : Except PyErr ℝ :=
  if pGrid = "cartesian" then .ok p1 else if pGrid = "polar2D" then .ok (p1 * Real.cos p2) else .error .notImplemented

/-- `fermi_dirac_in`, `fermi_dirac_out` — `boundary_conditions.py:32,51,85`. -/
noncomputable def contactFD (cp : ContactParams) (v E px : ℝ) : ℝ := 1 / (Real.exp ((E - v * px - cp.mu) / (cp.k * cp.T)) + 1)

open Classical in
/-- A condition used as a number. -/
noncomputable def condNum (c : Prop) : ℝ := if c then 1 else 0

/-- `f_left` — `boundary_conditions.py:10-63`: the argument `t` is overwritten by `params.current_time` (here `now`).  A geometry that is neither
`straight` nor `turn_around` leaves `f_left` unbound. -/
noncomputable def contactLeft (cp : ContactParams) (now _t f q2 p1 p2 E : ℝ) : Except PyErr ℝ := do
  let omega := 2 * Real.pi * cp.freq
  let vIn := cp.velIn * Real.sin (omega * now)
  let px ← contactPx cp.pGrid p1 p2
  let fdIn := contactFD cp vIn E px
  if cp.geometry = "straight" then
    let cond := condNum (q2 ≥ cp.contactStart ∧ q2 ≤ cp.contactEnd)
    return cond * fdIn + (1 - cond) * f
  else if cp.geometry = "turn_around" then
    let vOut := -cp.velIn * Real.sin (omega * now)
    let fdOut := contactFD cp vOut E px
    let condIn := condNum (q2 ≥ 3.5 ∧ q2 ≤ 4.5)
    let condOut := condNum (q2 ≥ 5.5 ∧ q2 ≤ 6.5)
    return condIn * fdIn + condOut * fdOut + (1 - condIn) * (1 - condOut) * f
  else throw .nameError

/-- `f_right` — `boundary_conditions.py:65-107`. -/
noncomputable def contactRight (cp : ContactParams) (now _t f q2 p1 p2 E : ℝ) : Except PyErr ℝ := do
  let omega := 2 * Real.pi * cp.freq
  let vOut := cp.velOut * Real.sin (omega * now)
  let px ← contactPx cp.pGrid p1 p2
  let fdOut := contactFD cp vOut E px
  if cp.geometry = "straight" then
    let cond := condNum (q2 ≥ cp.contactStart ∧ q2 ≤ cp.contactEnd)
    return cond * fdOut + (1 - cond) * f
  else if cp.geometry = "turn_around" then return f
  else throw .nameError

/-! ## The band -/

/-- `p_x`, `p_y` — `params.py:114-122,134-142`. -/
noncomputable def bandP (pGrid : String) (p1 p2 : ℝ) : Except PyErr (ℝ × ℝ) :=
  if pGrid = "cartesian" then .ok (p1, p2) else if pGrid = "polar2D" then .ok (p1 * Real.cos p2, p1 * Real.sin p2) else .error .notImplemented

/-- `band_energy` — `params.py:112-129`. -/
noncomputable def bandEnergy (vF : ℝ) (pGrid : String) (p1 p2 : ℝ) : Except PyErr ℝ := do
  let p ← bandP pGrid p1 p2
  return Real.sqrt (p.1 ^ 2 + p.2 ^ 2) * vF

/-- `band_velocity` — `params.py:131-152`; this is also what `A_q` and `C_q` of the electronic package return
(`electronic_boltzmann/advection_terms.py:25-54`).  `tiny` is `1e-20`. -/
noncomputable def bandVelocity (vF tiny : ℝ) (pGrid : String) (p1 p2 : ℝ) : Except PyErr (ℝ × ℝ) := do
  let q ← bandP pGrid p1 p2
  let p := Real.sqrt (q.1 ^ 2 + q.2 ^ 2)
  return (vF * (q.1 / (p + tiny)), vF * (q.2 / (p + tiny)))

end Bolt
