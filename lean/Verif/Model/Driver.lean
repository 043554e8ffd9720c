import Verif.Model.Array
import Mathlib.Algebra.Order.Floor.Ring
import Mathlib.Algebra.Order.Floor.Defs

/-!
# The time loops of the example scripts

Times are numbers of an ordered field with a floor function; the Python uses floating-point numbers.  `nls` is an arbitrary state with two parts: the
distribution and the fields.
-/

namespace Bolt

variable {K : Type} [Field K] [LinearOrder K] [FloorRing K]

/-- What a script asks of the solver: a time step, writing a file labelled with a time, reading a file. -/
inductive Act (K : Type)
  | step (h : K)
  | dumpF (t : K)
  | dumpMoments (t : K)
  | dumpFields (t : K)
  | loadF (t : K)
  | loadFields (t : K)

/-- The entries of `params` that the loop reads, and the time step. -/
structure DriverParams (K : Type) where
  dt : K
  dtDumpF : K
  dtDumpMoments : K
  dtDumpFields : K
  tFinal : K
  tRestart : K
  /-- `1e-12` (or `1e-5` in `waves_in_plasma/whistler_waves/main.py:118,135`). -/
  tol : K

/-- `delta_dt = (1 - math.modf(time_elapsed/dt_dump)[0]) * dt_dump` —
`example_problems/nonrelativistic_boltzmann/shock_tests/brio_wu_test/main.py:60-61` and nineteen other scripts.  `math.modf` is the fractional part
since times are not negative. -/
def deltaDt (D t : K) : K := (1 - Int.fract (t / D)) * D

/-- The part of the loop body that advances the clock —
`example_problems/nonrelativistic_boltzmann/shock_tests/brio_wu_test/main.py:54-67`. -/
def advance (P : DriverParams K) (t : K) : List (Act K) × K :=
  let t1 := t + P.dt
  if P.dtDumpMoments ≠ 0 then
    let delta := deltaDt P.dtDumpMoments t1
    if delta < P.dt then ([.step P.dt, .step delta, .dumpMoments (t1 + delta), .dumpFields (t1 + delta)], t1 + delta)
    else ([.step P.dt], t1)
  else ([.step P.dt], t1)

/-- The loop body — `example_problems/nonrelativistic_boltzmann/shock_tests/brio_wu_test/main.py:54-70`. -/
def loopBody (P : DriverParams K) (t : K) : List (Act K) × K :=
  if Int.fract ((advance P t).2 / P.dtDumpF) < P.tol then ((advance P t).1 ++ [.dumpF (advance P t).2], (advance P t).2) else advance P t

/-- A Python `while` loop whose state is the clock: from clock `t` the loop performs the actions and ends with clock `t'`. -/
inductive ScriptLoop (cond : K → Prop) (body : K → List (Act K) × K) : K → List (Act K) → K → Prop
  | done {t : K} : ¬cond t → ScriptLoop cond body t [] t
  | iter {t : K} {acts : List (Act K)} {t' : K} : cond t → ScriptLoop cond body (body t).2 acts t' → ScriptLoop cond body t ((body t).1 ++ acts) t'

/-- What the script does before the loop — `example_problems/nonrelativistic_boltzmann/shock_tests/brio_wu_test/main.py:36-45`. -/
def startActs (P : DriverParams K) : List (Act K) :=
  if P.tRestart = 0 then [.dumpF 0, .dumpMoments 0, .dumpFields 0] else [.loadF P.tRestart, .loadFields P.tRestart]

/-- The three assertions — `example_problems/nonrelativistic_boltzmann/shock_tests/brio_wu_test/main.py:48-50`. -/
def intervalsOk (P : DriverParams K) : Prop := P.dt < P.dtDumpF ∧ P.dt < P.dtDumpMoments ∧ P.dt < P.dtDumpFields

/-- The script: actions before the loop, assertions, loop — `example_problems/nonrelativistic_boltzmann/shock_tests/brio_wu_test/main.py:36-70`.
The result is the list of actions and the final clock. -/
def DriverScript (P : DriverParams K) (out : Except PyErr (List (Act K) × K)) : Prop :=
  (¬intervalsOk P ∧ out = .error .assertion) ∨
  (intervalsOk P ∧ ∃ acts t', ScriptLoop (fun t => t < P.tFinal) (loopBody P) P.tRestart acts t' ∧ out = .ok (startActs P ++ acts, t'))

/-- The loop that looks for the final time — `example_problems/nonrelativistic_boltzmann/instabilities/collisionless_shock/2D/main.py:71-88`,
`waves_in_plasma/whistler_waves/main.py:118-136`; `waves_in_plasma/evaluate_omega/whistler/main.py:46-57` is the same without the dumps. -/
def NearLoop (P : DriverParams K) (t : K) (acts : List (Act K)) (t' : K) : Prop :=
  ScriptLoop (fun t => P.tol < |t - P.tFinal|) (loopBody P) t acts t'

/-- The files on disk by kind and label; `'%.3f' % t` is represented by the integer number of thousandths. -/
abbrev DiskFiles (F M E : Type) : Type := (ℤ → Option F) × (ℤ → Option M) × (ℤ → Option E)

/-- Performing actions: `solve` is `strang_timestep`, `mom` the moments that `dump_moments` writes, `stamp` the label `'%.3f' % t`.  A missing file
raises. -/
def perform {F M E : Type} (solve : K → F × E → F × E) (mom : F → M) (stamp : K → ℤ) :
    List (Act K) → (F × E) × DiskFiles F M E → Except PyErr ((F × E) × DiskFiles F M E)
  | [], x => .ok x
  | .step h :: r, (s, d) => perform solve mom stamp r (solve h s, d)
  | .dumpF t :: r, (s, d) => perform solve mom stamp r (s, Function.update d.1 (stamp t) (some s.1), d.2.1, d.2.2)
  | .dumpMoments t :: r, (s, d) => perform solve mom stamp r (s, d.1, Function.update d.2.1 (stamp t) (some (mom s.1)), d.2.2)
  | .dumpFields t :: r, (s, d) => perform solve mom stamp r (s, d.1, d.2.1, Function.update d.2.2 (stamp t) (some s.2))
  | .loadF t :: r, (s, d) =>
    match d.1 (stamp t) with
    | some f => perform solve mom stamp r ((f, s.2), d)
    | none => .error .exception
  | .loadFields t :: r, (s, d) =>
    match d.2.2 (stamp t) with
    | some e => perform solve mom stamp r ((s.1, e), d)
    | none => .error .exception

/-- `np.arange(start, stop, dt)`. -/
def arange (start stop dt : K) : List K := (List.range ⌈(stop - start) / dt⌉.toNat).map fun i : ℕ => start + i * dt

/-- The script that keeps within the final time —
`example_problems/nonrelativistic_boltzmann/linear_modes/linear_modes_fluid/linear_modes_euler/2D/sound_mode/main.py:35-49`: the times, one step
and one numbered file for each after the first. -/
def soundTimes (tFinal dt : K) : List K :=
  let a := arange 0 (tFinal + dt) dt
  if a.getLastD 0 > tFinal then a.dropLast else a

/-- State after the loop and the numbered files of `sound_mode/main.py:43-49`. -/
def soundLoop {σ : Type} (solve : K → σ → σ) (tFinal dt : K) (s : σ) : σ × List (ℕ × σ) :=
  ((soundTimes tFinal dt).drop 1).zipIdx.foldl (fun x ti => (solve dt x.1, x.2 ++ [(ti.2 + 1, solve dt x.1)])) (s, [(0, s)])

/-- `dt = params.N_cfl * min(nls.dq1, nls.dq2) / max(domain.p1_end, domain.p2_end, domain.p3_end)` —
`example_problems/nonrelativistic_boltzmann/shock_tests/brio_wu_test/main.py:33-34` and the other scripts. -/
def recipeDt (cfl dq1 dq2 p1End p2End p3End : K) : K := cfl * min dq1 dq2 / max (max p1End p2End) p3End

/-- `dt_fdtd = params.N_cfl * min(dq1, dq2) / params.c` —
`example_problems/nonrelativistic_boltzmann/waves_in_plasma/evaluate_omega/whistler/main.py:26-27`. -/
def recipeDtFields (cfl dq1 dq2 c : K) : K := cfl * min dq1 dq2 / c

/-- The script that records before each step — `example_problems/nonrelativistic_boltzmann/instabilities/bump_on_tail/tau_100/main.py:71-99`. -/
def recordLoop {σ : Type} (solve : K → σ → σ) (tFinal dt : K) (s : σ) : σ × List (K × σ) :=
  (arange 0 (tFinal + dt) dt).foldl (fun x t => (solve dt x.1, x.2 ++ [(t, x.1)])) (s, [])

end Bolt
