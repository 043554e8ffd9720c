import Verif.Model.Array
import Mathlib.Algebra.Field.Defs
import Mathlib.Algebra.Module.Basic

/-!
# Time integration: Runge-Kutta steps, operator splitting, time stepping
-/

namespace Bolt

section RungeKutta

variable {K V : Type} [Field K] [AddCommGroup V] [Module K V]

/-- `bolt/lib/nonlinear/temporal_evolution/integrators.py:6-13`.  The extra positional arguments `*args`
are passed unchanged to every evaluation of `dx_dt`, so they are part of the closure `F`. -/
def integratorRK2 (F : V → V) (x0 : V) (dt : K) : V :=
  let x := x0 + (dt / 2) • F x0
  x0 + dt • F x

/-- `bolt/lib/nonlinear/temporal_evolution/integrators.py:15-28`. -/
def integratorRK4 (F : V → V) (x0 : V) (dt : K) : V :=
  let k1 := F x0
  let x := x0 + dt • ((1 / 2 : K) • k1)
  let k2 := F x
  let x := x0 + dt • ((1 / 2 : K) • k2)
  let k3 := F x
  let x := x0 + dt • k3
  let k4 := F x
  x0 + dt • ((1 / 6 : K) • (k1 + (2 : K) • k2 + (2 : K) • k3 + k4))

/-- `bolt/lib/nonlinear/temporal_evolution/integrators.py:30-58`. -/
def integratorRK5 (F : V → V) (x0 : V) (dt : K) : V :=
  let k1 := F x0
  let x := x0 + dt • ((1 / 4 : K) • k1)
  let k2 := F x
  let x := x0 + dt • ((3 / 32 : K) • (k1 + (3 : K) • k2))
  let k3 := F x
  let x := x0 + dt • ((12 / 2197 : K) • ((161 : K) • k1 - (600 : K) • k2 + (608 : K) • k3))
  let k4 := F x
  let x := x0 + dt • ((1 / 4104 : K) • ((8341 : K) • k1 - (32832 : K) • k2 + (29440 : K) • k3
    - (845 : K) • k4))
  let k5 := F x
  let x := x0 + dt • (-((8 / 27 : K) • k1) + (2 : K) • k2 - (3544 / 2565 : K) • k3
    + (1859 / 4104 : K) • k4 - (11 / 40 : K) • k5)
  let k6 := F x
  x0 + dt • ((1 / 5 : K) • ((16 / 27 : K) • k1 + (6656 / 2565 : K) • k3 + (28561 / 11286 : K) • k4
    - (9 / 10 : K) • k5 + (2 / 11 : K) • k6))

end RungeKutta

/-- The part of the nonlinear solver object the time-stepping code reads and writes: `f` is `self.f`, `em`
stands for the pair (`cell_centered_EM_fields`, `yee_grid_EM_fields`) of the fields solver, `rest` for
every other attribute (other field time levels, timers, ...), which the splitting code neither saves nor
restores. -/
@[ext] structure SolverState (V W R : Type) where
  f : V
  em : W
  rest : R

/-- An operator `op(self, dt)` handed to the splitting methods: it updates the solver object or raises. -/
abbrev SplitOp (K V W R : Type) := K → SolverState V W R → Except PyErr (SolverState V W R)

section Splitting

variable {K V W R : Type} [Field K] [AddCommGroup V] [Module K V] [AddCommGroup W] [Module K W]

/-- `bolt/lib/nonlinear/temporal_evolution/operator_splitting_methods.py:40-67`. -/
def splitLie (_fields : Bool) (op1 op2 : SplitOp K V W R) : SplitOp K V W R := fun dt s => do
  let s ← op1 dt s
  op2 dt s

/-- `bolt/lib/nonlinear/temporal_evolution/operator_splitting_methods.py:10-38`. -/
def splitStrang (_fields : Bool) (op1 op2 : SplitOp K V W R) : SplitOp K V W R := fun dt s => do
  let s ← op1 (dt / 2) s
  let s ← op2 dt s
  op1 (dt / 2) s

/-- `self.f = f_start` and, with fields enabled, the restoration of the two field arrays
(`operator_splitting_methods.py:113-117, 182-186, 198-202`).  Simplification: restoring is by value; the
code stores references.  For `f` and the Yee-grid array the operators rebind the attribute (to the freshly
communicated array) before changing anything, so the stored reference keeps its value; the cell-centred array is changed
in place, see `restoreRef` in `Model/AslCoupled`. -/
def restoreStart (fields : Bool) (start s : SolverState V W R) : SolverState V W R :=
  { f := start.f, em := if fields then start.em else s.em, rest := s.rest }

/-- `bolt/lib/nonlinear/temporal_evolution/operator_splitting_methods.py:69-134`. -/
def splitSwss (fields : Bool) (op1 op2 : SplitOp K V W R) : SplitOp K V W R := fun dt s => do
  let i ← op1 dt s
  let i ← op2 dt i
  let s := restoreStart fields s i
  let s ← op2 dt s
  let s ← op1 dt s
  pure { f := (1 / 2 : K) • (s.f + i.f)
         em := if fields then (1 / 2 : K) • (s.em + i.em) else s.em
         rest := s.rest }

/-- `bolt/lib/nonlinear/temporal_evolution/operator_splitting_methods.py:136-216`.  With fields enabled
lines 209-214 read `self.cell_centered_EM_fields`, an attribute of the fields solver and not of the
nonlinear solver: `AttributeError`. -/
def splitJia (fields : Bool) (op1 op2 : SplitOp K V W R) : SplitOp K V W R := fun dt s => do
  let i1 ← splitStrang fields op1 op2 dt s
  let i2 ← splitStrang fields op2 op1 dt (restoreStart fields s i1)
  let r ← splitSwss fields op1 op2 dt (restoreStart fields s i2)
  if fields then throw .attributeError
  else pure { r with f := (2 / 3 : K) • (i1.f + i2.f) - (1 / 3 : K) • r.f }

end Splitting

/-- The parameters read by the dispatch in `bolt/lib/nonlinear/timestep.py:56-88`. -/
structure StepCfg where
  /-- `params.solver_method_in_q` -/
  methodQ : String
  /-- `params.solver_method_in_p` -/
  methodP : String
  /-- `params.fields_enabled` -/
  fieldsEnabled : Bool

/-- The operators imported at `bolt/lib/nonlinear/timestep.py:25-26`. -/
structure StepOps (K V W R : Type) where
  opFvm : SplitOp K V W R
  opAdvectQ : SplitOp K V W R
  opSolveSrc : SplitOp K V W R
  opFields : SplitOp K V W R

/-- A splitting method of `operator_splitting_methods.py`, given `fields_enabled`. -/
abbrev Splitting (K V W R : Type) := Bool → SplitOp K V W R → SplitOp K V W R → SplitOp K V W R

/-- The dispatch shared by `lie_step` (`bolt/lib/nonlinear/timestep.py:56-88`), `strang_step` (117-149),
`swss_step` (178-210) and `jia_step` (242-274): the four functions differ only in the splitting method
called. -/
def stepDispatch {K V W R : Type} (split : Splitting K V W R) (cfg : StepCfg) (ops : StepOps K V W R) :
    SplitOp K V W R := fun dt s =>
  if cfg.methodQ = "FVM" then
    if cfg.methodP = "ASL" ∧ cfg.fieldsEnabled = true then
      split cfg.fieldsEnabled ops.opFvm ops.opFields dt s
    else ops.opFvm dt s
  else if cfg.methodQ = "ASL" then
    if cfg.fieldsEnabled = true then
      let opAdvectQAndSolveSrc := split cfg.fieldsEnabled ops.opAdvectQ ops.opSolveSrc
      if cfg.methodP = "ASL" then
        split cfg.fieldsEnabled opAdvectQAndSolveSrc ops.opFields dt s
      else split cfg.fieldsEnabled opAdvectQAndSolveSrc ops.opFvm dt s
    else split cfg.fieldsEnabled ops.opAdvectQ ops.opSolveSrc dt s
  else .ok s

/-- The solver object together with its clock: `self.time_elapsed` and `self.dt`.  No operator assigns
`time_elapsed` or `dt` of the nonlinear solver, but operators may read them. -/
structure Clocked (K S : Type) where
  state : S
  time : K
  dt : K

/-- What is left after a call of a step function: the exception that left it, if any, and the solver
object.  `state` is `none` when an operator raised half way (the partly updated arrays are not
modelled). -/
structure StepOutcome (K S : Type) where
  exc : Option PyErr
  state : Option S
  time : K
  dt : K

section Step

variable {K V W R : Type} [Field K] [AddCommGroup V] [Module K V] [AddCommGroup W] [Module K W]

/-- The body common to the four step functions (`bolt/lib/nonlinear/timestep.py:51-99`): set `self.dt`,
dispatch, `check_divergence` (28-38), advance the clock.  `blowup` is `af.any_true(isinf) or
af.any_true(isnan)`; the operators may read the clock (`time_elapsed`, `dt`).  Timers are not modelled. -/
def timeStep (split : Splitting K V W R) (cfg : StepCfg) (ops : K → K → StepOps K V W R)
    (blowup : V → Bool) (dt : K) (c : Clocked K (SolverState V W R)) :
    StepOutcome K (SolverState V W R) :=
  match stepDispatch split cfg (ops c.time dt) dt c.state with
  | .error e => ⟨some e, none, c.time, dt⟩
  | .ok s => if blowup s.f then ⟨some .systemExit, some s, c.time, dt⟩ else ⟨none, some s, c.time + dt, dt⟩

/-- The four public stepping methods. -/
inductive Scheme
  | lie | strang | swss | jia
  deriving DecidableEq, Repr

/-- `split.lie`, `split.strang`, `split.swss`, `split.jia` as called by the corresponding step function. -/
def Scheme.splitting : Scheme → Splitting K V W R
  | .lie => splitLie
  | .strang => splitStrang
  | .swss => splitSwss
  | .jia => splitJia

/-- `lie_step` (`timestep.py:40-99`), `strang_step` (101-160), `swss_step` (162-221), `jia_step`
(224-285). -/
def solverStep (m : Scheme) (cfg : StepCfg) (ops : K → K → StepOps K V W R) (blowup : V → Bool) (dt : K)
    (c : Clocked K (SolverState V W R)) : StepOutcome K (SolverState V W R) :=
  timeStep m.splitting cfg ops blowup dt c

/-- A user's time loop: a sequence of calls of step methods with step sizes, left at the first exception. -/
def runSteps (cfg : StepCfg) (ops : K → K → StepOps K V W R) (blowup : V → Bool) :
    List (Scheme × K) → Clocked K (SolverState V W R) → StepOutcome K (SolverState V W R)
  | [], c => ⟨none, some c.state, c.time, c.dt⟩
  | (m, dt) :: l, c =>
      match solverStep m cfg ops blowup dt c with
      | ⟨none, some s, t, d⟩ => runSteps cfg ops blowup l ⟨s, t, d⟩
      | out => out

end Step

end Bolt
